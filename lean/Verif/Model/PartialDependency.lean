import Verif.Model.Pipeline

/-!
# Model of `plot_partial_dependency` (`/repo/gbdt/_partial_dependency_plot.py`)

What is drawn are the means and standard deviations of the differences computed here; numpy's `mean` and `std` and the drawing are
not modelled.  A value is a string or a number; numbers are `float`s, as they reach the store.
-/

set_option autoImplicit false

namespace Gbdt

variable {D A : Type} [Dbl D] [LinearOrder A]

/-- Whether `pybind11` converts the value to what the column holds (`datastore_py.cc:84-85, 93-94`); raw columns
are not added here. -/
def cellFits : ColType → Cell A → Bool
  | .string, .str _ => true
  | .bucketized, .num _ => true
  | _, _ => false

/-- `replace_float_feature` and `replace_string_feature` (`_partial_dependency_plot.py:24-32`): the number of rows is asked before the
column goes. -/
def replaceFeature (fmax : A) (nb : Nat) (place : DataStore A → DataStore A) (s : Option (DataStore A)) (feature : String)
    (ty : ColType) (v : Cell A) : PyRes (Option (DataStore A)) :=
  match PyStore.len s with
  | .ub => .ub
  | .fatal => .fatal
  | .ok n =>
    if (List.replicate n v).all (cellFits ty) then
      PyStore.addCol fmax nb place (DataStorePy.remove s feature) feature ty (List.replicate n v)
    else .ok (.error .typeError)

/-- The list of statistics (`_partial_dependency_plot.py:34-46, 55-56, 81-82`): for each value the differences of scores.  The store
is changed in place, so each value finds the column of the one before.  Subtraction of arrays of different sizes does not arise. -/
def dependencyLoop (fmax : A) (nb : Nat) (place : DataStore A → DataStore A) (forest : List (Tree D A)) (numThreads : Int)
    (feature : String) (ty : ColType) (base : List D) : Option (DataStore A) → List (Cell A) → PyRes (List (Cell A × List D))
  | _, [] => .ok (.ok [])
  | s, v :: vs =>
    (replaceFeature fmax nb place s feature ty v).andThen (fun s1 =>
      (pyPredict s1 forest numThreads).andThen (fun scores =>
        (dependencyLoop fmax nb place forest numThreads feature ty base s1 vs).andThen (fun rest =>
          .ok (.ok ((v, List.zipWith (· - ·) scores base) :: rest)))))

/-- `plot_float_feature` and `plot_categorical_features` up to the drawing (`_partial_dependency_plot.py:48-56, 74-82`): the base is set
first. -/
def dependencyFrom (fmax : A) (nb : Nat) (place : DataStore A → DataStore A) (forest : List (Tree D A)) (numThreads : Int)
    (feature : String) (ty : ColType) (x0 : Cell A) (s : Option (DataStore A)) (x : List (Cell A)) :
    PyRes (List (Cell A × List D)) :=
  (replaceFeature fmax nb place s feature ty x0).andThen (fun s1 =>
    (pyPredict s1 forest numThreads).andThen (fun base =>
      dependencyLoop fmax nb place forest numThreads feature ty base s1 x))

/-- `plot_partial_dependency` up to the drawing (`_partial_dependency_plot.py:99-108`).  `sort` is `sorted` (line 54), `x0 = none` is
`None`: then the base is NaN (line 49) or the first of the values (line 77), whose absence is an `IndexError`, the exception that
`out_of_range` becomes too. -/
def partialDependency (fmax : A) (nb : Nat) (place : DataStore A → DataStore A) (sort : List (Cell A) → List (Cell A))
    (forest : List (Tree D A)) (numThreads : Int) (s : Option (DataStore A)) (feature : String) (x : List (Cell A))
    (x0 : Option (Cell A)) : PyRes (List (Cell A × List D)) :=
  (PyStore.copy fmax nb place s).andThen (fun d =>
    match PyStore.getCol d feature with
    | .ok (.ok (.bkt _)) =>
      dependencyFrom fmax nb place forest numThreads feature .bucketized (x0.getD (.num .nan)) d (sort x)
    | .ok (.ok (.str _)) => match x0 with
      | some v => dependencyFrom fmax nb place forest numThreads feature .string v d x
      | none => match x with
        | [] => .ok (.error (.lib .outOfRange))
        | v :: _ => dependencyFrom fmax nb place forest numThreads feature .string v d x
    | .ok (.ok (.raw _)) => .ok (.error .valueError)
    | .ok (.error e) => .ok (.error e)
    | .ub => .ub
    | .fatal => .fatal)

end Gbdt
