import Verif.Props.Pipeline

/-!
# C91: a `DataStore` that nothing has been added to
-/

set_option autoImplicit false
set_option linter.unusedSectionVars false

namespace Gbdt

open Outcome

section general
variable {D A : Type} [Dbl D] [LinearOrder A] [ThrOps A]

/-- The full statement: nothing that is done with an empty store crashes. -/
def C91_full (D A : Type) [Dbl D] [LinearOrder A] [ThrOps A] : Prop :=
  ∀ (mc : Machine D A) (c : Config D) (y w : List (Fl A)) (features : List String) (base : Option (List (Tree D A)))
    (seed nt : Int) (forest : List (Tree D A)) (points : List Int),
    pyTrain mc none c y features w base seed nt ≠ ub ∧ pyPredict (none : Option (DataStore A)) forest nt ≠ ub ∧
    pyPredictAndOutput (none : Option (DataStore A)) forest points nt ≠ ub

/-- **C91 (looking and predicting, partial).** An empty store has no rows and no columns, every name is refused, its slices
and copies are empty, and `predict` raises an exception. -/
theorem C91_looking_partial (fmax : A) (nb : Nat) (place : DataStore A → DataStore A) (name : String) (index : List Int)
    (forest : List (Tree D A)) (nt : Int) :
    PyStore.len (none : Option (DataStore A)) = ok 0 ∧ PyStore.cols (none : Option (DataStore A)) = [] ∧
    PyStore.getCol (none : Option (DataStore A)) name = ok (.error .valueError) ∧
    PyStore.slice fmax nb place none index = ok (.ok none) ∧ PyStore.copy fmax nb place none = ok (.ok none) ∧
    pyPredict (none : Option (DataStore A)) forest nt = ok (.error (.lib .iosFailure)) :=
  ⟨rfl, rfl, rfl, rfl, rfl, rfl⟩

/-- **C91 (training, partial).** Training on an empty store raises an exception, except exactly when no features, targets and
weights are passed and a target column is named: then the process crashes. -/
theorem C91_train_partial (mc : Machine D A) (c : Config D) (y w : List (Fl A)) (features : List String)
    (base : Option (List (Tree D A))) (seed nt : Int) :
    (pyTrain mc none c y features w base seed nt = ub ↔ features = [] ∧ y = [] ∧ w = [] ∧ c.targetColumn ≠ "") ∧
    ((∃ e, pyTrain mc none c y features w base seed nt = ok (.error e)) ↔
      ¬ (features = [] ∧ y = [] ∧ w = [] ∧ c.targetColumn ≠ "")) := by
  cases features with
  | cons f fs =>
    have : pyTrain mc none c y (f :: fs) w base seed nt = ok (.error .valueError) := by
      unfold pyTrain
      simp [namesOfType]
    rw [this]
    simp
  | nil =>
    have h0 : pyTrain mc none c y [] w base seed nt = trainPyFull mc none { c with floatFeature := [], catFeature := [] } y w base
        seed nt [] := by
      unfold pyTrain
      simp [namesOfType]
    rw [h0]
    unfold trainPyFull
    rw [wrongLength_ok (s := none) (m := 0) rfl, wrongLength_ok (s := none) (m := 0) rfl]
    cases y with
    | cons v y => simp [raise, throwException]
    | nil =>
      cases w with
      | cons v w => simp [raise, throwException]
      | nil =>
        by_cases ht : c.targetColumn = ""
        · simp [trainPyTargets, ht, raise, throwException, PyRes.andThen]
        · simp [trainPyTargets, ht, PyRes.andThen]

end general

/-- **C91 (refuted).** `train(DataStore(), {'target_column': 'y'})` crashes: the store is asked for the column through a null
pointer (`train_gbdt_py.cc:78`). -/
theorem C91_refuted_train : ¬ C91_full ℚ ℚ := by
  intro h
  exact (h ratMachine pyCfg [] [] [] none 1 2 [] []).1 (((C91_train_partial ratMachine pyCfg [] [] [] none 1 2).1).mpr
    ⟨rfl, rfl, rfl, by decide⟩)

/-- **C91 (refuted).** `predict_at_checkpoints` on an empty store crashes whatever the forest (`forest_py.cc:60`), where `predict`
raises an exception. -/
theorem C91_refuted_checkpoints : ¬ C91_full ℚ ℚ := by
  intro h
  exact (h ratMachine pyCfg [] [] [] none 1 2 [] []).2.2 rfl

/-- Training on an empty store with targets, or with a feature, raises. -/
example : pyTrain ratMachine none pyCfg [.num 1] [] [] none 1 2 = ok (.error (.lib .invalidArgument)) ∧
    pyTrain ratMachine none pyCfg [] ["size"] [] none 1 2 = ok (.error .valueError) ∧
    pyTrain ratMachine none { pyCfg with targetColumn := "" } [] [] [] none 1 2 = ok (.error (.lib .invalidArgument)) := by
  decide +kernel

end Gbdt
