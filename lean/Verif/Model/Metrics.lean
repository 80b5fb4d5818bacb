import Verif.Model.Converter
import Mathlib.Data.List.Sort
import Mathlib.Algebra.Order.Field.Basic

/-!
# Model of `scripts/compute_metrics.py` and `scripts/compute_rmse.py`

Both are Python 2.  Options and missing files are not modelled; numbers are those of a field, so that there is no rounding, NaN or infinity.
`none` stands for an exception.
-/

set_option autoImplicit false

namespace Gbdt

/-- The lines of a file as Python yields them, each with its newline (`compute_metrics.py:29`, `compute_rmse.py:10`); the last one may lack it. -/
def keepLines : Text → List Text
  | [] => []
  | c :: s =>
    if c = '\n' then ['\n'] :: keepLines s
    else match keepLines s with
      | [] => [[c]]
      | l :: ls => (c :: l) :: ls

/-- `ReadFlatFile` (`compute_metrics.py:28-32`), also `compute_rmse.py:10-11`. -/
def scriptRows (file : Text) : List Text := (keepLines file).filter (fun l => !(l.head? == some '#'))

section metrics
variable {K : Type}

/-- The loop of `ReadByGroup` and its end (`compute_metrics.py:41-52`): the groups that are yielded, each a list of scores and targets.  `parse` is
`float`.  When a file of scores or targets has ended, `next` raises `StopIteration`, which in Python 2 ends the generator. -/
def readGroups (parse : Text → Option K) : Option Text → List (K × K) → List Text → List Text → List Text → Option (List (List (K × K)))
  | _, group, [], _, _ => some (if group.isEmpty then [] else [group])
  | _, _, _ :: _, [], _ => some []
  | prev, group, gid :: gids, s :: scores, targets =>
    match parse s with
    | none => none
    | some score => match targets with
      | [] => some []
      | t :: targets => match parse t with
        | none => none
        | some target =>
          if prev.isSome && prev != some gid then
            (readGroups parse (some gid) [(score, target)] gids scores targets).map (fun gs => group :: gs)
          else readGroups parse (some gid) (group ++ [(score, target)]) gids scores targets

/-- `ReadByGroup` (`compute_metrics.py:34-52`). -/
def readByGroup (parse : Text → Option K) (groupFile scoreFile targetFile : Text) : Option (List (List (K × K))) :=
  readGroups parse none [] (scriptRows groupFile) (scriptRows scoreFile) (scriptRows targetFile)

/-- A number of Python: those that count are integers. -/
inductive PyNum (K : Type) where
  | int (n : Int)
  | float (x : K)
  deriving DecidableEq

variable [Field K]

/-- `a + b` on Python numbers (`compute_metrics.py:60, 66-69`). -/
def PyNum.add : PyNum K → PyNum K → PyNum K
  | .int a, .int b => .int (a + b)
  | .int a, .float b => .float ((a : K) + b)
  | .float a, .int b => .float (a + (b : K))
  | .float a, .float b => .float (a + b)

/-- `metrics[k] / (numGroups + 1)` in Python 2 (`compute_metrics.py:85`), for a positive divisor: the quotient of integers is rounded down. -/
def PyNum.over (n : Nat) : PyNum K → PyNum K
  | .int a => .int (a / n)
  | .float a => .float (a / (n : K))

/-- `metrics[k] += v` on a `defaultdict` of zeros (`compute_metrics.py:60, 66-69`); the keys in order of their insertion. -/
def bumpMetric (k : String) (v : PyNum K) : List (String × PyNum K) → List (String × PyNum K)
  | [] => [(k, (PyNum.int 0).add v)]
  | (k', v') :: d => if k' = k then (k', v'.add v) :: d else (k', v') :: bumpMetric k v d

/-- The loop of `computeMetrics` (`compute_metrics.py:64-69`), from position `i` on.  `shown` is `str` of a `float`. -/
def metricsLoop (discount : Nat → K) (shown : K → String) : Nat → List K → List (String × PyNum K) → List (String × PyNum K)
  | _, [], m => m
  | i, target :: targets, m =>
    let utility := discount i * target
    metricsLoop discount shown (i + 1) targets
      (bumpMetric "count_total" (.int 1)
        (bumpMetric ("count_" ++ shown target) (.int 1)
          (bumpMetric "dcu_total" (.float utility)
            (bumpMetric ("dcu_" ++ shown target) (.float utility) m))))

/-- `mergeMetrics` (`compute_metrics.py:58-60`); the order of the keys does not matter to the sums. -/
def mergeMetrics (sub summary : List (String × PyNum K)) : List (String × PyNum K) :=
  sub.foldl (fun m kv => bumpMetric kv.1 kv.2 m) summary

variable [LinearOrder K]

/-- `group.sort(key=operator.itemgetter(0), reverse=True)` (`compute_metrics.py:80`): stable, also in reverse. -/
def rankGroup (group : List (K × K)) : List (K × K) := group.insertionSort (fun a b => b.1 ≤ a.1)

/-- The loop of `main` (`compute_metrics.py:79-81`). -/
def groupMetrics (discount : Nat → K) (shown : K → String) (groups : List (List (K × K))) : List (String × PyNum K) :=
  groups.foldl (fun m g => mergeMetrics (metricsLoop discount shown 0 ((rankGroup g).map Prod.snd) []) m) []

/-- `main` (`compute_metrics.py:73-85`): what is printed, before it is rounded to four digits.  Without a group nothing is printed. -/
def metricsMain (discount : Nat → K) (shown : K → String) (parse : Text → Option K) (groupFile scoreFile targetFile : Text) :
    Option (List (String × PyNum K)) := do
  let groups ← readByGroup parse groupFile scoreFile targetFile
  let m := groupMetrics discount shown groups
  pure ((m.map (fun kv => (kv.1, kv.2.over groups.length))).insertionSort (fun a b => a.1 ≤ b.1))

/-- `ComputeMse` (`compute_rmse.py:6-7`); `none`: `ZeroDivisionError`. -/
def rmseOf (sqrt : K → K) (scores responses : List K) : Option K :=
  if scores = [] then none
  else some (sqrt (((scores.zip responses).map (fun p => (p.1 - p.2) * (p.1 - p.2))).sum / (scores.length : K)))

/-- `main` of `compute_rmse.py` (`compute_rmse.py:9-13`): the number that is printed, and whether the script then ends without an exception. -/
def rmseMain (sqrt : K → K) (parse : Text → Option K) (scoreFile responseFile : Text) : Option (K × Bool) := do
  let scores ← (scriptRows scoreFile).mapM parse
  let responses ← (scriptRows responseFile).mapM parse
  let x ← rmseOf sqrt scores responses
  pure (x, scores.length == responses.length)

end metrics

end Gbdt
