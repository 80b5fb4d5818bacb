import Verif.Model.Stopwatch
import Verif.Model.Text

/-!
# Model of the times in the log of training (`gbdt_algo.cc:158-183`)

Arithmetic on doubles is exact, as in `Model/Stopwatch.lean`.
-/

set_option autoImplicit false

namespace Gbdt

open Outcome

section
variable {K : Type} [Field K] [LinearOrder K] [FloorRing K]

/-- `time_progress` in iteration `i` (`gbdt_algo.cc:160-168`); `elapsed` is what the stopwatch shows in milliseconds. -/
def timeProgress (tenths : K → Nat) (numTrees : Int) (i : Nat) (elapsed : K) : Outcome Text :=
  if i > 0 then do
    let iter ← formatTime tenths elapsed
    let etf ← formatTime tenths (elapsed * ((numTrees - i : Int) : K))
    pure ("iter=".toList ++ iter ++ ",etf=".toList ++ etf ++ ",".toList)
  else ok []

/-- The line in the log (`gbdt_algo.cc:183`). -/
def progressLine (i : Nat) (time loss : Text) : Text := Nat.toDigits 10 i ++ ": ".toList ++ time ++ loss

/-- The lines of the first `n` iterations (`gbdt_algo.cc:158-183`).  In iteration `i` the clock shows `endAt i` when the stopwatch is stopped and
`startAt i` when it is started again; `loss i` is what the loss reports. -/
def progressLog (tenths : K → Nat) (numTrees : Int) (endAt startAt : Nat → K) (loss : Nat → Text) : Nat → Outcome (List Text)
  | 0 => ok []
  | n + 1 => do
    let lines ← progressLog tenths numTrees endAt startAt loss n
    let time ← timeProgress tenths numTrees n (endAt n - startAt (n - 1))
    pure (lines ++ [progressLine n time (loss n)])

end

/-- What `feature_importance_bar_chart` passes to matplotlib (`_forest.py:39-55`): bars at positions on the vertical axis, and labels at positions. -/
structure ImportanceChart (D : Type) where
  bars : List (Int × D)
  labels : List (Int × String)

/-- `feature_importance_bar_chart` (`_forest.py:46-55`); `fimps` is what `feature_importance` returns. -/
def importanceChart {D : Type} (fimps : List (String × D)) : ImportanceChart D :=
  let importances := fimps.map Prod.snd
  let features := fimps.map Prod.fst
  let ind := (List.range fimps.length).map (fun k : Nat => -(k : Int))
  ⟨ind.zip importances, ind.zip features⟩

end Gbdt
