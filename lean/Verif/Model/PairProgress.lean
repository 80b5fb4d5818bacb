import Verif.Model.Pairwise
import Verif.Model.Progress

/-!
# Model of the progress messages of the pairwise losses

`Model/Pairwise.lean` leaves out the loss that is reported in the log.  Here it is; `C171_same` shows that training is the same with and without it.
-/

set_option autoImplicit false

namespace Gbdt

/-- The members of a pairwise loss with the one that messages need (`loss_func_pairwise.h:56-66`), and the messages so far. -/
structure PairProgress (D : Type) where
  inner : PairState D
  initialLoss : D
  messages : List (Message D)

section progress
variable {D : Type} [Dbl D]

/-- What a sampled pair adds to `loss` and `weight_sum` of its task (`loss_func_pairwise.cc:130-138, 145-146`). -/
def pairLossStep (e : PairLoss D) (f : List D) (g : Group) (factor : D) (index : Nat) (t : D × D) : Outcome (D × D) := do
  let (a, b) ← pairAt g index
  let pos ← Outcome.vecGet g.rows a
  let neg ← Outcome.vecGet g.rows b
  let pw ← pairWeight e g a b
  let weight := e.rnd32 (e.w pos * e.w neg) * pw * factor
  let fp ← Outcome.vecGet f pos
  let fn ← Outcome.vecGet f neg
  pure (t.1 + weight * (e.lossFn (e.rnd32 (e.y pos - e.y neg)) (fp - fn)).1, t.2 + weight)

/-- The loop over the sampled pairs of a group (`loss_func_pairwise.cc:129-147`). -/
def pairLossLoop (e : PairLoss D) (f : List D) (g : Group) (factor : D) (draw : Nat → Nat) : Nat → Nat → D × D → Outcome (D × D)
  | 0, _, t => .ok t
  | left + 1, i, t => do
    let t1 ← pairLossStep e f g factor (draw i) t
    pairLossLoop e f g factor draw left (i + 1) t1

/-- The groups of one slice (`loss_func_pairwise.cc:118-147`). -/
def pairLossGroups (e : PairLoss D) (f : List D) : List Nat → PairState D → D × D → Outcome (PairState D × D × D)
  | [], s, t => .ok (s, t)
  | index :: rest, s, t => do
    let g ← Outcome.vecGet s.groups index
    let g1 ← if e.rerank then Gbdt.rerank e.sort f g else pure g
    let n ← samplePairs e s.prob g1
    let t1 ← pairLossLoop e f g1 (groupFactor e s.minNumPairs g1) (fun i => e.draw s.round index i g1.numPairs) n 0 t
    pairLossGroups e f rest { s with groups := s.groups.set index g1 } t1

/-- `losses` and `weight_sums` (`loss_func_pairwise.cc:110-150`), with the tasks run one after the other. -/
def pairLossSlices (e : PairLoss D) (f : List D) : List (Nat × Nat) → PairState D → Outcome (List (D × D))
  | [], _ => .ok []
  | sl :: slices, s => do
    let (s1, t) ← pairLossGroups e f (List.range' sl.1 (sl.2 - sl.1)) s (0, 0)
    let rest ← pairLossSlices e f slices s1
    pure (t :: rest)

/-- The loss reported (`loss_func_pairwise.cc:152-155`). -/
def pairLossOf (totals : List (D × D)) : D :=
  (totals.map Prod.fst).foldl (· + ·) 0 / (totals.map Prod.snd).foldl (· + ·) 0

/-- `Pairwise::ComputeFunctionalGradientsAndHessians` (`loss_func_pairwise.cc:98-160`) with its message; `PrepareProgressMessage`
(`loss_func_pairwise.cc:174-182`) is word for word that of the pointwise losses. -/
def pairReportCompute (e : PairLoss D) (hundred : D) (s : PairProgress D) (f : List D) : Outcome (PairProgress D × D × List (GD D)) := do
  let (s1, c, grads) ← pairCompute e s.inner f
  let totals ← pairLossSlices e f s.inner.slices s.inner
  let (first, message) := prepareProgress hundred s.initialLoss (pairLossOf totals)
  pure ({ inner := s1, initialLoss := first, messages := s.messages ++ [message] }, c, grads)

/-- `Pairwise::Init` (`loss_func_pairwise.cc:56-96`) with `initial_loss_` (`loss_func_pairwise.h:61`), which is -1. -/
def pairReportInit (e : PairLoss D) (minusOne : D) (numRows : Nat) (col : Option StrCol) : Outcome (Except Code (PairProgress D)) := do
  let s ← pairInit e numRows col
  pure (s.map (fun s => ⟨s, minusOne, []⟩))

/-- A pairwise loss with its messages, as training sees it. -/
def PairLoss.reporting (e : PairLoss D) (hundred minusOne : D) : LossFunc (PairProgress D) D where
  init := pairReportInit e minusOne
  compute := pairReportCompute e hundred

end progress

section messages
variable {D A : Type} [Dbl D] [LinearOrder A] [ThrOps A]

/-- The messages that training with a pairwise loss logs (`gbdt_algo.cc:184`).  The message of a round that diverges is not logged. -/
def pairTrainMessages (env : TrainEnv D A) (e : PairLoss D) (hundred minusOne : D) (names : List String) (cfg : TrainConfig D)
    (base : Option (List (Tree D A))) (p : Nat) : Outcome (List (Message D)) := do
  let r ← trainState env (e.reporting hundred minusOne) names cfg base [] p
  match r with
  | none => pure []
  | some (true, s) => pure s.loss.messages.dropLast
  | some (false, s) => pure s.loss.messages

end messages

end Gbdt
