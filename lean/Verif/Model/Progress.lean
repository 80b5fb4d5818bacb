import Verif.Model.Pointwise

/-!
# Model of the progress messages of the pointwise losses

`Model/Pointwise.lean` leaves out the loss that is reported in the log.  Here it is, with the state it needs; `C168_same` shows that training is the same
with and without it.  A message is the pair of numbers in it; how they are printed (`fmt::format`, two digits for the percentage) is not modelled.
-/

set_option autoImplicit false

namespace Gbdt

/-- The numbers in a message, `loss={0},reduced={1:.2f}%` (`loss_func_pointwise.cc:101`). -/
structure Message (D : Type) where
  loss : D
  reduced : D
  deriving DecidableEq

/-- The members of a pointwise loss that messages need, beside the slices (`loss_func_pointwise.h:41-48`), and the messages so far. -/
structure PointProgress (D : Type) where
  slices : List (Nat × Nat)
  weightSum : D
  initialLoss : D
  messages : List (Message D)

section progress
variable {D : Type} [Dbl D]

/-- The part of the loop of a task that adds up the loss (`loss_func_pointwise.cc:69-78`), from row `i` for `left` rows. -/
def sliceLoss (e : PointLoss D) (f : List D) (c : D) : Nat → Nat → D → Outcome D
  | 0, _, total => .ok total
  | left + 1, i, total => do
    let fi ← Outcome.vecGet f i
    sliceLoss e f c left (i + 1) (total + e.w i * (e.lossFn (e.y i) (fi + c)).1)

/-- The loss of one pass over all slices (`loss_func_pointwise.cc:64-82`). -/
def passLoss (e : PointLoss D) (f : List D) (c : D) (slices : List (Nat × Nat)) : Outcome D := do
  let totals ← slices.mapM (fun sl => sliceLoss e f c (sl.2 - sl.1) sl.1 0)
  pure (totals.foldl (· + ·) 0)

/-- `total.loss` after the `do ... while` loop (`loss_func_pointwise.cc:60-86`), which is that of its last pass; `left` passes are still allowed (the
first case is not used: the loop starts with 10). -/
def lossLoop (e : PointLoss D) (slices : List (Nat × Nat)) (f : List D) : Nat → D → List (GD D) → Outcome D
  | 0, _, _ => .ok 0
  | left + 1, c, grads => do
    let (grads1, totals) ← pointSlices e f c slices grads
    let total ← passLoss e f c slices
    let delta := (totals.foldl GD.add GD.zero).score 0
    if Dbl.ltb e.threshold (e.fabs delta) && left != 0 then lossLoop e slices f left (c + delta) grads1
    else .ok total

/-- `PrepareProgressMessage` (`loss_func_pointwise.cc:94-102`): the new `initial_loss_` and the message. -/
def prepareProgress (hundred : D) (initialLoss loss : D) : D × Message D :=
  let first := if Dbl.ltb initialLoss 0 then loss else initialLoss
  let reduction := if Dbl.eqb first 0 then 0 else (first - loss) / first
  (first, ⟨loss, reduction * hundred⟩)

/-- `Pointwise::Init` (`loss_func_pointwise.cc:40-49`) with `weight_sum_` and `initial_loss_` (`loss_func_pointwise.h:45`). -/
def reportInit (e : PointLoss D) (numRows : Nat) (col : Option StrCol) : Outcome (Except Code (PointProgress D)) := do
  let slices ← pointInit e numRows col
  match slices with
  | .error code => pure (.error code)
  | .ok slices => pure (.ok ⟨slices, (List.range numRows).foldl (fun sum i => sum + e.w i) 0, e.minusOne, []⟩)

/-- `Pointwise::ComputeFunctionalGradientsAndHessians` (`loss_func_pointwise.cc:51-92`) with its message. -/
def reportCompute (e : PointLoss D) (hundred : D) (s : PointProgress D) (f : List D) : Outcome (PointProgress D × D × List (GD D)) := do
  let (slices, c, grads) ← pointCompute e s.slices f
  let total ← lossLoop e s.slices f 10 0 (List.replicate f.length ⟨0, 0⟩)
  let (first, message) := prepareProgress hundred s.initialLoss (total / s.weightSum)
  pure ({ s with slices := slices, initialLoss := first, messages := s.messages ++ [message] }, c, grads)

/-- A pointwise loss with its messages, as training sees it. -/
def PointLoss.reporting (e : PointLoss D) (hundred : D) : LossFunc (PointProgress D) D where
  init := reportInit e
  compute := reportCompute e hundred

end progress

section messages
variable {S D A : Type} [Dbl D] [LinearOrder A] [ThrOps A]

/-- The variables of `TrainGBDT` when its loop ends (`gbdt_algo.cc:122-195`), and whether it ended because of divergence; nothing if it does not get
there. -/
def trainState (env : TrainEnv D A) (loss : LossFunc S D) (names : List String) (cfg : TrainConfig D) (base : Option (List (Tree D A)))
    (forest : List (Tree D A)) (p : Nat) : Outcome (Option (Bool × TrainState S D A)) :=
  if checkConfig (env.ofNat 1) cfg ≠ .ok then .ok none
  else match loadFeatures env.columns names with
    | .error _ => .ok none
    | .ok features => do
      let group ← groupOrDie env.columns cfg.groupColumn
      let init ← loss.init env.numRows group
      match init with
      | .error _ => pure none
      | .ok ls => do
        let slices ← scoreSlices env.numThreads env.numRows
        let (forest1, slices1, f1) ← initWithBase env (base.getD [])
          (forest ++ [.node 0 none .absent .absent]) slices (List.replicate env.numRows 0)
        let r ← trainLoop env loss features cfg forest.length cfg.numTrees.toNat ⟨forest1, slices1, f1, ls, p⟩
        pure (some r)

/-- The messages that training with a pointwise loss logs (`gbdt_algo.cc:184`).  The message of a round that diverges is not logged. -/
def trainMessages (env : TrainEnv D A) (e : PointLoss D) (hundred : D) (names : List String) (cfg : TrainConfig D) (base : Option (List (Tree D A)))
    (p : Nat) : Outcome (List (Message D)) := do
  let r ← trainState env (e.reporting hundred) names cfg base [] p
  match r with
  | none => pure []
  | some (true, s) => pure s.loss.messages.dropLast
  | some (false, s) => pure s.loss.messages

end messages

end Gbdt
