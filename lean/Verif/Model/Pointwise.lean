import Verif.Model.Train

/-!
# Model of the loss formulas (`src/loss_func/loss_func_math.cc`) and of the pointwise losses
(`src/loss_func/loss_func_pointwise.cc` and its subclasses)

The loss reported in the progress message, and `weight_sum_`, which only that uses, are modelled in `Model/Progress.lean`.
-/

set_option autoImplicit false

namespace Gbdt

/-- The functions of `<cmath>` and the constants that the formulas use. -/
structure MathFns (D : Type) where
  exp : D → D
  log : D → D
  neg : D → D
  one : D
  half : D

section formulas
variable {D : Type} [Dbl D]

/-- `ComputeMSE` (`loss_func_math.cc:24-26`): loss, negative gradient and hessian. -/
def mseLoss (m : MathFns D) (y f : D) : D × D × D := ((y - f) * (y - f), y - f, m.one)

/-- `ComputeLogLoss` (`loss_func_math.cc:28-31`). -/
def logLoss (m : MathFns D) (y f : D) : D × D × D :=
  let e := m.exp (m.neg y * f)
  (m.log (m.one + e), y * e / (m.one + e), e / ((m.one + e) * (m.one + e)))

/-- `ComputeHuberizedHinge` (`loss_func_math.cc:33-43`). -/
def huberizedHinge (m : MathFns D) (y f : D) : D × D × D :=
  let e := y * f
  if Dbl.leb m.one e then (0, 0, 0)
  else if Dbl.leb 0 e then (m.half * (m.one - e) * (m.one - e), (m.one - e) * y, m.one)
  else (m.half - e, y, 0)

/-- `ComputeSquaredHinge` (`loss_func_math.cc:45-52`). -/
def squaredHinge (m : MathFns D) (y f : D) : D × D × D :=
  let e := y - f
  if Dbl.ltb 0 (e * y) then (e * e, e, m.one) else (0, 0, 0)

end formulas

/-- What a pointwise loss is made of (`loss_func_pointwise.h:41-48`) and what it uses from its surroundings.  `binary` is set
for the losses whose `Init` insists on targets 1 and -1 (`loss_func_logloss.cc:34-42`,
`loss_func_huberized_hinge.cc:32-40`); `threshold` is `kConvergenceThreshold` (`loss_func_pointwise.cc:34`). -/
structure PointLoss (D : Type) where
  lossFn : D → D → D × D × D
  binary : Bool
  one : D
  minusOne : D
  w : Nat → D
  y : Nat → D
  fabs : D → D
  threshold : D
  numThreads : Int

section pointwise
variable {D : Type} [Dbl D]

/-- `LogLoss::Init`, `HuberizedHinge::Init` and `Pointwise::Init` (`loss_func_logloss.cc:34-42`,
`loss_func_huberized_hinge.cc:32-40`, `loss_func_pointwise.cc:40-49`): the state is the slices. -/
def pointInit (e : PointLoss D) (numRows : Nat) (_ : Option StrCol) : Outcome (Except Code (List (Nat × Nat))) :=
  if e.binary && (List.range numRows).any (fun i => !Dbl.eqb (e.y i) e.one && !Dbl.eqb (e.y i) e.minusOne) then
    .ok (.error .invalidArgument)
  else do
    let slices ← divideRange numRows (e.numThreads * 5)
    pure (.ok slices)

/-- The loop of the task for one slice (`loss_func_pointwise.cc:69-78`), from row `i` for `left` rows. -/
def pointSlice (e : PointLoss D) (f : List D) (c : D) : Nat → Nat → List (GD D) → GD D → Outcome (List (GD D) × GD D)
  | 0, _, grads, total => .ok (grads, total)
  | left + 1, i, grads, total => do
    let fi ← Outcome.vecGet f i
    let (_, g, h) := e.lossFn (e.y i) (fi + c)
    if i < grads.length then
      pointSlice e f c left (i + 1) (grads.set i ⟨g, h⟩) (total.add ((⟨g, h⟩ : GD D).scale (e.w i)))
    else .ub

/-- One pass over all slices (`loss_func_pointwise.cc:64-81`): the gradients and the totals of the slices. -/
def pointSlices (e : PointLoss D) (f : List D) (c : D) : List (Nat × Nat) → List (GD D) →
    Outcome (List (GD D) × List (GD D))
  | [], grads => .ok (grads, [])
  | sl :: slices, grads => do
    let (grads1, total) ← pointSlice e f c (sl.2 - sl.1) sl.1 grads GD.zero
    let (grads2, totals) ← pointSlices e f c slices grads1
    pure (grads2, total :: totals)

/-- The `do ... while` loop (`loss_func_pointwise.cc:63-86`), with `left` passes still allowed. -/
def pointLoop (e : PointLoss D) (slices : List (Nat × Nat)) (f : List D) : Nat → D → List (GD D) →
    Outcome (D × List (GD D))
  | 0, c, grads => .ok (c, grads)
  | left + 1, c, grads => do
    let (grads1, totals) ← pointSlices e f c slices grads
    let delta := (totals.foldl GD.add GD.zero).score 0
    if Dbl.ltb e.threshold (e.fabs delta) then pointLoop e slices f left (c + delta) grads1
    else .ok (c + delta, grads1)

/-- `Pointwise::ComputeFunctionalGradientsAndHessians` (`loss_func_pointwise.cc:51-92`); 10 is `kMaxIterations`.  The
vector of gradients always has the size of `f` on entry to the loop; its old contents are never read, so zeros stand for
them. -/
def pointCompute (e : PointLoss D) (slices : List (Nat × Nat)) (f : List D) :
    Outcome (List (Nat × Nat) × D × List (GD D)) := do
  let (c, grads) ← pointLoop e slices f 10 0 (List.replicate f.length ⟨0, 0⟩)
  pure (slices, c, grads)

/-- A pointwise loss as training sees it. -/
def PointLoss.toLoss (e : PointLoss D) : LossFunc (List (Nat × Nat)) D where
  init := pointInit e
  compute := pointCompute e

end pointwise

end Gbdt
