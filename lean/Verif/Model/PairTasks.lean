import Verif.Model.Tasks
import Verif.Model.Pairwise

/-!
# The tasks of a pairwise loss as programs that access memory (`loss_func_pairwise.cc:113-150`)

All tasks use one generator, `Subsampling::generator_` (`subsampling.cc:26`, `subsampling.h:41-43`), without a lock.
-/

set_option autoImplicit false

namespace Gbdt

/-- Shared memory: the generator, the gradients, the groups. -/
inductive PairCell where
  | gen
  | grad (i : Nat)
  | group (k : Nat)
  deriving DecidableEq

/-- What a cell holds; `G` is the type of states of the generator. -/
abbrev PairVal (D G : Type) : PairCell → Type
  | .gen => G
  | .grad _ => GD D
  | .group _ => Group

section
variable {D G : Type} [Dbl D]

/-- Drawing from the generator (`group.cc:66-67`): `sample n` gives the number and the next state.  The state is one cell
that is read and then written; with two threads at it C++ makes no promise at all, so this is the mildest that can happen. -/
def drawProg (sample : Nat → G → Nat × G) (n : Nat) : Prog PairCell (PairVal D G) Nat :=
  .read .gen (fun (s : G) => .write .gen ((sample n s).2 : G) (.out (.ok (sample n s).1)))

/-- Adding to the gradient data of a row (`loss_func_pairwise.cc:139-144`), with `n` rows.  The code changes `g` and `h` of
the row separately. -/
def addToRowProg (n row : Nat) (plus : Bool) (dg dh : D) : Prog PairCell (PairVal D G) Unit :=
  if row < n then
    .read (.grad row) (fun (old : GD D) =>
      .write (.grad row) (⟨if plus then old.g + dg else old.g - dg, old.h + dh⟩ : GD D) (.out (.ok ())))
  else .out .ub

/-- The rows of a sampled pair and what is added to their gradients (`loss_func_pairwise.cc:131-138`). -/
def pairTerms (e : PairLoss D) (f : List D) (g : Group) (factor : D) (index : Nat) : Outcome (Nat × Nat × D × D) := do
  let (a, b) ← pairAt g index
  let pos ← Outcome.vecGet g.rows a
  let neg ← Outcome.vecGet g.rows b
  let pw ← pairWeight e g a b
  let weight := e.rnd32 (e.w pos * e.w neg) * pw * factor
  let fp ← Outcome.vecGet f pos
  let fn ← Outcome.vecGet f neg
  let (_, dg, dh) := e.lossFn (e.rnd32 (e.y pos - e.y neg)) (fp - fn)
  pure (pos, neg, weight * dg, e.ofNat 2 * weight * dh)

/-- One sampled pair (`loss_func_pairwise.cc:130-146`), with `n` rows. -/
def pairStepProg (e : PairLoss D) (f : List D) (g : Group) (factor : D) (n index : Nat) :
    Prog PairCell (PairVal D G) Unit :=
  (Prog.out (pairTerms e f g factor index)).bind fun x =>
    (addToRowProg n x.1 true x.2.2.1 x.2.2.2).bind fun _ => addToRowProg n x.2.1 false x.2.2.1 x.2.2.2

/-- The loop over the sampled pairs of a group (`loss_func_pairwise.cc:129-147`); `draw i` gives the `i`-th index. -/
def pairLoopProg (e : PairLoss D) (f : List D) (g : Group) (factor : D) (n : Nat)
    (draw : Nat → Prog PairCell (PairVal D G) Nat) : Nat → Nat → Prog PairCell (PairVal D G) Unit
  | 0, _ => .out (.ok ())
  | left + 1, i => (draw i).bind fun index => (pairStepProg e f g factor n index).bind fun _ =>
    pairLoopProg e f g factor n draw left (i + 1)

/-- `if (rerank_) group.Rerank(f)` (`loss_func_pairwise.cc:119-120`). -/
def rerankProg (e : PairLoss D) (f : List D) (index : Nat) (g : Group) : Prog PairCell (PairVal D G) Group :=
  if e.rerank then
    (Prog.out (rerank e.sort f g)).bind (fun g1 => .write (.group index) (g1 : Group) (.out (.ok g1)))
  else .out (.ok g)

/-- One group (`loss_func_pairwise.cc:119-147`), with `ng` groups and `n` rows. -/
def pairGroupProg (e : PairLoss D) (prob : D) (minNumPairs : Nat) (f : List D) (ng n : Nat)
    (draw : Nat → Nat → Nat → Prog PairCell (PairVal D G) Nat) (index : Nat) : Prog PairCell (PairVal D G) Unit :=
  if index < ng then
    .read (.group index) (fun (g : Group) => (rerankProg e f index g).bind fun g1 =>
      (Prog.out (samplePairs e prob g1)).bind fun count =>
        pairLoopProg e f g1 (groupFactor e minNumPairs g1) n (fun i => draw index i g1.numPairs) count 0)
  else .out .ub

/-- The groups of one slice (`loss_func_pairwise.cc:118`). -/
def pairGroupsProg (e : PairLoss D) (prob : D) (minNumPairs : Nat) (f : List D) (ng n : Nat)
    (draw : Nat → Nat → Nat → Prog PairCell (PairVal D G) Nat) : List Nat → Prog PairCell (PairVal D G) Unit
  | [] => .out (.ok ())
  | index :: rest => (pairGroupProg e prob minNumPairs f ng n draw index).bind fun _ =>
    pairGroupsProg e prob minNumPairs f ng n draw rest

/-- The groups of slice `j`. -/
def sliceGroups (slices : List (Nat × Nat)) (j : Nat) : List Nat :=
  List.range' (slices.getD j (0, 0)).1 ((slices.getD j (0, 0)).2 - (slices.getD j (0, 0)).1)

/-- The task for slice `j` (`loss_func_pairwise.cc:116-149`). -/
def pairTask (e : PairLoss D) (sample : Nat → G → Nat × G) (s : PairState D) (f : List D) (j : Nat) :
    Prog PairCell (PairVal D G) Unit :=
  pairGroupsProg e s.prob s.minNumPairs f s.groups.length f.length (fun _ _ n => drawProg sample n)
    (sliceGroups s.slices j)

/-- Memory with the generator, and the groups and gradients of the sequential model. -/
def pairMem (gen : G) (groups : List Group) (grads : List (GD D)) : ∀ l, PairVal D G l
  | .gen => (gen : G)
  | .grad i => (grads.getD i GD.zero : GD D)
  | .group k => (groups.getD k ⟨[], [], 0, []⟩ : Group)

/-- The pool when gradients are computed (`loss_func_pairwise.cc:108-115`): the gradients are set to zero before. -/
def pairWork (e : PairLoss D) (sample : Nat → G → Nat × G) (threads : Nat) (s : PairState D) (f : List D) (gen : G) :
    Work PairCell (PairVal D G) :=
  Work.new threads s.slices.length (pairTask e sample s f) (pairMem gen s.groups (List.replicate f.length ⟨0, 0⟩))

end

end Gbdt
