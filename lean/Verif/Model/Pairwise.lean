import Verif.Model.Group
import Verif.Model.Train

/-!
# Model of the pairwise losses (`src/loss_func/loss_func_pairwise.cc`, `loss_func_lambdamart.cc`)

The loss reported in the progress message is modelled in `Model/PairProgress.lean`.
-/

set_option autoImplicit false

namespace Gbdt

/-- What a pairwise loss is made of (`loss_func_pairwise.h:56-71`) and what it uses from its surroundings.
`lossFn` gives loss, negative gradient and hessian from the differences of targets and of function values; `discount` is
set for LambdaMART (`loss_func_lambdamart.cc:48-50`).  `toU64` is the conversion of a double to `uint64`, undefined (`none`)
for NaN and out of range.  `draw t g i n` is the index in `0, ..., n - 1` drawn as the `i`-th of group `g` in round `t`. -/
structure PairLoss (D : Type) where
  rate : D
  byDelta : Bool
  equalWeight : Bool
  rerank : Bool
  lossFn : D → D → D × D × D
  discount : Option (Nat → D)
  w : Nat → D
  y : Nat → D
  sort : (Nat → D) → List Nat → List Nat
  ofNat : Nat → D
  toU64 : D → Option Nat
  rnd32 : D → D
  fabs : D → D
  numThreads : Int
  draw : Nat → Nat → Nat → Nat → Nat

/-- The members that `Init` sets (`loss_func_pairwise.h:56-66`), and how often gradients were computed. -/
structure PairState (D : Type) where
  groups : List Group
  minNumPairs : Nat
  prob : D
  slices : List (Nat × Nat)
  round : Nat

/-- One assignment `groups[group_id - 1].emplace_back(i)` (`loss_func_pairwise.cc:75-76`).  A missing group is
`groups[4294967295]`, far out of bounds. -/
def putInGroup (groups : List (List Nat)) (i code : Nat) : Outcome (List (List Nat)) :=
  if code = 0 then .ub
  else if code - 1 < groups.length then .ok (groups.modify (code - 1) (· ++ [i]))
  else .ub

/-- The loop over the rows (`loss_func_pairwise.cc:74-77`). -/
def putAll : Nat → List Nat → List (List Nat) → Outcome (List (List Nat))
  | _, [], groups => .ok groups
  | i, code :: codes, groups => do
    let groups1 ← putInGroup groups i code
    putAll (i + 1) codes groups1

/-- The rows of each group (`loss_func_pairwise.cc:65-78`). -/
def rowGroups (numRows : Nat) : Option StrCol → Outcome (List (List Nat))
  | none => .ok [createAllSamples numRows]
  | some c => do
    let codes ← c.ints.data
    putAll 0 codes (List.replicate (c.maxInt - 1) [])

section pairwise
variable {D : Type} [Dbl D]

/-- `Pairwise::Init` (`loss_func_pairwise.cc:56-96`) with `ComputePairSamplingProbability`
(`loss_func_pairwise.cc:37-44`). -/
def pairInit (e : PairLoss D) (numRows : Nat) (col : Option StrCol) : Outcome (Except Code (PairState D)) :=
  if Dbl.leb e.rate 0 then .ok (.error .invalidArgument)
  else do
    let rows ← rowGroups numRows col
    let groups ← rows.mapM (mkGroup e.sort e.y)
    let slices ← divideRange groups.length (e.numThreads * 5)
    let total := (groups.map (·.numPairs)).foldl (· + ·) 0
    pure (.ok
      { groups := groups
        minNumPairs := groups.foldl (fun m g => max m g.numPairs) 1
        prob := e.rate * e.ofNat numRows / e.ofNat total / e.ofNat 2
        slices := slices
        round := 0 })

/-- The weighting function of a pair of positions: `Pairwise::PairWeightingFunc` (`loss_func_pairwise.cc:163-172`) or
`LambdaMART::PairWeightingFunc` (`loss_func_lambdamart.cc:64-71`). -/
def pairWeight (e : PairLoss D) (g : Group) (a b : Nat) : Outcome D :=
  match e.discount with
  | none =>
    if e.byDelta then do
      let pos ← Outcome.vecGet g.rows a
      let neg ← Outcome.vecGet g.rows b
      pure (e.rnd32 (e.y pos - e.y neg))
    else pure (e.ofNat 1)
  | some d => do
    let pos ← Outcome.vecGet g.rows a
    let neg ← Outcome.vecGet g.rows b
    let ra ← Outcome.vecGet g.ranks a
    let rb ← Outcome.vecGet g.ranks b
    pure (e.rnd32 (e.y pos - e.y neg) * e.fabs (d ra - d rb))

/-- Adding to the gradient data of a row (`loss_func_pairwise.cc:139-144`); `plus` says whether the gradient is added or
subtracted. -/
def addToRow (grads : List (GD D)) (row : Nat) (plus : Bool) (dg dh : D) : Outcome (List (GD D)) := do
  let old ← Outcome.vecGet grads row
  pure (grads.set row ⟨if plus then old.g + dg else old.g - dg, old.h + dh⟩)

/-- One sampled pair (`loss_func_pairwise.cc:130-146`). -/
def pairStep (e : PairLoss D) (f : List D) (g : Group) (factor : D) (index : Nat) (grads : List (GD D)) :
    Outcome (List (GD D)) := do
  let (a, b) ← pairAt g index
  let pos ← Outcome.vecGet g.rows a
  let neg ← Outcome.vecGet g.rows b
  let pw ← pairWeight e g a b
  let weight := e.rnd32 (e.w pos * e.w neg) * pw * factor
  let fp ← Outcome.vecGet f pos
  let fn ← Outcome.vecGet f neg
  let (_, dg, dh) := e.lossFn (e.rnd32 (e.y pos - e.y neg)) (fp - fn)
  let grads1 ← addToRow grads pos true (weight * dg) (e.ofNat 2 * weight * dh)
  addToRow grads1 neg false (weight * dg) (e.ofNat 2 * weight * dh)

/-- The loop over the sampled pairs of a group (`loss_func_pairwise.cc:129-147`): `left` pairs are still to be drawn. -/
def pairLoop (e : PairLoss D) (f : List D) (g : Group) (factor : D) (draw : Nat → Nat) : Nat → Nat → List (GD D) →
    Outcome (List (GD D))
  | 0, _, grads => .ok grads
  | left + 1, i, grads => do
    let grads1 ← pairStep e f g factor (draw i) grads
    pairLoop e f g factor draw left (i + 1) grads1

/-- The number of pairs to draw (`loss_func_pairwise.cc:122`).  The loop counter is an `int`, so it overflows from 2^31
pairs on. -/
def samplePairs (e : PairLoss D) (prob : D) (g : Group) : Outcome Nat :=
  match e.toU64 (e.ofNat g.numPairs * prob) with
  | none => .ub
  | some n => if n < 2147483648 then .ok n else .ub

/-- The factor that makes the weights of groups equal (`loss_func_pairwise.cc:126-127`). -/
def groupFactor (e : PairLoss D) (minNumPairs : Nat) (g : Group) : D :=
  if e.equalWeight then e.ofNat minNumPairs / e.ofNat g.numPairs else e.ofNat 1

/-- One group (`loss_func_pairwise.cc:119-147`): the group, perhaps ranked anew, and the gradients. -/
def pairGroup (e : PairLoss D) (s : PairState D) (f : List D) (index : Nat) (grads : List (GD D)) :
    Outcome (Group × List (GD D)) := do
  let g ← Outcome.vecGet s.groups index
  let g1 ← if e.rerank then Gbdt.rerank e.sort f g else pure g
  let n ← samplePairs e s.prob g1
  let grads1 ← pairLoop e f g1 (groupFactor e s.minNumPairs g1) (fun i => e.draw s.round index i g1.numPairs) n 0 grads
  pure (g1, grads1)

/-- The groups of one slice, or of all slices one after the other (`loss_func_pairwise.cc:118`). -/
def pairGroups (e : PairLoss D) (f : List D) : List Nat → PairState D → List (GD D) → Outcome (PairState D × List (GD D))
  | [], s, grads => .ok (s, grads)
  | index :: rest, s, grads => do
    let (g, grads1) ← pairGroup e s f index grads
    pairGroups e f rest { s with groups := s.groups.set index g } grads1

/-- `Pairwise::ComputeFunctionalGradientsAndHessians` (`loss_func_pairwise.cc:98-160`), with the tasks run one after the
other.  Tasks work on different groups, hence on different rows; the generator they share is covered by letting `draw` be
arbitrary (see C54 for what that leaves out). -/
def pairCompute (e : PairLoss D) (s : PairState D) (f : List D) : Outcome (PairState D × D × List (GD D)) := do
  let order := s.slices.flatMap (fun sl => List.range' sl.1 (sl.2 - sl.1))
  let (s1, grads) ← pairGroups e f order s (List.replicate f.length ⟨0, 0⟩)
  pure ({ s1 with round := s1.round + 1 }, 0, grads)

/-- A pairwise loss as training sees it. -/
def PairLoss.toLoss (e : PairLoss D) : LossFunc (PairState D) D where
  init := pairInit e
  compute := pairCompute e

/-! ## LambdaMART's table of discounts -/

/-- `discount` (`loss_func_lambdamart.cc:33-35`). -/
def discountOf (log : D → D) (ofNat : Nat → D) (base : D) (rank : Nat) : D := log base / log (base + ofNat rank)

/-- The loop that fills the table (`loss_func_lambdamart.cc:44-46`): `v[i] = ...` on a `std::vector` of which only memory
has been reserved.  Writing beyond `size()` is undefined. -/
def fillTable (value : Nat → D) : Nat → Nat → List D → Outcome (List D)
  | 0, _, table => .ok table
  | left + 1, i, table => if i < table.length then fillTable value left (i + 1) (table.set i (value i)) else .ub

/-- The constructor of `LambdaMART` (`loss_func_lambdamart.cc:43-46`): `reserve` leaves the vector empty. -/
def lambdaTable (value : Nat → D) : Outcome (List D) := fillTable value 100 0 []

/-- `discount_` (`loss_func_lambdamart.cc:48-50`). -/
def tableDiscount (value : Nat → D) (table : List D) (rank : Nat) : D :=
  match table[rank]? with
  | some d => d
  | none => value rank

end pairwise

end Gbdt
