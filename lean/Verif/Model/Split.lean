import Verif.Model.DataStore

/-!
# Model of `split_algo.cc` and `gradient_data.h`

`D` is `double` (any arithmetic), `A` the order of floats.  Weights are `float`s turned into `double`s.
-/

set_option autoImplicit false

namespace Gbdt

/-- `GradientData` (`gradient_data.h:21-58`). -/
structure GD (D : Type) where
  g : D
  h : D
  deriving Repr, DecidableEq

namespace GD

variable {D : Type} [Dbl D]

/-- `GradientData()` (`gradient_data.h:56-57`). -/
def zero : GD D := ⟨0, 0⟩

/-- `operator -` (`gradient_data.h:24-29`). -/
def sub (a b : GD D) : GD D := ⟨a.g - b.g, a.h - b.h⟩

/-- `operator +` and `operator +=` (`gradient_data.h:30-39`). -/
def add (a b : GD D) : GD D := ⟨a.g + b.g, a.h + b.h⟩

/-- `operator *` with a weight (`gradient_data.h:40-42, 60-62`). -/
def scale (w : D) (a : GD D) : GD D := ⟨w * a.g, w * a.h⟩

/-- `Energy` (`gradient_data.h:45-48`). -/
def energy (a : GD D) (lambda : D) : D :=
  let hs := a.h + lambda
  if Dbl.eqb hs 0 then 0 else a.g * a.g / hs

/-- `Score` (`gradient_data.h:51-54`). -/
def score (a : GD D) (lambda : D) : D :=
  let hs := a.h + lambda
  if Dbl.eqb hs 0 then 0 else a.g / hs

end GD

/-- The fields of `Config` that splitting reads (`src/proto/config.proto`), and `kFloatTolerance` (`split_algo.cc:33`). -/
structure SplitConfig (D : Type) where
  l2Lambda : D
  minHessian : D
  minGain : D
  tol : D

/-- `FloatSplit` (`src/proto/tree.proto`). -/
structure FloatSplit (A : Type) where
  threshold : Fl A
  missingToRight : Bool
  deriving DecidableEq

/-- `CategoricalSplit` (`src/proto/tree.proto`).  The indices are `int32` there; negative ones, which only a hand-made file can
hold, are not modelled. -/
structure CatSplit where
  category : List String := []
  index : List Nat := []
  deriving DecidableEq

/-- `Split` (`src/proto/tree.proto`); a default one has no name, no splits and gain 0. -/
structure Split (D A : Type) where
  feature : String := ""
  floatSplit : Option (FloatSplit A) := none
  catSplit : Option CatSplit := none
  gain : D
  deriving DecidableEq

variable {D A : Type}

section partition

/-- `std::swap(v[i], v[j])`; undefined out of bounds (`split_algo.cc:45, 75`). -/
def swapAt (v : List Nat) (i j : Nat) : Outcome (List Nat) := do
  let x ← Outcome.vecGet v i
  let y ← Outcome.vecGet v j
  pure ((v.set i y).set j x)

/-- The loop of both `Partition`s (`split_algo.cc:42-47, 73-76`) on the part of a vector `v` that starts at `off`
(a `VectorSlice`, `vector_slice.h:24-60`); `goLeft` is its test. -/
def partLoop (goLeft : Nat → Outcome Bool) (off : Nat) : Nat → Nat → Nat → List Nat → Outcome (Nat × List Nat)
  | 0, _, left, v => .ok (left, v)
  | fuel + 1, i, left, v => do
    let x ← Outcome.vecGet v (off + i)
    let b ← goLeft x
    if b then do
      let v1 ← swapAt v (off + i) (off + left)
      partLoop goLeft off fuel (i + 1) (left + 1) v1
    else partLoop goLeft off fuel (i + 1) left v

/-- `Partition` of the slice of `v` of `size` elements from `off` on (`split_algo.cc:40-49, 71-78`): the size of the
left slice (the right slice is the rest) and the vector it leaves behind. -/
def partitionSlice (goLeft : Nat → Outcome Bool) (off size : Nat) (v : List Nat) : Outcome (Nat × List Nat) :=
  partLoop goLeft off size 0 0 v

variable [LinearOrder A]

/-- The test for a float feature (`split_algo.cc:43-44`). -/
def floatGoesLeft (c : BktCol A) (f : FloatSplit A) (row : Nat) : Outcome Bool := do
  let m ← c.ints.missing row
  if m && !f.missingToRight then pure true
  else if !m then do
    let x ← c.rowMax row
    pure (Fl.lt x f.threshold)
  else pure false

/-- The set of category indices (`split_algo.cc:58-69`): the internal indices if there are any, else the indices of those
category names that the column knows. -/
def categorySet (c : StrCol) (s : CatSplit) : List Nat :=
  if s.index.length > 0 then s.index else s.category.filterMap c.catIndex

/-- The test for a string feature (`split_algo.cc:74`). -/
def stringGoesLeft (c : StrCol) (s : CatSplit) (row : Nat) : Outcome Bool := do
  let k ← c.ints.code row
  pure ((categorySet c s).contains k)

/-- `Partition` (`split_algo.cc:35-90`) of the slice of `v` of `size` elements from `off` on; a feature whose type does
not match the split aborts, a raw float feature sends everything right. -/
def partitionColumn (c : Column A) (s : Split D A) (off size : Nat) (v : List Nat) : Outcome (Nat × List Nat) :=
  match c with
  | .str c => match s.catSplit with
    | none => .fatal
    | some cs => partitionSlice (stringGoesLeft c cs) off size v
  | .bkt c => match s.floatSplit with
    | none => .fatal
    | some fs => partitionSlice (floatGoesLeft c fs) off size v
  | .raw _ => .ok (0, v)

/-- The contents of the two slices returned by `Partition` (`split_algo.cc:35-90`) for a slice containing `samples`.
(That the rest of the vector is untouched and does not matter is theorem C26_in_place.) -/
def partition (c : Column A) (s : Split D A) (samples : List Nat) : Outcome (List Nat × List Nat) := do
  let r ← partitionColumn c s 0 samples.length samples
  pure (r.2.take r.1, r.2.drop r.1)

end partition

section histogram

variable [Dbl D]

/-- The loop body of `ComputeHistograms` (`split_algo.cc:111-117`). -/
def histStep (codes : List Nat) (w : Nat → D) (grads : List (GD D)) (h : List (GD D)) (i : Nat) :
    Outcome (List (GD D)) := do
  let c ← Outcome.vecGet codes i
  let b ← Outcome.vecGet h c
  let d ← Outcome.vecGet grads i
  pure (h.set c ⟨b.g + w i * d.g, b.h + w i * d.h⟩)

/-- `histograms_` (`split_algo.cc:101-117`). -/
def histogramOf (codes : List Nat) (maxInt : Nat) (w : Nat → D) (grads : List (GD D)) (samples : List Nat) :
    Outcome (List (GD D)) :=
  samples.foldlM (histStep codes w grads) (List.replicate maxInt GD.zero)

/-- `non_zero_values_` (`split_algo.cc:119-123`): a value counts only if both sums are not zero. -/
def nonZeroValues (h : List (GD D)) : List Nat :=
  (List.range h.length).filter (fun i => match h[i]? with
    | some d => !Dbl.eqb d.g 0 && !Dbl.eqb d.h 0
    | none => false)

/-- `histogram.data(i)` for each `i` (`split_algo.h:45-50`); the values are below the size of the histogram. -/
def histData (h : List (GD D)) (values : List Nat) : Outcome (List (GD D)) := values.mapM (Outcome.vecGet h)

/-- `DataOnMissing` and `HasMissingValue` (`split_algo.cc:125-133`): the data of code 0, if there is a missing value. -/
def missingData (h : List (GD D)) : Outcome (Option (GD D)) := do
  let d ← Outcome.vecGet h 0
  pure (if !Dbl.eqb d.g 0 || !Dbl.eqb d.h 0 then some d else none)

end histogram

/-- `SplitPoint` (`split_algo.cc:146-150`); `leftPoint = none` is -1. -/
structure SplitPoint (D : Type) where
  leftPoint : Option Nat
  missingOnRight : Bool
  gain : D
  deriving Repr, DecidableEq

section scan

variable [Dbl D]

/-- The gain of a split if both hessians are large enough, else `dflt` (`split_algo.cc:176-178, 185-188`). -/
def gainOr (cfg : SplitConfig D) (total left right : GD D) (dflt : D) : D :=
  if Dbl.ltb cfg.minHessian (Dbl.min left.h right.h) then
    left.energy cfg.l2Lambda + right.energy cfg.l2Lambda - total.energy cfg.l2Lambda
  else dflt

/-- The gain found at one position of the scan, and whether missing values go right (`split_algo.cc:171-194`).
`missing` is the data of missing values when placing them is tried and there are any. -/
def positionGain (cfg : SplitConfig D) (total : GD D) (missing : Option (GD D)) (left : GD D) : D × Bool :=
  let right := total.sub left
  let gain := gainOr cfg total left right 0
  match missing with
  | none => (gain, false)
  | some m =>
    let left1 := left.sub m
    let right1 := right.add m
    if Dbl.ltb cfg.minHessian (Dbl.min left1.h right1.h) then
      let gain1 := left1.energy cfg.l2Lambda + right1.energy cfg.l2Lambda - total.energy cfg.l2Lambda
      if Dbl.ltb gain gain1 then (gain1, true) else (gain, false)
    else (gain, false)

/-- The update of the best split point (`split_algo.cc:196-200`). -/
def keepBetter (cfg : SplitConfig D) (i : Nat) (r : D × Bool) (sp : SplitPoint D) : SplitPoint D :=
  if Dbl.ltb (Dbl.max sp.gain (Dbl.max cfg.minGain cfg.tol)) r.1 then
    { gain := r.1, leftPoint := some (i - 1), missingOnRight := r.2 }
  else sp

/-- The loop of `FindBestSplitPoint` (`split_algo.cc:169-201`) from position `i` on; `left` is the sum of the data before. -/
def scanPoints (cfg : SplitConfig D) (total : GD D) (missing : Option (GD D)) :
    Nat → GD D → List (GD D) → SplitPoint D → SplitPoint D
  | _, _, [], sp => sp
  | i, left, d :: ds, sp =>
    let sp1 := if i = 0 then sp else keepBetter cfg i (positionGain cfg total missing left) sp
    scanPoints cfg total missing (i + 1) (left.add d) ds sp1

/-- `FindBestSplitPoint` (`split_algo.cc:154-203`) on a new `SplitPoint`; it reports success when `leftPoint` is not -1. -/
def findBestSplitPoint (cfg : SplitConfig D) (total : GD D) (missing : Option (GD D)) (data : List (GD D)) :
    SplitPoint D :=
  scanPoints cfg total missing 0 GD.zero data { leftPoint := none, missingOnRight := false, gain := 0 }

end scan

/-- The arithmetic on floats in the threshold (`split_algo.cc:228-231`): `mid a b` is `(a + b) / 2.0` (the sum is made in
`float`, the result rounded to `float`), `below a` is `a - 1e-3` rounded to `float`. -/
class ThrOps (A : Type) where
  mid : A → A → Fl A
  below : A → Fl A

section find

variable [Dbl D] [LinearOrder A] [ThrOps A]

/-- The threshold (`split_algo.cc:222-231`); sums and differences with NaN are NaN. -/
def thresholdOf (c : BktCol A) (leftCode rightCode : Nat) : Outcome (Fl A) := do
  let l ← c.bucketMax leftCode
  let r ← c.bucketMin rightCode
  match l with
  | .nan => do
    let m ← c.bucketMin 1
    match m with
    | .nan => pure .nan
    | .num m => pure (ThrOps.below m)
  | .num l => match r with
    | .nan => pure .nan
    | .num r => pure (ThrOps.mid l r)

/-- `FindBestFloatSplit` (`split_algo.cc:207-233`); `none`: it returns false. -/
def findBestFloatSplit (c : BktCol A) (w : Nat → D) (grads : List (GD D)) (samples : List Nat) (cfg : SplitConfig D)
    (total : GD D) : Outcome (Option (Split D A)) := do
  let codes ← c.ints.data
  let h ← histogramOf codes c.maxInt w grads samples
  let values := nonZeroValues h
  let data ← histData h values
  let missing ← missingData h
  let sp := findBestSplitPoint cfg total missing data
  match sp.leftPoint with
  | none => pure none
  | some p => do
    let lc ← Outcome.vecGet values p
    let rc ← Outcome.vecGet values (p + 1)
    let t ← thresholdOf c lc rc
    pure (some { gain := sp.gain, floatSplit := some ⟨t, sp.missingOnRight⟩ })

/-- `std::sort` of values by a key (`split_algo.cc:135-143`): any function that rearranges the list so that no element
comes after one with a larger key. -/
def SortSpec (sort : (Nat → D) → List Nat → List Nat) : Prop :=
  ∀ key l, (sort key l).Perm l ∧ (sort key l).Pairwise (fun a b => Dbl.ltb (key b) (key a) = false)

/-- `FindBestStringSplit` (`split_algo.cc:235-266`); the smaller side of the sorted values becomes the left set. -/
def findBestStringSplit (sort : (Nat → D) → List Nat → List Nat) (c : StrCol) (w : Nat → D) (grads : List (GD D))
    (samples : List Nat) (cfg : SplitConfig D) (total : GD D) : Outcome (Option (Split D A)) := do
  let codes ← c.ints.data
  let h ← histogramOf codes c.maxInt w grads samples
  let values := sort (fun v => match h[v]? with
    | some d => d.score cfg.l2Lambda
    | none => 0) (nonZeroValues h)
  let data ← histData h values
  let sp := findBestSplitPoint cfg total none data
  match sp.leftPoint with
  | none => pure none
  | some p =>
    let set := if p + 1 ≤ values.length - p - 1 then values.take (p + 1) else values.drop (p + 1)
    pure (some { gain := sp.gain, catSplit := some { index := set } })

/-- `FindBestSplit` (`split_algo.cc:268-285`). -/
def findBestSplit (sort : (Nat → D) → List Nat → List Nat) (c : Column A) (w : Nat → D) (grads : List (GD D))
    (samples : List Nat) (cfg : SplitConfig D) (total : GD D) : Outcome (Option (Split D A)) :=
  match c with
  | .str c => findBestStringSplit sort c w grads samples cfg total
  | .bkt c => findBestFloatSplit c w grads samples cfg total
  | .raw _ => .ok none

end find

end Gbdt
