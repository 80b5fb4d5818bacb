import Verif.Model.Split

/-!
# Specification of split candidates

Stated on the list of (gradient, hessian) sums per feature value; only the arithmetic of `GD` is shared with the model.
-/

set_option autoImplicit false

namespace Gbdt

variable {D : Type} [Dbl D]

/-- Sum of the first `k` entries, in the order the scan adds them. -/
def prefixSum (data : List (GD D)) (k : Nat) : GD D := (data.take k).foldl GD.add GD.zero

/-- The two sides of a cut after the first `k` entries; with `right`, missing values are moved to the right side. -/
def cutSides (total : GD D) (missing : Option (GD D)) (data : List (GD D)) (k : Nat) (right : Bool) :
    Option (GD D × GD D) :=
  let l := prefixSum data k
  let r := total.sub l
  if right then missing.map (fun m => (l.sub m, r.add m)) else some (l, r)

/-- `E(left) + E(right) - E(total)`. -/
def gainOf (lambda : D) (total l r : GD D) : D := l.energy lambda + r.energy lambda - total.energy lambda

/-- A cut that the scan may choose, with its gain: both sides non-empty in the order of the entries, hessians large
enough. -/
def Candidate (cfg : SplitConfig D) (total : GD D) (missing : Option (GD D)) (data : List (GD D)) (k : Nat)
    (right : Bool) (l r : GD D) (g : D) : Prop :=
  1 ≤ k ∧ k < data.length ∧ cutSides total missing data k right = some (l, r) ∧
  Dbl.ltb cfg.minHessian (Dbl.min l.h r.h) = true ∧ g = gainOf cfg.l2Lambda total l r

/-- The weighted gradient data of sample `i`. -/
def weighted (w : Nat → D) (grads : List (GD D)) (i : Nat) : GD D :=
  match grads[i]? with
  | some d => d.scale (w i)
  | none => GD.zero

/-- The sum of `x i` over a list, from left to right. -/
def sumOf (x : Nat → GD D) (l : List Nat) : GD D := l.foldl (fun a i => a.add (x i)) GD.zero

/-- The samples of the list that have code `k`. -/
def samplesWith (codes : List Nat) (samples : List Nat) (k : Nat) : List Nat :=
  samples.filter (fun i => decide (codes[i]? = some k))

/-- No value of the feature has exactly one of its two sums equal to zero (`code` reads the code of a row). -/
def NoHalfZero {K : Type} [Dbl K] (code : Nat → Outcome Nat) (x : Nat → GD K) (samples : List Nat) : Prop :=
  ∀ k, (sumOf x (samples.filter (fun i => decide (code i = .ok k)))).g = 0 ↔
    (sumOf x (samples.filter (fun i => decide (code i = .ok k)))).h = 0

/-- The threshold arithmetic separates the buckets of the column that are in use: the midpoint of the upper limit `a` of a bucket and
the lower limit `b > a` of another lies above `a` and not above `b`, and lowering the smallest lower limit gives a number
that is not larger.  True of every column in exact arithmetic.  In binary32 the second part is true, the first fails for
some neighbouring numbers, for infinite ones and when the sum overflows (see C63 and C186). -/
structure ThrSeparates {A : Type} [LinearOrder A] [ThrOps A] (c : BktCol A) : Prop where
  mid : ∀ (codes : List Nat), c.ints.data = .ok codes → ∀ j ∈ codes, ∀ k ∈ codes, ∀ (a b : A), c.bucketMax j = .ok (Fl.num a) → c.bucketMin k = .ok (Fl.num b) → a < b →
    ∃ m, ThrOps.mid a b = Fl.num m ∧ a < m ∧ m ≤ b
  below : ∀ a : A, c.bucketMin 1 = .ok (Fl.num a) → ∃ m, ThrOps.below a = Fl.num m ∧ m ≤ a

end Gbdt
