import Verif.Model.Pipeline

/-!
# Specification: other units, other signs
-/

set_option autoImplicit false

namespace Gbdt

/-- A tree with its scores and gains replaced. -/
def renumber {D A : Type} (score gain : D → D) : Tree D A → Tree D A
  | .absent => .absent
  | .node x split left right =>
    .node (score x) (split.map (fun s => { s with gain := gain s.gain })) (renumber score gain left) (renumber score gain right)

/-- `up` acts like the multiplication by a positive number in arithmetic without rounding (`rescaling_of_pos`).  Doubles obey these laws
for powers of two where nothing overflows or underflows, but not throughout. -/
structure Rescaling {D : Type} [Dbl D] (up : D → D) : Prop where
  zero : up 0 = 0
  add : ∀ a b, up (a + b) = up a + up b
  sub : ∀ a b, up (a - b) = up a - up b
  eq_zero : ∀ a, Dbl.eqb (up a) 0 = Dbl.eqb a 0
  lt : ∀ a b, Dbl.ltb (up a) (up b) = Dbl.ltb a b
  mul_left : ∀ a b, up a * b = up (a * b)
  mul_right : ∀ a b, a * up b = up (a * b)
  div : ∀ a b, up a / b = up (a / b)
  ratio : ∀ a b, up a / up b = a / b

/-- `neg` acts like negation.  Doubles obey these laws, too (`negation_f64`; the two zeros not told apart). -/
structure Negation {D : Type} [Dbl D] (neg : D → D) : Prop where
  zero : neg 0 = 0
  add : ∀ a b, neg (a + b) = neg a + neg b
  sub : ∀ a b, neg (a - b) = neg a - neg b
  eq_zero : ∀ a, Dbl.eqb (neg a) 0 = Dbl.eqb a 0
  mul_left : ∀ a b, neg a * b = neg (a * b)
  mul_right : ∀ a b, a * neg b = neg (a * b)
  mul_both : ∀ a b, neg a * neg b = a * b
  div : ∀ a b, neg a / b = neg (a / b)

/-- The standard library looks at the values that it sorts, or keeps in a queue, by comparing them only; and a set lists only
what is in it. -/
structure ByComparison {D A : Type} [Dbl D] (mc : Machine D A) : Prop where
  sort : ∀ φ : D → D, (∀ a b, Dbl.ltb (φ a) (φ b) = Dbl.ltb a b) → ∀ key l, mc.sort (fun v => φ (key v)) l = mc.sort key l
  top : ∀ φ : D → D, (∀ a b, Dbl.ltb (φ a) (φ b) = Dbl.ltb a b) → ∀ n gains, mc.top n (gains.map φ) = mc.top n gains
  listing : ∀ l x, x ∈ mc.listing l → x ∈ l

/-- The signs of numbers make no difference to rounding and to the tests of their size, and 1 and -1 are each other's negatives. -/
structure Symmetric {D A : Type} [Dbl D] (mc : Machine D A) (neg : D → D) : Prop where
  negative : mc.math.neg = neg
  fabs : ∀ x, mc.fabs (neg x) = mc.fabs x
  rnd32 : ∀ x, mc.rnd32 (neg x) = neg (mc.rnd32 x)
  diverged : ∀ x, mc.diverged (neg x) = mc.diverged x
  one : ∀ x, Dbl.eqb (neg x) mc.math.one = Dbl.eqb x mc.minusOne
  minusOne : ∀ x, Dbl.eqb (neg x) mc.minusOne = Dbl.eqb x mc.math.one

/-- The weight of row `i`: 1 if no weights are given. -/
def weightAt {D A : Type} (mc : Machine D A) (w : List (Fl A)) (i : Nat) : D :=
  if w = [] then mc.ofNat 1 else mc.toD (w.getD i .nan)

/-- The weights `w'` of `n` rows are those of `w`, changed by `up`. -/
structure WeightsChanged {D A : Type} (mc : Machine D A) (up : D → D) (n : Nat) (w w' : List (Fl A)) : Prop where
  given : w = [] ∨ w.length = n
  length : w'.length = n
  each : ∀ i < n, mc.toD (w'.getD i .nan) = up (weightAt mc w i)

/-- The targets `y'` are those of `y`, changed by `up`. -/
structure TargetsChanged {D A : Type} (mc : Machine D A) (up : D → D) (y y' : List (Fl A)) : Prop where
  given : y ≠ []
  length : y'.length = y.length
  each : ∀ i < y.length, mc.toD (y'.getD i .nan) = up (mc.toD (y.getD i .nan))

end Gbdt
