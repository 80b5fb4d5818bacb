import Mathlib.Order.Defs.LinearOrder
import Mathlib.Algebra.Order.Field.Basic

/-!
# Numbers

`Fl A` models `float` values held in columns: NaN or a number out of an arbitrary linear order `A`.
`Dbl D` models `double` arithmetic with uninterpreted operations.
-/

set_option autoImplicit false

namespace Gbdt

/-- A C++ `float`: NaN, or a number of a linear order `A` (for binary32 `A` is the set of all non-NaN floats
including the infinities, with `-0.0` and `+0.0` identified; that identification is the only simplification). -/
inductive Fl (A : Type) where
  | nan
  | num (a : A)
  deriving Repr, DecidableEq

namespace Fl

variable {A : Type}

/-- `std::isnan`. -/
def isNaN : Fl A → Bool
  | nan => true
  | num _ => false

/-- `a < b` on floats: false when either is NaN. -/
def lt [LinearOrder A] : Fl A → Fl A → Bool
  | num a, num b => decide (a < b)
  | _, _ => false

/-- `std::min(a, b)`, i.e. `(b < a) ? b : a`. -/
def min [LinearOrder A] (a b : Fl A) : Fl A := if lt b a then b else a

@[simp] theorem isNaN_nan : (nan : Fl A).isNaN = true := rfl
@[simp] theorem isNaN_num (a : A) : (num a).isNaN = false := rfl
@[simp] theorem lt_num [LinearOrder A] (a b : A) : lt (num a) (num b) = decide (a < b) := rfl
@[simp] theorem nan_lt [LinearOrder A] (b : Fl A) : lt nan b = false := rfl
@[simp] theorem lt_nan [LinearOrder A] (b : Fl A) : lt b nan = false := by cases b <;> rfl

end Fl

/-- C++ `double` arithmetic, with no law assumed.  IEEE binary64 is an instance, and so is every linearly
ordered field (exact arithmetic). -/
class Dbl (D : Type) extends Zero D, Add D, Sub D, Mul D, Div D where
  /-- `a < b` -/
  ltb : D → D → Bool
  /-- `a == b` -/
  eqb : D → D → Bool

namespace Dbl

variable {D : Type} [Dbl D]

/-- `std::min(a, b)`, i.e. `(b < a) ? b : a`. -/
def min (a b : D) : D := if ltb b a then b else a

/-- `std::max(a, b)`, i.e. `(a < b) ? b : a`. -/
def max (a b : D) : D := if ltb a b then b else a

end Dbl

/-- The only fact about `<` on doubles that the arg-max theorems use; IEEE `<` satisfies it, NaN included. -/
class StrictLt (D : Type) [Dbl D] : Prop where
  irrefl : ∀ a : D, Dbl.ltb a a = false
  trans : ∀ a b c : D, Dbl.ltb a b = true → Dbl.ltb b c = true → Dbl.ltb a c = true

/-- What IEEE `<` and `==` satisfy beyond that: NaN (a value not equal to itself) compares to nothing, all other values
are linearly ordered up to equality, and 0 is not NaN. -/
class FpOrder (D : Type) [Dbl D] : Prop extends StrictLt D where
  not_nan : ∀ a b : D, Dbl.ltb a b = true → Dbl.eqb a a = true ∧ Dbl.eqb b b = true
  cotrans : ∀ a b c : D, Dbl.eqb b b = true → Dbl.ltb a c = true → Dbl.ltb a b = true ∨ Dbl.ltb b c = true
  zero_not_nan : Dbl.eqb (0 : D) 0 = true

/-- `a` is a number (NaN is not equal to itself). -/
def NotNaN {D : Type} [Dbl D] (a : D) : Prop := Dbl.eqb a a = true

/-- What `==` satisfies beside `<` on numbers: numbers that are equal are not less, and one of `<`, `==`, `>` holds. -/
class EqOrder (D : Type) [Dbl D] : Prop where
  eq_not_lt : ∀ a b : D, Dbl.eqb a b = true → Dbl.ltb b a = false
  total : ∀ a b : D, Dbl.eqb a a = true → Dbl.eqb b b = true →
    Dbl.ltb a b = true ∨ Dbl.eqb a b = true ∨ Dbl.ltb b a = true

/-- Exact arithmetic in a linearly ordered field. -/
instance (priority := 50) exactDbl {K : Type} [Field K] [LinearOrder K] : Dbl K where
  ltb a b := decide (a < b)
  eqb a b := decide (a = b)

section exact
variable {K : Type} [Field K] [LinearOrder K]

@[simp] theorem exact_ltb (a b : K) : Dbl.ltb a b = decide (a < b) := rfl
@[simp] theorem exact_eqb (a b : K) : Dbl.eqb a b = decide (a = b) := rfl

theorem exact_min (a b : K) : Dbl.min a b = min a b := by
  simp only [Dbl.min, exact_ltb, decide_eq_true_eq]
  split
  · rw [min_eq_right (le_of_lt ‹_›)]
  · rw [min_eq_left (not_lt.mp ‹_›)]

theorem exact_max (a b : K) : Dbl.max a b = max a b := by
  simp only [Dbl.max, exact_ltb, decide_eq_true_eq]
  split
  · rw [max_eq_right (le_of_lt ‹_›)]
  · rw [max_eq_left (not_lt.mp ‹_›)]

instance : StrictLt K where
  irrefl a := by simp
  trans a b c := by simpa using fun h1 h2 => lt_trans h1 h2

instance : FpOrder K where
  not_nan a b _ := by simp
  cotrans a b c _ := by
    simp only [exact_ltb, decide_eq_true_eq]
    intro h
    rcases lt_or_ge a b with h1 | h1
    · exact Or.inl h1
    · exact Or.inr (lt_of_le_of_lt h1 h)
  zero_not_nan := by simp

instance : EqOrder K where
  eq_not_lt a b h := by simp at h; simp [h]
  total a b _ _ := by simpa using lt_trichotomy a b

end exact

end Gbdt
