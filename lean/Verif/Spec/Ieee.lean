import Verif.Num
import Mathlib.Data.Rat.Floor
import Mathlib.Algebra.Order.Field.Rat

/-!
# Arithmetic of `double` and `float`

IEEE 754 arithmetic with rounding to nearest, ties to even, for counterexamples that depend on rounding.
-/

set_option autoImplicit false

namespace Gbdt

/-- The exponent of the leading bit of `a / d`. -/
def leadingExp (a d : Nat) : Int :=
  let e : Int := (Nat.log2 a : Int) - Nat.log2 d
  if d * 2 ^ e.toNat ≤ a * 2 ^ (-e).toNat then e else e - 1

/-- `a / d` rounded to an integer, ties to even. -/
def roundDiv (a d : Nat) : Nat :=
  let k := a / d
  let r := a % d
  if d < 2 * r || (2 * r == d && k % 2 == 1) then k + 1 else k

/-- The nearest number with `p` significant bits and with last bit not below `2 ^ -sub`. -/
def roundRat (p sub : Nat) (q : ℚ) : ℚ :=
  let a := q.num.natAbs
  if a = 0 then 0
  else
    let s : Int := min (sub : Int) ((p : Int) - 1 - leadingExp a q.den)
    let k : Nat := roundDiv (a * 2 ^ s.toNat) (q.den * 2 ^ (-s).toNat)
    let v : ℚ := (k * 2 ^ (-s).toNat : Nat) / (2 ^ s.toNat : Nat)
    if q.num < 0 then -v else v

/-- The values of binary64; `-0.0` and `+0.0` are identified, so that a division by zero has the sign of the dividend.  That is the
only simplification. -/
inductive F64 where
  | nan
  | inf (neg : Bool)
  | num (q : ℚ)
  deriving DecidableEq

namespace F64

/-- Rounding to binary64, with overflow to infinity. -/
def round (q : ℚ) : F64 :=
  let v := roundRat 53 1074 q
  if 2 ^ 1024 ≤ v then inf false else if v ≤ -2 ^ 1024 then inf true else num v

/-- Rounding to binary32. -/
def round32 : F64 → F64
  | nan => nan
  | inf s => inf s
  | num q =>
    let v := roundRat 24 149 q
    if 2 ^ 128 ≤ v then inf false else if v ≤ -2 ^ 128 then inf true else num v

def neg : F64 → F64
  | nan => nan
  | inf s => inf (!s)
  | num q => num (-q)

def add : F64 → F64 → F64
  | nan, _ => nan
  | _, nan => nan
  | inf s, inf t => if s = t then inf s else nan
  | inf s, num _ => inf s
  | num _, inf t => inf t
  | num a, num b => round (a + b)

def mul : F64 → F64 → F64
  | nan, _ => nan
  | _, nan => nan
  | inf s, inf t => inf (s != t)
  | inf s, num b => if b = 0 then nan else inf (s != decide (b < 0))
  | num a, inf t => if a = 0 then nan else inf (t != decide (a < 0))
  | num a, num b => round (a * b)

def div : F64 → F64 → F64
  | nan, _ => nan
  | _, nan => nan
  | inf _, inf _ => nan
  | inf s, num b => inf (s != decide (b < 0))
  | num _, inf _ => num 0
  | num a, num b => if b = 0 then (if a = 0 then nan else inf (decide (a < 0))) else round (a / b)

def lt : F64 → F64 → Bool
  | nan, _ => false
  | _, nan => false
  | inf s, inf t => s && !t
  | inf s, num _ => s
  | num _, inf t => !t
  | num a, num b => decide (a < b)

def eq : F64 → F64 → Bool
  | nan, _ => false
  | _, nan => false
  | inf s, inf t => s == t
  | num a, num b => decide (a = b)
  | _, _ => false

instance : Dbl F64 where
  zero := num 0
  add := add
  sub a b := add a (neg b)
  mul := mul
  div := div
  ltb := lt
  eqb := eq

end F64

instance : FpOrder F64 where
  irrefl a := by rcases a with _ | s | q <;> simp [Dbl.ltb, F64.lt]
  trans a b c h1 h2 := by
    rcases a with _ | s | q <;> rcases b with _ | s' | q' <;> rcases c with _ | s'' | q'' <;>
      simp_all [Dbl.ltb, F64.lt]
    exact lt_trans h1 h2
  not_nan a b h := by
    rcases a with _ | s | q <;> rcases b with _ | s' | q' <;> simp_all [Dbl.ltb, Dbl.eqb, F64.lt, F64.eq]
  cotrans a b c h1 h2 := by
    rcases a with _ | s | q <;> rcases b with _ | s' | q' <;> rcases c with _ | s'' | q'' <;>
      simp_all [Dbl.ltb, Dbl.eqb, F64.lt, F64.eq]
    rcases lt_or_ge q q' with h | h
    · exact Or.inl h
    · exact Or.inr (lt_of_le_of_lt h h2)
  zero_not_nan := by decide

instance : EqOrder F64 where
  eq_not_lt a b h := by
    rcases a with _ | s | q <;> rcases b with _ | s' | q' <;> simp_all [Dbl.ltb, Dbl.eqb, F64.lt, F64.eq]
  total a b h1 h2 := by
    rcases a with _ | s | q <;> rcases b with _ | s' | q' <;> simp_all [Dbl.ltb, Dbl.eqb, F64.lt, F64.eq]
    · revert s s'; decide
    · exact lt_trichotomy q q'

/-- Rounding as in IEEE 754: `2^53 + 1` is not a double, and 0.1 + 0.2 is not 0.3; the smallest and the largest double, and
beyond. -/
example : (F64.round (2 ^ 53 + 1) = .num (2 ^ 53)) ∧ F64.round (2 ^ 53 + 3) = .num (2 ^ 53 + 4) ∧
    (F64.round (1 / 10) + F64.round (2 / 10) ≠ F64.round (3 / 10)) ∧
    F64.round (1 / 10) = .num (3602879701896397 / 36028797018963968) ∧
    F64.round (1 / 2 ^ 1074) = .num (1 / 2 ^ 1074) ∧ F64.round (1 / 2 ^ 1075) = .num 0 ∧
    F64.round (3 / 2 ^ 1075) = .num (2 / 2 ^ 1074) ∧
    F64.round (2 ^ 1024 - 2 ^ 971) = .num (2 ^ 1024 - 2 ^ 971) ∧ F64.round (2 ^ 1024 - 2 ^ 970) = .inf false ∧
    F64.round32 (.num (16777217)) = .num 16777216 ∧ F64.round (-(2 ^ 53 + 1)) = .num (-2 ^ 53) := by
  decide +kernel

end Gbdt
