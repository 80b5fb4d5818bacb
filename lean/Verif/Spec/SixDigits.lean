import Mathlib.Algebra.Order.Field.Rat
import Mathlib.Algebra.Order.Group.Abs
import Mathlib.Data.Rat.Floor

/-! # Numbers with six significant digits, and rounding to them -/

set_option autoImplicit false

namespace Gbdt

/-- `y` is in `P`, and nothing in `P` is closer to `x`. -/
def Nearest (P : ℚ → Prop) (x y : ℚ) : Prop := P y ∧ ∀ z, P z → |x - y| ≤ |x - z|

/-- The number can be written with six significant decimal digits and an exponent. -/
def SixDigit (x : ℚ) : Prop := ∃ n k : ℤ, |n| < 1000000 ∧ x = n * 10 ^ k

/-- `y` is `x` rounded to six significant digits. -/
def RoundsTo (x y : ℚ) : Prop := Nearest SixDigit x y

/-- The numbers with `p` significant bits, the last of which is not below `2 ^ -sub`: the values of binary64 for `p = 53` and
`sub = 1074`, if there were no largest one. -/
def Binary (p sub : ℕ) (x : ℚ) : Prop := ∃ n k : ℤ, |n| < 2 ^ p ∧ -(sub : ℤ) ≤ k ∧ x = n * 2 ^ k

end Gbdt
