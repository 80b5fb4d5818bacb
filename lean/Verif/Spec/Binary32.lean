import Verif.Spec.Ieee
import Verif.Spec.SixDigits
import Verif.Model.Split
import Mathlib.Order.WithBot

/-!
# The thresholds of float splits in binary32

`split_algo.cc:228-231` adds two floats, divides the sum by the double 2.0 and stores the quotient as a float.
-/

set_option autoImplicit false

namespace Gbdt

/-- The values of `float` that are not NaN, in their order; `-0.0` and `+0.0` are identified. -/
abbrev F32 := WithBot (WithTop ℚ)

namespace F32

/-- A finite float. -/
def fin (q : ℚ) : F32 := ((q : WithTop ℚ) : WithBot (WithTop ℚ))

/-- A float read as a double (exact). -/
def toDouble : F32 → F64
  | none => .inf true
  | some none => .inf false
  | some (some q) => .num q

/-- A double that is a float. -/
def ofDouble : F64 → Fl F32
  | .nan => .nan
  | .inf true => .num ⊥
  | .inf false => .num ⊤
  | .num q => .num (fin q)

/-- The sum of two floats in `float`: the exact sum, rounded once. -/
def sum (a b : F32) : F64 :=
  match toDouble a, toDouble b with
  | .num x, .num y => F64.round32 (.num (x + y))
  | x, y => F64.add x y

end F32

/-- The threshold arithmetic of `split_algo.cc:228-231` in IEEE arithmetic, with subnormal numbers, overflow and infinities: the sum
of two floats is a `float`, `2.0` and `1e-3` are doubles, the result is stored in a `float`. -/
@[instance_reducible] def binary32Thr : ThrOps F32 where
  mid a b := F32.ofDouble (F64.round32 (F64.div (F32.sum a b) (.num 2)))
  below a := F32.ofDouble (F64.round32 (F64.add (F32.toDouble a) (F64.neg (F64.round (1 / 1000)))))

/-- `FLT_MAX`. -/
def F32.max : F32 := F32.fin (2 ^ 128 - 2 ^ 104)

/-- `x` is a finite float of magnitude below `2 ^ 127`, so that the sum of two of them does not overflow. -/
def HalfRange (x : F32) : Prop := ∃ q : ℚ, x = F32.fin q ∧ Binary 24 149 q ∧ |q| < 2 ^ 127

/-- Between any two different values of the column there is another float. -/
def NoNeighbours (values : List (Fl F32)) : Prop :=
  ∀ a b : ℚ, Fl.num (F32.fin a) ∈ values → Fl.num (F32.fin b) ∈ values → a < b → ∃ m, Binary 24 149 m ∧ a < m ∧ m < b

end Gbdt
