import Verif.Spec.Split
import Verif.Spec.Tree

/-!
# Specification of the sums over the leaves of a tree, and of data without cancelling gradients
-/

set_option autoImplicit false

namespace Gbdt

section columns
variable {K : Type} [Dbl K] {A : Type}

/-- No value of the column has exactly one of its two sums equal to zero. -/
def ColumnFine (c : Column A) (x : Nat → GD K) (samples : List Nat) : Prop :=
  match c with
  | .str c => NoHalfZero c.ints.code x samples
  | .bkt c => NoHalfZero c.ints.code x samples
  | .raw _ => True

end columns

section trees
variable {D A : Type}

/-- The scores of the leaves. -/
def leafScores : Tree D A → List D
  | .absent => []
  | .node x _ .absent _ => [x]
  | .node _ _ (.node a b c d) right => leafScores (.node a b c d) ++ leafScores right

end trees

end Gbdt
