import Verif.Spec.Tree

/-!
# Features that tell nothing
-/

set_option autoImplicit false

namespace Gbdt

variable {A : Type} [LinearOrder A]

/-- A column of strings or a bucketized column that was built, in any blocks, from `n` times the same value (perhaps NaN). -/
inductive ConstantColumn (n : Nat) : Column A → Prop where
  | str (blocks : List (List String)) (x : String) (hsame : blocks.flatten = List.replicate n x) (hsize : n + 1 < 2 ^ 32) :
      ConstantColumn n (.str (StrCol.build blocks))
  | bkt (fmax : A) (nb : Nat) (blocks : List (List (Fl A))) (x : Fl A) (c : BktCol A)
      (hsame : blocks.flatten = List.replicate n x) (hsize : n + 2 < 2 ^ 32) (hnb : nb < 2 ^ 32)
      (hok : BktCol.build fmax nb blocks = .ok c) (hfin : ∀ v, x = Fl.num v → v ≤ fmax) : ConstantColumn n (.bkt c)

end Gbdt
