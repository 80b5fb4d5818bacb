import Verif.Model.Train

/-!
# The states a loss goes through during training
-/

set_option autoImplicit false

namespace Gbdt

open Outcome

variable {S D A : Type} [Dbl D] [LinearOrder A]

/-- No group column, or a string column of the store. -/
def GroupCol (columns : String → Option (Column A)) (g : Option StrCol) : Prop :=
  ∀ c, g = some c → ∃ name, columns name = some (.str c)

/-- The states that training can bring a loss into: initialised for `n` rows and one of the group columns `G`, and then asked
for gradients at any values, one for each row. -/
inductive LossReach (n : Nat) (G : Option StrCol → Prop) (loss : LossFunc S D) : S → Prop
  | init {g : Option StrCol} {s : S} : G g → loss.init n g = ok (.ok s) → LossReach n G loss s
  | step {s s' : S} {f : List D} {c : D} {grads : List (GD D)} : LossReach n G loss s → f.length = n →
      loss.compute s f = ok (s', c, grads) → LossReach n G loss s'

omit [Dbl D] in
theorem LossReach.mono {n : Nat} {G G' : Option StrCol → Prop} (hG : ∀ g, G g → G' g) {loss : LossFunc S D} {s : S}
    (h : LossReach n G loss s) : LossReach n G' loss s := by
  induction h with
  | init h1 h2 => exact .init (hG _ h1) h2
  | step _ h2 h3 ih => exact .step ih h2 h3

end Gbdt
