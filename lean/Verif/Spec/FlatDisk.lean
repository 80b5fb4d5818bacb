import Verif.Model.FlatTrain

/-!
# What flat files hold
-/

set_option autoImplicit false

namespace Gbdt

variable {A : Type} [LinearOrder A]

/-- The column in the file of a name, if there is one. -/
def FlatDisk.column (d : FlatDisk A) (name : String) : Option (Column A) :=
  match d.files name with
  | none => none
  | some s => match loadFile d.fmax d.parse s with
    | .ok c => c
    | _ => none

/-- The column in the file of a name, if there is one and it has `n` rows. -/
def FlatDisk.columnOf (d : FlatDisk A) (n : Nat) (name : String) : Option (Column A) :=
  match d.column name with
  | none => none
  | some c => if c.size = .ok n then some c else none

/-- No file of the disk makes reading it undefined. -/
def FlatDisk.Sound (d : FlatDisk A) : Prop :=
  ∀ name s, d.files name = some s → ∃ c, loadFile d.fmax d.parse s = .ok c

/-- No file of the disk has an empty column. -/
def FlatDisk.NoEmpty (d : FlatDisk A) : Prop := ∀ name c, d.column name = some c → c.size ≠ .ok 0

end Gbdt
