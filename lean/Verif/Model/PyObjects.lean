import Verif.Base

/-!
# Model of the lifetime of columns seen from Python

A `DataStorePy` owns its store, the store owns its columns (`datastore_py.h:72`, `data_store.h:52`).  The column objects that Python gets
hold a bare pointer (`column_py.h:35, 46, 58`) and do not keep the store alive (`datastore_py.cc:200-202`).  What columns contain
is left out here.
-/

set_option autoImplicit false

namespace Gbdt

/-- A `DataStorePy`: the columns of the inner store with their addresses (`none`: there is no inner store, or the object has
been destroyed), and the address of the next object that is created.  Addresses are not used twice, which is the kindest
assumption: a pointer to a destroyed column never leads to another one. -/
structure StoreObj where
  columns : Option (List (String × Nat))
  next : Nat

/-- What can be done with a store, as far as columns are created and destroyed. -/
inductive PyOp where
  /-- `add_string_col` and the like; `fits` says whether the number of rows is right. -/
  | add (name : String) (fits : Bool)
  /-- `erase`. -/
  | erase (name : String)
  /-- `clear`. -/
  | clear
  /-- `load_tsv`; `none` when loading fails. -/
  | load (names : Option (List String))
  /-- The last reference to the store goes away. -/
  | drop
  /-- Whatever only reads: `train`, `predict`, `slice`, `cols`, ... -/
  | read
  deriving Repr, DecidableEq

/-- One step: `add` (`datastore_py.cc:84-109`, `data_store.cc:124-137`: a name that exists or a wrong number of rows leaves the store
as it is, and the new column is destroyed), `erase` (`datastore_py.cc:111-115`, `data_store.cc:139-144`), `clear`
(`datastore_py.cc:158-160`), `load_tsv` (`datastore_py.cc:36-57`: the new store replaces the old one only on success). -/
def PyOp.step (s : StoreObj) : PyOp → StoreObj
  | .add name fits =>
    let cols := s.columns.getD []
    if fits ∧ ∀ p ∈ cols, p.1 ≠ name then ⟨some ((name, s.next) :: cols), s.next + 1⟩ else ⟨some cols, s.next + 1⟩
  | .erase name => ⟨s.columns.map (·.filter (fun p => p.1 ≠ name)), s.next⟩
  | .clear => ⟨none, s.next⟩
  | .load none => s
  | .load (some names) => ⟨some (names.zipIdx s.next), s.next + names.length⟩
  | .drop => ⟨none, s.next⟩
  | .read => s

/-- A sequence of operations (`datastore_py.cc:36-160`). -/
def PyOp.run (s : StoreObj) (ops : List PyOp) : StoreObj := ops.foldl PyOp.step s

/-- `store[name]`: the pointer in the column object (`datastore_py.cc:59-81`). -/
def StoreObj.column (s : StoreObj) (name : String) : Option Nat := (s.columns.getD []).lookup name

/-- Following a pointer to a column (`column_py.cc:34-98`): undefined when the column has been destroyed. -/
def StoreObj.follow (s : StoreObj) (address : Nat) : Outcome Unit :=
  if address ∈ (s.columns.getD []).map Prod.snd then .ok () else .ub

end Gbdt
