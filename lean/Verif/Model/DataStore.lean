import Verif.Model.BucketColumn

/-!
# Model of `DataStore`, of its Python wrapper and of the Python column wrappers
-/

set_option autoImplicit false

namespace Gbdt

/-- `Column::ColumnType` (`column.h:34-38`). -/
inductive ColType where
  | string
  | bucketized
  | raw
  deriving Repr, DecidableEq

/-- A column held by a store: one of the three subclasses of `Column` (`column.h:32-64`). -/
inductive Column (A : Type) where
  | str (c : StrCol)
  | bkt (c : BktCol A)
  | raw (c : RawCol A)

namespace Column

variable {A : Type}

/-- `Column::type` (`column.cc:112-114`). -/
def type : Column A → ColType
  | str _ => .string
  | bkt _ => .bucketized
  | raw _ => .raw

variable [LinearOrder A]

/-- The virtual `Column::size` (`column.cc:135-137`, `column.h:189-191`); undefined on an unfinalized integer
column. -/
def size : Column A → Outcome Nat
  | str c => c.size
  | bkt c => c.size
  | raw c => .ok c.size

/-- `Column::CreateStringColumn` (`column.cc:307-313`). -/
def createString (vals : List String) : Column A := .str (StrCol.build [vals])

/-- `Column::CreateBucketizedFloatColumn` (`column.cc:315-321`). -/
def createBucketized (fmax : A) (vals : List (Fl A)) (nb : Nat := 30000) : Outcome (Column A) := do
  let c ← BktCol.build fmax nb [vals]
  pure (.bkt c)

/-- `Column::CreateRawFloatColumn` (`column.cc:323-330`). -/
def createRaw (vals : List (Fl A)) : Column A := .raw ((RawCol.add {} vals).finalize)

end Column

/-- `column_map_` (`data_store.h:52`), an `unordered_map`, as the list of its entries in iteration order. -/
abbrev DataStore (A : Type) := List (String × Column A)

namespace DataStore

variable {A : Type} [LinearOrder A]

/-- `DataStore::GetColumn` (`data_store.cc:119-122`). -/
def getColumn (s : DataStore A) (name : String) : Option (Column A) := s.lookup name

/-- `DataStore::GetRawFloatColumn` (`data_store.cc:28-39`); `none` is the null pointer. -/
def getRaw (s : DataStore A) (name : String) : Option (RawCol A) :=
  match s.getColumn name with
  | some (.raw c) => some c
  | _ => none

/-- `DataStore::GetBucketizedFloatColumn` (`data_store.cc:41-52`). -/
def getBucketized (s : DataStore A) (name : String) : Option (BktCol A) :=
  match s.getColumn name with
  | some (.bkt c) => some c
  | _ => none

/-- `DataStore::GetStringColumn` (`data_store.cc:54-65`). -/
def getString (s : DataStore A) (name : String) : Option StrCol :=
  match s.getColumn name with
  | some (.str c) => some c
  | _ => none

/-- `DataStore::num_rows` (`data_store.cc:67-69`): the size of whichever column iteration starts with. -/
def numRows (s : DataStore A) : Outcome Nat :=
  match s with
  | [] => .ok 0
  | (_, c) :: _ => c.size

/-- `DataStore::num_cols` (`data_store.cc:71-73`). -/
def numCols (s : DataStore A) : Nat := u32 s.length

/-- `DataStore::Add` (`data_store.cc:124-137`).  Inserting into the hash map may leave the entries in any order;
`place` is that reordering. -/
def add (place : DataStore A → DataStore A) (s : DataStore A) (name : String) (c : Column A) :
    Outcome (Code × DataStore A) :=
  if (s.getColumn name).isSome then .ok (.alreadyExists, s)
  else do
    let r ← s.numRows
    if r > 0 then do
      let n ← c.size
      if r ≠ n then pure (.outOfRange, s) else pure (.ok, place ((name, c) :: s))
    else pure (.ok, place ((name, c) :: s))

/-- `DataStore::RemoveColumnIfExists` (`data_store.cc:139-144`). -/
def remove (s : DataStore A) (name : String) : DataStore A := s.eraseP (fun p => p.1 == name)

/-- The names of the columns of one type, in iteration order (`data_store.cc:86-117`, `datastore_py.cc:117-142`). -/
def namesOf (s : DataStore A) (t : ColType) : List String :=
  (s.filter (fun p => p.2.type == t)).map Prod.fst

/-- `DataStorePy::AllColumnNames` (`datastore_py.cc:144-156`). -/
def allNames (s : DataStore A) : List String :=
  s.namesOf .bucketized ++ s.namesOf .string ++ s.namesOf .raw

end DataStore

/-- A call on a store that may change it, with the hash map's behaviour for that call. -/
inductive StoreOp (A : Type) where
  /-- `Add`, and how the map is ordered afterwards. -/
  | add (name : String) (c : Column A) (place : DataStore A → DataStore A)
  /-- `RemoveColumnIfExists`. -/
  | remove (name : String)

namespace StoreOp

variable {A : Type} [LinearOrder A]

/-- One call (`data_store.cc:124-144`); removal reports nothing, shown as OK. -/
def step (s : DataStore A) : StoreOp A → Outcome (Code × DataStore A)
  | add name c place => s.add place name c
  | remove name => .ok (.ok, s.remove name)

/-- A history of calls, with the status of each. -/
def run (s : DataStore A) : List (StoreOp A) → Outcome (List Code × DataStore A)
  | [] => .ok ([], s)
  | op :: ops => do
    let r ← op.step s
    let r' ← run r.2 ops
    pure (r.1 :: r'.1, r'.2)

end StoreOp

/-- The C++ exceptions thrown to Python (`gbdt_py_base.cc:6-21`). -/
inductive PyExc where
  | invalidArgument
  | outOfRange
  | iosFailure
  | logicError
  deriving Repr, DecidableEq

/-- `ThrowException` (`gbdt_py_base.cc:6-21`); `none` means that it returns normally. -/
def throwException : Code → Option PyExc
  | .invalidArgument => some .invalidArgument
  | .outOfRange => some .outOfRange
  | .notFound => some .iosFailure
  | .failedPrecondition => some .logicError
  | .internal => some .logicError
  | .ok => none
  | .alreadyExists => none
  | .aborted => none

/-- Conversion of a signed 32-bit index to `uint` (`column_py.cc:44, 46, 69, 71, 95, 97`). -/
def intToUint (i : Int) : Nat := (i % 4294967296).toNat

/-- `get(int i)` of the three column wrappers (`column_py.cc:42-47, 67-72, 93-98`): `size` is `column_->size()` and
`row` the element access, both taking `uint`; `column = none` is the null pointer.  When `ThrowException` returns
normally the code goes on. -/
def pyGet {C α : Type} (column : Option C) (size : C → Outcome Nat) (row : C → Nat → Outcome α) (i : Int) :
    Outcome (Except PyExc α) :=
  match column with
  | none => match throwException .notFound with
    | some e => .ok (.error e)
    | none => .ub
  | some c => do
    let n ← size c
    if intToUint i ≥ n then
      match throwException .outOfRange with
      | some e => pure (.error e)
      | none => do
        let v ← row c (intToUint i)
        pure (.ok v)
    else do
      let v ← row c (intToUint i)
      pure (.ok v)

namespace DataStorePy

variable {A : Type} [LinearOrder A]

/-- The status handling shared by the three `Add*Column` (`datastore_py.cc:84-109`): the column is created first, the
store on demand; a status for which `ThrowException` returns normally is lost. -/
def add (place : DataStore A → DataStore A) (s : Option (DataStore A)) (name : String) (c : Outcome (Column A)) :
    Outcome (Option PyExc × Option (DataStore A)) := do
  let col ← c
  let r ← DataStore.add place (s.getD []) name col
  pure (if r.1 = .ok then none else throwException r.1, some r.2)

/-- `RemoveColumnIfExists` (`datastore_py.cc:111-115`). -/
def remove (s : Option (DataStore A)) (name : String) : Option (DataStore A) := s.map (·.remove name)

end DataStorePy

end Gbdt
