import Verif.Base

/-!
# Model of `StringColumn` and of the integer storage shared by string and float columns
-/

set_option autoImplicit false

namespace Gbdt

/-- Which vector `col_` points to after `Finalize` (`column.cc:61-104`, `column.cc:120-133`). -/
inductive Width where
  | w8
  | w16
  | w32
  deriving Repr, DecidableEq

/-- The data members of `IntegerizedColumn` (`column.h:92-98`).  `view = none` is the null `col_`. -/
structure IntCol where
  finalized : Bool := false
  view : Option Width := none
  col8 : List Nat := []
  col16 : List Nat := []
  col32 : List Nat := []
  deriving Repr, DecidableEq

namespace IntCol

/-- `ConvertIntVector<uint8>` (`column.cc:53-59`): the cast keeps the low 8 bits. -/
def convert8 (l : List Nat) : List Nat := l.map (· % 256)

/-- `ConvertIntVector<uint16>` (`column.cc:53-59`): the cast keeps the low 16 bits. -/
def convert16 (l : List Nat) : List Nat := l.map (· % 65536)

/-- `IntegerizedColumn::Finalize` (`column.cc:120-133`). -/
def finalize (c : IntCol) : IntCol :=
  { c with
    finalized := true
    view := if c.col8.length > 0 then some .w8
            else if c.col16.length > 0 then some .w16
            else some .w32 }

/-- The vector seen through `col()` (`column.h:85-87`); `col_` is null before `Finalize`, so dereferencing it
is undefined behaviour. -/
def data (c : IntCol) : Outcome (List Nat) :=
  match c.view with
  | none => .ub
  | some .w8 => .ok c.col8
  | some .w16 => .ok c.col16
  | some .w32 => .ok c.col32

/-- `IntegerizedColumn::size` (`column.cc:135-137`). -/
def size (c : IntCol) : Outcome Nat := do
  let l ← c.data
  pure (u32 l.length)

/-- `col()[i]` (`column.cc:65-67, 80-82, 95-97`). -/
def code (c : IntCol) (i : Nat) : Outcome Nat := do
  let l ← c.data
  Outcome.vecGet l i

/-- `col().missing(i)` (`column.h:74-76`). -/
def missing (c : IntCol) (i : Nat) : Outcome Bool := do
  let k ← c.code i
  pure (k == 0)

end IntCol

/-- `unordered_map<string, uint>` as an association list; only `find` and `operator[]=` are used
(`column.h:134`).  Iteration order is never observed for this map. -/
abbrev StrMap := List (String × Nat)

/-- `map_to_indices_.find(s)` (`column.cc:153`, `column.h:116`). -/
def StrMap.find (m : StrMap) (s : String) : Option Nat := m.lookup s

/-- `map_to_indices_[s] = n` (`column.cc:156`). -/
def StrMap.set (m : StrMap) (s : String) (n : Nat) : StrMap := (s, n) :: m.filter (fun p => p.1 != s)

/-- `StringColumn` (`column.h:103-135`).  The column's name plays no part in the data and is left out. -/
structure StrCol where
  status : Code := .ok
  ints : IntCol := {}
  strings : List String := ["__missing__"]
  indices : StrMap := [("__missing__", 0)]
  deriving Repr

namespace StrCol

/-- A new column (`column.cc:139-141`, initializers `column.h:133-134`). -/
def new : StrCol := {}

/-- `StringColumn::max_int` (`column.h:109-111`). -/
def maxInt (c : StrCol) : Nat := u32 c.strings.length

/-- One iteration of the loop of `StringColumn::Add` (`column.cc:152-163`). -/
def addOne (c : StrCol) (s : String) : StrCol :=
  match c.indices.find s with
  | none =>
    { c with
      indices := c.indices.set s (u32 c.strings.length)
      ints := { c.ints with col32 := c.ints.col32 ++ [u32 c.strings.length] }
      strings := c.strings ++ [s] }
  | some k => { c with ints := { c.ints with col32 := c.ints.col32 ++ [k] } }

/-- `StringColumn::Add` (`column.cc:150-164`).  There is no test of `finalized_`. -/
def add (c : StrCol) (raw : List String) : StrCol :=
  if c.status ≠ .ok then c else raw.foldl addOne c

/-- `StringColumn::Finalize` (`column.cc:166-182`). -/
def finalize (c : StrCol) : StrCol :=
  if c.status ≠ .ok then c
  else if c.ints.finalized then { c with status := .failedPrecondition }
  else
    let ints :=
      if c.maxInt ≤ 256 then { c.ints with col8 := IntCol.convert8 c.ints.col32, col32 := [] }
      else if c.maxInt ≤ 65536 then { c.ints with col16 := IntCol.convert16 c.ints.col32, col32 := [] }
      else c.ints
    { c with ints := ints.finalize }

/-- `Column::size` of a string column (`column.cc:135-137`). -/
def size (c : StrCol) : Outcome Nat := c.ints.size

/-- `StringColumn::get_cat_string` (`column.h:112-114`). -/
def catString (c : StrCol) (k : Nat) : Outcome String := Outcome.vecGet c.strings k

/-- `StringColumn::get_cat_index` (`column.h:115-122`). -/
def catIndex (c : StrCol) (s : String) : Option Nat := c.indices.find s

/-- `StringColumn::get_row_string` (`column.cc:146-148`). -/
def rowString (c : StrCol) (i : Nat) : Outcome String := do
  let k ← c.ints.code i
  c.catString k

/-- Feeding blocks and finalizing, as `Column::CreateStringColumn` (`column.cc:307-313`, one block) and the TSV
loader (`tsv_data_store.cc:101-132`, one block per file) do. -/
def build (blocks : List (List String)) : StrCol := (blocks.foldl add new).finalize

end StrCol

end Gbdt
