import Verif.Model.Tsv

/-!
# Model of the flat file store
-/

set_option autoImplicit false

namespace Gbdt

variable {A : Type} [LinearOrder A]

/-- The loop of `LoadStringColumn` and `LoadFloatColumn` (`flatfiles_data_store.cc:89-95, 104-108`): the lines kept.
A line is dropped when it starts with `#`, or when it is empty and the stream is no longer good, that is, it is the last
piece of the file. -/
def keptLines : List Text → Outcome (List Text)
  | [] => .ok []
  | line :: lines => do
    let comment ← hasPrefix line ['#']
    let rest ← keptLines lines
    if comment || (line == [] && lines == []) then pure rest else pure (line :: rest)

/-- One float line (`flatfiles_data_store.cc:109-114`): whatever is not a number is missing. -/
def floatLine (parse : Text → Option (Fl A)) (line : Text) : Fl A :=
  match parse line with
  | some v => v
  | none => .nan

/-- The part of `LoadColumn` that makes a column from a file (`flatfiles_data_store.cc:51-75, 87-119`): the first line
tells the type; then the whole file is read again (`seekg(0)`).  `none`: unknown type. -/
def loadFile (fmax : A) (parse : Text → Option (Fl A)) (s : Text) : Outcome (Option (Column A)) :=
  let lines := readLines s
  match lines with
  | [] => .ok none
  | first :: _ =>
    if first = "# dtype=strings".toList then do
      let ls ← keptLines lines
      pure (some (Column.createString (ls.map String.ofList)))
    else if first = "# dtype=raw_floats".toList then do
      let ls ← keptLines lines
      pure (some (Column.createRaw (ls.map (floatLine parse))))
    else if first = "# dtype=bucketized_floats".toList then do
      let ls ← keptLines lines
      let c ← Column.createBucketized fmax (ls.map (floatLine parse))
      pure (some c)
    else .ok none

/-- `column_map_` of a flat file store; each column carries the identity of its object, which the pointers handed out
refer to. -/
abbrev FFStore (A : Type) := List (String × Nat × Column A)

/-- The points at which a call of `GetColumn` can be interrupted (`flatfiles_data_store.cc:121-140`): before the locked
lookup, before reading the file, before the locked insertion, before the locked return, and after it with the pointer
returned (`none`: null). -/
inductive CallState (A : Type) where
  | check
  | load
  | insert (c : Column A)
  | fetch
  | done (ptr : Option Nat)

/-- A call `GetColumn(name)` in progress. -/
structure Call (A : Type) where
  name : String
  state : CallState A

/-- The shared state: the map, the next object identity, the calls in progress. -/
structure FFState (A : Type) where
  store : FFStore A := []
  next : Nat := 0
  calls : List (Call A) := []

/-- `num_rows()` (`data_store.cc:67-69`) of a flat file store. -/
def FFStore.numRows (s : FFStore A) : Outcome Nat :=
  match s with
  | [] => .ok 0
  | (_, _, c) :: _ => c.size

/-- The insertion under the lock (`flatfiles_data_store.cc:76-84`).  `column_map_[name] = …` destroys the column held
before; where the new entry comes in the iteration order is arbitrary (`place`). -/
def insertColumn (place : FFStore A → FFStore A) (st : FFState A) (name : String) (c : Column A) :
    Outcome (Option (FFState A)) := do
  let rows ← st.store.numRows
  let size ← c.size
  if rows > 0 ∧ rows ≠ size then pure none
  else pure (some { st with
    store := place ((name, st.next, c) :: st.store.filter (fun p => p.1 != name))
    next := st.next + 1 })

/-- One step of a call (`flatfiles_data_store.cc:43-85, 121-140`).  `files name` is the file `FindFlatfile` finds
(`flatfiles_data_store.cc:33-41`), if any.  Simplification: looking up an absent name before returning would insert a
null pointer; here it only returns null (it does not happen: nothing removes a column). -/
def stepCall (fmax : A) (parse : Text → Option (Fl A)) (place : FFStore A → FFStore A) (files : String → Option Text)
    (st : FFState A) (c : Call A) : Outcome (FFState A × CallState A) :=
  match c.state with
  | .check => .ok (st, if (st.store.lookup c.name).isSome then .fetch else .load)
  | .load =>
    match files c.name with
    | none => .ok (st, .done none)
    | some s => do
      let col ← loadFile fmax parse s
      match col with
      | none => pure (st, .done none)
      | some col => pure (st, .insert col)
  | .insert col => do
    let r ← insertColumn place st c.name col
    match r with
    | none => pure (st, .done none)
    | some st1 => pure (st1, .fetch)
  | .fetch => .ok (st, .done ((st.store.lookup c.name).map Prod.fst))
  | .done p => .ok (st, .done p)

/-- One step of the call number `k`, if there is one. -/
def stepFF (fmax : A) (parse : Text → Option (Fl A)) (place : FFStore A → FFStore A) (files : String → Option Text)
    (st : FFState A) (k : Nat) : Outcome (FFState A) :=
  match st.calls[k]? with
  | none => .ok st
  | some c => do
    let r ← stepCall fmax parse place files st c
    pure { r.1 with calls := r.1.calls.set k { c with state := r.2 } }

/-- A run under a schedule: `sched` names the call that makes each step. -/
def runFF (fmax : A) (parse : Text → Option (Fl A)) (place : FFStore A → FFStore A) (files : String → Option Text)
    (sched : List Nat) (st : FFState A) : Outcome (FFState A) :=
  sched.foldlM (stepFF fmax parse place files) st

/-- The state in which the names are requested and nothing has happened (`gbdt_algo/utils.cc:48-53`). -/
def startFF (store : FFStore A) (next : Nat) (names : List String) : FFState A :=
  { store := store, next := next, calls := names.map (fun n => ⟨n, .check⟩) }

end Gbdt
