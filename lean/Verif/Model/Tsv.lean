import Verif.Model.Text
import Verif.Model.DataStore

/-!
# Model of the TSV loader

`parse : Text → Option (Fl A)` stands for `StringCast<float>` (`utils.cc:89-93`, a call of `strtof`): `none` when the
whole string is not a number.  A file is `some contents`, or `none` when it does not exist.
-/

set_option autoImplicit false

namespace Gbdt

variable {A : Type} [LinearOrder A]

/-- `TSVBlock::kValidNaNValues_` (`tsv_block.cc:29`). -/
def nanTokens : List Text := ["NAN".toList, "nan".toList, "NaN".toList, "?".toList, "_".toList, "-".toList, "*".toList]

/-- `strings::split(line, "\t")` (`tsv_block.cc:63`, `tsv_data_store.cc:139`).  `split` never runs forever on a
non-empty delimiter (C15), so the second case does not arise. -/
def splitTab (line : Text) : List Text :=
  match split line ['\t'] with
  | some ws => ws
  | none => []

/-- The body of the loop over string columns (`tsv_block.cc:66-75`). -/
def stringCell (row : List Text) (idx : Nat) : Except Code String :=
  match row[idx]? with
  | none => .error .outOfRange
  | some t => .ok (String.ofList t)

/-- The body of the loop over float columns (`tsv_block.cc:78-97`). -/
def floatCell (parse : Text → Option (Fl A)) (row : List Text) (idx : Nat) : Except Code (Fl A) :=
  match row[idx]? with
  | none => .error .outOfRange
  | some t =>
    match parse t with
    | some v => .ok v
    | none => if t ∈ nanTokens then .ok .nan else .error .invalidArgument

/-- One non-empty line (`tsv_block.cc:63-97`): the string columns first, then the float columns. -/
def readRow (parse : Text → Option (Fl A)) (fidx sidx : List Nat) (line : Text) :
    Except Code (List String × List (Fl A)) := do
  let row := splitTab line
  let ss ← sidx.mapM (stringCell row)
  let fs ← fidx.mapM (floatCell parse row)
  pure (ss, fs)

/-- `string_columns_` and `float_columns_` of a `TSVBlock` (`tsv_block.h:48-49`). -/
structure Block (A : Type) where
  strings : List (List String)
  floats : List (List (Fl A))
  deriving DecidableEq

/-- The `push_back`s of one line (`tsv_block.cc:74, 87, 95`). -/
def pushRow {α : Type} (cols : List (List α)) (cells : List α) : List (List α) :=
  List.zipWith (fun c x => c ++ [x]) cols cells

/-- The loop over lines (`tsv_block.cc:60-98`). -/
def readRows (parse : Text → Option (Fl A)) (fidx sidx : List Nat) : List Text → Block A → Except Code (Block A)
  | [], b => .ok b
  | line :: lines, b =>
    if line = [] then readRows parse fidx sidx lines b
    else
      match readRow parse fidx sidx line with
      | .error e => .error e
      | .ok (ss, fs) =>
        readRows parse fidx sidx lines { strings := pushRow b.strings ss, floats := pushRow b.floats fs }

/-- `TSVBlock::ReadTSV` (`tsv_block.cc:38-105`).  (The clock and the log message are left out.) -/
def readTSV (parse : Text → Option (Fl A)) (file : Option Text) (fidx sidx : List Nat) (skipHeader : Bool) :
    Except Code (Block A) :=
  match file with
  | none => .error .notFound
  | some s =>
    let lines := readLines s
    readRows parse fidx sidx (if skipHeader then lines.tail else lines)
      { strings := List.replicate sidx.length [], floats := List.replicate fidx.length [] }

/-- The column lists of a `Config` that the loader reads (`src/proto/config.proto`; an empty target, weight or group
column name means "not given"). -/
structure TsvConfig where
  floatFeature : List String := []
  additionalFloat : List String := []
  target : String := ""
  weight : String := ""
  categoricalFeature : List String := []
  group : String := ""
  additionalString : List String := []

/-- The columns requested, in the order in which `SetupColumns` creates them (`tsv_data_store.cc:148-213`). -/
def TsvConfig.requests (c : TsvConfig) : List (ColType × String) :=
  c.floatFeature.map (ColType.bucketized, ·) ++
  (c.additionalFloat ++ (if c.target = "" then [] else [c.target]) ++
    (if c.weight = "" then [] else [c.weight])).map (ColType.raw, ·) ++
  (c.categoricalFeature ++ (if c.group = "" then [] else [c.group])).map (ColType.string, ·) ++
  c.additionalString.map (ColType.string, ·)

/-- `map_from_header_to_index.find(name)` (`tsv_data_store.cc:141-145`): headers are trimmed, and of equal headers
the last one counts. -/
def headerIndex (headers : List Text) (name : String) : Option Nat :=
  let hits := (headers.zipIdx).filter (fun p => String.ofList (trim p.1) == name)
  hits.getLast?.map Prod.snd

/-- An entry of `bucketized_float_columns_`, `raw_float_columns_` or `string_columns_` (`tsv_data_store.h:46-48`):
`obj` is the column pointed to (a position in the heap of columns), `slot` the position of its cells in a block. -/
structure Handle where
  kind : ColType
  obj : Nat
  slot : Nat

/-- The state built by `SetupColumns`: the heap of columns (`none`: destroyed), `column_map_` and the lists of
column pointers and of cell indices (`tsv_data_store.h:46-50`, `data_store.h:52`). -/
structure Setup (A : Type) where
  heap : List (Option (Column A)) := []
  map : List (String × Nat) := []
  handles : List Handle := []
  fidx : List Nat := []
  sidx : List Nat := []

/-- `new StringColumn(h)` etc. (`tsv_data_store.cc:154, 175, 195, 208`); the default number of buckets is 30000
(`column.h:140`). -/
def newColumn : ColType → Column A
  | .string => .str StrCol.new
  | .bucketized => .bkt (BktCol.new 30000)
  | .raw => .raw {}

/-- `column_map_[header].reset(new …)` (`tsv_data_store.cc:154`): the column held under the name is destroyed. -/
def Setup.reset (s : Setup A) (k : ColType) (name : String) : Setup A :=
  { s with
    heap := (match s.map.lookup name with
      | some old => s.heap.set old none
      | none => s.heap) ++ [some (newColumn k)]
    map := (name, s.heap.length) :: s.map.filter (fun p => p.1 != name) }

/-- The body of the four loops of `SetupColumns` (`tsv_data_store.cc:148-159, 169-180, 188-199, 202-213`), which
differ only in the class of the column and the index vector used. -/
def setupOne (headers : List Text) (s : Setup A) (r : ColType × String) : Except Code (Setup A) :=
  match headerIndex headers r.2 with
  | none => .error .notFound
  | some i =>
    let s1 := s.reset r.1 r.2
    match r.1 with
    | .string => .ok { s1 with
        handles := s1.handles ++ [⟨.string, s.heap.length, s1.sidx.length⟩]
        sidx := s1.sidx ++ [i] }
    | k => .ok { s1 with
        handles := s1.handles ++ [⟨k, s.heap.length, s1.fidx.length⟩]
        fidx := s1.fidx ++ [i] }

/-- `strings::split(ReadFirstLine(first_tsv), "\t")` (`tsv_data_store.cc:39-42, 139`). -/
def headersOf (s : Text) : List Text :=
  match readLines s with
  | [] => []
  | l :: _ => splitTab l

/-- `SetupColumns` (`tsv_data_store.cc:134-216`). -/
def setupColumns (first : Option Text) (config : TsvConfig) : Except Code (Setup A) :=
  match first with
  | none => .error .notFound
  | some s =>
    config.requests.foldlM (setupOne (headersOf s)) {}

/-- `column->Add(&block->…_columns()[slot])` (`tsv_data_store.cc:104-112`). -/
def Column.addCells (fmax : A) (b : Block A) (slot : Nat) : Column A → Outcome (Column A)
  | .str c => do
    let v ← Outcome.vecGet b.strings slot
    pure (.str (c.add v))
  | .bkt c => do
    let v ← Outcome.vecGet b.floats slot
    let c1 ← c.add fmax v
    pure (.bkt c1)
  | .raw c => do
    let v ← Outcome.vecGet b.floats slot
    pure (.raw (c.add v))

/-- `column->Finalize()` (`tsv_data_store.cc:121-129`). -/
def Column.finalize (fmax : A) : Column A → Outcome (Column A)
  | .str c => pure (.str c.finalize)
  | .bkt c => do
    let c1 ← c.finalize fmax
    pure (.bkt c1)
  | .raw c => pure (.raw c.finalize)

/-- A pool task that calls a method of the column pointed to by a handle (`tsv_data_store.cc:104-112, 121-129`).
Using a destroyed column is undefined behaviour. -/
def runTask (f : Handle → Column A → Outcome (Column A)) (heap : List (Option (Column A))) (h : Handle) :
    Outcome (List (Option (Column A))) :=
  match heap[h.obj]? with
  | some (some c) => do
    let c1 ← f h c
    pure (heap.set h.obj (some c1))
  | _ => .ub

/-- The status of a column (`column.h:45-47`). -/
def Column.status : Column A → Code
  | .str c => c.status
  | .bkt c => c.status
  | .raw c => c.status

/-- `MaybeFindFirstNotOK(column_map_)` (`tsv_data_store.cc:44-51`).  The status of the first column that has a bad one,
in the iteration order of the map (here: the order of the entries of `map`). -/
def firstNotOk (heap : List (Option (Column A))) : List (String × Nat) → Outcome Code
  | [] => .ok .ok
  | p :: ps =>
    match heap[p.2]? with
    | some (some c) => if c.status ≠ .ok then .ok c.status else firstNotOk heap ps
    | _ => .ub

/-- `LoadTSVs` after the setup (`tsv_data_store.cc:80-90`): block after block in file order, whatever order the
parsing threads finish in (block `i` is awaited by `get_future().wait()`).  `sched n` is the order in which the pool
of block `n` runs the tasks; a task touches only its own column, so tasks are taken as atomic steps. -/
def processBlocks (fmax : A) (parse : Text → Option (Fl A)) (sched : Nat → List Handle → List Handle) (s : Setup A) :
    List (Option Text) → Nat → List (Option (Column A)) → Outcome (Except Code (List (Option (Column A))))
  | [], _, heap => .ok (.ok heap)
  | file :: files, n, heap =>
    match readTSV parse file s.fidx s.sidx (n == 0) with
    | .error e => .ok (.error e)
    | .ok b => do
      let heap1 ← (sched n s.handles).foldlM (runTask (fun h => Column.addCells fmax b h.slot)) heap
      let st ← firstNotOk heap1 s.map
      if st ≠ .ok then pure (.error st)
      else processBlocks fmax parse sched s files (n + 1) heap1

/-- The store whose `column_map_` is `map` with its columns in `heap`. -/
def storeOf (heap : List (Option (Column A))) : List (String × Nat) → DataStore A
  | [] => []
  | p :: ps =>
    match heap[p.2]? with
    | some (some c) => (p.1, c) :: storeOf heap ps
    | _ => storeOf heap ps

/-- `TSVDataStore::LoadTSVs` (`tsv_data_store.cc:59-99`): the store, or the status it fails with. -/
def loadTSVs (fmax : A) (parse : Text → Option (Fl A)) (sched : Nat → List Handle → List Handle)
    (files : List (Option Text)) (config : TsvConfig) : Outcome (Except Code (DataStore A)) :=
  match files with
  | [] => .ok (.error .invalidArgument)
  | first :: _ =>
    match setupColumns first config with
    | .error e => .ok (.error e)
    | .ok s => do
      let r ← processBlocks fmax parse sched s files 0 s.heap
      match r with
      | .error e => pure (.error e)
      | .ok heap =>
        let heap1 ← (sched files.length s.handles).foldlM (runTask (fun _ => Column.finalize fmax)) heap
        let st ← firstNotOk heap1 s.map
        if st ≠ .ok then pure (.error st) else pure (.ok (storeOf heap1 s.map))

end Gbdt
