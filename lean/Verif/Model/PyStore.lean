import Verif.Model.DataStore

/-!
# Model of the Python classes `DataStore` and `DataLoader` (`/repo/gbdt/_data_store.py`)

A Python `DataStore` wraps a `DataStorePy`, which holds a store or none (`datastore_py.h:72`).  `place` is the order in which
the hash map iterates after an insertion.  Numbers are `float`s when they reach the store.
-/

set_option autoImplicit false

namespace Gbdt

/-- Exceptions seen by a Python caller: those thrown by the library, those of `pybind11` for an argument that does not
fit its type, and those of the Python code (`_data_store.py:13`, `_gbdt.py:34`). -/
inductive PyErr where
  | lib (e : PyExc)
  | typeError
  | valueError
  deriving Repr, DecidableEq

/-- The outcome of a piece of Python code: a value or an exception, unless the library crashes. -/
abbrev PyRes (α : Type) := Outcome (Except PyErr α)

/-- Sequencing of Python code: an exception ends it (all of `/repo/gbdt/_data_store.py`; nothing there catches one). -/
def PyRes.andThen {α β : Type} (x : PyRes α) (f : α → PyRes β) : PyRes β :=
  match x with
  | .ok (.ok a) => f a
  | .ok (.error e) => .ok (.error e)
  | .ub => .ub
  | .fatal => .fatal

/-- An element of a column as Python sees it. -/
inductive Cell (A : Type) where
  | str (s : String)
  | num (x : Fl A)
  deriving Repr, DecidableEq

namespace PyStore

variable {A : Type} [LinearOrder A]

/-- The `int` parameter of `__getitem__` (`column_py.cc:125, 133, 141`): `pybind11` refuses other numbers. -/
def asInt {α : Type} (i : Int) (f : Int → Outcome (Except PyExc α)) : PyRes α :=
  if -2147483648 ≤ i ∧ i < 2147483648 then
    match f i with
    | .ok (.ok a) => .ok (.ok a)
    | .ok (.error e) => .ok (.error (.lib e))
    | .ub => .ub
    | .fatal => .fatal
  else .ok (.error .typeError)

/-- `column[i]` (`column_py.cc:42-47, 67-72, 93-98`): the string, the number, or the minimum of the bucket. -/
def item (c : Column A) (i : Int) : PyRes (Cell A) :=
  match c with
  | .str c => asInt i (fun i => do
      let r ← pyGet (some c) StrCol.size StrCol.rowString i
      pure (r.map Cell.str))
  | .bkt c => asInt i (fun i => do
      let r ← pyGet (some c) BktCol.size BktCol.rowMin i
      pure (r.map Cell.num))
  | .raw c => asInt i (fun i => do
      let r ← pyGet (some c) (fun c => .ok c.size) RawCol.get i
      pure (r.map Cell.num))

/-- `buckets()` of a bucketized column (`column_py.cc:100-107`): the loop over `max_int()` is by a signed number, which makes no difference below 2^31. -/
def buckets (c : BktCol A) : Outcome (List (Fl A × Fl A)) :=
  (List.range c.maxInt).mapM (fun k => do
    let lo ← c.bucketMin k
    let hi ← c.bucketMax k
    pure (lo, hi))

/-- `_get_col` (`_data_store.py:11-21`, `datastore_py.cc:59-82, 162-184`): `ValueError` for an unknown name. -/
def getCol (s : Option (DataStore A)) (name : String) : PyRes (Column A) :=
  match s with
  | none => .ok (.error .valueError)
  | some t => match t.getColumn name with
    | none => .ok (.error .valueError)
    | some c => .ok (.ok c)

/-- `cols()` (`_data_store.py:35-36`, `datastore_py.cc:117-156`). -/
def cols (s : Option (DataStore A)) : List String :=
  match s with
  | none => []
  | some t => t.allNames

/-- `len(data_store)` (`_data_store.py:8-9`, `datastore_py.h:37-39`); the count is below 2^31. -/
def len (s : Option (DataStore A)) : Outcome Nat :=
  match s with
  | none => .ok 0
  | some t => t.numRows

/-- `[value[i] for i in index]` (`_data_store.py:86-90`). -/
def items (c : Column A) : List Int → PyRes (List (Cell A))
  | [] => .ok (.ok [])
  | i :: is => (item c i).andThen (fun v => (items c is).andThen (fun vs => .ok (.ok (v :: vs))))

/-- The strings among the cells (the conversion to `vector<string>`, `datastore_py.cc:84-85`). -/
def strings : List (Cell A) → List String
  | [] => []
  | .str s :: l => s :: strings l
  | .num _ :: l => strings l

/-- The numbers among the cells (the conversion to `vector<float>`, `datastore_py.cc:93-94, 102-103`). -/
def numbers : List (Cell A) → List (Fl A)
  | [] => []
  | .num x :: l => x :: numbers l
  | .str _ :: l => numbers l

/-- The column that is created from the values (`datastore_py.cc:87, 96, 105`).  `nb` is 30000 (`column.h:46`). -/
def createCol (fmax : A) (nb : Nat) (t : ColType) (vals : List (Cell A)) : Outcome (Column A) :=
  match t with
  | .string => .ok (Column.createString (strings vals))
  | .bucketized => Column.createBucketized fmax (numbers vals) nb
  | .raw => .ok (Column.createRaw (numbers vals))

/-- `add_string_col`, `add_bucketized_float_col`, `add_raw_float_col` (`_data_store.py:50-72`, `datastore_py.cc:84-109`):
an exception, or the new store. -/
def addCol (fmax : A) (nb : Nat) (place : DataStore A → DataStore A) (s : Option (DataStore A)) (name : String)
    (t : ColType) (vals : List (Cell A)) : PyRes (Option (DataStore A)) :=
  match DataStorePy.add place s name (createCol fmax nb t vals) with
  | .ok (none, s') => .ok (.ok s')
  | .ok (some e, _) => .ok (.error (.lib e))
  | .ub => .ub
  | .fatal => .fatal

/-- The loop of `slice` over `items()` (`_data_store.py:78-91`); `d` is the new store. -/
def sliceLoop (fmax : A) (nb : Nat) (place : DataStore A → DataStore A) (s : Option (DataStore A)) (index : List Int) :
    Option (DataStore A) → List String → PyRes (Option (DataStore A))
  | d, [] => .ok (.ok d)
  | d, name :: names =>
    (getCol s name).andThen (fun c =>
      (items c index).andThen (fun vals =>
        (addCol fmax nb place d name c.type vals).andThen (fun d1 => sliceLoop fmax nb place s index d1 names)))

/-- `slice(index)` (`_data_store.py:82-91`). -/
def slice (fmax : A) (nb : Nat) (place : DataStore A → DataStore A) (s : Option (DataStore A)) (index : List Int) :
    PyRes (Option (DataStore A)) :=
  sliceLoop fmax nb place s index none (cols s)

/-- `copy()` (`_data_store.py:93-94`). -/
def copy (fmax : A) (nb : Nat) (place : DataStore A → DataStore A) (s : Option (DataStore A)) :
    PyRes (Option (DataStore A)) :=
  match len s with
  | .ok n => slice fmax nb place s ((List.range n).map Int.ofNat)
  | .ub => .ub
  | .fatal => .fatal

/-- The loops that add the columns of dictionaries (`_data_store.py:132-137, 161-168`). -/
def addAll (fmax : A) (nb : Nat) (place : DataStore A → DataStore A) :
    Option (DataStore A) → List (String × ColType × List (Cell A)) → PyRes (Option (DataStore A))
  | d, [] => .ok (.ok d)
  | d, (name, t, vals) :: rest =>
    (addCol fmax nb place d name t vals).andThen (fun d1 => addAll fmax nb place d1 rest)

/-- `DataLoader.from_dict` (`_data_store.py:125-139`). -/
def fromDict (fmax : A) (nb : Nat) (place : DataStore A → DataStore A) (bucketized : List (String × List (Fl A)))
    (strs : List (String × List String)) (raw : List (String × List (Fl A))) : PyRes (Option (DataStore A)) :=
  addAll fmax nb place none
    (bucketized.map (fun p => (p.1, .bucketized, p.2.map Cell.num)) ++
      (strs.map (fun p => (p.1, .string, p.2.map Cell.str)) ++ raw.map (fun p => (p.1, .raw, p.2.map Cell.num))))

/-- A column of a data frame: numeric, or of some other type whose elements are strings. -/
inductive DfCol (A : Type) where
  | numeric (vals : List (Fl A))
  | other (vals : List String)
  deriving Repr, DecidableEq

/-- What `from_df` adds for a numeric column (`_data_store.py:161-165`): `raw` and `str` are the overrides. -/
def dfNumeric (raw str : String → Bool) : String × DfCol A → List (String × ColType × List (Cell A))
  | (name, .numeric vals) =>
    if raw name then [(name, .raw, vals.map Cell.num)]
    else if !str name then [(name, .bucketized, vals.map Cell.num)]
    else []
  | (_, .other _) => []

/-- What `from_df` adds for another column (`_data_store.py:167-168`). -/
def dfOther : String × DfCol A → List (String × ColType × List (Cell A))
  | (_, .numeric _) => []
  | (name, .other vals) => [(name, .string, vals.map Cell.str)]

/-- `DataLoader.from_df` (`_data_store.py:142-170`); `overrides` is the dictionary `type_overrides`. -/
def fromDf (fmax : A) (nb : Nat) (place : DataStore A → DataStore A) (df : List (String × DfCol A))
    (overrides : String → Option String) : PyRes (Option (DataStore A)) :=
  let raw := fun k => overrides k == some "float" || overrides k == some "raw_float"
  let str := fun k => overrides k == some "string"
  addAll fmax nb place none (df.flatMap (dfNumeric raw str) ++ df.flatMap dfOther)

/-- What may stand in the brackets of `data_store[k]` (`_data_store.py:23-33`).  A tuple of two other things than integers, or a list with one, is left
out (`range`, or reading the first column, raises an exception). -/
inductive PyKey where
  | int (k : Int)
  | pair (a b : Int)
  | list (l : List Int)
  | name (s : String)
  | other
  deriving Repr, DecidableEq

/-- `range(a, b)` (`_data_store.py:27`). -/
def pyRange (a b : Int) : List Int := (List.range (b - a).toNat).map (fun (j : Nat) => a + j)

/-- `data_store[k]` (`_data_store.py:23-31`): a store or a column.  A key that is no string (a slice `a:b`, say) is refused by the `__contains__` of
the library (`_data_store.py:12`, `datastore_py.cc:162-184`). -/
def getItem (fmax : A) (nb : Nat) (place : DataStore A → DataStore A) (s : Option (DataStore A)) : PyKey → PyRes (Option (DataStore A) ⊕ Column A)
  | .int k => (slice fmax nb place s [k]).andThen (fun d => .ok (.ok (.inl d)))
  | .pair a b => (slice fmax nb place s (pyRange a b)).andThen (fun d => .ok (.ok (.inl d)))
  | .list l => (slice fmax nb place s l).andThen (fun d => .ok (.ok (.inl d)))
  | .name x => (getCol s x).andThen (fun c => .ok (.ok (.inr c)))
  | .other => .ok (.error .typeError)

/-- `for x in data_store` (there is no `__iter__` in `_data_store.py:4-102`, so Python asks for the elements 0, 1, 2, ... with `__getitem__`, `_data_store.py:23-25`,
until there is an `IndexError`): the stores of the first `fuel` questions from `i` on, and whether the loop has ended by then. -/
def iterFrom (fmax : A) (nb : Nat) (place : DataStore A → DataStore A) (s : Option (DataStore A)) :
    (fuel : Nat) → (i : Nat) → PyRes (List (Option (DataStore A) ⊕ Column A) × Bool)
  | 0, _ => .ok (.ok ([], false))
  | fuel + 1, i => match getItem fmax nb place s (.int i) with
    | .ok (.ok x) => (iterFrom fmax nb place s fuel (i + 1)).andThen (fun r => .ok (.ok (x :: r.1, r.2)))
    | .ok (.error (.lib .outOfRange)) => .ok (.ok ([], true))
    | .ok (.error e) => .ok (.error e)
    | .ub => .ub
    | .fatal => .fatal

/-- `list(column)` (`_data_store.py:102`): the column has no `__iter__` (`column_py.cc:120-143`), so Python asks for the elements
0, 1, 2, ... until there is an `IndexError`, which is what `pybind11` makes of `out_of_range` (`gbdt_py_base.cc:10-11`).  `fuel`
bounds the number of questions; from 2^31 on the answer is a `TypeError`, so that 2^31 + 1 questions are always enough. -/
def listFrom (c : Column A) : (fuel : Nat) → (i : Nat) → PyRes (List (Cell A))
  | 0, _ => .ok (.error .typeError)
  | fuel + 1, i => match item c i with
    | .ok (.ok x) => (listFrom c fuel (i + 1)).andThen (fun xs => .ok (.ok (x :: xs)))
    | .ok (.error (.lib .outOfRange)) => .ok (.ok [])
    | .ok (.error e) => .ok (.error e)
    | .ub => .ub
    | .fatal => .fatal

/-- `list(column)` (`_data_store.py:102`). -/
def listCol (c : Column A) : PyRes (List (Cell A)) := listFrom c (2 ^ 31 + 1) 0

/-- The column of a data frame that is made from a list (`_data_store.py:102`): strings or numbers; pandas chooses the type by
looking at the elements, which agrees with this when there are any. -/
def dfColOf (t : ColType) (vals : List (Cell A)) : DfCol A :=
  match t with
  | .string => .other (strings vals)
  | .bucketized => .numeric (numbers vals)
  | .raw => .numeric (numbers vals)

/-- The columns of `to_df` (`_data_store.py:78-80, 96-102`). -/
def toDfLoop (s : Option (DataStore A)) : List String → PyRes (List (String × DfCol A))
  | [] => .ok (.ok [])
  | name :: names =>
    (getCol s name).andThen (fun c =>
      (listCol c).andThen (fun vals =>
        (toDfLoop s names).andThen (fun rest => .ok (.ok ((name, dfColOf c.type vals) :: rest)))))

/-- `to_df()` (`_data_store.py:96-102`). -/
def toDf (s : Option (DataStore A)) : PyRes (List (String × DfCol A)) := toDfLoop s (cols s)

end PyStore

end Gbdt
