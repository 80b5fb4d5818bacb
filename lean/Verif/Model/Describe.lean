import Verif.Model.PyStore
import Verif.Model.Text

/-!
# Model of `repr` of columns and stores (`column_py.cc:49-58, 74-84, 109-118`, `data_store.cc:147-154`, `datastore_py.h:33-35`)

How a number is printed is a parameter.
-/

set_option autoImplicit false

namespace Gbdt

namespace PyStore

variable {A : Type} [LinearOrder A]

/-- An element (`column_py.cc:53, 78, 113`): strings between quotation marks, as they are. -/
def cellText (fmt : Fl A → Text) : Cell A → Text
  | .str s => '"' :: (s.toList ++ ['"'])
  | .num x => fmt x

/-- The word before the elements (`column_py.cc:55, 80, 115`). -/
def typeText : ColType → Text
  | .string => "StringColumn".toList
  | .raw => "FloatColumn".toList
  | .bucketized => "BucketizedFloatColumn".toList

/-- `Description` of a column (`column_py.cc:49-58, 74-84, 109-118`): the first `NUM_ELEMENTS_TO_DISPLAY` (`column_py.cc:31`) elements. -/
def describeCol (fmt : Fl A → Text) (c : Column A) : PyRes Text :=
  match c.size with
  | .ok size =>
    let n := min size 10
    (items c ((List.range n).map Int.ofNat)).andThen (fun vals => .ok (.ok
      (typeText c.type ++ "([".toList ++ join (vals.map (cellText fmt)) [','] ++ (if size > n then " ...".toList else []) ++ "])".toList)))
  | .ub => .ub
  | .fatal => .fatal

/-- A count (`data_store.cc:148-153`). -/
def countText (n : Nat) : Text := (toString n).toList

/-- `Description` of a store (`datastore_py.h:33-35`, `data_store.cc:147-154`); the lists counted are those of `data_store.cc:86-117`. -/
def describe (s : Option (DataStore A)) : Outcome Text :=
  match s with
  | none => .ok "Empty data store.".toList
  | some t => do
    let rows ← t.numRows
    pure ("DataStore with ".toList ++ countText (t.namesOf .bucketized).length ++ " bucketized float, ".toList ++
      countText (t.namesOf .raw).length ++ " raw float and ".toList ++ countText (t.namesOf .string).length ++
      " string columns, each with ".toList ++ countText rows ++ " rows.".toList)

end PyStore

end Gbdt
