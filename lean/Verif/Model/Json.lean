import Verif.Model.Tree

/-!
# Model of `json_utils.cc` for `tree.proto`

The conversion is that of protobuf (version 3.6.1 of `WORKSPACE`), which is not in the repository; the JSON mapping of proto3 is followed
for the messages of `tree.proto`.  JSON is modelled as a value, not as text: quoting and digits are protobuf's and Python's.  Of
a key given twice protobuf merges the values; here the last one counts.
-/

set_option autoImplicit false

namespace Gbdt

mutual
/-- A JSON value (what `json_utils.cc:49-67` writes and reads, and `json.loads` gives); `N` are its numbers. -/
inductive Json (N : Type) where
  | null
  | bool (b : Bool)
  | num (x : N)
  | str (s : String)
  | arr (l : JsonList N)
  | obj (l : JsonFields N)
/-- The elements of an array (of `repeated` fields, `tree.proto:21-23, 49`). -/
inductive JsonList (N : Type) where
  | nil
  | cons (x : Json N) (l : JsonList N)
/-- The entries of an object (the fields of a message, `tree.proto:20-51`). -/
inductive JsonFields (N : Type) where
  | nil
  | cons (key : String) (x : Json N) (l : JsonFields N)
end

variable {D A N : Type}

/-- How protobuf writes and reads the fields of type `float`, `double` and `int32` (`tree.proto:23, 28, 38, 42`): scores and gains, thresholds,
indices.  What is not finite is written as a string. -/
structure NumCodec (D A N : Type) where
  real : D → Json N
  readReal : Json N → Option D
  single : Fl A → Json N
  readSingle : Json N → Option (Fl A)
  index : Nat → Json N
  readIndex : Json N → Option Nat

/-- `Forest` (`tree.proto:48-51`). -/
structure ForestMsg (D A : Type) where
  trees : List (Tree D A)
  metaInfo : String := ""

/-- Two lists of entries one after the other (`json_utils.cc:53-55`: the fields in the order of `tree.proto`). -/
def JsonFields.append : JsonFields N → JsonFields N → JsonFields N
  | .nil, m => m
  | .cons k x l, m => .cons k x (l.append m)

/-- A `repeated` field (`tree.proto:21-23, 49`). -/
def jsonList {α : Type} (f : α → Json N) : List α → JsonList N
  | [] => .nil
  | x :: l => .cons (f x) (jsonList f l)

/-- A field that holds a message: it is written only if it is set (`json_utils.cc:51`: only primitive fields are always written). -/
def jsonOpt (key : String) : Option (Json N) → JsonFields N
  | none => .nil
  | some x => .cons key x .nil

/-- `ToJson` of `FloatSplit` (`tree.proto:27-31`). -/
def floatSplitJson (nc : NumCodec D A N) (s : FloatSplit A) : Json N :=
  .obj (.cons "threshold" (nc.single s.threshold) (.cons "missingToRightChild" (.bool s.missingToRight) .nil))

/-- `ToJson` of `CategoricalSplit` (`tree.proto:20-24`). -/
def catSplitJson (nc : NumCodec D A N) (s : CatSplit) : Json N :=
  .obj (.cons "category" (.arr (jsonList Json.str s.category))
    (.cons "internalCategoricalIndex" (.arr (jsonList nc.index s.index)) .nil))

/-- `ToJson` of `Split` (`tree.proto:33-39`). -/
def splitJson (nc : NumCodec D A N) (s : Split D A) : Json N :=
  .obj (.cons "feature" (.str s.feature)
    ((jsonOpt "floatSplit" (s.floatSplit.map (floatSplitJson nc))).append
      ((jsonOpt "catSplit" (s.catSplit.map (catSplitJson nc))).append (.cons "gain" (nc.real s.gain) .nil))))

/-- `ToJson` of `TreeNode` (`tree.proto:41-46`); `none` for a child that is not set. -/
def treeJson (nc : NumCodec D A N) : Tree D A → Option (Json N)
  | .absent => none
  | .node score split left right =>
    some (.obj (.cons "score" (nc.real score)
      ((jsonOpt "split" (split.map (splitJson nc))).append
        ((jsonOpt "leftChild" (treeJson nc left)).append (jsonOpt "rightChild" (treeJson nc right))))))

/-- How deep the messages in a split are nested (`tree.proto:33-36`). -/
def splitNesting (s : Split D A) : Nat := if s.floatSplit.isSome ∨ s.catSplit.isSome then 2 else 1

/-- How deep the messages in a tree are nested, the tree counted (`tree.proto:41-46`). -/
def treeNesting : Tree D A → Nat
  | .absent => 0
  | .node _ split left right =>
    1 + max (match split with | none => 0 | some s => splitNesting s) (max (treeNesting left) (treeNesting right))

/-- How deep the messages in the field `tree` are nested (`tree.proto:49`). -/
def forestNesting (trees : List (Tree D A)) : Nat := (trees.map treeNesting).foldr max 0

/-- `JsonUtils::ToJson` (`json_utils.cc:49-56`) of a forest.  protobuf refuses messages nested deeper than a limit (64 for writing JSON,
100 for reading a message in version 3.6.1; `error` here).  An element of `tree` is always written; `absent` ones do not arise. -/
def forestToJson (nc : NumCodec D A N) (limit : Nat) (f : ForestMsg D A) : Except Unit (Json N) :=
  if forestNesting f.trees ≤ limit then
    .ok (.obj (.cons "tree" (.arr (jsonList (fun t => (treeJson nc t).getD (.obj .nil)) f.trees))
      (.cons "metaInfo" (.str f.metaInfo) .nil)))
  else .error ()

/-! ## Reading -/

/-- A `repeated string` (`tree.proto:21`). -/
def readStrings : JsonList N → Option (List String)
  | .nil => some []
  | .cons (.str s) l => (readStrings l).map (s :: ·)
  | .cons _ _ => none

/-- A `repeated int32` (`tree.proto:23`). -/
def readIndices (nc : NumCodec D A N) : JsonList N → Option (List Nat)
  | .nil => some []
  | .cons x l => (nc.readIndex x).bind (fun i => (readIndices nc l).map (i :: ·))

/-- `FromJson` (`json_utils.cc:58-67`) of the entries of a `FloatSplit` (`tree.proto:27-31`): both spellings of a name are read, `null`
means the default, other names are refused. -/
def readFloatSplit (nc : NumCodec D A N) : JsonFields N → FloatSplit A → Option (FloatSplit A)
  | .nil, s => some s
  | .cons key x l, s =>
    if key = "threshold" then match x with
      | .null => readFloatSplit nc l s
      | x => (nc.readSingle x).bind (fun v => readFloatSplit nc l { s with threshold := v })
    else if key = "missingToRightChild" ∨ key = "missing_to_right_child" then match x with
      | .null => readFloatSplit nc l s
      | .bool b => readFloatSplit nc l { s with missingToRight := b }
      | _ => none
    else none

/-- The same for a `CategoricalSplit` (`json_utils.cc:58-67`, `tree.proto:20-24`). -/
def readCatSplit (nc : NumCodec D A N) : JsonFields N → CatSplit → Option CatSplit
  | .nil, s => some s
  | .cons key x l, s =>
    if key = "category" then match x with
      | .null => readCatSplit nc l s
      | .arr a => (readStrings a).bind (fun v => readCatSplit nc l { s with category := v })
      | _ => none
    else if key = "internalCategoricalIndex" ∨ key = "internal_categorical_index" then match x with
      | .null => readCatSplit nc l s
      | .arr a => (readIndices nc a).bind (fun v => readCatSplit nc l { s with index := v })
      | _ => none
    else none

/-- The same for a `Split` (`json_utils.cc:58-67`, `tree.proto:33-39`); `zero` is the default of a threshold. -/
def readSplit (nc : NumCodec D A N) (zero : A) : JsonFields N → Split D A → Option (Split D A)
  | .nil, s => some s
  | .cons key x l, s =>
    if key = "feature" then match x with
      | .null => readSplit nc zero l s
      | .str v => readSplit nc zero l { s with feature := v }
      | _ => none
    else if key = "floatSplit" ∨ key = "float_split" then match x with
      | .null => readSplit nc zero l s
      | .obj o => (readFloatSplit nc o ⟨.num zero, false⟩).bind (fun v => readSplit nc zero l { s with floatSplit := some v })
      | _ => none
    else if key = "catSplit" ∨ key = "cat_split" then match x with
      | .null => readSplit nc zero l s
      | .obj o => (readCatSplit nc o {}).bind (fun v => readSplit nc zero l { s with catSplit := some v })
      | _ => none
    else if key = "gain" then match x with
      | .null => readSplit nc zero l s
      | x => (nc.readReal x).bind (fun v => readSplit nc zero l { s with gain := v })
    else none

/-- The fields of a `TreeNode` (`tree.proto:41-46`). -/
structure NodeFields (D A : Type) where
  score : D
  split : Option (Split D A) := none
  left : Tree D A := .absent
  right : Tree D A := .absent

/-- The node with these fields (`tree.proto:41-46`). -/
def NodeFields.tree (n : NodeFields D A) : Tree D A := .node n.score n.split n.left n.right

variable [Zero D]

/-- The same for a `TreeNode` (`json_utils.cc:58-67`, `tree.proto:41-46`). -/
def readNode (nc : NumCodec D A N) (zero : A) : JsonFields N → NodeFields D A → Option (NodeFields D A)
  | .nil, n => some n
  | .cons key .null l, n =>
    if key = "score" ∨ key = "split" ∨ key = "leftChild" ∨ key = "left_child" ∨ key = "rightChild" ∨ key = "right_child" then
      readNode nc zero l n
    else none
  | .cons key (.obj o) l, n =>
    if key = "split" then
      (readSplit nc zero o { gain := 0 }).bind (fun v => readNode nc zero l { n with split := some v })
    else if key = "leftChild" ∨ key = "left_child" then
      (readNode nc zero o { score := 0 }).bind (fun v => readNode nc zero l { n with left := v.tree })
    else if key = "rightChild" ∨ key = "right_child" then
      (readNode nc zero o { score := 0 }).bind (fun v => readNode nc zero l { n with right := v.tree })
    else none
  | .cons key x l, n =>
    if key = "score" then (nc.readReal x).bind (fun v => readNode nc zero l { n with score := v })
    else none

/-- A `repeated TreeNode` (`tree.proto:49`). -/
def readTrees (nc : NumCodec D A N) (zero : A) : JsonList N → Option (List (Tree D A))
  | .nil => some []
  | .cons (.obj o) l =>
    (readNode nc zero o { score := 0 }).bind (fun v => (readTrees nc zero l).map (v.tree :: ·))
  | .cons _ _ => none

/-- The entries of a `Forest` (`json_utils.cc:58-67`, `tree.proto:48-51`). -/
def readForest (nc : NumCodec D A N) (zero : A) : JsonFields N → ForestMsg D A → Option (ForestMsg D A)
  | .nil, f => some f
  | .cons key x l, f =>
    if key = "tree" then match x with
      | .null => readForest nc zero l f
      | .arr a => (readTrees nc zero a).bind (fun v => readForest nc zero l { f with trees := v })
      | _ => none
    else if key = "metaInfo" ∨ key = "meta_info" then match x with
      | .null => readForest nc zero l f
      | .str s => readForest nc zero l { f with metaInfo := s }
      | _ => none
    else none

/-- `JsonUtils::FromJson` (`json_utils.cc:58-67`) into an empty forest, as in `Forest(str)` (`forest_py.cc:19-25`) and `LoadForestOrDie`
(`gbdt_algo/utils.cc:195-202`). -/
def forestFromJson (nc : NumCodec D A N) (zero : A) (limit : Nat) : Json N → Except Unit (ForestMsg D A)
  | .obj o => match readForest nc zero o { trees := [] } with
    | some f => if forestNesting f.trees ≤ limit then .ok f else .error ()
    | none => .error ()
  | _ => .error ()

end Gbdt
