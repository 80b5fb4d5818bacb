import Verif.Model.Json

/-!
# Model of `/repo/gbdt/_forest_visualizer.py` and of the labels of `/repo/scripts/draw_trees.py`

`none` is an exception (`KeyError`, `IndexError`, `TypeError`, `ValueError`, `RecursionError`).
-/

set_option autoImplicit false

namespace Gbdt

variable {N : Type}

/-- `d[key]` and `key in d` (`_forest_visualizer.py:31, 34-35, 40, 43, 45-46, 49, 52, 59, 62-63`): of a key given twice `json.loads` keeps the last
value. -/
def JsonFields.get : JsonFields N → String → Option (Json N)
  | .nil, _ => none
  | .cons key x l, k => match l.get k with
    | some y => some y
    | none => if key = k then some x else none

/-- `d[key]` of a value (`_forest_visualizer.py:16, 25, 31`): only dictionaries have keys. -/
def Json.get : Json N → String → Option (Json N)
  | .obj o, k => o.get k
  | _, _ => none

/-- A list of strings (`_forest_visualizer.py:40`: `join` raises for anything else). -/
def jsonStrings : JsonList N → Option (List String)
  | .nil => some []
  | .cons (.str s) l => (jsonStrings l).map (s :: ·)
  | .cons _ _ => none

/-- The elements of a list (`_forest_visualizer.py:16, 25`). -/
def JsonList.toList : JsonList N → List (Json N)
  | .nil => []
  | .cons x l => x :: l.toList

/-- `'{:.3f}'`, `'{:.6f}'` and `'{: .6f}'` (`_forest_visualizer.py:32, 46, 49`); strings, such as those for numbers that are not finite, are
refused. -/
structure PyFormat (N : Type) where
  thousandths : Json N → Option String
  millionths : Json N → Option String
  spaced : Json N → Option String

/-- What is asked of `Digraph` (`_forest_visualizer.py:58, 64-65`). -/
inductive DotLine where
  | node (name label : String)
  | edge (a b : String)
  deriving DecidableEq

/-- The sign between feature and threshold (`_forest_visualizer.py:33`): the star is on the side where missing values go. -/
def floatSign (missingToRight : Bool) : String := if missingToRight then "<=*" else "*<="

/-- `__floatSplit__` (`_forest_visualizer.py:30-35`).  A value that is not a boolean does not arise. -/
def floatLabel (fmt : PyFormat N) (split : Json N) : Option String :=
  (split.get "floatSplit").bind (fun f =>
    (split.get "feature").bind (fun name => match name with
      | .str name => (f.get "threshold").bind (fun thr => (fmt.thousandths thr).map (fun t =>
          let right := match f.get "missingToRightChild" with
            | some (.bool b) => b
            | _ => false
          name ++ " " ++ floatSign right ++ " " ++ t))
      | _ => none))

/-- `__catSplit__` (`_forest_visualizer.py:37-40`). -/
def catLabel (split : Json N) : Option String :=
  (split.get "catSplit").bind (fun c =>
    (split.get "feature").bind (fun name => match name with
      | .str name => (c.get "category").bind (fun l => match l with
        | .arr l => (jsonStrings l).map (fun l => name ++ " in " ++ ("{" ++ ", ".intercalate l ++ "}"))
        | _ => none)
      | _ => none))

/-- `__branchNodeLabel__` (`_forest_visualizer.py:42-46`); the backslash is one character of the label, which Graphviz reads as a new
line. -/
def branchLabel (fmt : PyFormat N) (node : Json N) : Option String :=
  (node.get "split").bind (fun split =>
    (if (split.get "floatSplit").isSome then floatLabel fmt split else catLabel split).bind (fun d =>
      (node.get "score").bind (fun x => (fmt.spaced x).map (fun s => d ++ "\\n" ++ s))))

/-- `__leafNodeLabel__` (`_forest_visualizer.py:48-49`). -/
def leafLabel (fmt : PyFormat N) (node : Json N) : Option String := (node.get "score").bind fmt.millionths

/-- `__nodeLabel__` (`_forest_visualizer.py:51-55`). -/
def nodeLabel (fmt : PyFormat N) (node : Json N) : Option String :=
  if (node.get "leftChild").isSome then branchLabel fmt node else leafLabel fmt node

/-- `__visualizeTreeInternal__` (`_forest_visualizer.py:57-65`); Python allows `depth` nested calls. -/
def visualizeNode (fmt : PyFormat N) : Nat → Json N → String → Option (List DotLine)
  | 0, _, _ => none
  | depth + 1, node, name =>
    (nodeLabel fmt node).bind (fun label =>
      match node.get "leftChild" with
      | none => some [.node name label]
      | some left =>
        (visualizeNode fmt depth left (name ++ "l")).bind (fun ls =>
          (node.get "rightChild").bind (fun right =>
            (visualizeNode fmt depth right (name ++ "r")).map (fun rs =>
              .node name label :: (ls ++ rs ++ [.edge name (name ++ "l"), .edge name (name ++ "r")])))))

/-- `l[i]` in Python (`_forest_visualizer.py:25`): negative indices count from the end. -/
def pyIndex {α : Type} (l : List α) (i : Int) : Option α :=
  if 0 ≤ i then l[i.toNat]? else if 0 ≤ i + l.length then l[(i + l.length).toNat]? else none

/-- `num_trees` (`_forest_visualizer.py:15-16`). -/
def numTrees (forest : Json N) : Option Nat :=
  match forest.get "tree" with
  | some (.arr l) => some l.toList.length
  | _ => none

/-- `visualize_tree` (`_forest_visualizer.py:18-28`). -/
def visualizeTree (fmt : PyFormat N) (depth : Nat) (forest : Json N) (i : Int) : Option (List DotLine) :=
  match forest.get "tree" with
  | some (.arr l) => (pyIndex l.toList i).bind (fun tree => visualizeNode fmt depth tree ("tree" ++ toString i))
  | _ => none

/-- The sign in `draw_trees.py` (line 20), which asks only whether the key is there. -/
def scriptSign (floatSplit : Json N) : String := if (floatSplit.get "missingToRightChild").isSome then "<=*" else "*<="

end Gbdt
