import Verif.Model.Visualizer
import Verif.Model.Text

/-!
# Model of `/repo/scripts/draw_trees.py`

The script is for Python 2 (`print >>`, line 67): `json.loads` gives `unicode` strings, and the strings of the script are bytes.  `none` is an exception.
The calls of `dot` (lines 70-72) are left out.
-/

set_option autoImplicit false

namespace Gbdt

variable {N : Type}

/-- `width` hexadecimal digits, part of `repr` (`draw_trees.py:27`). -/
def hexText : Nat → Nat → Text
  | 0, _ => []
  | width + 1, n => hexText width (n / 16) ++ [Nat.digitChar (n % 16)]

/-- A character in the `repr` of a `unicode` string (`draw_trees.py:27`). -/
def reprChar (quote c : Char) : Text :=
  if c = quote ∨ c = '\\' then ['\\', c]
  else if c = '\t' then ['\\', 't']
  else if c = '\n' then ['\\', 'n']
  else if c = '\r' then ['\\', 'r']
  else if 65536 ≤ c.toNat then '\\' :: 'U' :: hexText 8 c.toNat
  else if 256 ≤ c.toNat then '\\' :: 'u' :: hexText 4 c.toNat
  else if c.toNat < 32 ∨ 127 ≤ c.toNat then '\\' :: 'x' :: hexText 2 c.toNat
  else [c]

/-- `repr` of a `unicode` string (`draw_trees.py:27`): between single quotes, or between double quotes if it has single ones only. -/
def pyRepr (s : String) : Text :=
  let quote := if s.toList.contains '\'' && !s.toList.contains '"' then '"' else '\''
  'u' :: quote :: (s.toList.flatMap (reprChar quote) ++ [quote])

/-- The elements of a list with commas between them (`draw_trees.py:27`). -/
def pyReprs : List String → Text
  | [] => []
  | [s] => pyRepr s
  | s :: t :: l => pyRepr s ++ ([',', ' '] ++ pyReprs (t :: l))

/-- `str` of a list of strings (`draw_trees.py:27`). -/
def pyListText (l : List String) : Text := '[' :: (pyReprs l ++ [']'])

/-- A `unicode` string in `format` of a byte string (`draw_trees.py:19-21, 25-26`): it is encoded in ASCII, which can raise `UnicodeEncodeError`. -/
def asciiText : Json N → Option Text
  | .str s => if s.toList.all (fun c => decide (c.toNat < 128)) then some s.toList else none
  | _ => none

/-- `branchNodeToString` (`draw_trees.py:16-30`).  In line 19 the backslash and the `n` are two characters of the file. -/
def scriptBranchLabel (fmt : PyFormat N) (node : Json N) : Option Text :=
  (node.get "split").bind (fun split =>
    match split.get "floatSplit" with
    | some f =>
      ((split.get "feature").bind asciiText).bind (fun feature =>
        ((f.get "threshold").bind fmt.thousandths).bind (fun threshold =>
          ((node.get "score").bind fmt.millionths).map (fun score =>
            feature ++ (' ' :: ((scriptSign f).toList ++ (' ' :: (threshold.toList ++ (' ' :: '\\' :: 'n' :: score.toList))))))))
    | none => match split.get "catSplit" with
      | some c =>
        ((split.get "feature").bind asciiText).bind (fun feature =>
          (c.get "category").bind (fun l => match l with
            | .arr l => (jsonStrings l).map (fun l => feature ++ (' ' :: 'i' :: 'n' :: ' ' :: pyListText l))
            | _ => none))
      | none => none)

/-- The line for a node (`draw_trees.py:39-40, 51-52`). -/
def dotNode (name label : Text) : Text :=
  name ++ ([' ', '[', 'l', 'a', 'b', 'e', 'l', '=', '"'] ++
    (label ++ ['"', ' ', 'c', 'o', 'l', 'o', 'r', '=', 'b', 'l', 'u', 'e', ']', ';', '\n']))

/-- The line for an edge (`draw_trees.py:43-44`). -/
def dotEdge (a b : Text) : Text := a ++ ([' ', '-', '>', ' '] ++ (b ++ [';', '\n']))

/-- The line that keeps the children in order (`draw_trees.py:45-46`). -/
def dotHidden (a b : Text) : Text :=
  a ++ ([' ', '-', '>', ' '] ++ (b ++ ['[', 's', 't', 'y', 'l', 'e', '=', 'i', 'n', 'v', 'i', 's', ' ', 'c', 'o', 'n', 's', 't', 'r', 'a', 'i', 'n', 't', '=',
    'f', 'a', 'l', 's', 'e', ']', ';', '\n']))

/-- `traverse` (`draw_trees.py:35-53`); Python allows `depth` nested calls. -/
def scriptTraverse (fmt : PyFormat N) : Nat → Json N → Text → Option Text
  | 0, _, _ => none
  | depth + 1, tree, name =>
    match tree.get "leftChild" with
    | some left =>
      (scriptBranchLabel fmt tree).bind (fun label =>
        (scriptTraverse fmt depth left (name ++ ['l'])).bind (fun ls =>
          (tree.get "rightChild").bind (fun right =>
            (scriptTraverse fmt depth right (name ++ ['r'])).map (fun rs =>
              dotNode name label ++ (dotEdge name (name ++ ['l']) ++ (dotEdge name (name ++ ['r']) ++
                (dotHidden (name ++ ['l']) (name ++ ['r']) ++ (ls ++ rs))))))))
    | none => ((tree.get "score").bind fmt.millionths).map (fun label => dotNode name label.toList)

/-- One graph of the file (`draw_trees.py:68-69`). -/
def scriptGraph (fmt : PyFormat N) (depth : Nat) (tree : Json N) (i : Nat) : Option Text :=
  (scriptTraverse fmt depth tree ('n' :: 'o' :: 'd' :: 'e' :: Nat.toDigits 10 i)).map (fun body =>
    ['d', 'i', 'g', 'r', 'a', 'p', 'h', ' ', 't', 'r', 'e', 'e', ' ', '{', '\n'] ++ (body ++ ['\n', '}']))

/-- The graphs of the trees from tree `i` on (`draw_trees.py:68-69`). -/
def scriptGraphs (fmt : PyFormat N) (depth : Nat) : List (Json N) → Nat → Option (List Text)
  | [], _ => some []
  | tree :: trees, i =>
    (scriptGraph fmt depth tree i).bind (fun g => (scriptGraphs fmt depth trees (i + 1)).map (g :: ·))

/-- The file `forest.dot` (`draw_trees.py:60, 65-69`). -/
def scriptFile (fmt : PyFormat N) (depth : Nat) (forest : Json N) : Option Text :=
  match forest.get "tree" with
  | some (.arr l) => (scriptGraphs fmt depth l.toList 0).map (fun gs => join gs ['\n'] ++ ['\n'])
  | _ => none

end Gbdt
