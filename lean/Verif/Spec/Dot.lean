import Verif.Model.Text

/-!
# The part of the DOT language that `draw_trees.py` uses

Words, strings between double quotes, and signs, as Graphviz reads them; comments, HTML strings and numbers are left out.
-/

set_option autoImplicit false

namespace Gbdt

/-- What a DOT file is made of. -/
inductive DotToken where
  | word (t : Text)
  | quoted (t : Text)
  | sign (c : Char)
  deriving DecidableEq

/-- Where reading is. -/
inductive DotState where
  | between
  | inWord (w : Text)
  | inQuotes (q : Text)
  | escaped (q : Text)
  deriving DecidableEq

/-- The characters of words. -/
def wordChar (c : Char) : Bool := c.isAlphanum || c == '_'

/-- A character that does not belong to what came before. -/
def dotFresh (c : Char) : List DotToken × DotState :=
  if c = '"' then ([], .inQuotes [])
  else if wordChar c then ([], .inWord [c])
  else if c = ' ' ∨ c = '\n' then ([], .between)
  else ([.sign c], .between)

/-- One more character: a string ends at the next quotation mark that has no backslash before it, and a backslash at the end of a line continues the
line. -/
def dotStep : DotState → Char → List DotToken × DotState
  | .between, c => dotFresh c
  | .inWord w, c => if wordChar c then ([], .inWord (w ++ [c])) else (.word w :: (dotFresh c).1, (dotFresh c).2)
  | .inQuotes q, c =>
    if c = '"' then ([.quoted q], .between) else if c = '\\' then ([], .escaped q) else ([], .inQuotes (q ++ [c]))
  | .escaped q, c =>
    if c = '"' then ([], .inQuotes (q ++ ['"'])) else if c = '\n' then ([], .inQuotes q) else ([], .inQuotes (q ++ ['\\', c]))

/-- All of a text. -/
def dotRun : DotState → Text → List DotToken × DotState
  | s, [] => ([], s)
  | s, c :: t => ((dotStep s c).1 ++ (dotRun (dotStep s c).2 t).1, (dotRun (dotStep s c).2 t).2)

/-- What a file says; nothing if a string has no end. -/
def readDot (t : Text) : Option (List DotToken) :=
  match dotRun .between t with
  | (l, .between) => some l
  | (l, .inWord w) => some (l ++ [.word w])
  | _ => none

/-- The statements of a graph: nodes with labels, edges, and edges that are not drawn. -/
inductive DotStmt where
  | node (name label : Text)
  | edge (a b : Text)
  | hidden (a b : Text)
  deriving DecidableEq

/-- How statements are written in DOT. -/
def DotStmt.tokens : DotStmt → List DotToken
  | .node name label => [.word name, .sign '[', .word "label".toList, .sign '=', .quoted label, .word "color".toList, .sign '=', .word "blue".toList,
      .sign ']', .sign ';']
  | .edge a b => [.word a, .sign '-', .sign '>', .word b, .sign ';']
  | .hidden a b => [.word a, .sign '-', .sign '>', .word b, .sign '[', .word "style".toList, .sign '=', .word "invis".toList, .word "constraint".toList,
      .sign '=', .word "false".toList, .sign ']', .sign ';']

/-- How a graph is written in DOT. -/
def dotGraph (l : List DotStmt) : List DotToken :=
  [.word "digraph".toList, .word "tree".toList, .sign '{'] ++ l.flatMap DotStmt.tokens ++ [.sign '}']

end Gbdt
