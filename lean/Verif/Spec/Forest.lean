import Verif.Spec.Tree
import Verif.Model.PyStore

/-!
# A forest as a function of one row

A row gives a value for every column name.  Nothing here knows of columns, codes or buckets.
-/

set_option autoImplicit false

namespace Gbdt

variable {D A : Type}

section
variable [LinearOrder A]

/-- Where a value goes at a split: a string goes left if it is one of the categories, a number if it is below the threshold, a
missing number unless missing values go right. -/
def goesLeft (s : Split D A) : Cell A → Option Bool
  | .str x => s.catSplit.map (fun cs => cs.category.contains x)
  | .num .nan => s.floatSplit.map (fun f => !f.missingToRight)
  | .num (.num v) => s.floatSplit.map (fun f => Fl.lt (.num v) f.threshold)

/-- The score of the leaf that the row reaches.  A node without left child is a leaf; a child that is not set has score 0. -/
def treeValue [Zero D] (row : String → Option (Cell A)) : Tree D A → Option D
  | .absent => some 0
  | .node score _ .absent _ => some score
  | .node _ none (.node _ _ _ _) _ => none
  | .node _ (some s) (.node sc sp l r) right =>
    match (row s.feature).bind (goesLeft s) with
    | none => none
    | some true => treeValue row (.node sc sp l r)
    | some false => treeValue row right

end

/-- The split fits the type of its column: a threshold for bucketized numbers, category names (and no codes) for strings. -/
def TypedSplit (kind : String → Option ColType) (s : Split D A) : Prop :=
  kind s.feature = some .bucketized ∧ (∃ f, s.floatSplit = some f) ∨
    kind s.feature = some .string ∧ ∃ cs, s.catSplit = some cs ∧ cs.index = []

/-- Every node with children has a split, and every split fits the type of its column; `kind` tells the types. -/
def TypedTree (kind : String → Option ColType) : Tree D A → Prop
  | .absent => True
  | .node _ split left right => (split = none → left = .absent) ∧ (∀ s, split = some s → TypedSplit kind s) ∧
      TypedTree kind left ∧ TypedTree kind right

end Gbdt
