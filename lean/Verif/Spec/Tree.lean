import Verif.Model.Tree

/-!
# Specification of trees: where a row goes and what it scores
-/

set_option autoImplicit false

namespace Gbdt

variable {D A : Type}

section rows

variable [LinearOrder A]

/-- `c` is a loaded column of `n` rows: built from blocks of values, within the sizes that C01 and C03 need. -/
inductive HasRows (n : Nat) : Column A → Prop where
  | str (blocks : List (List String)) (hlen : blocks.flatten.length = n) (hsize : n + 1 < 2 ^ 32) :
      HasRows n (.str (StrCol.build blocks))
  | bkt (fmax : A) (nb : Nat) (blocks : List (List (Fl A))) (c : BktCol A) (hlen : blocks.flatten.length = n)
      (hsize : n + 2 < 2 ^ 32) (hnb : nb < 2 ^ 32) (hok : BktCol.build fmax nb blocks = .ok c) : HasRows n (.bkt c)
  | raw (c : RawCol A) (hlen : c.size = n) : HasRows n (.raw c)

/-- The same, and no number is above `FLT_MAX`. -/
inductive TrainRows (n : Nat) : Column A → Prop where
  | str (blocks : List (List String)) (hlen : blocks.flatten.length = n) (hsize : n + 1 < 2 ^ 32) :
      TrainRows n (.str (StrCol.build blocks))
  | bkt (fmax : A) (nb : Nat) (blocks : List (List (Fl A))) (c : BktCol A) (hlen : blocks.flatten.length = n)
      (hsize : n + 2 < 2 ^ 32) (hnb : nb < 2 ^ 32) (hok : BktCol.build fmax nb blocks = .ok c)
      (hfin : ∀ v, Fl.num v ∈ blocks.flatten → v ≤ fmax) : TrainRows n (.bkt c)
  | raw (c : RawCol A) (hlen : c.size = n) : TrainRows n (.raw c)

/-- Whether row `i` goes left, from the value of the row: a string goes left if it is one of the categories, a number if
the limit of its bucket is below the threshold, a missing number unless missing values go right. -/
def sendsLeft (c : Column A) (s : Split D A) (i : Nat) : Option Bool :=
  match c with
  | .str c => match s.catSplit, c.rowString i with
    | some cs, .ok x => some (cs.category.contains x)
    | _, _ => none
  | .bkt c => match s.floatSplit, c.ints.missing i, c.rowMax i with
    | some f, .ok true, _ => some (!f.missingToRight)
    | some f, .ok false, .ok x => some (Fl.lt x f.threshold)
    | _, _, _ => none
  | .raw _ => some false

/-- The leaf that row `i` reaches, as the path to it and its score.  A node without left child is a leaf; reading a
child that is not set gives score 0. -/
def leafOf [Zero D] (columns : String → Option (Column A)) : Tree D A → Nat → Option (List Bool × D)
  | .absent, _ => some ([], 0)
  | .node score _ .absent _, _ => some ([], score)
  | .node _ none (.node _ _ _ _) _, _ => none
  | .node _ (some s) (.node sc sp l r) right, i =>
    match columns s.feature with
    | none => none
    | some c => match sendsLeft c s i with
      | none => none
      | some true => (leafOf columns (.node sc sp l r) i).map (fun x => (false :: x.1, x.2))
      | some false => (leafOf columns right i).map (fun x => (true :: x.1, x.2))

/-- The score of row `i`. -/
def scoreOf [Zero D] (columns : String → Option (Column A)) (t : Tree D A) (i : Nat) : Option D :=
  (leafOf columns t i).map Prod.snd

/-- Row `i` reaches the leaf at path `q`. -/
def reaches [Zero D] (columns : String → Option (Column A)) (t : Tree D A) (q : List Bool) (i : Nat) : Bool :=
  decide ((leafOf columns t i).map Prod.fst = some q)

/-- Row `i` passes the node at path `q` on its way to a leaf. -/
def passes [Zero D] (columns : String → Option (Column A)) (t : Tree D A) (q : List Bool) (i : Nat) : Bool :=
  match leafOf columns t i with
  | some (path, _) => q.isPrefixOf path
  | none => false

/-- The kind of the split fits that of the column, and category indices, if there are any, are those of the names. -/
def SplitFits (c : Column A) (s : Split D A) : Prop :=
  match c with
  | .str c => ∃ cs, s.catSplit = some cs ∧ (cs.index = [] ∨ cs.index.mapM c.catString = .ok cs.category)
  | .bkt _ => ∃ f, s.floatSplit = some f
  | .raw _ => True

/-- Every inner node splits on a column of the store by a split that fits it. -/
def Scorable (columns : String → Option (Column A)) : Tree D A → Prop
  | .absent => True
  | .node _ _ .absent _ => True
  | .node _ split (.node sc sp l r) right =>
    (∃ s c, split = some s ∧ columns s.feature = some c ∧ SplitFits c s) ∧
      Scorable columns (.node sc sp l r) ∧ Scorable columns right

end rows

/-- A leaf: a node without children. -/
def Tree.isLeaf : Tree D A → Bool
  | .node _ _ .absent .absent => true
  | _ => false

/-- The number of leaves. -/
def Tree.countLeaves : Tree D A → Nat
  | .absent => 0
  | .node _ _ .absent .absent => 1
  | .node _ _ l r => l.countLeaves + r.countLeaves

/-- Every node has either no child or two, and a node with children has a split that satisfies `P`. -/
def Tree.WellFormed (P : Split D A → Prop) : Tree D A → Prop
  | .absent => False
  | .node _ _ .absent .absent => True
  | .node _ split l r => (∃ s, split = some s ∧ P s) ∧ l.WellFormed P ∧ r.WellFormed P

/-- The node at path `q` is a leaf with score `x` and stored split `sp`. -/
def IsLeafAt (t : Tree D A) (q : List Bool) (x : D) (sp : Option (Split D A)) : Prop :=
  t.at? q = some (.node x sp .absent .absent)

section fitting

variable [Dbl D] [LinearOrder A]

/-- The features and the store. -/
structure FitData (env : FitEnv D A) (columns : String → Option (Column A)) : Prop where
  rows : ∀ name c, (name, c) ∈ env.features → HasRows env.grads.length c
  stored : ∀ name c, (name, c) ∈ env.features → columns name = some c

/-- What has to hold for tree fitting to be defined. -/
structure FitInput (env : FitEnv D A) (cfg : FitConfig D) : Prop where
  rows : ∀ name c, (name, c) ∈ env.features → TrainRows env.grads.length c
  sort : SortSpec env.sort
  top : TopSpec env.top
  threads : 0 < env.numThreads
  examples : env.toInt (cfg.exampleRate * env.ofNat env.grads.length) ≠ none
  features : env.toInt (cfg.featureRate * env.ofNat env.features.length) ≠ none

end fitting

end Gbdt
