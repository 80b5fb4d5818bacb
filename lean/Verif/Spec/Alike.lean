import Verif.Model.Pipeline
import Verif.Props.ZeroWeight
import Verif.Props.OtherStore

/-!
# Specification: forests that differ in thresholds and category names only

`φ` is applied to the numbers of each column and `ψ` to its strings; `V` holds the numbers that matter.
-/

set_option autoImplicit false

namespace Gbdt

variable {D A : Type}

/-- Trees of the same shape with the same scores and related splits. -/
inductive AlikeTree (SR : Split D A → Split D A → Prop) : Tree D A → Tree D A → Prop where
  | absent : AlikeTree SR .absent .absent
  | node {score : D} {sp sp' : Option (Split D A)} {l l' r r' : Tree D A} (hs : Option.Rel SR sp sp') (hl : AlikeTree SR l l')
      (hr : AlikeTree SR r r') : AlikeTree SR (.node score sp l r) (.node score sp' l' r')

/-- A number changed by `φ`; NaN stays NaN. -/
def Fl.map (φ : A → A) : Fl A → Fl A
  | .nan => .nan
  | .num a => .num (φ a)

/-- A value out of `V` is below the one threshold exactly if what `φ` makes of it is below the other. -/
def SameSide [LinearOrder A] (φ : A → A) (V : Set A) (t t' : Fl A) : Prop :=
  ∀ v ∈ V, Fl.lt (.num v) t = Fl.lt (.num (φ v)) t'

/-- Values that may be scaled by `φ` before training without `train` noticing: `φ` keeps their order, they stay below the largest
float, and the thresholds that training can choose between them (`split_algo.cc:222-231`) have the same values of `V` on either side. -/
structure Scales [LinearOrder A] [ThrOps A] (fmax : A) (φ : A → A) (V : Set A) (raw : List (Fl A)) : Prop where
  incr : ∀ a ∈ V, ∀ b ∈ V, a < b → φ a < φ b
  values : ∀ v, Fl.num v ∈ raw → v ∈ V ∧ v < fmax ∧ φ v < fmax
  mid : ∀ a b, Fl.num a ∈ raw → Fl.num b ∈ raw → a < b → SameSide φ V (ThrOps.mid a b) (ThrOps.mid (φ a) (φ b))
  low : Fl.nan ∈ raw → ∀ a, Fl.num a ∈ raw → (∀ v, Fl.num v ∈ raw → a ≤ v) → SameSide φ V (ThrOps.below a) (ThrOps.below (φ a))

/-- Splits of the same feature with the same gain that send missing values to the same side: the thresholds have the same
values on either side, and the categories are renamed. -/
structure SplitAlike [LinearOrder A] (φ : String → A → A) (V : String → Set A) (ψ : String → String → String)
    (s s' : Split D A) : Prop where
  feature : s'.feature = s.feature
  gain : s'.gain = s.gain
  float : Option.Rel (fun f f' => f'.missingToRight = f.missingToRight ∧
    SameSide (φ s.feature) (V s.feature) f.threshold f'.threshold) s.floatSplit s'.floatSplit
  cat : s'.catSplit = s.catSplit.map (fun c => { c with category := c.category.map (ψ s.feature) })

/-- The data with the numbers of bucketized columns changed by `φ` and the strings changed by `ψ`, column by column. -/
def Dict.scaled (φ : String → A → A) (ψ : String → String → String) (d : Dict A) : Dict A where
  bucketized := d.bucketized.map (fun p => (p.1, p.2.map (Fl.map (φ p.1))))
  strs := d.strs.map (fun p => (p.1, p.2.map (ψ p.1)))
  raw := d.raw

/-- The same exception, or related results. -/
inductive AnswerRel {α β : Type} (r : α → β → Prop) : Except PyErr α → Except PyErr β → Prop where
  | ok {a b} : r a b → AnswerRel r (.ok a) (.ok b)
  | error {e} : AnswerRel r (.error e) (.error e)

/-- The same failure, the same exception, or related results. -/
def SameAnswer {α β : Type} (r : α → β → Prop) (x : PyRes α) (y : PyRes β) : Prop := OutRel (AnswerRel r) x y

end Gbdt
