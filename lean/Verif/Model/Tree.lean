import Verif.Model.Split
import Verif.Model.Subsampling

/-!
# Model of `tree_algo.cc`

Parallel parts are run one task after the other here; that no schedule changes their results is C25.
-/

set_option autoImplicit false

namespace Gbdt

/-- `TreeNode` (`src/proto/tree.proto:41-46`).  `absent` is a child that is not set; reading it gives the default
node: score 0, no split, no children. -/
inductive Tree (D A : Type) where
  | absent
  | node (score : D) (split : Option (Split D A)) (left right : Tree D A)
  deriving DecidableEq

namespace Tree

variable {D A : Type}

/-- Whether the child is set: `has_left_child`, `has_right_child` of the parent (generated from `tree.proto:44-45`). -/
def isSet : Tree D A → Bool
  | absent => false
  | node _ _ _ _ => true

/-- The node a `TreeNode*` points to: the path from the root (`false` is left). -/
def at? : Tree D A → List Bool → Option (Tree D A)
  | absent, _ => none
  | node s sp l r, [] => some (node s sp l r)
  | node _ _ l r, b :: p => if b then r.at? p else l.at? p

/-- `mutable_left_child`, `mutable_right_child` and the assignments to the new nodes, for the node at a path
(`tree_algo.cc:156-171`).  A pointer that does not lead to a node does not arise. -/
def graft : Tree D A → List Bool → Tree D A → Tree D A → Tree D A
  | absent, _, _, _ => absent
  | node s sp _ _, [], nl, nr => node s sp nl nr
  | node s sp l r, b :: p, nl, nr => if b then node s sp l (r.graft p nl nr) else node s sp (l.graft p nl nr) r

/-- `split()`: the default split if none is set (`tree.proto:33-39`). -/
def splitOf [Zero D] : Tree D A → Split D A
  | node _ (some s) _ _ => s
  | _ => { gain := 0 }

end Tree

/-- The fields of `Config` (`src/proto/config.proto`) that tree fitting reads.  `num_leaves` is an `int32` that
`CheckConfig` (`utils.cc:210-214`) forces to be positive. -/
structure FitConfig (D : Type) extends SplitConfig D where
  numLeaves : Nat
  exampleRate : D
  featureRate : D

/-- What tree fitting uses from its surroundings: the weights, gradients and features it is given, and the behaviour of
the standard library, the generator and the machine (see `uniformSubsample`, `SortSpec`, `TopSpec`); `rnd32` is the
conversion from `double` to `float`. -/
structure FitEnv (D A : Type) where
  w : Nat → D
  grads : List (GD D)
  features : List (String × Column A)
  sort : (Nat → D) → List Nat → List Nat
  top : Nat → List D → Nat
  toInt : D → Option Int
  ofNat : Nat → D
  draw : Nat → D
  rnd32 : D → D
  numThreads : Int

section fit

variable {D A : Type} [Dbl D] [LinearOrder A] [ThrOps A]

/-- The task for one slice in `ComputeWeightedSum` (`tree_algo.cc:53-57`). -/
def sliceSum (w : Nat → D) (grads : List (GD D)) (slice : List Nat) : Outcome (GD D) :=
  slice.foldlM (fun total i => do
    let d ← Outcome.vecGet grads i
    pure (total.add (d.scale (w i)))) GD.zero

/-- `ComputeWeightedSum` (`tree_algo.cc:43-62`). -/
def weightedSum (numThreads : Int) (w : Nat → D) (grads : List (GD D)) (samples : List Nat) : Outcome (GD D) := do
  let slices ← divideSamples samples (numThreads * 5)
  let totals ← slices.mapM (sliceSum w grads)
  pure (totals.foldl GD.add GD.zero)

/-- The loop over the gains (`tree_algo.cc:96-101`), from index `i` on. -/
def bestIndexFrom (gains : List D) : Nat → Nat → Nat → Outcome Nat
  | 0, _, best => .ok best
  | fuel + 1, i, best => do
    let g ← Outcome.vecGet gains i
    let b ← Outcome.vecGet gains best
    bestIndexFrom gains fuel (i + 1) (if Dbl.ltb b g then i else best)

/-- `add_category` for each internal index (`tree_algo.cc:106-111`); only a string feature has such a split. -/
def nameCategories (c : Column A) (s : Split D A) : Outcome (Split D A) :=
  match s.catSplit with
  | none => .ok s
  | some cs => match c with
    | .str c => do
      let names ← cs.index.mapM c.catString
      pure { s with catSplit := some { cs with category := cs.category ++ names } }
    | _ => .ub

/-- `FindBestFeatureAndSplit` (`tree_algo.cc:75-115`): the split and its feature, or `none` for an empty split and a null
feature; and the new position of the generator. -/
def bestFeature (env : FitEnv D A) (cfg : FitConfig D) (samples : List Nat) (total : GD D) (p : Nat) :
    Outcome (Option (Split D A × Column A) × Nat) := do
  let (chosen, p1) ← uniformSubsample env.toInt env.ofNat env.draw env.features.length cfg.featureRate p
  let splits ← chosen.mapM (fun j => do
    let f ← Outcome.vecGet env.features j
    let s ← findBestSplit env.sort f.2 env.w env.grads samples cfg.toSplitConfig total
    pure (s.getD { gain := 0 }))
  let best ← bestIndexFrom (splits.map (·.gain)) (chosen.length - 1) 1 0
  if splits.length > 0 then do
    let s ← Outcome.vecGet splits best
    if Dbl.ltb 0 s.gain then do
      let j ← Outcome.vecGet chosen best
      let f ← Outcome.vecGet env.features j
      let s1 ← nameCategories f.2 { s with feature := f.1 }
      pure (some (s1, f.2), p1)
    else pure (none, p1)
  else pure (none, p1)

/-- `NodeData` (`tree_algo.cc:64-73`); the slice is shown as its contents. -/
structure NodeData (A : Type) where
  path : List Bool
  feature : Option (Column A)
  samples : List Nat

/-- The tree and the priority queue (`tree_algo.cc:125-126`; the queue as the list of its entries), the number of steps
made and the position of the generator. -/
structure FitState (D A : Type) where
  tree : Tree D A
  queue : List (NodeData A)
  step : Nat
  pos : Nat

/-- The gains by which the queue is ordered (`tree_algo.cc:122-124`). -/
def queueGains (s : FitState D A) : List D :=
  s.queue.map (fun e => match s.tree.at? e.path with
    | some t => t.splitOf.gain
    | none => 0)

/-- A new node (`tree_algo.cc:126, 133-138, 156-162, 165-171`): the split is stored only if its gain is positive. -/
def newNode (env : FitEnv D A) (cfg : FitConfig D) (total : GD D) (best : Option (Split D A × Column A)) : Tree D A :=
  .node (env.rnd32 (total.score cfg.l2Lambda))
    (match best with
    | some (s, _) => if Dbl.ltb 0 s.gain then some s else none
    | none => none) .absent .absent

/-- The steps before the loop (`tree_algo.cc:126-139`). -/
def fitStart (env : FitEnv D A) (cfg : FitConfig D) (p : Nat) : Outcome (FitState D A) := do
  let (samples, p1) ← uniformSubsample env.toInt env.ofNat env.draw env.grads.length cfg.exampleRate p
  let total ← weightedSum env.numThreads env.w env.grads samples
  let (best, p2) ← bestFeature env cfg samples total p1
  pure { tree := newNode env cfg total best, queue := [⟨[], best.map (·.2), samples⟩], step := 0, pos := p2 }

/-- The body of the loop for the entry at position `k` of the queue (`tree_algo.cc:144-175`). -/
def fitStep (env : FitEnv D A) (cfg : FitConfig D) (s : FitState D A) (k : Nat) (e : NodeData A) (feature : Column A) :
    Outcome (FitState D A) := do
  let t ← match s.tree.at? e.path with
    | some t => Outcome.ok t
    | none => .ub
  let (ls, rs) ← partition feature t.splitOf e.samples
  let lt ← weightedSum env.numThreads env.w env.grads ls
  let rt ← weightedSum env.numThreads env.w env.grads rs
  let (lb, p1) ← bestFeature env cfg ls lt s.pos
  let (rb, p2) ← bestFeature env cfg rs rt p1
  pure { tree := s.tree.graft e.path (newNode env cfg lt lb) (newNode env cfg rt rb)
         queue := s.queue.eraseIdx k ++ [⟨e.path ++ [false], lb.map (·.2), ls⟩, ⟨e.path ++ [true], rb.map (·.2), rs⟩]
         step := s.step + 1
         pos := p2 }

/-- The loop (`tree_algo.cc:142-176`).  Each round makes the queue one longer, so `num_leaves` rounds suffice. -/
def fitLoop (env : FitEnv D A) (cfg : FitConfig D) : Nat → FitState D A → Outcome (FitState D A)
  | 0, s => .ok s
  | fuel + 1, s =>
    if s.queue.length > 0 ∧ s.queue.length < cfg.numLeaves then do
      let k := env.top s.step (queueGains s)
      let e ← Outcome.vecGet s.queue k
      match e.feature with
      | none => pure s
      | some f => do
        let s1 ← fitStep env cfg s k e f
        fitLoop env cfg fuel s1
    else .ok s

/-- `FitTreeToGradients` (`tree_algo.cc:117-179`): the tree and the new position of the generator. -/
def fitTree (env : FitEnv D A) (cfg : FitConfig D) (p : Nat) : Outcome (Tree D A × Nat) := do
  let s ← fitStart env cfg p
  let s1 ← fitLoop env cfg cfg.numLeaves s
  pure (s1.tree, s1.pos)

/-- `priority_queue::top` (`tree_algo.cc:143-144`): some entry such that no other has a larger gain; which one may
depend on the history of the queue, hence on the step. -/
def TopSpec (top : Nat → List D → Nat) : Prop :=
  ∀ n gains, gains ≠ [] → ∃ g, gains[top n gains]? = some g ∧ ∀ g' ∈ gains, Dbl.ltb g g' = false

end fit

end Gbdt
