import Verif.Model.Score

/-!
# Model of `gbdt_algo.cc` and `CheckConfig`

Logging, timing and the meta information of the forest are not modelled.
-/

set_option autoImplicit false

namespace Gbdt

/-- The fields of `Config` (`src/proto/config.proto:22-65`) that training reads, beyond those of the loss. -/
structure TrainConfig (D : Type) extends SplitConfig D where
  numTrees : Int
  numLeaves : Int
  shrinkage : D
  exampleRate : D
  featureRate : D
  groupColumn : String := ""

/-- The configuration as tree fitting sees it (`gbdt_algo.cc:188`). -/
def TrainConfig.fit {D : Type} (cfg : TrainConfig D) : FitConfig D where
  toSplitConfig := cfg.toSplitConfig
  numLeaves := cfg.numLeaves.toNat
  exampleRate := cfg.exampleRate
  featureRate := cfg.featureRate

/-- A loss function (`src/loss_func/loss_func.h`): `init` is `Init` for a number of rows and a group column (weights and
targets are part of the object here), `compute` is `ComputeFunctionalGradientsAndHessians`: from the current function
values to the constant and the gradients.  `S` is the object's state, generator included. -/
structure LossFunc (S D : Type) where
  init : Nat → Option StrCol → Outcome (Except Code S)
  compute : S → List D → Outcome (S × D × List (GD D))

/-- What training uses from its surroundings: the store, the weights, and the behaviour of the standard library, the
generator and the machine (see `FitEnv`).  `diverged` is `isnan(c) || isinf(c)` (`gbdt_algo.cc:177`). -/
structure TrainEnv (D A : Type) where
  columns : String → Option (Column A)
  numRows : Nat
  w : Nat → D
  sort : (Nat → D) → List Nat → List Nat
  top : Nat → List D → Nat
  toInt : D → Option Int
  ofNat : Nat → D
  draw : Nat → D
  rnd32 : D → D
  numThreads : Int
  diverged : D → Bool

/-- What tree fitting is given (`gbdt_algo.cc:188`). -/
def TrainEnv.fit {D A : Type} (env : TrainEnv D A) (features : List (String × Column A)) (grads : List (GD D)) :
    FitEnv D A where
  w := env.w
  grads := grads
  features := features
  sort := env.sort
  top := env.top
  toInt := env.toInt
  ofNat := env.ofNat
  draw := env.draw
  rnd32 := env.rnd32
  numThreads := env.numThreads

section train

variable {S D A : Type} [Dbl D]

/-- `a <= b` on doubles: false when either is NaN (`gbdt_algo/utils.cc:215, 221`). -/
def Dbl.leb (a b : D) : Bool := Dbl.ltb a b || Dbl.eqb a b

/-- `CheckConfig` (`gbdt_algo/utils.cc:204-228`); `one` is 1. -/
def checkConfig (one : D) (cfg : TrainConfig D) : Code :=
  if cfg.numTrees ≤ 0 then .invalidArgument
  else if cfg.numLeaves ≤ 0 then .invalidArgument
  else if Dbl.leb cfg.exampleRate 0 || Dbl.ltb one cfg.exampleRate then .invalidArgument
  else if Dbl.leb cfg.featureRate 0 || Dbl.ltb one cfg.featureRate then .invalidArgument
  else .ok

/-- `GetGroupOrDie` (`gbdt_algo/utils.cc:185-193`). -/
def groupOrDie (columns : String → Option (Column A)) (name : String) : Outcome (Option StrCol) :=
  if name = "" then .ok none
  else match columns name with
    | some (.str c) => .ok (some c)
    | _ => .fatal

/-- `ApplyShrinkage` (`gbdt_algo.cc:50-58`).  The product of two floats is rounded once. -/
def applyShrinkage (rnd32 : D → D) (rate : D) : Tree D A → Tree D A
  | .absent => .absent
  | .node score split left right =>
    .node (rnd32 (score * rate)) split (applyShrinkage rnd32 rate left) (applyShrinkage rnd32 rate right)

/-- `clear_internal_categorical_index` (`gbdt_algo.cc:66-68`). -/
def clearIndex (s : Split D A) : Split D A :=
  { s with catSplit := s.catSplit.map (fun cs => { cs with index := [] }) }

/-- `ClearInternalFields` of a tree (`gbdt_algo.cc:60-76`). -/
def clearInternal : Tree D A → Tree D A
  | .absent => .absent
  | .node score split left right =>
    .node score (if left.isSet then split.map clearIndex else none) (clearInternal left) (clearInternal right)

/-- `score()` of the root; 0 if not set (`tree.proto:42`). -/
def rootScore : Tree D A → D
  | .absent => 0
  | .node score _ _ _ => score

/-- `IsSingleNodeTree` (`gbdt_algo/utils.cc:130-132`). -/
def isSingleNode : Tree D A → Bool
  | .absent => true
  | .node _ _ left _ => !left.isSet

/-- `tree->set_score(tree->score() + x)` (`gbdt_algo.cc:95, 192`). -/
def addRootScore (rnd32 : D → D) (x : D) : Tree D A → Tree D A
  | .absent => .absent
  | .node score split left right => .node (rnd32 (score + x)) split left right

variable [LinearOrder A]

/-- The loop of `InitializeWithBaseForest` (`gbdt_algo.cc:90-99`): the forest, the slices and the function values. -/
def initWithBase (env : TrainEnv D A) : List (Tree D A) → List (Tree D A) → List (List Nat) → List D →
    Outcome (List (Tree D A) × List (List Nat) × List D)
  | [], forest, slices, f => .ok (forest, slices, f)
  | t :: ts, forest, slices, f => do
    let (slices1, f1) ← addTreeScores env.columns t 0 slices f
    initWithBase env ts
      (if isSingleNode t then forest.modify 0 (addRootScore env.rnd32 (rootScore t)) else forest ++ [t]) slices1 f1

/-- The variables of the training loop: the forest, the slices of `compute_tree_scores`, the function values, the state
of the loss and the position of the generator. -/
structure TrainState (S D A : Type) where
  forest : List (Tree D A)
  slices : List (List Nat)
  f : List D
  loss : S
  pos : Nat

variable [ThrOps A]

/-- The training loop (`gbdt_algo.cc:157-195`): the final state, and whether it ended because of divergence.
`constantTree` is the position of the constant tree in the forest. -/
def trainLoop (env : TrainEnv D A) (loss : LossFunc S D) (features : List (String × Column A)) (cfg : TrainConfig D)
    (constantTree : Nat) : Nat → TrainState S D A → Outcome (Bool × TrainState S D A)
  | 0, s => .ok (false, s)
  | n + 1, s => do
    let (ls, constant, grads) ← loss.compute s.loss s.f
    if env.diverged constant then pure (true, { s with loss := ls })
    else do
      let (t, pos) ← fitTree (env.fit features grads) cfg.fit s.pos
      let t1 := applyShrinkage env.rnd32 cfg.shrinkage t
      let (slices, f) ← addTreeScores env.columns t1 constant s.slices s.f
      trainLoop env loss features cfg constantTree n
        { forest := (s.forest ++ [t1]).modify constantTree (addRootScore env.rnd32 constant)
          slices := slices, f := f, loss := ls, pos := pos }

/-- The result of training: the status, the forest, the function values at the end (a local variable of the code) and
the position of the generator. -/
structure TrainResult (D A : Type) where
  code : Code
  forest : List (Tree D A)
  f : List D
  pos : Nat
  deriving DecidableEq

/-- `TrainGBDT` (`gbdt_algo.cc:122-206`).  `names` are the features in the order in which the set lists them, `base` is
the base forest if there is one, `forest` what `*forest` holds on entry, `p` the position of the generator. -/
def trainGBDT (env : TrainEnv D A) (loss : LossFunc S D) (names : List String) (cfg : TrainConfig D)
    (base : Option (List (Tree D A))) (forest : List (Tree D A)) (p : Nat) : Outcome (TrainResult D A) :=
  if checkConfig (env.ofNat 1) cfg ≠ .ok then .ok ⟨checkConfig (env.ofNat 1) cfg, forest, [], p⟩
  else match loadFeatures env.columns names with
    | .error e => .ok ⟨e, forest, [], p⟩
    | .ok features => do
      let group ← groupOrDie env.columns cfg.groupColumn
      let init ← loss.init env.numRows group
      match init with
      | .error e => pure ⟨e, forest, [], p⟩
      | .ok ls => do
        let slices ← scoreSlices env.numThreads env.numRows
        let (forest1, slices1, f1) ← initWithBase env (base.getD [])
          (forest ++ [.node 0 none .absent .absent]) slices (List.replicate env.numRows 0)
        let (stopped, s) ← trainLoop env loss features cfg forest.length cfg.numTrees.toNat
          ⟨forest1, slices1, f1, ls, p⟩
        if stopped then pure ⟨.internal, s.forest, s.f, s.pos⟩
        else pure ⟨.ok, s.forest.map clearInternal, s.f, s.pos⟩

end train

end Gbdt
