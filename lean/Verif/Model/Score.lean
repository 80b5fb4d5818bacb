import Verif.Model.Tree

/-!
# Model of `compute_tree_scores.cc`, `evaluation.cc` and parts of `gbdt_algo/utils.cc`

`columns` is `DataStore::GetColumn`.  Parallel parts are run one task after the other here; that no schedule changes
their results is C25.
-/

set_option autoImplicit false

namespace Gbdt

section score

variable {D A : Type} [Dbl D] [LinearOrder A]

/-- The loop over the samples at a leaf (`compute_tree_scores.cc:45-47`); the float score is a `double` here. -/
def addToAll (x : D) (samples : List Nat) (scores : List D) : Outcome (List D) :=
  samples.foldlM (fun sc i => do
    let old ← Outcome.vecGet sc i
    pure (sc.set i (old + x))) scores

/-- `AddSampleTreeScores` (`compute_tree_scores.cc:32-49`): the slice as it is left behind, and the scores.  A child that
is not set reads as a leaf with score 0. -/
def addSampleScores (columns : String → Option (Column A)) (constant : D) :
    Tree D A → List Nat → List D → Outcome (List Nat × List D)
  | .absent, samples, scores => do
    let sc ← addToAll (0 + constant) samples scores
    pure (samples, sc)
  | .node score split left right, samples, scores =>
    if left.isSet then
      match columns ((Tree.node score split left right).splitOf.feature) with
      | none => .fatal
      | some c => do
        let (ls, rs) ← partition c (Tree.node score split left right).splitOf samples
        let (ls1, sc1) ← addSampleScores columns constant left ls scores
        let (rs1, sc2) ← addSampleScores columns constant right rs sc1
        pure (ls1 ++ rs1, sc2)
    else do
      let sc ← addToAll (score + constant) samples scores
      pure (samples, sc)

/-- The constructor of `ComputeTreeScores` (`compute_tree_scores.cc:51-55`): the slices. -/
def scoreSlices (numThreads : Int) (numRows : Nat) : Outcome (List (List Nat)) :=
  divideSamples (createAllSamples numRows) (numThreads * 5)

/-- `AddTreeScores` (`compute_tree_scores.cc:57-68`): the slices as they are left behind, and the scores. -/
def addTreeScores (columns : String → Option (Column A)) (t : Tree D A) (constant : D) :
    List (List Nat) → List D → Outcome (List (List Nat) × List D)
  | [], scores => .ok ([], scores)
  | slice :: slices, scores => do
    let (s1, sc1) ← addSampleScores columns constant t slice scores
    let (ss, sc2) ← addTreeScores columns t constant slices sc1
    pure (s1 :: ss, sc2)

/-- `AddTreeScores` for one tree after the other (`evaluation.cc:99-101`). -/
def addForestScores (columns : String → Option (Column A)) :
    List (Tree D A) → List (List Nat) → List D → Outcome (List (List Nat) × List D)
  | [], slices, scores => .ok (slices, scores)
  | t :: ts, slices, scores => do
    let (ss, sc) ← addTreeScores columns t 0 slices scores
    addForestScores columns ts ss sc

/-- `CollectAllFeatures` of a tree (`gbdt_algo/utils.cc:110-120`); a list stands for the set. -/
def treeFeatures : Tree D A → List String
  | .absent => []
  | .node _ split left right => (match split with
    | some s => [s.feature]
    | none => []) ++ treeFeatures left ++ treeFeatures right

/-- `CollectAllFeatures` (`gbdt_algo/utils.cc:122-128`). -/
def forestFeatures (forest : List (Tree D A)) : List String := forest.flatMap treeFeatures

/-- The loop of `LoadFeatures` (`gbdt_algo/utils.cc:56-65`).  Columns with an error status, which only loading from
files produces, are not modelled. -/
def loadFeatures (columns : String → Option (Column A)) : List String → Except Code (List (String × Column A))
  | [] => .ok []
  | name :: names => match columns name with
    | none => .error .notFound
    | some c => match loadFeatures columns names with
      | .error e => .error e
      | .ok cs => .ok ((name, c) :: cs)

/-- `EvaluateForest` returning scores (`evaluation.cc:89-103`); `none` when the status is not OK. -/
def evaluateForest (columns : String → Option (Column A)) (numRows : Nat) (numThreads : Int) (forest : List (Tree D A)) :
    Outcome (Code × Option (List D)) :=
  match loadFeatures columns (forestFeatures forest) with
  | .error e => .ok (e, none)
  | .ok _ => do
    let slices ← scoreSlices numThreads numRows
    let r ← addForestScores columns forest slices (List.replicate numRows 0)
    pure (.ok, some r.2)

/-- `while (!test_points.empty() && i+1 >= test_points.front()) pop_front` (`evaluation.cc:81-83`). -/
def popPassed (done : Int) : List Int → List Int
  | [] => []
  | p :: ps => if done ≥ p then popPassed done ps else p :: ps

/-- The loop of `EvaluateForest` with test points (`evaluation.cc:70-84`) from tree `i` on: the score files written, in
order, as the test point in the name and the scores.  (Writing is assumed to succeed; for the text of the
file see `Model/ScoreText.lean`.) -/
def evaluateLoop (columns : String → Option (Column A)) :
    List (Tree D A) → Nat → List Int → List (List Nat) → List D → Outcome (List (Int × List D))
  | [], _, _, _, _ => .ok []
  | t :: ts, i, points, slices, scores =>
    match points with
    | [] => .ok []
    | p :: ps => do
      let (ss, sc) ← addTreeScores columns t 0 slices scores
      let rest ← evaluateLoop columns ts (i + 1) (popPassed (i + 1) (p :: ps)) ss sc
      pure (if ((i : Int) + 1) = p then (p, sc) :: rest else rest)

/-- `EvaluateForest` with test points (`evaluation.cc:57-87`). -/
def evaluateCheckpoints (columns : String → Option (Column A)) (numRows : Nat) (numThreads : Int)
    (forest : List (Tree D A)) (points : List Int) : Outcome (Code × List (Int × List D)) :=
  match loadFeatures columns (forestFeatures forest) with
  | .error e => .ok (e, [])
  | .ok _ => do
    let slices ← scoreSlices numThreads numRows
    let files ← evaluateLoop columns forest 0 points slices (List.replicate numRows 0)
    pure (.ok, files)

/-- The score files in the temporary directory: what reading the file for a test point gives, if there is one. -/
abbrev ScoreFiles (D : Type) := Int → Option (List D)

/-- Opening a file for writing replaces it (`evaluation.cc:42-54`).  `printed x` is what `float(...)` in Python reads
after `<<` printed `x` with its default of 6 significant digits (`printedDouble` in `Model/ScoreText.lean`). -/
def writeScoreFile (printed : D → D) (files : ScoreFiles D) (f : Int × List D) : ScoreFiles D :=
  fun p => if p = f.1 then some (f.2.map printed) else files p

/-- `predict_at_checkpoints` (`gbdt/_forest.py:18-29`) with the files left by earlier runs: the status, and for each
checkpoint what is read back (`none`: opening the file raises).  The directory of the files is the same for all forests
and processes. -/
def predictAtCheckpoints (printed : D → D) (files : ScoreFiles D) (columns : String → Option (Column A)) (numRows : Nat)
    (numThreads : Int) (forest : List (Tree D A)) (points : List Int) :
    Outcome (Code × List (Int × Option (List D))) := do
  let (code, written) ← evaluateCheckpoints columns numRows numThreads forest points
  let files1 := written.foldl (writeScoreFile printed) files
  pure (code, if code = .ok then points.map (fun p => (p, files1 p)) else [])

/-- The loop of `GetTestPoints` (`gbdt_algo/utils.cc:140-143`), and the reversal; `fuel` bounds the rounds. -/
def testPointsDown (interval : Int) : Nat → Int → List Int
  | 0, _ => []
  | fuel + 1, p => if p > 0 then testPointsDown interval fuel (p - interval) ++ [p] else []

/-- `GetTestPoints` (`gbdt_algo/utils.cc:134-149`).  With an interval of at least 1 the loop makes at most `forest_size`
rounds. -/
def getTestPoints (evalInterval : Int) (forestSize : Int) : List Int :=
  if evalInterval > 0 then testPointsDown evalInterval forestSize.toNat forestSize else [forestSize]

end score

end Gbdt
