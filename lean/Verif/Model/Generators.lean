import Verif.Model.Score

/-!
# Generators over checkpoints

`Forest.predict_at_checkpoints` (`gbdt/_forest.py:18-29`) is a generator: nothing happens before the first `next`, which writes all
score files; each `next` then reads one of them.  Several generators share the files, whose names have only the checkpoint.
-/

set_option autoImplicit false

namespace Gbdt
open Outcome

variable {D A : Type} [Dbl D] [LinearOrder A]

/-- The arguments of a call of `predict_at_checkpoints` (`gbdt/_forest.py:18`): the forest, the data store (its columns and rows) and the
checkpoints (a list). -/
structure CheckpointCall (D A : Type) where
  columns : String → Option (Column A)
  numRows : Nat
  forest : List (Tree D A)
  points : List Int

/-- What `next` gives: a checkpoint with its scores, the end, an exception from C++ (`forest_py.cc:57-65`), or an exception because
there is no file (`gbdt/_forest.py:28`). -/
inductive GenResult (D : Type) where
  | value : Int → List D → GenResult D
  | stop : GenResult D
  | raised : Code → GenResult D
  | noFile : Int → GenResult D
  deriving DecidableEq

/-- `yield p, [float(line) for line in open(...)]` for the next of the remaining checkpoints (`gbdt/_forest.py:27-29`): what is given
and what remains.  An exception ends the generator. -/
def readNext (files : ScoreFiles D) : List Int → GenResult D × List Int
  | [] => (.stop, [])
  | p :: ps =>
    match files p with
    | some scores => (.value p scores, ps)
    | none => (.noFile p, [])

/-- `next` on a generator (`gbdt/_forest.py:22-29`); `remaining` is `none` before the first `next`.  Gives the result, the remaining
checkpoints and the files afterwards. -/
def genNext (printed : D → D) (numThreads : Int) (c : CheckpointCall D A) (remaining : Option (List Int)) (files : ScoreFiles D) :
    Outcome (GenResult D × List Int × ScoreFiles D) :=
  match remaining with
  | some ps => .ok ((readNext files ps).1, (readNext files ps).2, files)
  | none => do
    let (code, written) ← evaluateCheckpoints c.columns c.numRows numThreads c.forest c.points
    let files1 := written.foldl (writeScoreFile printed) files
    if code = .ok then pure ((readNext files1 c.points).1, (readNext files1 c.points).2, files1)
    else pure (.raised code, [], files1)

/-- A program that calls `next` on generators (`gbdt/_forest.py:18-29`) in the order of the list: the results. -/
def runGenerators (printed : D → D) (numThreads : Int) (calls : Nat → CheckpointCall D A) :
    List Nat → (Nat → Option (List Int)) → ScoreFiles D → Outcome (List (GenResult D))
  | [], _, _ => .ok []
  | k :: ks, states, files => do
    let (r, rest, files1) ← genNext printed numThreads (calls k) (states k) files
    let rs ← runGenerators printed numThreads calls ks (fun i => if i = k then some rest else states i) files1
    pure (r :: rs)

end Gbdt
