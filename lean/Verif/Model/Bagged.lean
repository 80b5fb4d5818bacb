import Verif.Model.Converter
import Verif.Model.FlatTrain

/-!
# Model of `scripts/bagged.py`

The script trains one model per bag and averages scores.  The models are trained and tested by the program (`FlatTrain.lean`).  Not
modelled: the parsing of options, the copying of the configuration (only the name of the weight column changes), and the printing of
the averages.  The directory of the bags is empty at the start (score files of an earlier run would be taken for those of this one).
-/

set_option autoImplicit false

namespace Gbdt

/-- What the script is given and what it depends on: the flat files, the contents of the file that `os.listdir` lists first, Python's `hash` of
a string, the options, and what the program depends on (see `FlatTrain.lean`), for each bag.  `shown x` is what `float` reads of the
score `x` in a score file; the program writes six digits (`evaluation.cc:50`). -/
structure Bagging (D A N : Type) where
  disk : FlatDisk A
  first : Text
  hash : String → Int
  numBags : Nat
  mc : Machine D A
  nc : NumCodec D A N
  zero : A
  weightsFirst : Bool
  trainSched : Nat → List Nat
  testSched : Nat → List Nat
  isort : List (String × D) → List (String × D)
  config : Config D
  interval : Int
  seed : Int
  numThreads : Int
  shown : D → D

/-- `num_rows` (`bagged.py:33-36`): the lines that do not start with `#` and are not blank. -/
def bagRows (file : Text) : Nat :=
  ((getLines file).filter (fun l => !(l.head? == some '#') && l.any (fun c => !isSpace c))).length

/-- `inBag` (`bagged.py:41-42`).  Python's `%` is never negative here. -/
def inBag (hash : String → Int) (numBags row k : Nat) : Bool := hash (toString row) % (numBags : Int) != (k : Int)

/-- The file of weights (`bagged.py:82-85`). -/
def bagWeights (hash : String → Int) (numBags rows k : Nat) : Text :=
  printLines ("# dtype=raw_floats".toList :: (List.range rows).map (fun i => if inBag hash numBags i k then ['1'] else ['0']))

section bagging
variable {D A N : Type} [LinearOrder A]

omit [LinearOrder A] in
/-- `--flatfiles_dirs={working_flatfiles_dir},{flatfiles_dir}` (`bagged.py:94-104`): the directory of the bag holds the weights
(`bagged.py:72-85`). -/
def Bagging.bagDisk (b : Bagging D A N) (k : Nat) : FlatDisk A :=
  { b.disk with files := findFlatfile [
      fun name => if name = "bagging_weights" then some (bagWeights b.hash b.numBags (bagRows b.first) k) else none,
      b.disk.files] }

omit [LinearOrder A] in
/-- The configuration that is written for the bags (`bagged.py:80-81`). -/
def Bagging.bagConfig (b : Bagging D A N) : Config D := { b.config with weightColumn := "bagging_weights" }

variable [Dbl D] [ThrOps A]

/-- `trainAndEvalBag` (`bagged.py:87-116`): the score files of bag `k`.  `check_call` raises an exception if the program fails (`fatal`). -/
def bagFiles (b : Bagging D A N) (k : Nat) : Outcome (List (Int × List D)) := do
  let (model, _) ← cliTrainFFMain (b.bagDisk k) b.mc b.nc b.zero b.weightsFirst (b.trainSched k) b.isort b.bagConfig none b.seed b.numThreads
  cliTestFFMain b.disk b.mc.listing b.nc b.zero (b.testSched k) b.interval (some model) b.numThreads

omit [LinearOrder A] [ThrOps A] in
/-- `sum(scores) / len(scores)` (`bagged.py:131, 136`); `none`: an exception. -/
def meanOf (ofNat : Nat → D) (scores : List D) : Option D :=
  if scores = [] then none else some (scores.foldl (· + ·) 0 / ofNat scores.length)

omit [LinearOrder A] [ThrOps A] in
/-- `inBagScore` and `outOfBagScore` (`bagged.py:128-136`): the mean of the scores of row `i` by the bags that are kept; `none`: an exception. -/
def bagScore (ofNat : Nat → D) (keep : Nat → Nat → Bool) (scores : List (List D)) (i : Nat) : Option D := do
  let l ← ((List.range scores.length).filter (keep i)).mapM (fun k => do
    let row ← scores[k]?
    row[i]?)
  meanOf ofNat l

omit [LinearOrder A] [ThrOps A] in
/-- The two files of test point `t` (`bagged.py:63-70, 123-126`); `none`: an exception. -/
def bagPoint (b : Bagging D A N) (bags : List (List (Int × List D))) (t : Int) : Option (List D × List D) := do
  let scores ← bags.mapM (fun files => (files.lookup t).map (List.map b.shown))
  let inside ← (List.range (bagRows b.first)).mapM (bagScore b.mc.ofNat (inBag b.hash b.numBags) scores)
  let outside ← (List.range (bagRows b.first)).mapM (bagScore b.mc.ofNat (fun i k => !inBag b.hash b.numBags i k) scores)
  pure (inside, outside)

/-- `trainAndEvalBags` (`bagged.py:47-70`): in-bag and out-of-bag scores for every test point; `none`: an exception.  The test points are those
of the first bag (`bagged.py:118-121`). -/
def runBagging (b : Bagging D A N) : Outcome (Option (List (Int × List D × List D))) := do
  let bags ← (List.range b.numBags).mapM (bagFiles b)
  match bags with
  | [] => pure none
  | files :: _ => pure ((files.map Prod.fst).mapM (fun t => (bagPoint b bags t).map (fun r => (t, r))))

end bagging

end Gbdt
