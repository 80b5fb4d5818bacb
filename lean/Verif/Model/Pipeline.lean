import Verif.Model.Pairwise
import Verif.Model.Pointwise
import Verif.Model.PyStore
import Verif.Model.Score

/-!
# Model of training and prediction as users call them

The Python functions `train` (`/repo/gbdt/_gbdt.py`) and `predict` (`/repo/gbdt/_forest.py`) with what they call
(`src/python/train_gbdt_py.cc`, `src/python/forest_py.cc`), the creation of loss functions (`src/loss_func/loss_func_factory.cc`)
and the command line training (`src/main.cc`).  The configuration has been parsed already.
-/

set_option autoImplicit false

namespace Gbdt

/-- The behaviour of the standard library and the machine, and the numbers that the generator yields after
`Subsampling::Reseed` (`subsampling.cc:30-32`): `draw` for sampling, `pairDraw` for pairs.  `toD` is the conversion of `float`
to `double`; `listing` is the order in which an `unordered_set` is iterated (`gbdt_algo/utils.cc:56`); `threshold` is
`kConvergenceThreshold` (`loss_func_pointwise.cc:34`), `tol` is `kFloatTolerance` (`split_algo.cc:33`). -/
structure Machine (D A : Type) where
  toD : Fl A → D
  math : MathFns D
  minusOne : D
  fabs : D → D
  rnd32 : D → D
  ofNat : Nat → D
  toInt : D → Option Int
  toU64 : D → Option Nat
  diverged : D → Bool
  threshold : D
  tol : D
  sort : (Nat → D) → List Nat → List Nat
  descSort : (Nat → D) → List Nat → List Nat
  top : Nat → List D → Nat
  listing : List String → List String
  draw : Int → Nat → D
  pairDraw : Int → Nat → Nat → Nat → Nat → Nat

/-- The configuration (`config.proto:20-65`) without the fields that only loading and testing read.  The sampling rates are
`none` where the Python dictionary has no entry; a field that is not set has the value 0, false or "" otherwise. -/
structure Config (D : Type) where
  numTrees : Int
  numLeaves : Int
  shrinkage : D
  minGain : D
  l2Lambda : D
  minHessian : D
  exampleRate : Option D
  featureRate : Option D
  lossFunc : String
  pairRate : D
  byDelta : Bool := false
  equalWeight : Bool := false
  dcgBase : D
  floatFeature : List String := []
  catFeature : List String := []
  weightColumn : String := ""
  targetColumn : String := ""
  binarize : Bool := false
  groupColumn : String := ""

section pipeline
variable {D A : Type} [Dbl D] [LinearOrder A]

/-- What `TrainGBDT` reads of the configuration, with the given value for absent sampling rates (1 from Python,
`_gbdt.py:38-41`; 0 otherwise). -/
def Config.train (mc : Machine D A) (c : Config D) (absent : D) : TrainConfig D where
  l2Lambda := c.l2Lambda
  minHessian := c.minHessian
  minGain := c.minGain
  tol := mc.tol
  numTrees := c.numTrees
  numLeaves := c.numLeaves
  shrinkage := c.shrinkage
  exampleRate := c.exampleRate.getD absent
  featureRate := c.featureRate.getD absent
  groupColumn := c.groupColumn

/-- A pointwise loss (`loss_func_mse.h:27-30`, `loss_func_logloss.cc:31-32`, `loss_func_huberized_hinge.cc:29-30`). -/
def mkPoint (mc : Machine D A) (numThreads : Int) (w y : Nat → D) (binary : Bool) (lossFn : D → D → D × D × D) :
    PointLoss D where
  lossFn := lossFn
  binary := binary
  one := mc.math.one
  minusOne := mc.minusOne
  w := w
  y := y
  fabs := mc.fabs
  threshold := mc.threshold
  numThreads := numThreads

/-- A pairwise loss (`loss_func_pairwise.cc:48-54`). -/
def mkPair (mc : Machine D A) (c : Config D) (seed numThreads : Int) (w y : Nat → D) (rerank : Bool)
    (lossFn : D → D → D × D × D) (discount : Option (Nat → D)) : PairLoss D where
  rate := c.pairRate
  byDelta := c.byDelta
  equalWeight := c.equalWeight
  rerank := rerank
  lossFn := lossFn
  discount := discount
  w := w
  y := y
  sort := mc.descSort
  ofNat := mc.ofNat
  toU64 := mc.toU64
  rnd32 := mc.rnd32
  fabs := mc.fabs
  numThreads := numThreads
  draw := mc.pairDraw seed

/-- The base of LambdaMART's discounts (`loss_func_lambdamart.cc:40-42`, `loss_func_lambdamart.h:31`). -/
def dcgBaseOf (mc : Machine D A) (c : Config D) : D := if Dbl.ltb 0 c.dcgBase then c.dcgBase else mc.ofNat 2

/-- `CreateLossFunc` (`loss_func_factory.cc:32-50`) and what is done with the loss; `none` for an unknown name.  The formulas
are those of `loss_func_mse.h:27-30`, `loss_func_logloss.cc:31-32`, `loss_func_huberized_hinge.cc:29-30`, `loss_func_auc.h:30-36`,
`loss_func_pairwise_logloss.h:29-36`, `loss_func_gbrank.h:32-39` and `loss_func_lambdamart.cc:37-51`.  A loss takes the
weights and the targets when `Init` is called. -/
def withLoss {R : Type} (mc : Machine D A) (c : Config D) (seed numThreads : Int)
    (k : ∀ S : Type, ((w y : Nat → D) → LossFunc S D) → Outcome R) : Option (Outcome R) :=
  match c.lossFunc with
  | "mse" => some (k _ (fun w y => (mkPoint mc numThreads w y false (mseLoss mc.math)).toLoss))
  | "logloss" => some (k _ (fun w y => (mkPoint mc numThreads w y true (logLoss mc.math)).toLoss))
  | "huberized_hinge" => some (k _ (fun w y => (mkPoint mc numThreads w y true (huberizedHinge mc.math)).toLoss))
  | "auc" => some (k _ (fun w y => (mkPair mc c seed numThreads w y false
      (fun _ df => huberizedHinge mc.math mc.math.one df) none).toLoss))
  | "pairwise_logloss" => some (k _ (fun w y => (mkPair mc c seed numThreads w y false
      (fun _ df => logLoss mc.math mc.math.one df) none).toLoss))
  | "gbrank" => some (k _ (fun w y => (mkPair mc c seed numThreads w y false (squaredHinge mc.math) none).toLoss))
  | "lambdamart" => some (do
      let value := discountOf mc.math.log mc.ofNat (dcgBaseOf mc c)
      let table ← lambdaTable value
      k _ (fun w y => (mkPair mc c seed numThreads w y true (fun _ df => logLoss mc.math mc.math.one df)
        (some (tableDiscount value table))).toLoss))
  | _ => none

/-- What `TrainGBDT` is given beside the loss and the configuration (`train_gbdt_py.cc:107-114`, `main.cc:137-144`). -/
def mkEnv (mc : Machine D A) (t : DataStore A) (numRows : Nat) (w : Nat → D) (seed numThreads : Int) : TrainEnv D A where
  columns := t.getColumn
  numRows := numRows
  w := w
  sort := mc.sort
  top := mc.top
  toInt := mc.toInt
  ofNat := mc.ofNat
  draw := mc.draw seed
  rnd32 := mc.rnd32
  numThreads := numThreads
  diverged := mc.diverged

/-- A status as the caller in Python sees it (`gbdt_py_base.cc:6-21`): an exception, or what the code goes on with. -/
def raise {α : Type} (e : Code) (k : PyRes α) : PyRes α :=
  match throwException e with
  | some x => .ok (.error (.lib x))
  | none => k

/-- The elements of a vector as a `FloatVector` (`train_gbdt_py.cc:67-72, 83-84`; `gbdt_algo/utils.cc:162-164, 180`).  Reading out
of bounds would be undefined; the sizes are checked before or are those of the store. -/
def vecFn (mc : Machine D A) (l : List (Fl A)) (i : Nat) : D := mc.toD (l.getD i .nan)

variable [ThrOps A]

/-- The end of `TrainPy` (`train_gbdt_py.cc:88-117`), from the creation of the loss on.  An empty store stands for a missing one,
which has no columns, so that there are no features and `TrainGBDT` is not reached. -/
def trainPyRun (mc : Machine D A) (t : DataStore A) (c : Config D) (w y : Nat → D) (base : Option (List (Tree D A)))
    (seed numThreads : Int) (features : List String) : PyRes (List (Tree D A)) :=
  match withLoss mc c seed numThreads (fun _ loss =>
      if features = [] then raise .invalidArgument .ub
      else do
        let n ← t.numRows
        let r ← trainGBDT (mkEnv mc t n w seed numThreads) (loss w y) (mc.listing features) (c.train mc (mc.ofNat 1)) base [] 0
        if r.code = .ok then .ok (.ok r.forest) else raise r.code (.ok (.ok r.forest))) with
  | none => raise .notFound .ub
  | some run => run

/-- The targets in `TrainPy` (`train_gbdt_py.cc:72-84`): without `y`, those of the target column. -/
def trainPyTargets (mc : Machine D A) (s : Option (DataStore A)) (c : Config D) (y : List (Fl A)) : PyRes (Nat → D) :=
  if y ≠ [] then .ok (.ok (vecFn mc y))
  else if c.targetColumn = "" then raise .invalidArgument .ub
  else match s with
    | none => .ub
    | some t => match t.getRaw c.targetColumn with
      | none => raise .invalidArgument .ub
      | some col => .ok (.ok (vecFn mc col.raw))

omit [Dbl D] [ThrOps A] in
/-- Whether a vector is given whose length is not the number of rows (`train_gbdt_py.cc:56, 61`). -/
def wrongLength (s : Option (DataStore A)) (l : List (Fl A)) : Outcome Bool :=
  if l = [] then .ok false
  else do
    let n ← PyStore.len s
    pure (n != l.length)

/-- `TrainPy` (`train_gbdt_py.cc:42-118`).  `s` is the store inside the `DataStorePy`; the features are those that `train` has put
into the configuration. -/
def trainPyFull (mc : Machine D A) (s : Option (DataStore A)) (c : Config D) (y w : List (Fl A)) (base : Option (List (Tree D A)))
    (seed numThreads : Int) (features : List String) : PyRes (List (Tree D A)) := show Outcome _ from do
  let wrongY ← wrongLength s y
  if wrongY then raise .invalidArgument .ub
  else do
    let wrongW ← wrongLength s w
    if wrongW then raise .invalidArgument .ub
    else (trainPyTargets mc s c y).andThen (fun yf =>
      trainPyRun mc (s.getD []) c (if w = [] then fun _ => mc.ofNat 1 else vecFn mc w) yf base seed numThreads features)

/-- The names of the columns of one type, none without a store (`_data_store.py:38-45`, `datastore_py.cc:117-135`). -/
def namesOfType (s : Option (DataStore A)) (ty : ColType) : List String :=
  match s with
  | none => []
  | some t => t.namesOf ty

/-- `train` (`_gbdt.py:4-49`).  `features` may have repetitions; `set` removes them. -/
def pyTrain (mc : Machine D A) (s : Option (DataStore A)) (c : Config D) (y : List (Fl A)) (features : List String)
    (w : List (Fl A)) (base : Option (List (Tree D A))) (seed numThreads : Int) : PyRes (List (Tree D A)) :=
  let float := (namesOfType s .bucketized).filter (fun n => features.contains n)
  let cat := (namesOfType s .string).filter (fun n => features.contains n)
  if features.any (fun n => !(float.contains n || cat.contains n)) then .ok (.error .valueError)
  else trainPyFull mc s { c with floatFeature := float, catFeature := cat } y w base seed numThreads (cat ++ float)

omit [ThrOps A] in
/-- `predict` (`_forest.py:14-16`, `forest_py.cc:39-55`).  `numThreads` is the flag that the last call of `train` has set. -/
def pyPredict (s : Option (DataStore A)) (forest : List (Tree D A)) (numThreads : Int) : PyRes (List D) :=
  match s with
  | none => raise .notFound .ub
  | some t => match t.numRows with
    | .ub => .ub
    | .fatal => .fatal
    | .ok n => match evaluateForest t.getColumn n numThreads forest with
      | .ub => .ub
      | .fatal => .fatal
      | .ok (e, scores) => if e = .ok then .ok (.ok (scores.getD [])) else raise e (.ok (.ok (scores.getD [])))

omit [ThrOps A] in
/-- `predict_and_output` (`forest_py.cc:57-65`): the score files that are written.  The store is not checked; without one,
`LoadFeatures` or the constructor of `ComputeTreeScores` follows a null pointer (`evaluation.cc:63, 67`). -/
def pyPredictAndOutput (s : Option (DataStore A)) (forest : List (Tree D A)) (points : List Int) (numThreads : Int) :
    PyRes (List (Int × List D)) :=
  match s with
  | none => .ub
  | some t => match t.numRows with
    | .ub => .ub
    | .fatal => .fatal
    | .ok n => match evaluateCheckpoints t.getColumn n numThreads forest points with
      | .ub => .ub
      | .fatal => .fatal
      | .ok (e, files) => if e = .ok then .ok (.ok files) else raise e (.ok (.ok files))

/-! ## The command line -/

omit [Dbl D] [ThrOps A] in
/-- `GetSampleWeightsOrDie` (`gbdt_algo/utils.cc:157-168`). -/
def sampleWeightsOrDie (mc : Machine D A) (c : Config D) (t : DataStore A) : Outcome (Nat → D) :=
  if c.weightColumn = "" then .ok (fun _ => mc.ofNat 1)
  else match t.getRaw c.weightColumn with
    | none => .fatal
    | some col => .ok (vecFn mc col.raw)

omit [ThrOps A] in
/-- `GetTargetsOrDie` (`gbdt_algo/utils.cc:170-183`). -/
def targetsOrDie (mc : Machine D A) (c : Config D) (t : DataStore A) : Outcome (Nat → D) :=
  if c.targetColumn = "" then .fatal
  else match t.getRaw c.targetColumn with
    | none => .fatal
    | some col =>
      if c.binarize then .ok (fun i => if Dbl.ltb 0 (vecFn mc col.raw i) then mc.math.one else mc.minusOne)
      else .ok (vecFn mc col.raw)

omit [Dbl D] [ThrOps A] in
/-- `GetFeaturesSetFromConfig` (`gbdt_algo/utils.cc:151-155`). -/
def featuresOf (c : Config D) : List String := (c.floatFeature ++ c.catFeature).dedup

/-- `Train` of the command line (`main.cc:131-145`) on a loaded store: the forest that is written.  Every failed `CHECK` ends the
process. -/
def cliTrain (mc : Machine D A) (t : DataStore A) (c : Config D) (base : Option (List (Tree D A))) (seed numThreads : Int) :
    Outcome (List (Tree D A)) :=
  match withLoss mc c seed numThreads (fun _ loss => do
      let w ← sampleWeightsOrDie mc c t
      let y ← targetsOrDie mc c t
      let n ← t.numRows
      let r ← trainGBDT (mkEnv mc t n w seed numThreads) (loss w y) (mc.listing (featuresOf c)) (c.train mc 0) base [] 0
      if r.code = .ok then .ok r.forest else .fatal) with
  | none => .fatal
  | some run => run

end pipeline

end Gbdt
