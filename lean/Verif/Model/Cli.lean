import Verif.Model.Importance
import Verif.Model.Json
import Verif.Model.Pipeline
import Verif.Model.Tsv

/-!
# Model of the command line program

`--mode=train` and `--mode=test` (`src/main.cc`) with `--tsvs`: from files to files.  The configuration has been parsed already; JSON files
are given by what they hold (`none`: the file does not exist or is no JSON).  For `--flatfiles_dirs` see `FlatTrain.lean`; logging and the making of the
output directory are left out, and files can always be written.
-/

set_option autoImplicit false

namespace Gbdt

/-- The configuration with the fields that only loading and testing read (`config.proto:42, 66-69`). -/
structure CliConfig (D : Type) where
  train : Config D
  evalInterval : Int := 0
  additionalFloat : List String := []
  additionalString : List String := []

section cli
variable {D A N : Type} [Dbl D] [LinearOrder A] [ThrOps A]

omit [Dbl D] in
/-- The columns that the loader reads from the configuration (`tsv_data_store.cc:148-213`). -/
def CliConfig.tsv (c : CliConfig D) : TsvConfig where
  floatFeature := c.train.floatFeature
  additionalFloat := c.additionalFloat
  target := c.train.targetColumn
  weight := c.train.weightColumn
  categoricalFeature := c.train.catFeature
  group := c.train.groupColumn
  additionalString := c.additionalString

omit [Dbl D] [ThrOps A] in
/-- `LoadDataStoreOrDie` (`main.cc:88-104`) without `--flatfiles_dirs`.  Without `--tsvs` (`files = []`) the process ends. -/
def loadStoreOrDie (fmax : A) (parse : Text → Option (Fl A)) (sched : Nat → List Handle → List Handle)
    (files : List (Option Text)) (c : CliConfig D) : Outcome (DataStore A) :=
  match files with
  | [] => .fatal
  | _ => do
    let r ← loadTSVs fmax parse sched files c.tsv
    match r with
    | .error _ => .fatal
    | .ok t => .ok t

omit [LinearOrder A] [ThrOps A] in
/-- `LoadForestOrDie` (`gbdt_algo/utils.cc:195-202`).  100 is protobuf's limit for reading. -/
def loadForestOrDie (nc : NumCodec D A N) (zero : A) (file : Option (Json N)) : Outcome (List (Tree D A)) :=
  match file with
  | none => .fatal
  | some j => match forestFromJson nc zero 100 j with
    | .error _ => .fatal
    | .ok f => .ok f.trees

omit [LinearOrder A] [ThrOps A] in
/-- The base forest (`main.cc:124-129`): `none` without `--base_model_file`. -/
def loadBaseOrDie (nc : NumCodec D A N) (zero : A) : Option (Option (Json N)) → Outcome (Option (List (Tree D A)))
  | none => .ok none
  | some file => do
    let f ← loadForestOrDie nc zero file
    pure (some f)

/-- `Train` (`main.cc:106-159`): the model file and the lines of the `.fimps` file.  `base` is the file of `--base_model_file`, if that is given.  64
is protobuf's limit for writing JSON. -/
def cliTrainMain (mc : Machine D A) (nc : NumCodec D A N) (zero fmax : A) (parse : Text → Option (Fl A))
    (sched : Nat → List Handle → List Handle) (isort : List (String × D) → List (String × D)) (files : List (Option Text))
    (c : CliConfig D) (base : Option (Option (Json N))) (seed numThreads : Int) : Outcome (Json N × List (String × D)) := do
  let t ← loadStoreOrDie fmax parse sched files c
  let b ← loadBaseOrDie nc zero base
  let forest ← cliTrain mc t c.train b seed numThreads
  match forestToJson nc 64 ⟨forest, ""⟩ with
  | .error _ => .fatal
  | .ok j => .ok (j, featureImportance isort forest)

omit [ThrOps A] in
/-- `Test` (`main.cc:161-190`): the score files by the number of trees in their names. -/
def cliTestMain (nc : NumCodec D A N) (zero fmax : A) (parse : Text → Option (Fl A)) (sched : Nat → List Handle → List Handle)
    (files : List (Option Text)) (c : CliConfig D) (model : Option (Json N)) (numThreads : Int) :
    Outcome (List (Int × List D)) := do
  let forest ← loadForestOrDie nc zero model
  let t ← loadStoreOrDie fmax parse sched files c
  let n ← t.numRows
  let (e, scores) ← evaluateCheckpoints t.getColumn n numThreads forest (getTestPoints c.evalInterval forest.length)
  if e = .ok then .ok scores else .fatal

/-! ## Loading from Python -/

omit [ThrOps A] in
/-- `DataLoader.from_tsvs` (`_data_store.py:109-122`) with `LoadTSV` (`datastore_py.cc:37-57`). -/
def pyFromTsvs (fmax : A) (parse : Text → Option (Fl A)) (sched : Nat → List Handle → List Handle) (files : List (Option Text))
    (bucketized strings raw : List String) : PyRes (Option (DataStore A)) :=
  match loadTSVs fmax parse sched files { floatFeature := bucketized, additionalFloat := raw, additionalString := strings } with
  | .ub => .ub
  | .fatal => .fatal
  | .ok (.error e) => raise e (.ok (.ok none))
  | .ok (.ok t) => .ok (.ok (some t))

end cli

end Gbdt
