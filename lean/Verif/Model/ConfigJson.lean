import Verif.Model.Cli

/-!
# Model of `json_utils.cc` for `config.proto`, and of the dictionary that `train` is given

As in `Model/Json.lean`, JSON is a value and the conversion is that of protobuf.  protobuf reads messages by the table of their fields, so this
model does.  Of a field given twice (in both spellings) the last value counts, and lists are put together, as protobuf does.
-/

set_option autoImplicit false

namespace Gbdt

/-- How protobuf reads values of the types `int32`, `double`, `float` and `bool` (`config.proto:22-64`). -/
structure ConfigCodec (D N : Type) where
  readInt : Json N → Option Int
  readDouble : Json N → Option D
  readFloat : Json N → Option D
  readBool : Json N → Option Bool

/-- A field of a message of type `C` (`config.proto:22-69`): the names it may have, how its value is read, how a value is joined to the one
before, and where it is kept. -/
structure MessageField (C N : Type) where
  {β : Type}
  names : List String
  read : Json N → Option β
  join : β → β → β := fun _ v => v
  get : C → β
  set : β → C → C

/-- The value of a field of type `string` (`config.proto:46, 61, 62, 65`). -/
def readText {N : Type} : Json N → Option String
  | .str s => some s
  | _ => none

/-- The value of a field of type `repeated string` (`config.proto:59, 60, 68, 69`). -/
def readTexts {N : Type} : Json N → Option (List String)
  | .arr a => readStrings a
  | _ => none

/-- `FromJson` (`json_utils.cc:58-67`) of the entries of a message with these fields: `null` means that the field is not given, other names are
refused. -/
def readMessage {C N : Type} (fields : List (MessageField C N)) : JsonFields N → C → Option C
  | .nil, c => some c
  | .cons key x l, c =>
    match fields.find? (fun f => f.names.contains key) with
    | none => none
    | some f => match x with
      | .null => readMessage fields l c
      | x => (f.read x).bind (fun v => readMessage fields l (f.set (f.join (f.get c) v) c))

section config
variable {D N : Type}

/-- The fields of `Config` (`config.proto:20-70`). -/
def configFields (cc : ConfigCodec D N) : List (MessageField (CliConfig D) N) :=
  [{ names := ["numTrees", "num_trees"], read := cc.readInt, get := (·.train.numTrees), set := fun v c => { c with train.numTrees := v } },
   { names := ["numLeaves", "num_leaves"], read := cc.readInt, get := (·.train.numLeaves), set := fun v c => { c with train.numLeaves := v } },
   { names := ["shrinkage"], read := cc.readFloat, get := (·.train.shrinkage), set := fun v c => { c with train.shrinkage := v } },
   { names := ["minGain", "min_gain"], read := cc.readDouble, get := (·.train.minGain), set := fun v c => { c with train.minGain := v } },
   { names := ["l2Lambda", "l2_lambda"], read := cc.readDouble, get := (·.train.l2Lambda), set := fun v c => { c with train.l2Lambda := v } },
   { names := ["minHessian", "min_hessian"], read := cc.readDouble, get := (·.train.minHessian),
     set := fun v c => { c with train.minHessian := v } },
   { names := ["exampleSamplingRate", "example_sampling_rate"], read := fun x => (cc.readFloat x).map some, get := (·.train.exampleRate),
     set := fun v c => { c with train.exampleRate := v } },
   { names := ["featureSamplingRate", "feature_sampling_rate"], read := fun x => (cc.readFloat x).map some, get := (·.train.featureRate),
     set := fun v c => { c with train.featureRate := v } },
   { names := ["evalInterval", "eval_interval"], read := cc.readInt, get := (·.evalInterval), set := fun v c => { c with evalInterval := v } },
   { names := ["lossFunc", "loss_func"], read := readText, get := (·.train.lossFunc), set := fun v c => { c with train.lossFunc := v } },
   { names := ["pairSamplingRate", "pair_sampling_rate"], read := cc.readFloat, get := (·.train.pairRate),
     set := fun v c => { c with train.pairRate := v } },
   { names := ["pairWeightByDeltaTarget", "pair_weight_by_delta_target"], read := cc.readBool, get := (·.train.byDelta),
     set := fun v c => { c with train.byDelta := v } },
   { names := ["lambdamartDcgBase", "lambdamart_dcg_base"], read := cc.readFloat, get := (·.train.dcgBase),
     set := fun v c => { c with train.dcgBase := v } },
   { names := ["equalGroupWeight", "equal_group_weight"], read := cc.readBool, get := (·.train.equalWeight),
     set := fun v c => { c with train.equalWeight := v } },
   { names := ["floatFeature", "float_feature"], read := readTexts, join := (· ++ ·), get := (·.train.floatFeature),
     set := fun v c => { c with train.floatFeature := v } },
   { names := ["categoricalFeature", "categorical_feature"], read := readTexts, join := (· ++ ·), get := (·.train.catFeature),
     set := fun v c => { c with train.catFeature := v } },
   { names := ["weightColumn", "weight_column"], read := readText, get := (·.train.weightColumn),
     set := fun v c => { c with train.weightColumn := v } },
   { names := ["targetColumn", "target_column"], read := readText, get := (·.train.targetColumn),
     set := fun v c => { c with train.targetColumn := v } },
   { names := ["binarizeTarget", "binarize_target"], read := cc.readBool, get := (·.train.binarize),
     set := fun v c => { c with train.binarize := v } },
   { names := ["groupColumn", "group_column"], read := readText, get := (·.train.groupColumn),
     set := fun v c => { c with train.groupColumn := v } },
   { names := ["additionalFloatColumn", "additional_float_column"], read := readTexts, join := (· ++ ·), get := (·.additionalFloat),
     set := fun v c => { c with additionalFloat := v } },
   { names := ["additionalStringColumn", "additional_string_column"], read := readTexts, join := (· ++ ·), get := (·.additionalString),
     set := fun v c => { c with additionalString := v } }]

/-- An empty `Config` (`config.proto:20-70`).  Rates that are not given are kept as `none`; they are 0 in the message. -/
def emptyConfig [Zero D] : CliConfig D where
  train := { numTrees := 0, numLeaves := 0, shrinkage := 0, minGain := 0, l2Lambda := 0, minHessian := 0, exampleRate := none,
             featureRate := none, lossFunc := "", pairRate := 0, dcgBase := 0 }

/-- `JsonUtils::FromJson` (`json_utils.cc:58-67`) into an empty `Config`, as in `main.cc:116-119, 171-174` and `train_gbdt_py.cc:51-53`. -/
def configFromJson [Zero D] (cc : ConfigCodec D N) : Json N → Option (CliConfig D)
  | .obj o => readMessage (configFields cc) o emptyConfig
  | _ => none

/-! ## The dictionary -/

/-- `config[key] = x` (`_gbdt.py:36-41`): a new key comes last. -/
def JsonFields.assign (key : String) (x : Json N) : JsonFields N → JsonFields N
  | .nil => .cons key x .nil
  | .cons k y l => if k = key then .cons k x l else .cons k y (l.assign key x)

/-- `key in config` (`_gbdt.py:38, 40`). -/
def JsonFields.has (key : String) : JsonFields N → Bool
  | .nil => false
  | .cons k _ l => k == key || l.has key

/-- `if key not in config: config[key] = x` (`_gbdt.py:38-41`). -/
def JsonFields.setDefault (key : String) (x : Json N) (o : JsonFields N) : JsonFields N := if o.has key then o else o.assign key x

/-- What `train` makes of the dictionary (`_gbdt.py:36-41`); `one` is the number 1. -/
def pyConfigDict (one : Json N) (float cat : List String) (o : JsonFields N) : JsonFields N :=
  (((o.assign "float_feature" (.arr (jsonList .str float))).assign "categorical_feature" (.arr (jsonList .str cat))).setDefault
    "example_sampling_rate" one).setDefault "feature_sampling_rate" one

/-- Rates that are not in the JSON are 0 in the message (`config.proto:37, 39`). -/
def Config.inMessage [Zero D] (c : Config D) : Config D :=
  { c with exampleRate := some (c.exampleRate.getD 0), featureRate := some (c.featureRate.getD 0) }

/-- `train` (`_gbdt.py:4-49`) with a dictionary: the configuration is written as JSON and read by `TrainPy` (`train_gbdt_py.cc:51-53`), which takes
the features from there (`train_gbdt_py.cc:98-103`).  A dictionary is a list of entries with different keys. -/
def pyTrainDict {A : Type} [Dbl D] [LinearOrder A] [ThrOps A] (mc : Machine D A) (cc : ConfigCodec D N) (one : Json N)
    (s : Option (DataStore A)) (config : JsonFields N) (y : List (Fl A)) (features : List String) (w : List (Fl A))
    (base : Option (List (Tree D A))) (seed numThreads : Int) : PyRes (List (Tree D A)) :=
  let float := (namesOfType s .bucketized).filter (fun n => features.contains n)
  let cat := (namesOfType s .string).filter (fun n => features.contains n)
  if features.any (fun n => !(float.contains n || cat.contains n)) then .ok (.error .valueError)
  else match configFromJson cc (.obj (pyConfigDict one float cat config)) with
    | none => raise .invalidArgument .ub
    | some c => trainPyFull mc s c.train.inMessage y w base seed numThreads ((c.train.catFeature ++ c.train.floatFeature).dedup)

end config

end Gbdt
