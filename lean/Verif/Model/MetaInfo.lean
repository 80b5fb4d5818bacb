import Verif.Model.Text

/-!
# Model of `MetaInfo` (`gbdt_algo.cc:103-117`)

The configuration is printed by protobuf's `DebugString`: the fields that are not zero, in the order of their numbers, one per line.  Characters
stand for bytes.
-/

set_option autoImplicit false

namespace Gbdt

/-- A digit of an octal escape (protobuf's `CEscape`, called by `DebugString`, `gbdt_algo.cc:109`). -/
def octalDigit (d : Nat) : Char := Char.ofNat (48 + d)

/-- A character between the quotation marks of a string printed by `DebugString` (`gbdt_algo.cc:109`; `CEscape` of protobuf 3.6.1). -/
def cEscape (c : Char) : Text :=
  if c = '\n' then ['\\', 'n']
  else if c = '\r' then ['\\', 'r']
  else if c = '\t' then ['\\', 't']
  else if c = '"' then ['\\', '"']
  else if c = '\'' then ['\\', '\'']
  else if c = '\\' then ['\\', '\\']
  else if c.toNat < 32 ∨ 127 ≤ c.toNat then
    ['\\', octalDigit (c.toNat / 64), octalDigit (c.toNat / 8 % 8), octalDigit (c.toNat % 8)]
  else [c]

/-- The value of a field as it is printed: a number or `true`, or a string (`gbdt_algo.cc:109`). -/
inductive MetaValue where
  | plain (t : Text)
  | quoted (s : Text)
  deriving DecidableEq

/-- What `DebugString` prints for a value (`gbdt_algo.cc:109`). -/
def MetaValue.text : MetaValue → Text
  | .plain t => t
  | .quoted s => '"' :: (s.flatMap cEscape ++ ['"'])

/-- `DebugString` of the fields, `none` for those that are zero (`gbdt_algo.cc:109`). -/
def debugString (fields : List (Text × Option MetaValue)) : Text :=
  fields.flatMap (fun f => match f.2 with
    | none => []
    | some v => f.1 ++ ':' :: ' ' :: (v.text ++ ['\n']))

/-- The fields of `Config` that are kept (`config.proto:20-65`, `gbdt_algo.cc:104-108`): all but the lists of columns. -/
structure MetaConfig (D : Type) where
  numTrees : Int
  numLeaves : Int
  shrinkage : D
  minGain : D
  l2Lambda : D
  exampleRate : D
  featureRate : D
  evalInterval : Int
  weightColumn : Text
  targetColumn : Text
  binarize : Bool
  groupColumn : Text
  lossFunc : Text
  pairRate : D
  byDelta : Bool
  dcgBase : D
  minHessian : D
  equalWeight : Bool
  deriving DecidableEq

/-- How protobuf prints numbers of the types `int32`, `float` and `double`, and which of them are zero (`gbdt_algo.cc:109`): parameters of the model. -/
structure MetaPrint (D : Type) where
  int : Int → Text
  float : D → Text
  double : D → Text
  isZero : D → Bool

/-- A field of type `int32`. (`config.proto:22-24, 43`) -/
def MetaPrint.intField {D : Type} (pr : MetaPrint D) (n : Int) : Option MetaValue := if n = 0 then none else some (.plain (pr.int n))

/-- A field of type `float`. (`config.proto:26, 37, 39, 51, 54`) -/
def MetaPrint.floatField {D : Type} (pr : MetaPrint D) (x : D) : Option MetaValue :=
  if pr.isZero x then none else some (.plain (pr.float x))

/-- A field of type `double`. (`config.proto:28, 30, 33`) -/
def MetaPrint.doubleField {D : Type} (pr : MetaPrint D) (x : D) : Option MetaValue :=
  if pr.isZero x then none else some (.plain (pr.double x))

/-- A field of type `string`. (`config.proto:46, 61, 62, 65`) -/
def stringField (s : Text) : Option MetaValue := if s = [] then none else some (.quoted s)

/-- A field of type `bool`. (`config.proto:53, 56, 64`) -/
def boolField (b : Bool) : Option MetaValue := if b then some (.plain ['t', 'r', 'u', 'e']) else none

/-- The fields in the order of their numbers (`config.proto:20-65`). -/
def MetaConfig.fields {D : Type} (pr : MetaPrint D) (c : MetaConfig D) : List (Text × Option MetaValue) :=
  [("num_trees".toList, pr.intField c.numTrees), ("num_leaves".toList, pr.intField c.numLeaves),
   ("shrinkage".toList, pr.floatField c.shrinkage), ("min_gain".toList, pr.doubleField c.minGain),
   ("l2_lambda".toList, pr.doubleField c.l2Lambda), ("example_sampling_rate".toList, pr.floatField c.exampleRate),
   ("feature_sampling_rate".toList, pr.floatField c.featureRate), ("eval_interval".toList, pr.intField c.evalInterval),
   ("weight_column".toList, stringField c.weightColumn), ("target_column".toList, stringField c.targetColumn),
   ("binarize_target".toList, boolField c.binarize), ("group_column".toList, stringField c.groupColumn),
   ("loss_func".toList, stringField c.lossFunc), ("pair_sampling_rate".toList, pr.floatField c.pairRate),
   ("pair_weight_by_delta_target".toList, boolField c.byDelta), ("lambdamart_dcg_base".toList, pr.floatField c.dcgBase),
   ("min_hessian".toList, pr.doubleField c.minHessian), ("equal_group_weight".toList, boolField c.equalWeight)]

/-- `std::replace(…, '\n', ',')` (`gbdt_algo.cc:111`). -/
def newlineToComma (c : Char) : Char := if c = '\n' then ',' else c

/-- `std::replace(…, '"', '\'')` (`gbdt_algo.cc:112`). -/
def quoteToApostrophe (c : Char) : Char := if c = '"' then '\'' else c

/-- The text of the configuration (`gbdt_algo.cc:104-112`). -/
def metaConfigText {D : Type} (pr : MetaPrint D) (c : MetaConfig D) : Text :=
  ((trim (debugString (c.fields pr))).map newlineToComma).map quoteToApostrophe

/-- `MetaInfo` (`gbdt_algo.cc:103-117`), given the time (`utils.cc:112-118`) and the duration of the training as texts. -/
def metaInfo {D : Type} (pr : MetaPrint D) (time duration : Text) (c : MetaConfig D) : Text :=
  "GBDT forest trained at ".toList ++ (time ++ (" for ".toList ++ (duration ++ (" with the following config: ".toList ++
    (metaConfigText pr c ++ ['.'])))))

end Gbdt
