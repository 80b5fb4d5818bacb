import Verif.Model.Train

/-!
# Model of `TrainPy` and of the loss function factory

Parsing the configuration is not modelled; a null `data_store` (the first check) is `none`.
-/

set_option autoImplicit false

namespace Gbdt

/-- The names in `loss_func_creator_map_` (`loss_func_factory.cc:32-40`). -/
def lossNames : List String :=
  ["mse", "logloss", "huberized_hinge", "auc", "pairwise_logloss", "gbrank", "lambdamart"]

/-- What the checks of `TrainPy` read: the store (its number of rows and `GetRawFloatColumn`), the lengths of the targets
and of the weights, and the configuration. -/
structure PyCall where
  store : Option (Nat × (String → Bool))
  yLen : Nat
  wLen : Nat
  targetColumn : String
  lossFunc : String
  features : List String

/-- The checks of `TrainPy` before training (`train_gbdt_py.cc:54-104`): `none` if all are passed. -/
def trainPyCheck (c : PyCall) : Option Code :=
  match c.store with
  | none => some .notFound
  | some (numRows, rawFloat) =>
    if c.yLen ≠ 0 ∧ numRows ≠ c.yLen then some .invalidArgument
    else if c.wLen ≠ 0 ∧ numRows ≠ c.wLen then some .invalidArgument
    else if c.yLen = 0 ∧ c.targetColumn = "" then some .invalidArgument
    else if c.yLen = 0 ∧ rawFloat c.targetColumn = false then some .invalidArgument
    else if c.lossFunc ∉ lossNames then some .notFound
    else if c.features = [] then some .invalidArgument
    else none

/-- `TrainPy` (`train_gbdt_py.cc:42-118`): the status of the exception that is thrown, if any, and the forest.  `make` is
`CreateLossFunc` (`loss_func_factory.cc:43-50`). -/
def trainPy {S D A : Type} [Dbl D] [LinearOrder A] [ThrOps A] (env : TrainEnv D A) (make : String → LossFunc S D)
    (c : PyCall) (cfg : TrainConfig D) (base : Option (List (Tree D A))) (p : Nat) :
    Outcome (Except Code (List (Tree D A))) :=
  match trainPyCheck c with
  | some e => .ok (.error e)
  | none => do
    let r ← trainGBDT env (make c.lossFunc) c.features cfg base [] p
    pure (if r.code = .ok then .ok r.forest else .error r.code)

end Gbdt
