import Verif.Model.Cli
import Verif.Model.Flatfile

/-!
# Model of the command line program on flat files

`--mode=train` and `--mode=test` (`src/main.cc`) with `--flatfiles_dirs`.  Columns are read when they are first asked for.
-/

set_option autoImplicit false

namespace Gbdt

/-- `FindFlatfile` (`flatfiles_data_store.cc:33-41`) and the contents of the file found: the first directory that has a file of the name.  A
directory is given by the files in it. -/
def findFlatfile (dirs : List (String → Option Text)) (name : String) : Option Text := dirs.findSome? (fun dir => dir name)

/-- What reading flat files depends on: `FLT_MAX`, `strtof`, the order of the hash map, and the files that `FindFlatfile` finds. -/
structure FlatDisk (A : Type) where
  fmax : A
  parse : Text → Option (Fl A)
  place : FFStore A → FFStore A
  files : String → Option Text

/-- A flat file store while no call is in progress: `column_map_`, and the next object identity. -/
structure FFMem (A : Type) where
  store : FFStore A := []
  next : Nat := 0

section flat
variable {D A N : Type} [LinearOrder A]

/-- The columns that are loaded. -/
def FFMem.column (m : FFMem A) (name : String) : Option (Column A) := (m.store.lookup name).map Prod.snd

/-- `GetColumn` without another call in progress (`flatfiles_data_store.cc:121-140`): the column that the pointer returned points at, `none` for
null.  As nothing else happens to the map, that is the column which the map then has. -/
def ffGet (d : FlatDisk A) (m : FFMem A) (name : String) : Outcome (FFMem A × Option (Column A)) := do
  let st ← runFF d.fmax d.parse d.place d.files [0, 0, 0, 0] (startFF m.store m.next [name])
  let ptr := match st.calls with
    | [⟨_, .done (some _)⟩] => (st.store.lookup name).map Prod.snd
    | _ => none
  pure (⟨st.store, st.next⟩, ptr)

/-- The pool of `LoadFeatures` (`gbdt_algo/utils.cc:48-53`): the calls go on in any order, `sched`; at the end the destructor of the pool has all
of them finish. -/
def ffPool (d : FlatDisk A) (sched : List Nat) (m : FFMem A) (names : List String) : Outcome (FFMem A) := do
  let st ← runFF d.fmax d.parse d.place d.files (sched ++ (List.range names.length).flatMap (List.replicate 4))
    (startFF m.store m.next names)
  pure ⟨st.store, st.next⟩

/-- The loop of `LoadFeatures` (`gbdt_algo/utils.cc:56-65`): whether it ends with OK. -/
def ffGets (d : FlatDisk A) : FFMem A → List String → Outcome (FFMem A × Bool)
  | m, [] => .ok (m, true)
  | m, name :: names => do
    let (m1, c) ← ffGet d m name
    match c with
    | none => pure (m1, false)
    | some c => if c.status ≠ .ok then pure (m1, false) else ffGets d m1 names

/-- `LoadFeatures` (`gbdt_algo/utils.cc:40-77`). -/
def ffLoadFeatures (d : FlatDisk A) (sched : List Nat) (m : FFMem A) (names : List String) : Outcome (FFMem A × Bool) := do
  let m1 ← ffPool d sched m names
  ffGets d m1 names

/-- `GetRawFloatColumn` (`data_store.cc:28-39`) on flat files. -/
def ffRaw (d : FlatDisk A) (m : FFMem A) (name : String) : Outcome (FFMem A × Option (RawCol A)) := do
  let (m1, c) ← ffGet d m name
  match c with
  | some (.raw r) => pure (m1, some r)
  | _ => pure (m1, none)

/-- `GetSampleWeightsOrDie` (`gbdt_algo/utils.cc:157-168`) on flat files; `none` stands for weights of 1. -/
def ffWeights (d : FlatDisk A) (m : FFMem A) (c : Config D) : Outcome (FFMem A × Option (List (Fl A))) :=
  if c.weightColumn = "" then .ok (m, none)
  else do
    let (m1, r) ← ffRaw d m c.weightColumn
    match r with
    | none => .fatal
    | some col => .ok (m1, some col.raw)

/-- `GetTargetsOrDie` (`gbdt_algo/utils.cc:170-183`) on flat files, before the targets are made binary. -/
def ffTargets (d : FlatDisk A) (m : FFMem A) (c : Config D) : Outcome (FFMem A × List (Fl A)) :=
  if c.targetColumn = "" then .fatal
  else do
    let (m1, r) ← ffRaw d m c.targetColumn
    match r with
    | none => .fatal
    | some col => .ok (m1, col.raw)

/-- The two arguments of `TrainGBDT` that load columns (`main.cc:139-140`); compilers may evaluate either first. -/
def ffVectors (d : FlatDisk A) (weightsFirst : Bool) (c : Config D) : Outcome (FFMem A × Option (List (Fl A)) × List (Fl A)) :=
  if weightsFirst then do
    let (m1, ws) ← ffWeights d {} c
    let (m2, ys) ← ffTargets d m1 c
    pure (m2, ws, ys)
  else do
    let (m1, ys) ← ffTargets d {} c
    let (m2, ws) ← ffWeights d m1 c
    pure (m2, ws, ys)

/-- The loading of the group column (`gbdt_algo/utils.cc:185-193`); what it is checked for is part of `trainGBDT`. -/
def ffGroup (d : FlatDisk A) (m : FFMem A) (name : String) : Outcome (FFMem A) :=
  if name = "" then .ok m
  else do
    let (m1, _) ← ffGet d m name
    pure m1

variable [Dbl D] [ThrOps A]

/-- The `FloatVector` of weights (`gbdt_algo/utils.cc:162-167`). -/
def flatWeights (mc : Machine D A) : Option (List (Fl A)) → Nat → D
  | none => fun _ => mc.ofNat 1
  | some ws => vecFn mc ws

/-- The `FloatVector` of targets (`gbdt_algo/utils.cc:178-182`). -/
def flatTargets (mc : Machine D A) (c : Config D) (ys : List (Fl A)) : Nat → D :=
  if c.binarize then fun i => if Dbl.ltb 0 (vecFn mc ys i) then mc.math.one else mc.minusOne else vecFn mc ys

/-- Training on the columns that are loaded (`gbdt_algo.cc:142-206`).  Weights or targets that are fewer than the rows are read out of
bounds.  Features of the base forest that are not loaded would be loaded by several threads at once, which may leave some of them with
a pointer to a destroyed column (C61); this is taken as undefined. -/
def ffTrainGBDT {S : Type} (mc : Machine D A) (m : FFMem A) (ws : Option (List (Fl A))) (ys : List (Fl A)) (loss : (w y : Nat → D) → LossFunc S D)
    (c : Config D) (base : Option (List (Tree D A))) (seed numThreads : Int) : Outcome (List (Tree D A)) := do
  let n ← m.store.numRows
  if ys.length < n ∨ ((ws.map List.length).getD n) < n then .ub
  else if (forestFeatures (base.getD [])).any (fun name => (m.column name).isNone) then .ub
  else do
    let r ← trainGBDT { mkEnv mc [] n (flatWeights mc ws) seed numThreads with columns := m.column }
      (loss (flatWeights mc ws) (flatTargets mc c ys)) (mc.listing (featuresOf c)) (c.train mc 0) base [] 0
    if r.code = .ok then .ok r.forest else .fatal

/-- `Train` on flat files (`main.cc:121-145`): the forest that is written. -/
def cliTrainFF (d : FlatDisk A) (mc : Machine D A) (weightsFirst : Bool) (sched : List Nat) (c : Config D) (base : Option (List (Tree D A)))
    (seed numThreads : Int) : Outcome (List (Tree D A)) :=
  match withLoss mc c seed numThreads (fun _ loss => do
      let (m1, ws, ys) ← ffVectors d weightsFirst c
      if checkConfig (mc.ofNat 1) (c.train mc 0) ≠ .ok then .fatal
      else do
        let (m2, loaded) ← ffLoadFeatures d sched m1 (mc.listing (featuresOf c))
        if loaded = false then .fatal
        else do
          let m3 ← ffGroup d m2 c.groupColumn
          ffTrainGBDT mc m3 ws ys loss c base seed numThreads) with
  | none => .fatal
  | some run => run

/-- `Train` (`main.cc:106-159`) with `--flatfiles_dirs`: the model file and the lines of the `.fimps` file. -/
def cliTrainFFMain (d : FlatDisk A) (mc : Machine D A) (nc : NumCodec D A N) (zero : A) (weightsFirst : Bool) (sched : List Nat)
    (isort : List (String × D) → List (String × D)) (c : Config D) (base : Option (Option (Json N))) (seed numThreads : Int) :
    Outcome (Json N × List (String × D)) := do
  let b ← loadBaseOrDie nc zero base
  let forest ← cliTrainFF d mc weightsFirst sched c b seed numThreads
  match forestToJson nc 64 ⟨forest, ""⟩ with
  | .error _ => .fatal
  | .ok j => .ok (j, featureImportance isort forest)

/-- `Test` (`main.cc:161-190`) with `--flatfiles_dirs`: the score files by the number of trees in their names.  `listing` is the order in which
the set of features is listed.  The number of rows is read after the features have been loaded (`evaluation.cc:63-68`). -/
def cliTestFFMain (d : FlatDisk A) (listing : List String → List String) (nc : NumCodec D A N) (zero : A) (sched : List Nat) (evalInterval : Int)
    (model : Option (Json N)) (numThreads : Int) : Outcome (List (Int × List D)) := do
  let forest ← loadForestOrDie nc zero model
  let (m, loaded) ← ffLoadFeatures d sched {} (listing (forestFeatures forest).dedup)
  if loaded = false then .fatal
  else do
    let n ← m.store.numRows
    let (e, scores) ← evaluateCheckpoints m.column n numThreads forest (getTestPoints evalInterval forest.length)
    if e = .ok then .ok scores else .fatal

end flat

end Gbdt
