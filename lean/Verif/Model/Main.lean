import Verif.Model.ConfigJson
import Verif.Model.FlatTrain
import Verif.Model.Stopwatch

/-!
# Model of the program `gbdt` (`src/main.cc`) with its flags and files

`Cli.lean` and `FlatTrain.lean` have what is computed; here the flags are read, files are found by their paths, and the results are written.
Logging is left out.  Of the file system only plain files and directories are modelled: no links, no `.` and `..` in paths, no full disk, and
nothing else changes it during the run.
-/

set_option autoImplicit false

namespace Gbdt

open Outcome

/-- The flags (`flags.cc:19-29`). -/
structure Flags where
  tsvs : String := ""
  flatfilesDirs : String := ""
  trainingWeightFile : String := ""
  outputDir : String := ""
  outputModelName : String := "forest"
  testingModelFile : String := ""
  baseModelFile : String := ""
  configFile : String := ""
  numThreads : Int := 16
  mode : String := "train"
  seed : Int := 1234567

/-- The file system as `ifstream`, `ofstream` and `mkdir` see it (`utils.cc:26-48, 58-60`, `evaluation.cc:40-55`, `main.cc:148, 183`): the
contents of the files, the directories, and the paths that the user may create or write. -/
structure World where
  files : Text → Option Text
  dirs : Text → Bool
  allowed : Text → Bool := fun _ => true

/-- A path without the slashes at its end (as `mkdir` in `main.cc:148, 183` takes it). -/
def bare (path : Text) : Text := (path.reverse.dropWhile (· == '/')).reverse

/-- The directory that a path is in (for `open` and `mkdir` in `utils.cc:44`, `evaluation.cc:43`, `main.cc:148, 183`): what is before the last slash,
the working directory `.` without one. -/
def parentOf (path : Text) : Text :=
  if '/' ∈ path then bare ((path.reverse.dropWhile (· != '/'))).reverse else ['.']

/-- `mkdir` (`main.cc:148, 183`, `evaluation.cc:66`): one level only; its result is not looked at. -/
def World.mkdir (w : World) (path : Text) : World :=
  if w.dirs (parentOf (bare path)) = true ∧ w.allowed (bare path) = true ∧ w.files (bare path) = none then
    { w with dirs := fun p => p == bare path || w.dirs p }
  else w

/-- Whether an `ofstream` can be opened (`utils.cc:44-45`, `evaluation.cc:42-45`). -/
def World.canWrite (w : World) (path : Text) : Bool := w.dirs (parentOf path) && !w.dirs path && w.allowed path

/-- `ofstream`, `<<` and `close` (`utils.cc:44-47`, `evaluation.cc:43-53`): what the file had is gone. -/
def World.put (w : World) (path content : Text) : World :=
  { w with files := fun p => if p = path then some content else w.files p }

/-- How the process ends: `return 0` (`main.cc:77`), `LOG(FATAL)` or `CHECK`, or undefined behaviour. -/
inductive Exit where
  | done
  | died
  | crashed
deriving DecidableEq

/-- Files written one after the other (`main.cc:149-158`, `evaluation.cc:71-79` with `main.cc:187`).  The first that cannot be opened ends the process. -/
def World.writeAll (w : World) : List (Text × Text) → World × Exit
  | [] => (w, .done)
  | (path, content) :: rest =>
    if w.canWrite path = true then (w.put path content).writeAll rest else (w, .died)

/-- `ReadFileToStringOrDie` (`utils.cc:26-41`): an empty file is taken for one that is missing. -/
def World.readOrDie (w : World) (path : String) : Outcome Text :=
  match w.files path.toList with
  | none => .fatal
  | some [] => .fatal
  | some text => .ok text

/-- What the program depends on besides its flags and the files: the machine, protobuf, `strtof`, printing, the order of hash maps, and the
orders in which threads run. -/
structure Platform (D A N : Type) where
  mc : Machine D A
  nc : NumCodec D A N
  cc : ConfigCodec D N
  zero : A
  fmax : A
  strtof : Text → Option (Fl A)
  parseJson : Text → Option (Json N)
  printJson : Json N → Text
  showScore : D → Text
  showGain : D → Text
  place : FFStore A → FFStore A
  isort : List (String × D) → List (String × D)
  sched : Nat → List Handle → List Handle
  ffSched : List Nat
  weightsFirst : Bool

section main
variable {D A N : Type} [Dbl D] [LinearOrder A] [ThrOps A]

omit [LinearOrder A] [ThrOps A] [Dbl D] in
/-- A JSON file (`gbdt_algo/utils.cc:196-199`): `none` where the process ends. -/
def World.json (P : Platform D A N) (w : World) (path : String) : Option (Json N) :=
  match w.readOrDie path with
  | .ok text => P.parseJson text
  | _ => none

omit [LinearOrder A] [ThrOps A] in
/-- The configuration (`main.cc:116-119, 171-174`). -/
def World.configOrDie (P : Platform D A N) (w : World) (path : String) : Outcome (CliConfig D) :=
  match (w.json P path).bind (configFromJson P.cc) with
  | none => .fatal
  | some c => .ok c

/-- The paths in a flag (`main.cc:92, 94`). -/
def pathList (flag : String) : List Text := (split flag.toList [',']).getD []

/-- The files of `--tsvs` (`main.cc:94`, `tsv_data_store.cc:39-60`). -/
def World.tsvFiles (w : World) (flag : String) : List (Option Text) := (pathList flag).map w.files

omit [ThrOps A] [Dbl D] [LinearOrder A] in
/-- The flat files of `--flatfiles_dirs` (`main.cc:92`, `flatfiles_data_store.cc:33-41`). -/
def World.flatDisk (P : Platform D A N) (w : World) (flag : String) : FlatDisk A where
  fmax := P.fmax
  parse := P.strtof
  place := P.place
  files := findFlatfile ((pathList flag).map (fun dir name => w.files (dir ++ '/' :: name.toList)))

/-- The file of the model without its ending (`main.cc:149, 158`). -/
def Flags.modelPath (fl : Flags) (ending : String) : Text := fl.outputDir.toList ++ '/' :: fl.outputModelName.toList ++ ending.toList

/-- A score file (`evaluation.cc:75`). -/
def Flags.scorePath (fl : Flags) (point : Int) : Text := fl.outputDir.toList ++ "/forest.".toList ++ showInt point ++ ".score".toList

omit [Dbl D] [LinearOrder A] [ThrOps A] in
/-- `FeatureImportanceFormatted` (`main.cc:80-86`). -/
def formatImportance (P : Platform D A N) (fimps : List (String × D)) : Text :=
  join (fimps.map (fun p => p.1.toList ++ '\t' :: P.showGain p.2)) ['\n']

omit [Dbl D] [LinearOrder A] [ThrOps A] in
/-- The loop of `WriteScoreFile` (`evaluation.cc:47-51`) from a number other than the first on. -/
def scoreLines (P : Platform D A N) : List D → Text
  | [] => []
  | x :: xs => '\n' :: P.showScore x ++ scoreLines P xs

omit [Dbl D] [LinearOrder A] [ThrOps A] in
/-- What `WriteScoreFile` writes (`evaluation.cc:47-51`). -/
def formatScores (P : Platform D A N) : List D → Text
  | [] => []
  | x :: xs => P.showScore x ++ scoreLines P xs

/-- Training with the data of `--flatfiles_dirs`, or else of `--tsvs` (`main.cc:88-104, 121-145`): the model and the importance of features. -/
def trainOn (P : Platform D A N) (fl : Flags) (w : World) (c : CliConfig D) : Outcome (Json N × List (String × D)) :=
  let base := if fl.baseModelFile = "" then none else some (w.json P fl.baseModelFile)
  if fl.flatfilesDirs ≠ "" then
    cliTrainFFMain (w.flatDisk P fl.flatfilesDirs) P.mc P.nc P.zero P.weightsFirst P.ffSched P.isort c.train base fl.seed fl.numThreads
  else cliTrainMain P.mc P.nc P.zero P.fmax P.strtof P.sched P.isort (w.tsvFiles fl.tsvs) c base fl.seed fl.numThreads

/-- `Train` (`main.cc:106-159`): the files to write, before any of them is.  (The feature importance is computed after the model is written, but
cannot fail.) -/
def trainFiles (P : Platform D A N) (fl : Flags) (w : World) : Outcome (List (Text × Text)) :=
  if fl.configFile = "" ∨ fl.outputDir = "" then .fatal
  else do
    let c ← w.configOrDie P fl.configFile
    let (j, fimps) ← trainOn P fl w c
    pure [(fl.modelPath ".json", P.printJson j), (fl.modelPath ".fimps", formatImportance P fimps)]

omit [ThrOps A] in
/-- Testing with the data of `--flatfiles_dirs`, or else of `--tsvs` (`main.cc:88-104, 176-186`): the scores at the numbers of trees. -/
def testOn (P : Platform D A N) (fl : Flags) (w : World) (c : CliConfig D) : Outcome (List (Int × List D)) :=
  let model := w.json P fl.testingModelFile
  if fl.flatfilesDirs ≠ "" then
    cliTestFFMain (w.flatDisk P fl.flatfilesDirs) P.mc.listing P.nc P.zero P.ffSched c.evalInterval model fl.numThreads
  else cliTestMain P.nc P.zero P.fmax P.strtof P.sched (w.tsvFiles fl.tsvs) c model fl.numThreads

omit [ThrOps A] in
/-- `Test` (`main.cc:161-190`): the files to write.  (The scores of the later files are computed after the first ones are written.) -/
def testFiles (P : Platform D A N) (fl : Flags) (w : World) : Outcome (List (Text × Text)) :=
  if fl.configFile = "" ∨ fl.testingModelFile = "" ∨ fl.outputDir = "" then .fatal
  else do
    let c ← w.configOrDie P fl.configFile
    let files ← testOn P fl w c
    pure (files.map (fun f => (fl.scorePath f.1, formatScores P f.2)))

/-- The files are written, or the process ends before (`main.cc:148-158, 183-187`).  A directory that a testing run makes before it fails is
left out. -/
def finish (fl : Flags) (w : World) : Outcome (List (Text × Text)) → World × Exit
  | .ok files => (w.mkdir fl.outputDir.toList).writeAll files
  | .fatal => (w, .died)
  | .ub => (w, .crashed)

/-- `main` (`main.cc:64-78`). -/
def runMain (P : Platform D A N) (fl : Flags) (w : World) : World × Exit :=
  if fl.mode = "train" then finish fl w (trainFiles P fl w)
  else if fl.mode = "test" then finish fl w (testFiles P fl w)
  else (w, .died)

end main

end Gbdt
