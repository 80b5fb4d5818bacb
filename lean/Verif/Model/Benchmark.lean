import Verif.Model.Main

/-!
# Model of the script of the benchmark, `examples/benchm-ml/run.py`

The commands it runs and the files it reads afterwards.  The computation of AUC with `sklearn` is left out.
-/

set_option autoImplicit false

namespace Gbdt

/-- `runTraining` (`examples/benchm-ml/run.py:21-23`), with `configName` and `forestName` (`run.py:11-15`). -/
def benchTrainFlags (model : String) : Flags where
  tsvs := "train-0.1m.tsv"
  configFile := "benchm-ml." ++ model ++ ".config"
  numThreads := 16
  outputDir := "models"
  outputModelName := "forest." ++ model

/-- `runTesting` (`examples/benchm-ml/run.py:25-27`). -/
def benchTestFlags (model : String) : Flags where
  tsvs := "test.tsv"
  configFile := "benchm-ml." ++ model ++ ".config"
  numThreads := 16
  testingModelFile := "models/forest." ++ model ++ ".json"
  outputDir := "scores/forest." ++ model
  mode := "test"

/-- The command under "Run testing" in the tutorial (`docs/TUTORIAL.md:140-148`); a flag that is not given has its default (`flags.cc:19-29`). -/
def tutorialTestFlags : Flags where
  configFile := "benchm-ml.logloss.config"
  tsvs := "test.tsv"
  outputDir := "scores"
  testingModelFile := "forest.json"
  numThreads := 16

/-- The numbers of trees in `runAUC` (`examples/benchm-ml/run.py:35`): `range(1, 200, 20)`. -/
def benchPoints : List Int := (List.range 10).map (fun (i : Nat) => 1 + 20 * (i : Int))

/-- The file that `runAUC` opens (`examples/benchm-ml/run.py:33, 36`). -/
def benchScoreFile (model : String) (point : Int) : Text :=
  "scores/forest.".toList ++ model.toList ++ "/forest.".toList ++ showInt point ++ ".score".toList

section bench
variable {D A N : Type} [Dbl D] [LinearOrder A] [ThrOps A]

/-- `runTraining` and `runTesting` (`examples/benchm-ml/run.py:17-27, 43-44`): a command that fails raises an exception (`check_output`), and nothing
else is run.  `mkdir -p scores` is the `mkdir` before testing. -/
def benchRuns (P : Platform D A N) (model : String) (w : World) : World × Exit :=
  match runMain P (benchTrainFlags model) w with
  | (w1, .done) => runMain P (benchTestFlags model) (w1.mkdir "scores".toList)
  | r => r

end bench

end Gbdt
