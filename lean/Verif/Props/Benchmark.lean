import Verif.Model.Benchmark
import Verif.Lemmas.Bagged
import Verif.Props.Main

/-!
# C162 – C164: which score files there are

The numbers in the names of score files follow from the configuration; the script of the benchmark and the commands of the tutorial look for
files that are not written.
-/

set_option autoImplicit false
set_option linter.unusedSectionVars false

namespace Gbdt

open Outcome

/-! ## How many trees there are -/

section count
variable {D A N : Type} [Dbl D] [LinearOrder A] [ThrOps A]

theorem pointInit_error (e : PointLoss D) (n : Nat) (g : Option StrCol) : e.toLoss.init n g ≠ ok (.error .ok) := by
  intro hi
  simp only [PointLoss.toLoss, pointInit] at hi
  split at hi
  · cases hi
  · obtain ⟨s, _, hi⟩ := bind_eq_ok.mp hi
    cases hi

theorem pairInit_error (e : PairLoss D) (n : Nat) (g : Option StrCol) : e.toLoss.init n g ≠ ok (.error .ok) := by
  intro hi
  simp only [PairLoss.toLoss, pairInit] at hi
  split at hi
  · cases hi
  · obtain ⟨_, _, hi⟩ := bind_eq_ok.mp hi
    obtain ⟨_, _, hi⟩ := bind_eq_ok.mp hi
    obtain ⟨_, _, hi⟩ := bind_eq_ok.mp hi
    cases hi

theorem withLoss_init {R : Type} {mc : Machine D A} {c : Config D} {seed nt : Int}
    {k : ∀ S : Type, ((w y : Nat → D) → LossFunc S D) → Outcome R} {r : R} (h : withLoss mc c seed nt k = some (ok r)) :
    ∃ S loss, k S loss = ok r ∧ ∀ w y n g, (loss w y).init n g ≠ ok (.error .ok) := by
  unfold withLoss at h
  split at h
  case h_7 =>
    rw [Option.some.injEq] at h
    simp only at h
    cases ht : lambdaTable (discountOf mc.math.log mc.ofNat (dcgBaseOf mc c)) with
    | ok t => rw [ht] at h; exact ⟨_, _, h, fun w y => pairInit_error _⟩
    | ub => rw [ht] at h; cases h
    | fatal => rw [ht] at h; cases h
  case h_8 => cases h
  case h_1 => exact ⟨_, _, Option.some.inj h, fun w y => pointInit_error _⟩
  case h_2 => exact ⟨_, _, Option.some.inj h, fun w y => pointInit_error _⟩
  case h_3 => exact ⟨_, _, Option.some.inj h, fun w y => pointInit_error _⟩
  all_goals exact ⟨_, _, Option.some.inj h, fun w y => pairInit_error _⟩

theorem trainGBDT_trees {S : Type} {env : TrainEnv D A} {loss : LossFunc S D} {names : List String} {cfg : TrainConfig D} {p : Nat}
    {r : TrainResult D A} (hinit : ∀ n g, loss.init n g ≠ ok (.error .ok)) (h : trainGBDT env loss names cfg none [] p = ok r) (hok : r.code = .ok) :
    (r.forest.length : Int) = cfg.numTrees + 1 ∧ 0 < r.forest.length := by
  have hpos : 0 < cfg.numTrees := by
    by_contra hn
    have hc : checkConfig (env.ofNat 1) cfg = .invalidArgument := by rw [checkConfig, if_pos (by omega)]
    rw [trainGBDT, hc, if_pos (by decide)] at h
    cases h
    cases hok
  have := trainGBDT_count hinit h hok
  constructor <;> omega

theorem cliTrain_trees {mc : Machine D A} {t : DataStore A} {c : Config D} {seed nt : Int} {forest : List (Tree D A)}
    (h : cliTrain mc t c none seed nt = ok forest) : (forest.length : Int) = c.numTrees + 1 ∧ 0 < forest.length := by
  unfold cliTrain at h
  split at h
  · cases h
  · next run hw =>
    rw [h] at hw
    obtain ⟨S, loss, h, hinit⟩ := withLoss_init hw
    obtain ⟨w, _, h⟩ := bind_eq_ok.mp h
    obtain ⟨y, _, h⟩ := bind_eq_ok.mp h
    obtain ⟨n, _, h⟩ := bind_eq_ok.mp h
    obtain ⟨r, hr, h⟩ := bind_eq_ok.mp h
    split at h
    · next hok => cases h; exact trainGBDT_trees (hinit _ _) hr hok
    · cases h

theorem cliTrainFF_trees {d : FlatDisk A} {mc : Machine D A} {b : Bool} {sched : List Nat} {c : Config D} {seed nt : Int}
    {forest : List (Tree D A)} (h : cliTrainFF d mc b sched c none seed nt = ok forest) : (forest.length : Int) = c.numTrees + 1 ∧ 0 < forest.length := by
  unfold cliTrainFF at h
  split at h
  · cases h
  · next run hw =>
    rw [h] at hw
    obtain ⟨S, loss, h, hinit⟩ := withLoss_init hw
    obtain ⟨⟨m1, ws, ys⟩, _, h⟩ := bind_eq_ok.mp h
    dsimp only at h
    split at h
    · cases h
    · obtain ⟨⟨m2, loaded⟩, _, h⟩ := bind_eq_ok.mp h
      dsimp only at h
      split at h
      · cases h
      · obtain ⟨m3, _, h⟩ := bind_eq_ok.mp h
        unfold ffTrainGBDT at h
        obtain ⟨n, _, h⟩ := bind_eq_ok.mp h
        split at h
        · cases h
        · split at h
          · cases h
          · obtain ⟨r, hr, h⟩ := bind_eq_ok.mp h
            split at h
            · next hok => cases h; exact trainGBDT_trees (hinit _ _) hr hok
            · cases h

/-! ## Trees in a file -/

theorem readTrees_length {nc : NumCodec D A N} {zero : A} : ∀ (ts : List (Tree D A)) {l : JsonList N} {ts' : List (Tree D A)},
    l = jsonList (fun t => (treeJson nc t).getD (.obj .nil)) ts → readTrees nc zero l = some ts' → ts'.length = ts.length := by
  intro ts
  induction ts with
  | nil => intro l ts' e h; subst e; cases h; rfl
  | cons t ts ih =>
    intro l ts' e h
    subst e
    rw [jsonList] at h
    generalize ho : (treeJson nc t).getD (.obj .nil) = o at h
    cases o with
    | obj o =>
      rw [readTrees] at h
      obtain ⟨v, _, h⟩ := Option.bind_eq_some_iff.mp h
      obtain ⟨rest, hr, rfl⟩ := Option.map_eq_some_iff.mp h
      simp [ih rfl hr]
    | _ => cases h

theorem saved_length {nc : NumCodec D A N} {zero : A} {m n : Nat} {f f' : ForestMsg D A} {j : Json N} (h : forestToJson nc m f = .ok j)
    (h' : forestFromJson nc zero n j = .ok f') : f'.trees.length = f.trees.length := by
  rw [forestToJson] at h
  split at h
  · cases h
    rw [forestFromJson] at h'
    split at h'
    · next f'' hf =>
      split at h'
      · cases h'
        rw [readForest, if_pos rfl] at hf
        obtain ⟨v, hv, hf⟩ := Option.bind_eq_some_iff.mp hf
        rw [readForest, if_neg (by decide), if_pos (by decide)] at hf
        rw [readForest] at hf
        cases hf
        exact readTrees_length _ rfl hv
      · cases h'
    · cases h'
  · cases h

/-! ## Every point gets its file -/

theorem evaluateLoop_all {columns : String → Option (Column A)} : ∀ (forest : List (Tree D A)) {i : Nat} {points : List Int} {slices : List (List Nat)}
    {scores : List D} {files : List (Int × List D)}, evaluateLoop columns forest i points slices scores = ok files →
    points.Pairwise (· < ·) → (∀ p ∈ points, (i : Int) < p ∧ p ≤ i + forest.length) → files.map Prod.fst = points := by
  intro forest
  induction forest with
  | nil =>
    intro i points slices scores files h _ hp
    cases h
    cases points with
    | nil => rfl
    | cons p ps =>
      have := hp p List.mem_cons_self
      simp only [List.length_nil, Nat.cast_zero, add_zero] at this
      omega
  | cons t ts ih =>
    intro i points slices scores files h hinc hp
    cases points with
    | nil => cases h; rfl
    | cons p ps =>
      rw [evaluateLoop] at h
      obtain ⟨⟨ss, sc⟩, _, h⟩ := bind_eq_ok.mp h
      obtain ⟨rest, h1, h⟩ := bind_eq_ok.mp h
      have hp0 := hp p List.mem_cons_self
      rw [List.length_cons] at hp
      rw [popPassed_increasing hinc (by exact_mod_cast hp0.1)] at h1
      have hlt : ∀ q ∈ ps, p < q := (List.pairwise_cons.mp hinc).1
      by_cases hi : ((i : Int) + 1) = p
      · rw [if_pos hi] at h1
        have := ih h1 (List.pairwise_cons.mp hinc).2 (by
          intro q hq
          have k1 := hp q (List.mem_cons_of_mem _ hq)
          have k2 := hlt q hq
          push_cast at k1 ⊢
          omega)
        cases h
        simp only [if_pos hi, List.map_cons, this]
      · rw [if_neg hi] at h1
        have := ih h1 hinc (by
          intro q hq
          have k1 := hp q hq
          have k2 : p ≤ q := by
            rcases List.mem_cons.mp hq with rfl | hq
            · exact le_refl _
            · exact le_of_lt (hlt q hq)
          push_cast at k1 ⊢
          omega)
        cases h
        simp only [if_neg hi, this]

theorem testPoints_in {k : Int} {n : Nat} (hn : 0 < n) : (getTestPoints k n).Pairwise (· < ·) ∧ ∀ p ∈ getTestPoints k n, 0 < p ∧ p ≤ (n : Int) := by
  by_cases hk : 0 < k
  · obtain ⟨h1, h2⟩ := (C44_test_points k n).1 hk
    exact ⟨h1, fun p hp => by have := (h2 p).mp hp; omega⟩
  · rw [(C44_test_points k n).2 (by omega)]
    exact ⟨by simp, fun p hp => by rw [List.mem_singleton] at hp; omega⟩

theorem evaluateCheckpoints_all {columns : String → Option (Column A)} {n : Nat} {nt : Int} {forest : List (Tree D A)} {k : Int}
    (hne : 0 < forest.length) {files : List (Int × List D)}
    (h : evaluateCheckpoints columns n nt forest (getTestPoints k forest.length) = ok (.ok, files)) :
    files.map Prod.fst = getTestPoints k forest.length := by
  unfold evaluateCheckpoints at h
  split at h
  · next e he =>
    cases h
    have := loadFeatures_error he
    cases this
  · obtain ⟨slices, _, h⟩ := bind_eq_ok.mp h
    obtain ⟨files', h1, h⟩ := bind_eq_ok.mp h
    cases h
    obtain ⟨k1, k2⟩ := testPoints_in (k := k) hne
    exact evaluateLoop_all forest h1 k1 (fun p hp => by have := k2 p hp; push_cast; omega)

theorem loadForest_ok {nc : NumCodec D A N} {zero : A} {file : Option (Json N)} {forest : List (Tree D A)}
    (h : loadForestOrDie nc zero file = ok forest) : ∃ j m, file = some j ∧ forestFromJson nc zero 100 j = .ok m ∧ forest = m.trees := by
  unfold loadForestOrDie at h
  split at h
  · cases h
  · next j =>
    split at h
    · cases h
    · next m hm => cases h; exact ⟨j, m, rfl, hm, rfl⟩

/-- The numbers that testing writes files for. -/
theorem Tests.numbers {P : Platform D A N} {fl : Flags} {w : World} {scores : List (Int × List D)} (h : Tests P fl w scores) :
    ∃ c text model m, HasConfig P w fl.configFile c ∧ w.files fl.testingModelFile.toList = some text ∧ P.parseJson text = some model ∧
      forestFromJson P.nc P.zero 100 model = .ok m ∧
      (0 < m.trees.length → scores.map Prod.fst = getTestPoints c.evalInterval m.trees.length) := by
  obtain ⟨c, model, hc, ⟨text, h1, h2⟩, h⟩ := h
  split at h
  · unfold cliTestFFMain at h
    obtain ⟨forest, hf, h⟩ := bind_eq_ok.mp h
    obtain ⟨_, m, e, hm, rfl⟩ := loadForest_ok hf
    cases e
    refine ⟨c, text, _, m, hc, h1, h2, hm, ?_⟩
    intro hne
    obtain ⟨⟨mem, loaded⟩, _, h⟩ := bind_eq_ok.mp h
    simp only at h
    split at h
    · cases h
    · obtain ⟨n, _, h⟩ := bind_eq_ok.mp h
      obtain ⟨⟨e, files⟩, he, h⟩ := bind_eq_ok.mp h
      simp only at h
      split at h
      · next hok => cases h; subst hok; exact evaluateCheckpoints_all hne he
      · cases h
  · unfold cliTestMain at h
    obtain ⟨forest, hf, h⟩ := bind_eq_ok.mp h
    obtain ⟨_, m, e, hm, rfl⟩ := loadForest_ok hf
    cases e
    refine ⟨c, text, _, m, hc, h1, h2, hm, ?_⟩
    intro hne
    obtain ⟨t, _, h⟩ := bind_eq_ok.mp h
    obtain ⟨n, _, h⟩ := bind_eq_ok.mp h
    obtain ⟨⟨e, files⟩, he, h⟩ := bind_eq_ok.mp h
    simp only at h
    split at h
    · next hok => cases h; subst hok; exact evaluateCheckpoints_all hne he
    · cases h

/-- The number of trees in a model that has been trained without a base model. -/
theorem Trains.trees {P : Platform D A N} {fl : Flags} {w : World} {j : Json N} {fimps : List (String × D)} (hb : fl.baseModelFile = "")
    (h : Trains P fl w j fimps) {m : ForestMsg D A} (hm : forestFromJson P.nc P.zero 100 j = .ok m) :
    ∃ c, HasConfig P w fl.configFile c ∧ (m.trees.length : Int) = c.train.numTrees + 1 ∧ 0 < m.trees.length := by
  obtain ⟨c, hc, h⟩ := h
  refine ⟨c, hc, ?_⟩
  have hbase : baseOf P fl w = none := by rw [baseOf, if_pos hb]
  rw [hbase] at h
  split at h
  · unfold cliTrainFFMain at h
    obtain ⟨b, hb, h⟩ := bind_eq_ok.mp h
    cases hb
    obtain ⟨forest, hf, h⟩ := bind_eq_ok.mp h
    split at h
    · cases h
    · next j' hj =>
      cases h
      rw [saved_length hj hm]
      exact cliTrainFF_trees hf
  · unfold cliTrainMain at h
    obtain ⟨t, _, h⟩ := bind_eq_ok.mp h
    obtain ⟨b, hb, h⟩ := bind_eq_ok.mp h
    cases hb
    obtain ⟨forest, hf, h⟩ := bind_eq_ok.mp h
    split at h
    · cases h
    · next j' hj =>
      cases h
      rw [saved_length hj hm]
      exact cliTrain_trees hf

end count

/-! ## C162 -/

/-- The numbers in the names of the score files of a model with `trees` trees besides the constant one: every `interval` trees back from the whole
forest; the whole forest only, when the interval is not positive. -/
def ScoredAt (trees interval point : Int) : Prop :=
  (point = trees + 1) ∨ (0 < interval ∧ 0 < point ∧ ∃ back : Nat, point = trees + 1 - back * interval)

section c162
variable {D A N : Type} [Dbl D] [LinearOrder A] [ThrOps A]

theorem mem_testPoints {k : Int} {n : Nat} {trees p : Int} (hn : 0 < n) (he : (n : Int) = trees + 1) :
    p ∈ getTestPoints k n ↔ ScoredAt trees k p := by
  unfold ScoredAt
  by_cases hk : 0 < k
  · rw [((C44_test_points k n).1 hk).2 p]
    constructor
    · rintro ⟨h1, h2, d, hd⟩
      refine Or.inr ⟨hk, by omega, d.toNat, ?_⟩
      have : 0 ≤ d := by
        by_contra hneg
        have : k * d < 0 := Int.mul_neg_of_pos_of_neg hk (by omega)
        omega
      rw [Int.toNat_of_nonneg this, mul_comm]
      omega
    · rintro (h | ⟨_, h1, b, hb⟩)
      · refine ⟨by omega, by omega, 0, by omega⟩
      · have : 0 ≤ (b : Int) * k := Int.mul_nonneg (by omega) (le_of_lt hk)
        refine ⟨by omega, by omega, b, ?_⟩
        rw [mul_comm]
        omega
  · rw [(C44_test_points k n).2 (by omega), List.mem_singleton]
    constructor
    · intro h; exact Or.inl (by omega)
    · rintro (h | h)
      · omega
      · exact absurd h.1 hk

/-- **C162.** After training without a base model and testing the model that was written, both with success, there is a score file for every number of trees
that the configurations say, and no other file has been changed by the testing: the whole forest has one tree more than `num_trees` of the training, and
`eval_interval` of the testing counts back from there.  (The threads may run in another order when testing.) -/
theorem C162_score_files {P P' : Platform D A N} (hP : P' = { P with sched := P'.sched, ffSched := P'.ffSched }) {fl fl' : Flags} (hm : fl.mode = "train") (hm' : fl'.mode = "test") (hb : fl.baseModelFile = "")
    (hmodel : fl'.testingModelFile.toList = modelFile fl ".json")
    {w w1 w1' w2 : World} (h : runMain P fl w = (w1, .done)) (hbetween : w1'.files (modelFile fl ".json") = w1.files (modelFile fl ".json"))
    (h' : runMain P' fl' w1' = (w2, .done))
    {c c' : CliConfig D} (hc : HasConfig P w fl.configFile c) (hc' : HasConfig P w1' fl'.configFile c')
    (hjson : ∀ j fimps, Trains P fl w j fimps → P.parseJson (P.printJson j) = some j) :
    (∀ p, ScoredAt c.train.numTrees c'.evalInterval p → w2.files (scoreFile fl' p) ≠ none) ∧
    ∀ path, w2.files path ≠ w1'.files path → ∃ p, 0 < p ∧ ScoredAt c.train.numTrees c'.evalInterval p ∧ path = scoreFile fl' p := by
  generalize P'.sched = s1, P'.ffSched = s2 at hP
  subst hP
  obtain ⟨_, hdone⟩ := C155_train P hm h
  obtain ⟨j, fimps, ht, hj, _⟩ := hdone rfl
  obtain ⟨_, hdone'⟩ := C155_test _ hm' h'
  obtain ⟨scores, hs, hfiles, hothers⟩ := hdone' rfl
  obtain ⟨c2, text, model, m, k1, k2, k3, k4, k5⟩ := hs.numbers
  have e2 : c2 = c' := by
    obtain ⟨t1, j1, a1, a2, a3, a4⟩ := k1
    obtain ⟨t2, j2, b1, b2, b3, b4⟩ := hc'
    rw [a1] at b1
    cases b1
    rw [show P.parseJson t1 = some j1 from a3] at b3
    cases b3
    rw [show configFromJson P.cc j1 = some c2 from a4] at b4
    exact Option.some.inj b4
  subst e2
  have e3 : model = j := by
    rw [hmodel, hbetween, hj] at k2
    cases k2
    have := hjson j fimps ht
    rw [show P.parseJson (P.printJson j) = some model from k3] at this
    exact Option.some.inj this
  subst e3
  obtain ⟨c1, hc1, hlen, hpos⟩ := ht.trees hb (m := m) k4
  have e1 := hc.unique hc1
  subst e1
  have hkeys := k5 hpos
  constructor
  · intro p hp
    have := (mem_testPoints hpos hlen).mpr hp
    rw [← hkeys] at this
    obtain ⟨f, hf, rfl⟩ := List.mem_map.mp this
    rw [hfiles f hf]
    simp
  · intro path hpath
    by_contra hno
    refine hpath (hothers path ?_)
    intro f hf e
    refine hno ⟨f.1, hs.points.2 f hf, (mem_testPoints hpos hlen).mp ?_, e⟩
    rw [← hkeys]
    exact List.mem_map.mpr ⟨f, hf, rfl⟩


end c162

/-- The example of C156 meets the conditions: after both runs there are files for 1 and 3 trees. -/
example : (∀ p, ScoredAt 2 2 p → (runMain mainPlatform mainTestFlags (runMain mainPlatform mainTrainFlags mainWorld).1).1.files
      (scoreFile mainTestFlags p) ≠ none) ∧ ScoredAt 2 2 1 ∧ ScoredAt 2 2 3 ∧ ¬ ScoredAt 2 2 2 := by
  refine ⟨?_, Or.inr ⟨by decide, by decide, 1, by decide⟩, Or.inl (by decide), ?_⟩
  · have hc' : HasConfig mainPlatform (runMain mainPlatform mainTrainFlags mainWorld).1 mainTestFlags.configFile tsvCliConfig :=
      ⟨"{config}".toList, mainConfigJson, by decide +kernel, by decide +kernel, rfl, mainConfig_reads⟩
    have hjson : ∀ j fimps, Trains mainPlatform mainTrainFlags mainWorld j fimps → mainPlatform.parseJson (mainPlatform.printJson j) = some j := by
      intro j fimps h
      rw [main_model h]
      simp only [mainPlatform]
      rw [if_neg (by decide +kernel), if_pos trivial]
    have hmodel : mainTestFlags.testingModelFile.toList = modelFile mainTrainFlags ".json" := by decide +kernel
    have hruns := main_runs
    have hconf := mainConfig_has
    generalize mainPlatform = P at *
    exact (C162_score_files (P := P) (P' := P) rfl rfl rfl rfl hmodel (Prod.ext rfl hruns.1) rfl (Prod.ext rfl hruns.2.1) hconf hc' hjson).1
  · rintro (h | ⟨_, _, b, h⟩) <;> omega

/-! ## C163 -/

section c163
variable {D A N : Type} [Dbl D] [LinearOrder A] [ThrOps A]

/-- Everything that the script of the benchmark finds before it runs: a configuration file with these numbers, and no scores of earlier runs. -/
structure BenchSetup (P : Platform D A N) (model : String) (w : World) (numTrees interval : Int) : Prop where
  config : ∃ c, HasConfig P w ("benchm-ml." ++ model ++ ".config") c ∧ c.train.numTrees = numTrees ∧ c.evalInterval = interval
  json : ∀ j fimps, Trains P (benchTrainFlags model) w j fimps → P.parseJson (P.printJson j) = some j
  fresh : ∀ p, w.files (scoreFile (benchTestFlags model) p) = none

theorem benchTest_outputDir (model : String) : (benchTestFlags model).outputDir.toList = "scores/forest.".toList ++ model.toList := by
  rw [← String.toList_append]
  rfl

theorem benchScoreFile_eq (model : String) (p : Int) : benchScoreFile model p = scoreFile (benchTestFlags model) p := by
  rw [scoreFile_eq]
  unfold benchScoreFile Flags.scorePath
  rw [benchTest_outputDir]

theorem benchTrain_outputDir (model : String) : (benchTrainFlags model).outputDir.toList.head? = some 'm' := by
  have : (benchTrainFlags model).outputDir = "models" := rfl
  rw [this]
  decide

theorem benchTest_model (model : String) : (benchTestFlags model).testingModelFile.toList = modelFile (benchTrainFlags model) ".json" := by
  have h1 : (benchTestFlags model).testingModelFile = "models/forest." ++ model ++ ".json" := rfl
  have h2 : (benchTrainFlags model).outputDir = "models" := rfl
  have h3 : (benchTrainFlags model).outputModelName = "forest." ++ model := rfl
  have h4 : "models/forest." = "models" ++ "/" ++ "forest." := by decide
  rw [modelFile, h1, h2, h3, h4]
  simp only [String.append_assoc]

theorem benchScore_head (model : String) (p : Int) : (scoreFile (benchTestFlags model) p).head? = some 's' := by
  rw [scoreFile_eq]
  unfold Flags.scorePath
  rw [benchTest_outputDir, List.append_assoc, List.append_assoc, List.append_assoc, List.head?_append,
    show "scores/forest.".toList.head? = some 's' by decide]
  rfl

/-- Which score files there are when the commands of the script have been run. -/
theorem bench_files {P : Platform D A N} {model : String} {w w' : World} {trees interval : Int} (hs : BenchSetup P model w trees interval)
    (h : benchRuns P model w = (w', .done)) (p : Int) (hp : 0 < p) : w'.files (benchScoreFile model p) ≠ none ↔ ScoredAt trees interval p := by
  obtain ⟨c, hc, rfl, rfl⟩ := hs.config
  unfold benchRuns at h
  split at h
  · next w1 h1 =>
    obtain ⟨hsame, _⟩ := C155_train P (fl := benchTrainFlags model) rfl h1
    have hne : ∀ (path : Text) (ending : String), path.head? ≠ some 'm' → path ≠ modelFile (benchTrainFlags model) ending := by
      rintro path ending hh rfl
      apply hh
      rw [modelFile_eq, Flags.modelPath, List.append_assoc, List.head?_append, benchTrain_outputDir]
      rfl
    have hscore : ∀ q, w1.files (scoreFile (benchTestFlags model) q) = none := by
      intro q
      have hq : (scoreFile (benchTestFlags model) q).head? ≠ some 'm' := by rw [benchScore_head]; decide
      rw [hsame _ (hne _ _ hq) (hne _ _ hq)]
      exact hs.fresh q
    have hconf : HasConfig P (w1.mkdir "scores".toList) (benchTestFlags model).configFile c := by
      obtain ⟨t, j, k1, k2, k3, k4⟩ := hc
      refine ⟨t, j, ?_, k2, k3, k4⟩
      rw [mkdir_files]
      have hq : ("benchm-ml." ++ model ++ ".config").toList.head? ≠ some 'm' := by
        rw [String.toList_append, String.toList_append, List.append_assoc, List.head?_append, show "benchm-ml.".toList.head? = some 'b' by decide]
        simp
      exact (hsame _ (hne _ _ hq) (hne _ _ hq)).trans k1
    have hm := benchTest_model model
    obtain ⟨r1, r2⟩ := C162_score_files (P := P) (P' := P) (fl := benchTrainFlags model) (fl' := benchTestFlags model) rfl
      rfl rfl rfl hm h1 (by rw [mkdir_files]) h hc hconf hs.json
    rw [benchScoreFile_eq]
    constructor
    · intro hex
      obtain ⟨q, hq0, hq, e⟩ := r2 (scoreFile (benchTestFlags model) p) (by rw [mkdir_files, hscore]; exact hex)
      rw [scoreFile_eq, scoreFile_eq] at e
      rw [scorePath_inj (le_of_lt hp) (le_of_lt hq0) e]
      exact hq
    · exact r1 p
  · next hr => exact absurd h (fun h => hr w' h)

end c163

/-- The training data of the example. -/
def benchTsv : Text := "size\tcolor\tclicked\n5\tb\t1\n7\tc\t1\n".toList

/-- A configuration with the numbers of the benchmark. -/
def benchConfig : CliConfig ℚ where
  train := { cliCfg with catFeature := ["color"], numTrees := 20, numLeaves := 2 }
  evalInterval := 20

/-- Its JSON. -/
def benchConfigJson : Json (ℚ ⊕ Nat) :=
  .obj (.cons "numTrees" (.num (.inr 20)) (.cons "numLeaves" (.num (.inr 2)) (.cons "shrinkage" (.num (.inl (1 / 2)))
    (.cons "l2Lambda" (.num (.inr 1)) (.cons "example_sampling_rate" (.num (.inr 1)) (.cons "feature_sampling_rate" (.num (.inr 1))
    (.cons "lossFunc" (.str "mse") (.cons "pairSamplingRate" (.num (.inr 2)) (.cons "floatFeature" (.arr (.cons (.str "size") .nil))
    (.cons "categoricalFeature" (.arr (.cons (.str "color") .nil)) (.cons "targetColumn" (.str "clicked")
    (.cons "evalInterval" (.num (.inr 20)) .nil))))))))))))

theorem benchConfig_reads : configFromJson plainConfigCodec benchConfigJson = some benchConfig := rfl

/-- The model in the result of a training. -/
def modelOf : Outcome (Json (ℚ ⊕ Nat) × List (String × ℚ)) → Json (ℚ ⊕ Nat)
  | .ok (j, _) => j
  | _ => .null

theorem modelOf_ok (j : Json (ℚ ⊕ Nat)) (fimps : List (String × ℚ)) : modelOf (ok (j, fimps)) = j := rfl

/-- The model trained in the example. -/
def benchModel : Json (ℚ ⊕ Nat) :=
  modelOf (cliTrainMain ratMachine plainCodec 0 1000 ratParse (fun _ l => l.reverse) id [some benchTsv] benchConfig none 1234567 16)

/-- The platform of the example. -/
def benchPlatform : Platform ℚ ℚ (ℚ ⊕ Nat) :=
  { mainPlatform with
    parseJson := fun t => if t = "{config}".toList then some benchConfigJson else if t = "{model}".toList then some benchModel else none }

/-- The files of the example. -/
def benchWorld : World where
  files := fun p =>
    if p = "train-0.1m.tsv".toList then some benchTsv
    else if p = "test.tsv".toList then testTsvs[0]?
    else if p = "benchm-ml.mse.config".toList then some "{config}".toList
    else none
  dirs := fun p => p == ['.']

theorem bench_runs : (benchRuns benchPlatform "mse" benchWorld).2 = .done := by decide +kernel

/-- **C163 in full.** With the configuration files that come with the benchmark (20 trees, an interval of 20), when the commands of the script have ended
with success, all score files that it then opens are there. -/
def C163_full : Prop :=
  ∀ (model : String) (w w' : World), BenchSetup benchPlatform model w 20 20 → benchRuns benchPlatform model w = (w', .done) →
    ∀ p ∈ benchPoints, w'.files (benchScoreFile model p) ≠ none

section c163
variable {D A N : Type} [Dbl D] [LinearOrder A] [ThrOps A]

/-- With the configurations that come with it, the script of the benchmark never finds the scores for 41 and more trees: only those for 1 and 21 trees are written. -/
theorem C163_shipped_partial {P : Platform D A N} {model : String} {w w' : World} (hs : BenchSetup P model w 20 20)
    (h : benchRuns P model w = (w', .done)) : ∀ p ∈ benchPoints, (w'.files (benchScoreFile model p) ≠ none ↔ p = 1 ∨ p = 21) := by
  intro p hp
  have hp0 : 0 < p := by
    obtain ⟨i, _, rfl⟩ := List.mem_map.mp hp
    omega
  rw [bench_files hs h p hp0]
  constructor
  · rintro (h | ⟨_, h1, b, h2⟩) <;> omega
  · rintro (h | h)
    · exact Or.inr ⟨by omega, by omega, 1, by omega⟩
    · exact Or.inl (by omega)

/-- **C163 partial.** The script finds its scores with a configuration that trains a multiple of 20 trees, at least 180, and that has an interval of 20.
Missing: the configurations that come with the benchmark. -/
theorem C163_partial {P : Platform D A N} {model : String} {w w' : World} {m : Nat} (hm : 9 ≤ m) (hs : BenchSetup P model w (20 * m) 20)
    (h : benchRuns P model w = (w', .done)) : ∀ p ∈ benchPoints, w'.files (benchScoreFile model p) ≠ none := by
  intro p hp
  obtain ⟨i, hi, rfl⟩ := List.mem_map.mp hp
  rw [List.mem_range] at hi
  refine (bench_files hs h _ (by omega)).mpr (Or.inr ⟨by omega, by omega, m - i, ?_⟩)
  have : i ≤ m := by omega
  push_cast [this]
  omega

end c163

theorem bench_setup : BenchSetup benchPlatform "mse" benchWorld 20 20 where
  config := ⟨benchConfig, ⟨"{config}".toList, benchConfigJson, by decide +kernel, by decide +kernel, rfl, benchConfig_reads⟩, rfl, rfl⟩
  json := by
    rintro j fimps ⟨c, hc, h⟩
    have hc0 : HasConfig benchPlatform benchWorld (benchTrainFlags "mse").configFile benchConfig :=
      ⟨"{config}".toList, benchConfigJson, by decide +kernel, by decide +kernel, rfl, benchConfig_reads⟩
    obtain rfl := hc0.unique hc
    have ht : benchWorld.tsvFiles (benchTrainFlags "mse").tsvs = [some benchTsv] := by decide +kernel
    rw [if_neg (by decide), ht] at h
    have h' : cliTrainMain ratMachine plainCodec 0 1000 ratParse (fun _ l => l.reverse) id [some benchTsv] benchConfig none 1234567 16 =
      ok (j, fimps) := h
    have e : j = benchModel := by
      rw [benchModel, h', modelOf_ok]
    rw [e]
    simp only [benchPlatform, mainPlatform]
    rw [if_neg (by decide +kernel), if_pos trivial]
  fresh := by
    intro p
    have hne : ∀ path : Text, path.head? ≠ some 's' → scoreFile (benchTestFlags "mse") p ≠ path := by
      rintro path hh rfl
      apply hh
      exact benchScore_head _ _
    simp only [benchWorld]
    rw [if_neg (hne _ (by decide)), if_neg (hne _ (by decide)), if_neg (hne _ (by decide))]

/-- **C163 refuted.** -/
theorem C163_refuted : ¬ C163_full := by
  intro h
  obtain ⟨w', hw⟩ : ∃ w', benchRuns benchPlatform "mse" benchWorld = (w', .done) := by
    have := bench_runs
    generalize benchRuns benchPlatform "mse" benchWorld = r at this
    obtain ⟨w', e⟩ := r
    exact ⟨w', by rw [← this]⟩
  have h2 := (C163_shipped_partial bench_setup hw 41 (by decide)).mp (h "mse" benchWorld w' bench_setup hw 41 (by decide))
  omega

/-! ## C164 -/

/-- **C164 in full.** When the tutorial's command for testing has ended with success, there are score files in `scores`. -/
def C164_full : Prop :=
  ∀ w w' : World, runMain mainPlatform tutorialTestFlags w = (w', .done) → ∃ k : Int, 0 < k ∧ w'.files (scoreFile tutorialTestFlags k) ≠ none

section c164
variable {D A N : Type} [Dbl D] [LinearOrder A] [ThrOps A]

theorem tutorialScore_ne (k : Int) (ending : String) (he : ending.toList.getLast? ≠ some 'e') (hne : ending.toList ≠ []) :
    scoreFile tutorialTestFlags k ≠ modelFile tutorialTestFlags ending := by
  intro h
  rw [scoreFile_eq, modelFile_eq, Flags.scorePath, Flags.modelPath] at h
  have h1 := congrArg List.getLast? h
  simp only [List.getLast?_append] at h1
  rw [show ".score".toList.getLast? = some 'e' by decide] at h1
  cases hl : ending.toList.getLast? with
  | none => exact hne (List.getLast?_eq_none_iff.mp hl)
  | some c =>
    rw [hl] at h1 he
    simp only [Option.some_or, Option.some.injEq] at h1
    exact he (by rw [← h1])

/-- What the tutorial's command for testing does: it writes no score file, and trains a model on the test data. -/
theorem C164_trains_partial (P : Platform D A N) {w w' : World} {e : Exit} (h : runMain P tutorialTestFlags w = (w', e)) :
    (∀ k, w'.files (scoreFile tutorialTestFlags k) = w.files (scoreFile tutorialTestFlags k)) ∧
    (e = .done → ∃ j fimps, Trains P tutorialTestFlags w j fimps ∧ w'.files "scores/forest.json".toList = some (P.printJson j)) := by
  obtain ⟨h1, h2⟩ := C155_train P (fl := tutorialTestFlags) rfl h
  constructor
  · intro k
    exact h1 _ (tutorialScore_ne k ".json" (by decide) (by decide)) (tutorialScore_ne k ".fimps" (by decide) (by decide))
  · intro he
    obtain ⟨j, fimps, k1, k2, _⟩ := h2 he
    refine ⟨j, fimps, k1, ?_⟩
    have hp : modelFile tutorialTestFlags ".json" = "scores/forest.json".toList := by decide +kernel
    rw [← hp]
    exact k2

/-- **C164 partial.** With `--mode=test` added, the command writes the score file for the whole model.
Missing: the command as the tutorial gives it. -/
theorem C164_partial (P : Platform D A N) {w w' : World} (h : runMain P { tutorialTestFlags with mode := "test" } w = (w', .done))
    {text : Text} {model : Json N} {m : ForestMsg D A} (h1 : w.files "forest.json".toList = some text) (h2 : P.parseJson text = some model)
    (h3 : forestFromJson P.nc P.zero 100 model = .ok m) (hne : m.trees ≠ []) :
    w'.files (scoreFile tutorialTestFlags m.trees.length) ≠ none := by
  obtain ⟨_, h4⟩ := C155_test P (fl := { tutorialTestFlags with mode := "test" }) rfl h
  obtain ⟨scores, k1, k2, _⟩ := h4 rfl
  obtain ⟨c, text', model', m', _, e1, e2, e3, e4⟩ := k1.numbers
  obtain rfl : text = text' := Option.some.inj (h1.symm.trans e1)
  obtain rfl : model = model' := Option.some.inj (h2.symm.trans e2)
  rw [h3] at e3
  cases e3
  have hpos : 0 < m.trees.length := List.length_pos_iff.mpr hne
  have hmem : (m.trees.length : Int) ∈ scores.map Prod.fst := by
    rw [e4 hpos, mem_testPoints (trees := m.trees.length - 1) hpos (by omega)]
    exact Or.inl (by omega)
  obtain ⟨f, hf, e⟩ := List.mem_map.mp hmem
  rw [← e]
  intro hn
  have := k2 f hf
  rw [show scoreFile { tutorialTestFlags with mode := "test" } f.1 = scoreFile tutorialTestFlags f.1 from rfl, hn] at this
  cases this

end c164

/-- The files of the example: the model is there, and the configuration. -/
def tutorialWorld : World where
  files := fun p =>
    if p = "test.tsv".toList then testTsvs[0]?
    else if p = "benchm-ml.logloss.config".toList then some "{config}".toList
    else if p = "forest.json".toList then some "{model}".toList
    else none
  dirs := fun p => p == ['.']

theorem tutorial_runs : (runMain mainPlatform tutorialTestFlags tutorialWorld).2 = .done ∧
    (runMain mainPlatform { tutorialTestFlags with mode := "test" } tutorialWorld).2 = .done := by decide +kernel

/-- **C164 refuted.** -/
theorem C164_refuted : ¬ C164_full := by
  intro h
  obtain ⟨w', hw⟩ : ∃ w', runMain mainPlatform tutorialTestFlags tutorialWorld = (w', .done) := by
    have := tutorial_runs.1
    generalize runMain mainPlatform tutorialTestFlags tutorialWorld = r at this
    obtain ⟨w', e⟩ := r
    exact ⟨w', by rw [← this]⟩
  obtain ⟨k, _, hk⟩ := h _ _ hw
  apply hk
  rw [(C164_trains_partial _ hw).1 k]
  have hne : ∀ path : Text, path.head? ≠ some 's' → scoreFile tutorialTestFlags k ≠ path := by
    rintro path hh rfl
    apply hh
    rw [scoreFile_eq, Flags.scorePath, List.append_assoc, List.append_assoc, List.head?_append]
    rfl
  simp only [tutorialWorld]
  rw [if_neg (hne _ (by decide)), if_neg (hne _ (by decide)), if_neg (hne _ (by decide))]

end Gbdt
