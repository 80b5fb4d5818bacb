import Verif.Lemmas.Main
import Verif.Props.ConfigDict
import Verif.Props.Text
import Verif.Props.TsvPipeline

/-!
# C155 – C159: the program with its flags and files

The file system before and after a run, what the program writes, and what it does about files that are missing.
-/

set_option autoImplicit false
set_option linter.unusedSectionVars false

namespace Gbdt

open Outcome

/-! ## What a run is meant to do -/

section spec
variable {D A N : Type} [Dbl D] [LinearOrder A] [ThrOps A]

/-- The configuration file holds this configuration. -/
def HasConfig (P : Platform D A N) (w : World) (path : String) (c : CliConfig D) : Prop :=
  ∃ text j, w.files path.toList = some text ∧ text ≠ [] ∧ P.parseJson text = some j ∧ configFromJson P.cc j = some c

/-- The base model of a run: nothing without the flag; otherwise what the file holds. -/
def baseOf (P : Platform D A N) (fl : Flags) (w : World) : Option (Option (Json N)) :=
  if fl.baseModelFile = "" then none
  else some (match w.files fl.baseModelFile.toList with
    | some (x :: xs) => P.parseJson (x :: xs)
    | _ => none)

/-- Training as the flags tell gives this model and this importance of features. -/
def Trains (P : Platform D A N) (fl : Flags) (w : World) (j : Json N) (fimps : List (String × D)) : Prop :=
  ∃ c, HasConfig P w fl.configFile c ∧
    (if fl.flatfilesDirs ≠ "" then
      cliTrainFFMain (w.flatDisk P fl.flatfilesDirs) P.mc P.nc P.zero P.weightsFirst P.ffSched P.isort c.train (baseOf P fl w) fl.seed fl.numThreads
    else cliTrainMain P.mc P.nc P.zero P.fmax P.strtof P.sched P.isort (w.tsvFiles fl.tsvs) c (baseOf P fl w) fl.seed fl.numThreads) =
      ok (j, fimps)

/-- Testing as the flags tell gives these scores at these numbers of trees. -/
def Tests (P : Platform D A N) (fl : Flags) (w : World) (scores : List (Int × List D)) : Prop :=
  ∃ c model, HasConfig P w fl.configFile c ∧ (∃ text, w.files fl.testingModelFile.toList = some text ∧ P.parseJson text = some model) ∧
    (if fl.flatfilesDirs ≠ "" then
      cliTestFFMain (w.flatDisk P fl.flatfilesDirs) P.mc.listing P.nc P.zero P.ffSched c.evalInterval (some model) fl.numThreads
    else cliTestMain P.nc P.zero P.fmax P.strtof P.sched (w.tsvFiles fl.tsvs) c (some model) fl.numThreads) = ok scores

/-- `<output_dir>/<output_model_name>` with an ending. -/
def modelFile (fl : Flags) (ending : String) : Text := (fl.outputDir ++ "/" ++ fl.outputModelName ++ ending).toList

/-- `<output_dir>/forest.<number of trees>.score`. -/
def scoreFile (fl : Flags) (k : Int) : Text := (fl.outputDir ++ "/forest." ++ toString k ++ ".score").toList

/-- Lines with nothing after the last one. -/
def asLines (l : List Text) : Text := join l ['\n']

end spec

/-! ## Lemmas about the run -/

theorem modelFile_eq (fl : Flags) (ending : String) : modelFile fl ending = fl.modelPath ending := by
  simp [modelFile, Flags.modelPath]

theorem scoreFile_eq (fl : Flags) (k : Int) : scoreFile fl k = fl.scorePath k := by
  have : k.repr.toList = showInt k := by
    cases k with
    | ofNat n => simp [showInt, Int.repr]
    | negSucc n =>
      have : Int.negSucc n < 0 := Int.negSucc_lt_zero n
      simp [showInt, Int.repr, this]
  simp [scoreFile, Flags.scorePath, this]

section lemmas
variable {D A N : Type} [Dbl D] [LinearOrder A] [ThrOps A]

theorem readOrDie_ok {w : World} {path : String} {text : Text} :
    w.readOrDie path = ok text ↔ w.files path.toList = some text ∧ text ≠ [] := by
  unfold World.readOrDie
  split
  · next h => simp [h]
  · next h => simp only [h, Option.some.injEq]; constructor
              · intro h; cases h
              · rintro ⟨rfl, h⟩; exact absurd rfl h
  · next t hne h =>
    simp only [h, Option.some.injEq, Outcome.ok.injEq]
    constructor
    · rintro rfl; exact ⟨rfl, by rintro rfl; exact hne rfl⟩
    · exact fun h => h.1

theorem json_some {P : Platform D A N} {w : World} {path : String} {j : Json N} :
    w.json P path = some j ↔ ∃ text, w.files path.toList = some text ∧ text ≠ [] ∧ P.parseJson text = some j := by
  unfold World.json
  cases h : w.readOrDie path with
  | ok text =>
    obtain ⟨h1, h2⟩ := readOrDie_ok.mp h
    simp only [h1, Option.some.injEq]
    constructor
    · exact fun h => ⟨_, rfl, h2, h⟩
    · rintro ⟨_, rfl, _, h⟩; exact h
  | fatal =>
    simp only
    constructor
    · intro h; cases h
    · rintro ⟨text, h1, h2, _⟩
      rw [readOrDie_ok.mpr ⟨h1, h2⟩] at h
      cases h
  | ub =>
    simp only
    constructor
    · intro h; cases h
    · rintro ⟨text, h1, h2, _⟩
      rw [readOrDie_ok.mpr ⟨h1, h2⟩] at h
      cases h

theorem json_base (P : Platform D A N) (fl : Flags) (w : World) :
    (if fl.baseModelFile = "" then none else some (w.json P fl.baseModelFile)) = baseOf P fl w := by
  unfold baseOf World.json World.readOrDie
  split
  · rfl
  · cases h : w.files fl.baseModelFile.toList with
    | none => rfl
    | some t => cases t <;> rfl

theorem configOrDie_ok {P : Platform D A N} {w : World} {path : String} {c : CliConfig D} :
    w.configOrDie P path = ok c ↔ HasConfig P w path c := by
  unfold World.configOrDie HasConfig
  constructor
  · intro h
    split at h
    · cases h
    · next c' h' =>
      cases h
      obtain ⟨j, h1, h2⟩ := Option.bind_eq_some_iff.mp h'
      obtain ⟨text, h3, h4, h5⟩ := json_some.mp h1
      exact ⟨text, j, h3, h4, h5, h2⟩
  · rintro ⟨text, j, h1, h2, h3, h4⟩
    rw [json_some.mpr ⟨text, h1, h2, h3⟩, Option.bind_some, h4]

theorem configOrDie_cases (P : Platform D A N) (w : World) (path : String) :
    w.configOrDie P path = fatal ∨ ∃ c, w.configOrDie P path = ok c := by
  unfold World.configOrDie
  split
  · exact Or.inl rfl
  · exact Or.inr ⟨_, rfl⟩

theorem HasConfig.unique {P : Platform D A N} {w : World} {path : String} {c c' : CliConfig D} (h : HasConfig P w path c)
    (h' : HasConfig P w path c') : c = c' := by
  have := configOrDie_ok.mpr h
  rw [configOrDie_ok.mpr h'] at this
  cases this
  rfl

theorem trainFiles_ok {P : Platform D A N} {fl : Flags} {w : World} {files : List (Text × Text)} (h : trainFiles P fl w = ok files) :
    fl.configFile ≠ "" ∧ fl.outputDir ≠ "" ∧ ∃ j fimps, Trains P fl w j fimps ∧
      files = [(fl.modelPath ".json", P.printJson j), (fl.modelPath ".fimps", formatImportance P fimps)] := by
  unfold trainFiles at h
  split at h
  · cases h
  next hne =>
  rw [not_or] at hne
  refine ⟨hne.1, hne.2, ?_⟩
  obtain ⟨c, hc, h⟩ := bind_eq_ok.mp h
  obtain ⟨⟨j, fimps⟩, h1, h2⟩ := bind_eq_ok.mp h
  cases h2
  simp only [trainOn, json_base] at h1
  exact ⟨j, fimps, ⟨c, configOrDie_ok.mp hc, h1⟩, rfl⟩

theorem trainFiles_of {P : Platform D A N} {fl : Flags} {w : World} (h1 : fl.configFile ≠ "") (h2 : fl.outputDir ≠ "") {j : Json N}
    {fimps : List (String × D)} (h : Trains P fl w j fimps) :
    trainFiles P fl w = ok [(fl.modelPath ".json", P.printJson j), (fl.modelPath ".fimps", formatImportance P fimps)] := by
  obtain ⟨c, hc, h⟩ := h
  unfold trainFiles
  rw [if_neg (by simp [h1, h2]), configOrDie_ok.mpr hc, ok_bind]
  have : trainOn P fl w c = ok (j, fimps) := by
    simp only [trainOn, json_base]
    exact h
  rw [this, ok_bind]
  rfl

theorem testMain_model {nc : NumCodec D A N} {zero fmax : A} {parse : Text → Option (Fl A)} {sched : Nat → List Handle → List Handle}
    {files : List (Option Text)} {c : CliConfig D} {nt : Int} : cliTestMain nc zero fmax parse sched files c none nt = fatal := rfl

theorem testFFMain_model {d : FlatDisk A} {listing : List String → List String} {nc : NumCodec D A N} {zero : A} {sched : List Nat}
    {interval nt : Int} : (cliTestFFMain d listing nc zero sched interval none nt : Outcome (List (Int × List D))) = fatal := rfl

theorem testFiles_ok {P : Platform D A N} {fl : Flags} {w : World} {files : List (Text × Text)} (h : testFiles P fl w = ok files) :
    fl.configFile ≠ "" ∧ fl.testingModelFile ≠ "" ∧ fl.outputDir ≠ "" ∧ ∃ scores, Tests P fl w scores ∧
      files = scores.map (fun f => (fl.scorePath f.1, formatScores P f.2)) := by
  unfold testFiles at h
  split at h
  · cases h
  next hne =>
  rw [not_or, not_or] at hne
  refine ⟨hne.1, hne.2.1, hne.2.2, ?_⟩
  obtain ⟨c, hc, h⟩ := bind_eq_ok.mp h
  obtain ⟨scores, h1, h2⟩ := bind_eq_ok.mp h
  cases h2
  simp only [testOn] at h1
  cases hm : w.json P fl.testingModelFile with
  | none =>
    rw [hm, testMain_model, testFFMain_model, ite_self] at h1
    cases h1
  | some model =>
    obtain ⟨text, k1, k2, k3⟩ := json_some.mp hm
    rw [hm] at h1
    exact ⟨scores, ⟨c, model, configOrDie_ok.mp hc, ⟨text, k1, k3⟩, h1⟩, rfl⟩

/-- The numbers of trees in the names of score files. -/
theorem evaluateLoop_points {columns : String → Option (Column A)} (forest : List (Tree D A)) : ∀ (i : Nat) (points : List Int)
    (slices : List (List Nat)) (scores : List D) {files : List (Int × List D)}, evaluateLoop columns forest i points slices scores = ok files →
    (files.map Prod.fst).Pairwise (· < ·) ∧ ∀ f ∈ files, (i : Int) < f.1 := by
  induction forest with
  | nil => intro i points slices scores files h; cases h; exact ⟨List.Pairwise.nil, by simp⟩
  | cons t ts ih =>
    intro i points slices scores files h
    cases points with
    | nil => cases h; exact ⟨List.Pairwise.nil, by simp⟩
    | cons p ps =>
      rw [evaluateLoop] at h
      obtain ⟨⟨ss, sc⟩, _, h⟩ := bind_eq_ok.mp h
      obtain ⟨rest, h1, h⟩ := bind_eq_ok.mp h
      obtain ⟨k1, k2⟩ := ih _ _ _ _ h1
      cases h
      by_cases hp : ((i : Int) + 1) = p
      · simp only [if_pos hp]
        constructor
        · rw [List.map_cons, List.pairwise_cons]
          refine ⟨fun q hq => ?_, k1⟩
          obtain ⟨f, hf, rfl⟩ := List.mem_map.mp hq
          have := k2 f hf
          push_cast at this
          omega
        · intro f hf
          rcases List.mem_cons.mp hf with rfl | hf
          · simp only; omega
          · have := k2 f hf
            push_cast at this
            omega
      · simp only [if_neg hp]
        exact ⟨k1, fun f hf => by have := k2 f hf; push_cast at this; omega⟩

theorem evaluateCheckpoints_points {columns : String → Option (Column A)} {n : Nat} {nt : Int} {forest : List (Tree D A)} {points : List Int}
    {e : Code} {files : List (Int × List D)} (h : evaluateCheckpoints columns n nt forest points = ok (e, files)) :
    (files.map Prod.fst).Pairwise (· < ·) ∧ ∀ f ∈ files, 0 < f.1 := by
  unfold evaluateCheckpoints at h
  split at h
  · cases h; exact ⟨List.Pairwise.nil, by simp⟩
  · obtain ⟨slices, _, h⟩ := bind_eq_ok.mp h
    obtain ⟨files', h1, h⟩ := bind_eq_ok.mp h
    cases h
    exact evaluateLoop_points _ _ _ _ _ h1

theorem Tests.points {P : Platform D A N} {fl : Flags} {w : World} {scores : List (Int × List D)} (h : Tests P fl w scores) :
    (scores.map Prod.fst).Pairwise (· < ·) ∧ ∀ f ∈ scores, 0 < f.1 := by
  obtain ⟨c, model, _, _, h⟩ := h
  split at h
  · unfold cliTestFFMain at h
    obtain ⟨forest, _, h⟩ := bind_eq_ok.mp h
    obtain ⟨⟨m, loaded⟩, _, h⟩ := bind_eq_ok.mp h
    simp only at h
    split at h
    · cases h
    · obtain ⟨n, _, h⟩ := bind_eq_ok.mp h
      obtain ⟨⟨e, files⟩, he, h⟩ := bind_eq_ok.mp h
      simp only at h
      split at h
      · cases h; exact evaluateCheckpoints_points he
      · cases h
  · unfold cliTestMain at h
    obtain ⟨forest, _, h⟩ := bind_eq_ok.mp h
    obtain ⟨t, _, h⟩ := bind_eq_ok.mp h
    obtain ⟨n, _, h⟩ := bind_eq_ok.mp h
    obtain ⟨⟨e, files⟩, he, h⟩ := bind_eq_ok.mp h
    simp only at h
    split at h
    · cases h; exact evaluateCheckpoints_points he
    · cases h

theorem scorePaths_nodup (fl : Flags) (P : Platform D A N) {scores : List (Int × List D)} (h1 : (scores.map Prod.fst).Pairwise (· < ·))
    (h2 : ∀ f ∈ scores, 0 < f.1) : ((scores.map (fun f => (fl.scorePath f.1, formatScores P f.2))).map Prod.fst).Nodup := by
  rw [List.map_map, List.Nodup, List.pairwise_map]
  rw [List.pairwise_map] at h1
  refine List.Pairwise.imp_of_mem ?_ h1
  intro a b ha hb hlt e
  have := scorePath_inj (le_of_lt (h2 a ha)) (le_of_lt (h2 b hb)) e
  omega

end lemmas

/-! ## C155 -/

section c155
variable {D A N : Type} [Dbl D] [LinearOrder A] [ThrOps A]

/-- **C155 (training).** `--mode=train` changes no file but the model and its `.fimps` file in the output directory.  If it ends with success,
these hold the model trained as the flags tell, and one line per feature. -/
theorem C155_train (P : Platform D A N) {fl : Flags} (hm : fl.mode = "train") {w w' : World} {e : Exit} (h : runMain P fl w = (w', e)) :
    (∀ p, p ≠ modelFile fl ".json" → p ≠ modelFile fl ".fimps" → w'.files p = w.files p) ∧
    (e = .done → ∃ j fimps, Trains P fl w j fimps ∧ w'.files (modelFile fl ".json") = some (P.printJson j) ∧
      w'.files (modelFile fl ".fimps") = some (asLines (fimps.map (fun p => p.1.toList ++ '\t' :: P.showGain p.2)))) := by
  simp only [modelFile_eq]
  rw [runMain, if_pos hm] at h
  cases ht : trainFiles P fl w with
  | fatal => rw [ht] at h; cases h; exact ⟨fun _ _ _ => rfl, fun h => by cases h⟩
  | ub => rw [ht] at h; cases h; exact ⟨fun _ _ _ => rfl, fun h => by cases h⟩
  | ok files =>
    rw [ht] at h
    obtain ⟨_, _, j, fimps, h1, rfl⟩ := trainFiles_ok ht
    rw [finish] at h
    constructor
    · intro p h2 h3
      have := writeAll_other [(fl.modelPath ".json", P.printJson j), (fl.modelPath ".fimps", formatImportance P fimps)]
        (w.mkdir fl.outputDir.toList) p (by
          intro f hf
          simp only [List.mem_cons, List.not_mem_nil, or_false] at hf
          rcases hf with rfl | rfl
          · exact Ne.symm h2
          · exact Ne.symm h3)
      rw [h, mkdir_files] at this
      exact this
    · intro he
      subst he
      have := writeAll_mem [(fl.modelPath ".json", P.printJson j), (fl.modelPath ".fimps", formatImportance P fimps)]
        (w.mkdir fl.outputDir.toList) (by simp [modelPath_ne]) (by rw [h])
      rw [h] at this
      exact ⟨j, fimps, h1, this _ List.mem_cons_self, this _ (List.mem_cons_of_mem _ List.mem_cons_self)⟩

/-- **C155 (testing).** `--mode=test` changes no file but `forest.<number of trees>.score` in the output directory.  If it ends with success,
there is one file for every number of trees tested, with one line per score. -/
theorem C155_test (P : Platform D A N) {fl : Flags} (hm : fl.mode = "test") {w w' : World} {e : Exit} (h : runMain P fl w = (w', e)) :
    (∀ p, (∀ k : Int, 0 < k → p ≠ scoreFile fl k) → w'.files p = w.files p) ∧
    (e = .done → ∃ scores, Tests P fl w scores ∧
      (∀ f ∈ scores, w'.files (scoreFile fl f.1) = some (asLines (f.2.map P.showScore))) ∧
      ∀ p, (∀ f ∈ scores, p ≠ scoreFile fl f.1) → w'.files p = w.files p) := by
  simp only [scoreFile_eq]
  rw [runMain, if_neg (by rw [hm]; decide), if_pos hm] at h
  cases ht : testFiles P fl w with
  | fatal => rw [ht] at h; cases h; exact ⟨fun _ _ => rfl, fun h => by cases h⟩
  | ub => rw [ht] at h; cases h; exact ⟨fun _ _ => rfl, fun h => by cases h⟩
  | ok files =>
    rw [ht] at h
    obtain ⟨_, _, _, scores, h1, rfl⟩ := testFiles_ok ht
    rw [finish] at h
    obtain ⟨k1, k2⟩ := h1.points
    have hother : ∀ p, (∀ f ∈ scores, p ≠ fl.scorePath f.1) → w'.files p = w.files p := by
      intro p hp
      have := writeAll_other (scores.map (fun f => (fl.scorePath f.1, formatScores P f.2))) (w.mkdir fl.outputDir.toList) p (by
        intro f hf
        obtain ⟨g, hg, rfl⟩ := List.mem_map.mp hf
        exact Ne.symm (hp g hg))
      rw [h, mkdir_files] at this
      exact this
    refine ⟨fun p hp => hother p (fun f hf => hp f.1 (k2 f hf)), ?_⟩
    intro he
    subst he
    refine ⟨scores, h1, ?_, hother⟩
    intro f hf
    have := writeAll_mem (scores.map (fun f => (fl.scorePath f.1, formatScores P f.2))) (w.mkdir fl.outputDir.toList)
      (scorePaths_nodup fl P k1 k2) (by rw [h]) _ (List.mem_map.mpr ⟨f, hf, rfl⟩)
    rw [h] at this
    rw [this, formatScores_join, asLines]

/-- **C155 (inputs).** A list of paths in a flag is separated by commas: the files of `--tsvs` are the files of these names in this order, and a column of
`--flatfiles_dirs` is the file of its name in the first of the directories that has one. -/
theorem C155_inputs (P : Platform D A N) (w : World) {names : List String} (hcomma : ∀ n ∈ names, ',' ∉ n.toList) (hne : names ≠ [""]) :
    w.tsvFiles (",".intercalate names) = names.map (fun n => w.files n.toList) ∧
    ∀ column, (w.flatDisk P (",".intercalate names)).files column = names.findSome? (fun n => w.files (n ++ "/" ++ column).toList) := by
  have hj : ∀ l : List String, (",".intercalate l).toList = join (l.map String.toList) [','] := by
    intro l
    rw [String.toList_intercalate]
    generalize l.map String.toList = ws
    induction ws with
    | nil => rfl
    | cons w ws ih =>
      cases ws with
      | nil => simp [join_single]
      | cons v vs => rw [join_cons_cons, ← ih]; simp
  have hp : pathList (",".intercalate names) = names.map String.toList := by
    rw [pathList, hj, C15_split_join ',' _ (by
      intro w hw
      obtain ⟨n, hn, rfl⟩ := List.mem_map.mp hw
      exact hcomma n hn)]
    · rfl
    · intro e
      cases names with
      | nil => cases e
      | cons n ns =>
        cases ns with
        | nil =>
          simp only [List.map_cons, List.map_nil, List.cons.injEq, and_true] at e
          exact hne (by rw [String.toList_inj.mp (e.trans (by rfl : ([] : List Char) = "".toList))])
        | cons _ _ => simp at e
  constructor
  · rw [World.tsvFiles, hp, List.map_map]
    rfl
  · intro column
    simp only [World.flatDisk, findFlatfile, hp, List.map_map, List.findSome?_map]
    congr 1
    funext n
    simp

/-- **C155 (errors).** A run with another mode, or without the flags it needs, ends with an error; and a run that ends with an error has changed no
file at all, unless one of the files it writes cannot be opened. -/
theorem C155_errors (P : Platform D A N) (fl : Flags) (w : World) :
    ((fl.mode ≠ "train" ∧ fl.mode ≠ "test") ∨ fl.configFile = "" ∨ fl.outputDir = "" ∨ (fl.mode = "test" ∧ fl.testingModelFile = "") →
      runMain P fl w = (w, .died)) ∧
    ∀ w', runMain P fl w = (w', .died) →
      (∀ p, (p = modelFile fl ".json" ∨ p = modelFile fl ".fimps" ∨ ∃ k : Int, 0 < k ∧ p = scoreFile fl k) →
        (w.mkdir fl.outputDir.toList).canWrite p = true) → w' = w := by
  simp only [modelFile_eq, scoreFile_eq] at *
  have hfin : ∀ (out : Outcome (List (Text × Text))) w', finish fl w out = (w', .died) →
      (∀ files, out = ok files → ∀ f ∈ files, (w.mkdir fl.outputDir.toList).canWrite f.1 = true) → w' = w := by
    intro out w' h hc
    cases out with
    | ok files =>
      have := (writeAll_done files (w.mkdir fl.outputDir.toList)).mpr (hc files rfl)
      rw [finish] at h
      rw [h] at this
      cases this
    | fatal => cases h; rfl
    | ub => cases h
  constructor
  · intro h
    rw [runMain]
    by_cases h1 : fl.mode = "train"
    · rw [if_pos h1]
      have : trainFiles P fl w = fatal := by
        rw [trainFiles, if_pos]
        rcases h with h | h | h | h
        · exact absurd h1 h.1
        · exact Or.inl h
        · exact Or.inr h
        · exact absurd (h1.symm.trans h.1) (by decide)
      rw [this]
      rfl
    · rw [if_neg h1]
      by_cases h2 : fl.mode = "test"
      · rw [if_pos h2]
        have : testFiles P fl w = fatal := by
          rw [testFiles, if_pos]
          rcases h with h | h | h | h
          · exact absurd h2 h.2
          · exact Or.inl h
          · exact Or.inr (Or.inr h)
          · exact Or.inr (Or.inl h.2)
        rw [this]
        rfl
      · rw [if_neg h2]
  · intro w' h hc
    rw [runMain] at h
    split at h
    · refine hfin _ _ h ?_
      intro files hf f hmem
      obtain ⟨_, _, j, fimps, _, rfl⟩ := trainFiles_ok hf
      simp only [List.mem_cons, List.not_mem_nil, or_false] at hmem
      rcases hmem with rfl | rfl
      · exact hc _ (Or.inl rfl)
      · exact hc _ (Or.inr (Or.inl rfl))
    · split at h
      · refine hfin _ _ h ?_
        intro files hf f hmem
        obtain ⟨_, _, _, scores, hs, rfl⟩ := testFiles_ok hf
        obtain ⟨g, hg, rfl⟩ := List.mem_map.mp hmem
        exact hc _ (Or.inr (Or.inr ⟨g.1, hs.points.2 g hg, rfl⟩))
      · cases h; rfl

end c155

/-! ## C156 -/

section c156
variable {D A N : Type} [Dbl D] [FpOrder D] [EqOrder D] [LinearOrder A] [ThrOps A]

theorem testFiles_of {P : Platform D A N} {fl : Flags} {w : World} (h1 : fl.configFile ≠ "") (h2 : fl.testingModelFile ≠ "")
    (h3 : fl.outputDir ≠ "") {c : CliConfig D} (hc : HasConfig P w fl.configFile c) {model : Json N}
    (hm : w.json P fl.testingModelFile = some model) (hff : fl.flatfilesDirs = "") {scores : List (Int × List D)}
    (h : cliTestMain P.nc P.zero P.fmax P.strtof P.sched (w.tsvFiles fl.tsvs) c (some model) fl.numThreads = ok scores) :
    testFiles P fl w = ok (scores.map (fun f => (fl.scorePath f.1, formatScores P f.2))) := by
  unfold testFiles
  rw [if_neg (by simp [h1, h2, h3]), configOrDie_ok.mpr hc, ok_bind]
  have : testOn P fl w c = ok scores := by
    simp only [testOn, hm]
    rw [if_neg (by simp [hff])]
    exact h
  rw [this, ok_bind]
  rfl

/-- **C156.** Training and then testing through files: if `--mode=train` with `--tsvs` ends with success, then `--mode=test` with the same
configuration file and the model file it has written can be run on files that have the columns of the configuration; it ends with
success too, and the score files hold, line by line, the values of the trees trained for the lines of the data.  Assumed are that protobuf reads the model text back
that it has written, that the model does not replace the configuration or the data, and that the score files can be opened. -/
theorem C156_train_test {P : Platform D A N} {fl fl' : Flags} (hm : fl.mode = "train") (hm' : fl'.mode = "test")
    (hff : fl.flatfilesDirs = "") (hff' : fl'.flatfilesDirs = "") (hcfg : fl'.configFile = fl.configFile)
    (hmodel : fl'.testingModelFile.toList = modelFile fl ".json") (hout : fl'.outputDir ≠ "")
    {w w' : World} (h : runMain P fl w = (w', .done)) {c : CliConfig D} (hc : HasConfig P w fl.configFile c)
    (hi : CliInput P.mc P.nc P.zero P.fmax P.strtof P.sched (w.tsvFiles fl.tsvs) c (baseOf P fl w) fl.numThreads)
    (hjson : ∀ j fimps, Trains P fl w j fimps → P.parseJson (P.printJson j) = some j ∧ P.printJson j ≠ [])
    (hsafe : ∀ p ∈ fl.configFile.toList :: pathList fl'.tsvs, p ≠ modelFile fl ".json" ∧ p ≠ modelFile fl ".fimps")
    {first : Text} {rest : List Text} (hfiles : w.tsvFiles fl'.tsvs = (first :: rest).map some)
    (hsmall : (tableLines (first :: rest)).length < 29999) (hhead : ∀ r ∈ c.tsv.requests, r.2 ∈ headerNames first)
    (hread : ∀ (k : Nat) (file : Text), (first :: rest)[k]? = some file → FileReadable P.strtof c.tsv (headerNames first) file (k == 0))
    {sched' : Nat → List Handle → List Handle} (hs' : AnyOrder sched') (hnt' : 0 < fl'.numThreads)
    (hwrite : ∀ k : Int, 0 < k → (w'.mkdir fl'.outputDir.toList).canWrite (scoreFile fl' k) = true) :
    ∃ j forest w'', w'.files (modelFile fl ".json") = some (P.printJson j) ∧ forestFromJson P.nc P.zero 100 j = .ok ⟨forest, ""⟩ ∧
      runMain { P with sched := sched' } fl' w' = (w'', .done) ∧
      ∀ p ∈ getTestPoints c.evalInterval forest.length, ∃ scores : List D, w''.files (scoreFile fl' p) = some (asLines (scores.map P.showScore)) ∧
        scores.length = (tableLines (first :: rest)).length ∧
        ∀ (i : Nat) (l : Text), (tableLines (first :: rest))[i]? = some l →
          ∀ row, LineShows P.strtof (headerNames first) c.tsv.kind l row →
            ∃ x, scores[i]? = some x ∧ forestValue row (forest.take p.toNat) = some x := by
  simp only [modelFile_eq, scoreFile_eq] at *
  have h155 := C155_train P hm h
  simp only [modelFile_eq] at h155
  obtain ⟨hsame, hdone⟩ := h155
  obtain ⟨j, fimps, ht, hj, _⟩ := hdone trivial
  obtain ⟨hr1, hr2⟩ := hjson j fimps ht
  have hcfgne : fl.configFile ≠ "" := by
    intro e
    have := (C155_errors P fl w).1 (Or.inr (Or.inl e))
    rw [h] at this
    cases this
  obtain ⟨c', hc', ht⟩ := ht
  obtain rfl := hc.unique hc'
  rw [if_neg (by simp [hff])] at ht
  obtain ⟨forest, hf, files', h1, h2, h3⟩ := C119_train_test hi ht hs' (noBucketCrash_of_few _ _ _ hsmall) (by omega) hhead hread hnt'
  have hwc : HasConfig { P with sched := sched' } w' fl'.configFile c := by
    obtain ⟨text, jc, k1, k2, k3, k4⟩ := hc
    have hs := hsafe _ List.mem_cons_self
    exact ⟨text, jc, by rw [hcfg, hsame _ hs.1 hs.2]; exact k1, k2, k3, k4⟩
  have hwm : w'.json { P with sched := sched' } fl'.testingModelFile = some j :=
    json_some.mpr ⟨_, by rw [hmodel]; exact hj, hr2, hr1⟩
  have hwf : w'.tsvFiles fl'.tsvs = (first :: rest).map some := by
    rw [← hfiles]
    refine List.map_congr_left ?_
    intro p hp
    have hs := hsafe _ (List.mem_cons_of_mem _ hp)
    exact hsame p hs.1 hs.2
  have hmne : fl'.testingModelFile ≠ "" := by
    intro e
    rw [e] at hmodel
    simp only [Flags.modelPath] at hmodel
    have := congrArg List.length hmodel
    simp at this
  have htf := testFiles_of (P := { P with sched := sched' }) (fl := fl') (by rw [hcfg]; exact hcfgne) hmne hout hwc hwm hff'
    (scores := files') (by rw [hwf]; exact h1)
  obtain ⟨w'', hw''⟩ : ∃ w'', runMain { P with sched := sched' } fl' w' = (w'', .done) := by
    rw [runMain, if_neg (by rw [hm']; decide), if_pos hm', htf, finish]
    refine ⟨_, Prod.ext rfl ((writeAll_done _ _).mpr ?_)⟩
    intro f hf
    obtain ⟨g, hg, rfl⟩ := List.mem_map.mp hf
    refine hwrite _ ?_
    have : Tests { P with sched := sched' } fl' w' files' := by
      obtain ⟨text, k1, k2, k3⟩ := json_some.mp hwm
      refine ⟨c, j, hwc, ⟨text, k1, k3⟩, ?_⟩
      rw [if_neg (by simp [hff']), hwf]
      exact h1
    exact this.points.2 g hg
  refine ⟨j, forest, w'', hj, hf, hw'', ?_⟩
  intro p hp
  have h155 := C155_test _ hm' hw''
  simp only [scoreFile_eq] at h155
  obtain ⟨_, hd⟩ := h155
  obtain ⟨scores, hts, hfl, _⟩ := hd trivial
  obtain ⟨c2, j2, k1, ⟨text, k2, k3⟩, k4⟩ := hts
  obtain rfl := hwc.unique k1
  have hj2 : j2 = j := by
    rw [hmodel, hj] at k2
    cases k2
    have : P.parseJson (P.printJson j) = some j2 := k3
    rw [hr1] at this
    cases this
    rfl
  subst hj2
  rw [if_neg (by simp [hff']), hwf] at k4
  have he : scores = files' := by
    have : cliTestMain P.nc P.zero P.fmax P.strtof sched' ((first :: rest).map some) c (some j2) fl'.numThreads = ok scores := k4
    rw [h1] at this
    cases this
    rfl
  subst he
  rw [← h2] at hp
  obtain ⟨⟨p', sc⟩, hg, rfl⟩ := List.mem_map.mp hp
  obtain ⟨m1, m2⟩ := h3 p' sc hg
  exact ⟨sc, hfl _ hg, m1, m2⟩

end c156

/-! ## An example -/

/-- A configuration file. -/
def mainConfigJson : Json (ℚ ⊕ Nat) :=
  .obj (.cons "numTrees" (.num (.inr 2)) (.cons "numLeaves" (.num (.inr 3)) (.cons "shrinkage" (.num (.inl (1 / 2)))
    (.cons "l2Lambda" (.num (.inr 1)) (.cons "example_sampling_rate" (.num (.inr 1)) (.cons "feature_sampling_rate" (.num (.inr 1))
    (.cons "lossFunc" (.str "mse") (.cons "pairSamplingRate" (.num (.inr 2)) (.cons "floatFeature" (.arr (.cons (.str "size") .nil))
    (.cons "categoricalFeature" (.arr (.cons (.str "color") .nil)) (.cons "targetColumn" (.str "clicked")
    (.cons "evalInterval" (.num (.inr 2)) .nil))))))))))))

theorem mainConfig_reads : configFromJson plainConfigCodec mainConfigJson = some tsvCliConfig := rfl

/-- The model trained on `trainTsvs`. -/
def mainModel : Json (ℚ ⊕ Nat) :=
  match cliTrainMain ratMachine plainCodec 0 1000 ratParse (fun _ l => l.reverse) id (trainTsvs.map some) tsvCliConfig none 1 2 with
  | .ok (j, _) => j
  | _ => .null

/-- A platform for the example; of JSON only two texts are known. -/
def mainPlatform : Platform ℚ ℚ (ℚ ⊕ Nat) where
  mc := ratMachine
  nc := plainCodec
  cc := plainConfigCodec
  zero := 0
  fmax := 1000
  strtof := ratParse
  parseJson := fun t => if t = "{config}".toList then some mainConfigJson else if t = "{model}".toList then some mainModel else none
  printJson := fun _ => "{model}".toList
  showScore := fun x => if x < 1 / 2 then "low".toList else "high".toList
  showGain := fun _ => "1".toList
  place := id
  isort := id
  sched := fun _ l => l.reverse
  ffSched := []
  weightsFirst := true

/-- The flags for training. -/
def mainTrainFlags : Flags where
  tsvs := "a.tsv,b.tsv"
  outputDir := "out/"
  outputModelName := "clicks"
  configFile := "config.json"
  numThreads := 2
  seed := 1

/-- The flags for testing. -/
def mainTestFlags : Flags where
  mode := "test"
  tsvs := "test.tsv"
  outputDir := "scores"
  testingModelFile := "out//clicks.json"
  configFile := "config.json"
  numThreads := 3

/-- The files before. -/
def mainWorld : World where
  files := fun p =>
    if p = "a.tsv".toList then trainTsvs[0]?
    else if p = "b.tsv".toList then trainTsvs[1]?
    else if p = "test.tsv".toList then testTsvs[0]?
    else if p = "config.json".toList then some "{config}".toList
    else none
  dirs := fun p => p == ['.']

/-- Both runs end with success and write what they should. -/
theorem main_runs :
    (runMain mainPlatform mainTrainFlags mainWorld).2 = .done ∧
    (runMain mainPlatform mainTestFlags (runMain mainPlatform mainTrainFlags mainWorld).1).2 = .done ∧
    (runMain mainPlatform mainTestFlags (runMain mainPlatform mainTrainFlags mainWorld).1).1.files "scores/forest.3.score".toList =
      some "low\nlow\nhigh".toList := by
  refine ⟨by decide +kernel, by decide +kernel, by decide +kernel⟩

theorem mainTsvs : mainWorld.tsvFiles mainTrainFlags.tsvs = trainTsvs.map some ∧ mainWorld.tsvFiles mainTestFlags.tsvs = testTsvs.map some := by
  refine ⟨by decide +kernel, by decide +kernel⟩

theorem mainConfig_has : HasConfig mainPlatform mainWorld mainTrainFlags.configFile tsvCliConfig :=
  ⟨"{config}".toList, mainConfigJson, by decide +kernel, by decide +kernel, rfl, mainConfig_reads⟩

/-- What training gives in the example. -/
theorem main_model {j : Json (ℚ ⊕ Nat)} {fimps : List (String × ℚ)} (h : Trains mainPlatform mainTrainFlags mainWorld j fimps) : j = mainModel := by
  obtain ⟨c, hc, h⟩ := h
  obtain rfl := mainConfig_has.unique hc
  rw [if_neg (by decide), mainTsvs.1] at h
  have h' : cliTrainMain ratMachine plainCodec 0 1000 ratParse (fun _ l => l.reverse) id (trainTsvs.map some) tsvCliConfig none 1 2 =
    ok (j, fimps) := h
  rw [mainModel, h']

/-! ## C157 -/

section c157
variable {D A N : Type} [Dbl D] [LinearOrder A] [ThrOps A]

theorem processBlocks_some {fmax : A} {parse : Text → Option (Fl A)} {sched : Nat → List Handle → List Handle} {s : Setup A} :
    ∀ (files : List (Option Text)) (n : Nat) (heap : List (Option (Column A))) {heap' : List (Option (Column A))},
      processBlocks fmax parse sched s files n heap = ok (.ok heap') → ∀ f ∈ files, f ≠ none := by
  intro files
  induction files with
  | nil => intro n heap heap' _ f hf; cases hf
  | cons file files ih =>
    intro n heap heap' h f hf
    rw [processBlocks] at h
    cases file with
    | none => cases h
    | some text =>
      rcases List.mem_cons.mp hf with rfl | hf
      · simp
      · split at h
        · cases h
        · obtain ⟨heap1, _, h⟩ := bind_eq_ok.mp h
          obtain ⟨st, _, h⟩ := bind_eq_ok.mp h
          split at h
          · cases h
          · exact ih _ _ h f hf

theorem loadStoreOrDie_some {fmax : A} {parse : Text → Option (Fl A)} {sched : Nat → List Handle → List Handle}
    {files : List (Option Text)} {c : CliConfig D} {t : DataStore A} (h : loadStoreOrDie fmax parse sched files c = ok t) :
    files ≠ [] ∧ ∀ f ∈ files, f ≠ none := by
  unfold loadStoreOrDie at h
  cases files with
  | nil => cases h
  | cons f fs =>
    refine ⟨by simp, ?_⟩
    simp only at h
    obtain ⟨r, hr, h⟩ := bind_eq_ok.mp h
    cases r with
    | error e => cases h
    | ok t' =>
      unfold loadTSVs at hr
      simp only at hr
      cases hs : (setupColumns f c.tsv : Except Code (Setup A)) with
      | error e => rw [hs] at hr; cases hr
      | ok s =>
        rw [hs] at hr
        obtain ⟨r, hp, _⟩ := bind_eq_ok.mp hr
        cases r with
        | error e =>
          next hr' => cases hr'
        | ok heap => exact processBlocks_some _ _ _ hp

/-- C157 in full, for training: a file that is named in a flag and does not exist is noticed. -/
def C157_full : Prop :=
  ∀ (fl : Flags) (w : World), fl.mode = "train" →
    (∃ name ∈ [fl.configFile, fl.baseModelFile, fl.trainingWeightFile], name ≠ "" ∧ w.files name.toList = none) ∨
      (∃ p ∈ pathList fl.tsvs, w.files p = none) →
    (runMain mainPlatform fl w).2 ≠ .done

/-- **C157 refuted.** `--training_weight_file` is not read at all: with a file that does not exist the run succeeds and trains without weights. -/
theorem C157_refuted : ¬ C157_full := by
  intro h
  refine h { mainTrainFlags with trainingWeightFile := "weights" } mainWorld rfl (Or.inl ⟨"weights", by simp, by decide, by decide +kernel⟩) ?_
  exact main_runs.1

/-- `--training_weight_file` has no effect. -/
theorem C157_weights_partial (P : Platform D A N) (fl : Flags) (w : World) (file : String) :
    runMain P { fl with trainingWeightFile := file } w = runMain P fl w := rfl

/-- Together with `--flatfiles_dirs`, `--tsvs` has no effect. -/
theorem C157_tsvs_partial (P : Platform D A N) {fl : Flags} (hff : fl.flatfilesDirs ≠ "") (w : World) (tsvs : String) :
    runMain P { fl with tsvs := tsvs } w = runMain P fl w := by
  simp only [runMain, trainFiles, testFiles, trainOn, testOn, ne_eq, hff, not_false_eq_true, if_true]
  rfl

/-- **C157 partial.** After a run with success, the configuration file was there and not empty, and so was the base model when training, if that is named, and
the model when testing; and without `--flatfiles_dirs` there was at least one file in `--tsvs` and all of them were there.  Missing: the weight
file, and the files of `--tsvs` together with `--flatfiles_dirs`. -/
theorem C157_partial (P : Platform D A N) {fl : Flags} {w w' : World} (h : runMain P fl w = (w', .done)) :
    (∃ x xs, w.files fl.configFile.toList = some (x :: xs)) ∧
    (fl.mode = "train" → fl.baseModelFile ≠ "" → ∃ x xs, w.files fl.baseModelFile.toList = some (x :: xs)) ∧
    (fl.mode = "test" → ∃ text, w.files fl.testingModelFile.toList = some text) ∧
    (fl.flatfilesDirs = "" → fl.tsvs ≠ "" ∧ ∀ p ∈ pathList fl.tsvs, w.files p ≠ none) := by
  have hconf : ∀ {c}, HasConfig P w fl.configFile c → ∃ x xs, w.files fl.configFile.toList = some (x :: xs) := by
    rintro c ⟨text, j, h1, h2, _⟩
    cases text with
    | nil => exact absurd rfl h2
    | cons x xs => exact ⟨x, xs, h1⟩
  have htsv : ∀ {c : CliConfig D} {t}, loadStoreOrDie P.fmax P.strtof P.sched (w.tsvFiles fl.tsvs) c = ok t →
      fl.tsvs ≠ "" ∧ ∀ p ∈ pathList fl.tsvs, w.files p ≠ none := by
    intro c t hl
    obtain ⟨h1, h2⟩ := loadStoreOrDie_some hl
    refine ⟨?_, fun p hp => h2 _ (List.mem_map.mpr ⟨p, hp, rfl⟩)⟩
    intro e
    rw [e] at h1
    exact h1 rfl
  have hbase : ∀ {b}, loadBaseOrDie P.nc P.zero (baseOf P fl w) = ok b → fl.baseModelFile ≠ "" →
      ∃ x xs, w.files fl.baseModelFile.toList = some (x :: xs) := by
    intro b hb hne
    rw [baseOf, if_neg hne] at hb
    split at hb
    · exact ⟨_, _, by assumption⟩
    · cases hb
  by_cases hm : fl.mode = "train"
  · obtain ⟨_, hd⟩ := C155_train P hm h
    obtain ⟨j, fimps, ⟨c, hc, ht⟩, _⟩ := hd rfl
    refine ⟨hconf hc, ?_, fun h => absurd (hm.symm.trans h) (by decide), ?_⟩
    · intro _ hne
      split at ht
      · obtain ⟨b, hb, _⟩ := bind_eq_ok.mp ht
        exact hbase hb hne
      · obtain ⟨t, _, ht⟩ := bind_eq_ok.mp ht
        obtain ⟨b, hb, _⟩ := bind_eq_ok.mp ht
        exact hbase hb hne
    · intro hff
      rw [if_neg (by simp [hff])] at ht
      obtain ⟨t, hl, _⟩ := bind_eq_ok.mp ht
      exact htsv hl
  · have hm' : fl.mode = "test" := by
      by_contra hne
      have := (C155_errors P fl w).1 (Or.inl ⟨hm, hne⟩)
      rw [h] at this
      cases this
    obtain ⟨_, hd⟩ := C155_test P hm' h
    obtain ⟨scores, ⟨c, model, hc, ⟨text, ht, _⟩, hs⟩, _⟩ := hd rfl
    refine ⟨hconf hc, fun h => absurd h hm, fun _ => ⟨text, ht⟩, ?_⟩
    intro hff
    rw [if_neg (by simp [hff])] at hs
    obtain ⟨f, _, hs⟩ := bind_eq_ok.mp hs
    obtain ⟨t, hl, _⟩ := bind_eq_ok.mp hs
    exact htsv hl

end c157

/-! ## C158 -/

/-- C158 in full: a model that has been trained is there after the run. -/
def C158_full : Prop :=
  ∀ (fl : Flags) (w : World) (j : Json (ℚ ⊕ Nat)) (fimps : List (String × ℚ)), fl.mode = "train" → fl.configFile ≠ "" → fl.outputDir ≠ "" →
    Trains mainPlatform fl w j fimps →
    (runMain mainPlatform fl w).1.files (modelFile fl ".json") = some (mainPlatform.printJson j)

/-- **C158 refuted.** The output directory is made, one level deep, after training; if that fails, the trained model is lost. -/
theorem C158_refuted : ¬ C158_full := by
  intro h
  obtain ⟨_, hd⟩ := C155_train mainPlatform (fl := mainTrainFlags) rfl (Prod.eta (runMain mainPlatform mainTrainFlags mainWorld)).symm
  obtain ⟨j, fimps, ht, _⟩ := hd main_runs.1
  have := h { mainTrainFlags with outputDir := "runs/first" } mainWorld j fimps rfl (by decide) (by decide) ht
  have h' : (runMain mainPlatform { mainTrainFlags with outputDir := "runs/first" } mainWorld).1.files "runs/first/clicks.json".toList = none := by
    decide +kernel
  have e : modelFile { mainTrainFlags with outputDir := "runs/first" } ".json" = "runs/first/clicks.json".toList := by decide +kernel
  rw [e, h'] at this
  cases this

section c158
variable {D A N : Type} [Dbl D] [LinearOrder A] [ThrOps A]

/-- The output directory is there, or the one that it is in is and it can be made. -/
def DirReady (fl : Flags) (w : World) : Prop :=
  w.dirs (bare fl.outputDir.toList) = true ∨
    (w.dirs (parentOf (bare fl.outputDir.toList)) = true ∧ w.allowed (bare fl.outputDir.toList) = true ∧ w.files (bare fl.outputDir.toList) = none)

/-- **C158 partial.** The model and its `.fimps` file are there if the output directory exists or the directory that it is in does, the name of the
model has no slash, and the user may write the files.  Missing: output directories of which more than the last part is to be made, and names with a
slash. -/
theorem C158_partial (P : Platform D A N) {fl : Flags} (hm : fl.mode = "train") (h1 : fl.configFile ≠ "") (h2 : fl.outputDir ≠ "")
    {w : World} {j : Json N} {fimps : List (String × D)} (h : Trains P fl w j fimps) (hdir : DirReady fl w)
    (hname : '/' ∉ fl.outputModelName.toList)
    (hfree : ∀ ending ∈ [".json", ".fimps"], w.dirs (modelFile fl ending) = false ∧ w.allowed (modelFile fl ending) = true) :
    ∃ w', runMain P fl w = (w', .done) ∧ w'.files (modelFile fl ".json") = some (P.printJson j) ∧
      w'.files (modelFile fl ".fimps") = some (asLines (fimps.map (fun p => p.1.toList ++ '\t' :: P.showGain p.2))) := by
  simp only [modelFile_eq] at *
  have ht := trainFiles_of h1 h2 h
  have hw : ∀ f ∈ [(fl.modelPath ".json", P.printJson j), (fl.modelPath ".fimps", formatImportance P fimps)],
      (w.mkdir fl.outputDir.toList).canWrite f.1 = true := by
    intro f hf
    have key : ∀ ending ∈ [".json", ".fimps"], (w.mkdir fl.outputDir.toList).canWrite (fl.modelPath ending) = true := by
      intro ending he
      obtain ⟨k1, k2⟩ := hfree ending he
      rw [modelPath_eq] at k1 k2 ⊢
      refine canWrite_in ?_ hdir k1 k2
      rw [List.mem_append]
      rintro (hx | hx)
      · exact hname hx
      · simp only [List.mem_cons, List.not_mem_nil, or_false] at he
        rcases he with rfl | rfl <;> exact absurd hx (by decide)
    simp only [List.mem_cons, List.not_mem_nil, or_false] at hf
    rcases hf with rfl | rfl
    · exact key _ (by simp)
    · exact key _ (by simp)
  have hd := (writeAll_done _ (w.mkdir fl.outputDir.toList)).mpr hw
  have hmem := writeAll_mem _ (w.mkdir fl.outputDir.toList) (by simp [modelPath_ne]) hd
  refine ⟨_, ?_, hmem _ List.mem_cons_self, hmem _ (List.mem_cons_of_mem _ List.mem_cons_self)⟩
  rw [runMain, if_pos hm, ht, finish]
  exact Prod.ext rfl hd

end c158

/-! ## C159 -/

/-- C159 in full: after testing, the score files in the output directory are those of the model tested. -/
def C159_full : Prop :=
  ∀ (fl : Flags) (w w' : World) (k : Int), fl.mode = "test" → 0 < k → runMain mainPlatform fl w = (w', .done) →
    w'.files (scoreFile fl k) ≠ none → ∃ scores, Tests mainPlatform fl w scores ∧ k ∈ scores.map Prod.fst

/-- The files with the model and the scores of a larger one. -/
def staleWorld : World where
  files := fun p =>
    if p = "out//clicks.json".toList then some "{model}".toList
    else if p = "scores/forest.9.score".toList then some "high".toList
    else mainWorld.files p
  dirs := fun p => p == ['.'] || p == "scores".toList

/-- **C159 refuted.** Score files of an earlier model with more trees stay there. -/
theorem C159_refuted : ¬ C159_full := by
  intro h
  have hrun : (runMain mainPlatform mainTestFlags staleWorld).2 = .done := by decide +kernel
  have hstale : (runMain mainPlatform mainTestFlags staleWorld).1.files "scores/forest.9.score".toList = some "high".toList := by decide +kernel
  have e : scoreFile mainTestFlags 9 = "scores/forest.9.score".toList := by decide +kernel
  obtain ⟨scores, ⟨c, model, hc, ⟨text, ht, hp⟩, hs⟩, hk⟩ := h mainTestFlags staleWorld _ 9 rfl (by decide) (Prod.ext rfl hrun)
    (by rw [e, hstale]; simp)
  have hc' : HasConfig mainPlatform staleWorld mainTestFlags.configFile tsvCliConfig :=
    ⟨"{config}".toList, mainConfigJson, by decide +kernel, by decide +kernel, rfl, mainConfig_reads⟩
  obtain rfl := hc'.unique hc
  have ht' : staleWorld.files mainTestFlags.testingModelFile.toList = some "{model}".toList := by decide +kernel
  rw [ht'] at ht
  cases ht
  have hm : mainPlatform.parseJson "{model}".toList = some mainModel := by
    simp only [mainPlatform]
    rw [if_neg (by decide +kernel), if_pos trivial]
  rw [hm] at hp
  cases hp
  have hfile : staleWorld.tsvFiles mainTestFlags.tsvs = testTsvs.map some := by decide +kernel
  rw [if_neg (by decide), hfile] at hs
  have hs' : (match cliTestMain plainCodec 0 1000 ratParse (fun _ l => l.reverse) (testTsvs.map some) tsvCliConfig (some mainModel) 3 with
    | .ok files => decide (files.map Prod.fst = [1, 3])
    | _ => false) = true := by decide +kernel
  have hs2 : cliTestMain plainCodec 0 1000 ratParse (fun _ l => l.reverse) (testTsvs.map some) tsvCliConfig (some mainModel) 3 = ok scores := hs
  rw [hs2] at hs'
  have := of_decide_eq_true hs'
  rw [this] at hk
  exact absurd hk (by decide)

section c159
variable {D A N : Type} [Dbl D] [LinearOrder A] [ThrOps A]

/-- **C159 partial.** If there were no score files before, exactly the numbers of trees tested have one. -/
theorem C159_partial (P : Platform D A N) {fl : Flags} (hm : fl.mode = "test") {w w' : World} (h : runMain P fl w = (w', .done))
    (hnone : ∀ k : Int, 0 < k → w.files (scoreFile fl k) = none) :
    ∃ scores, Tests P fl w scores ∧ ∀ k : Int, 0 < k → (w'.files (scoreFile fl k) ≠ none ↔ k ∈ scores.map Prod.fst) := by
  simp only [scoreFile_eq] at *
  obtain ⟨_, hd⟩ := C155_test P hm h
  obtain ⟨scores, hs, h1, h2⟩ := hd rfl
  simp only [scoreFile_eq] at h1 h2
  refine ⟨scores, hs, ?_⟩
  intro k hk
  constructor
  · intro hne
    by_contra hnot
    refine hne ?_
    rw [h2 _ ?_, hnone k hk]
    intro f hf e
    have := scorePath_inj (le_of_lt hk) (le_of_lt (hs.points.2 f hf)) e
    exact hnot (List.mem_map.mpr ⟨f, hf, this.symm⟩)
  · intro hmem
    obtain ⟨f, hf, rfl⟩ := List.mem_map.mp hmem
    rw [h1 f hf]
    simp

end c159

theorem runMain_dirs {D A N : Type} [Dbl D] [LinearOrder A] [ThrOps A] (P : Platform D A N) (fl : Flags) (w : World) :
    (runMain P fl w).1.allowed = w.allowed ∧
    ((runMain P fl w).1.dirs = w.dirs ∨ (runMain P fl w).1.dirs = (w.mkdir fl.outputDir.toList).dirs) := by
  have h1 : (w.mkdir fl.outputDir.toList).allowed = w.allowed := by unfold World.mkdir; split <;> rfl
  have h2 : ∀ out, (finish fl w out).1.allowed = w.allowed ∧
      ((finish fl w out).1.dirs = w.dirs ∨ (finish fl w out).1.dirs = (w.mkdir fl.outputDir.toList).dirs) := by
    intro out
    cases out with
    | ok files =>
      obtain ⟨k1, k2⟩ := writeAll_dirs files (w.mkdir fl.outputDir.toList)
      exact ⟨k2.trans h1, Or.inr k1⟩
    | fatal => exact ⟨rfl, Or.inl rfl⟩
    | ub => exact ⟨rfl, Or.inl rfl⟩
  unfold runMain
  split
  · exact h2 _
  · split
    · exact h2 _
    · exact ⟨rfl, Or.inl rfl⟩

/-- The hypotheses of C156 hold in the example. -/
example {w' : World} (h : runMain mainPlatform mainTrainFlags mainWorld = (w', .done)) : ∃ j forest w'',
    w'.files "out//clicks.json".toList = some (mainPlatform.printJson j) ∧
    forestFromJson mainPlatform.nc mainPlatform.zero 100 j = .ok ⟨forest, ""⟩ ∧
    runMain { mainPlatform with sched := fun _ l => l } mainTestFlags w' = (w'', .done) := by
  have hw : ∀ k : Int, 0 < k → (w'.mkdir mainTestFlags.outputDir.toList).canWrite (scoreFile mainTestFlags k) = true := by
    intro k hk
    rw [scoreFile_eq]
    obtain ⟨ha, hd⟩ := runMain_dirs mainPlatform mainTrainFlags mainWorld
    have hf : (runMain mainPlatform mainTrainFlags mainWorld).1.files "scores".toList = none := by decide +kernel
    rw [h] at ha hd hf
    simp only at ha hd hf
    have hdot : w'.dirs ['.'] = true := by rcases hd with hd | hd <;> rw [hd] <;> decide +kernel
    have hslash : ∀ p : Text, '/' ∈ p → w'.dirs p = false := by
      intro p hp
      have h1 : (p == ['.']) = false := by rw [beq_eq_false_iff_ne]; rintro rfl; exact absurd hp (by decide)
      have h2 : (p == "out".toList) = false := by rw [beq_eq_false_iff_ne]; rintro rfl; exact absurd hp (by decide)
      rcases hd with hd | hd <;> rw [hd]
      · exact h1
      · have e : (mainWorld.mkdir mainTrainFlags.outputDir.toList).dirs p = (p == "out".toList || p == ['.']) := by
          rw [World.mkdir, if_pos (by decide +kernel)]
          have : bare mainTrainFlags.outputDir.toList = "out".toList := by decide +kernel
          rw [this]
          rfl
        rw [e, h1, h2]
        rfl
    rw [scorePath_eq]
    refine canWrite_in (scoreName_noSlash (le_of_lt hk)) (Or.inr ⟨hdot, ?_, hf⟩) (hslash _ (by simp)) ?_
    · rw [ha]; rfl
    · rw [ha]; rfl
  obtain ⟨j, forest, w'', h1, h2, h3, _⟩ := C156_train_test (P := mainPlatform) (fl := mainTrainFlags) (fl' := mainTestFlags) rfl rfl rfl rfl rfl
    (by decide +kernel) (by decide) h mainConfig_has
    (by
      rw [mainTsvs.1]
      exact tsvCliInput)
    (by
      intro j fimps ht
      rw [main_model ht]
      refine ⟨?_, by decide +kernel⟩
      simp only [mainPlatform]
      rw [if_neg (by decide +kernel), if_pos trivial])
    (by decide +kernel) (first := testTsvs.head!) (rest := []) mainTsvs.2 testTsvs_ok.1 testTsvs_ok.2.1 testTsvs_ok.2.2
    (sched' := fun _ l => l) (fun _ l => List.Perm.refl l) (by decide) hw
  exact ⟨j, forest, w'', h1, h2, h3⟩

/-- The hypotheses about names hold in the example. -/
example : (∀ n ∈ ["a.tsv", "b.tsv"], ',' ∉ n.toList) ∧ ",".intercalate ["a.tsv", "b.tsv"] = mainTrainFlags.tsvs ∧
    (mainWorld.tsvFiles mainTrainFlags.tsvs).length = 2 := by decide +kernel

/-- The hypotheses of C158 hold in the example. -/
example : DirReady mainTrainFlags mainWorld ∧ '/' ∉ mainTrainFlags.outputModelName.toList ∧
    (∃ j fimps, Trains mainPlatform mainTrainFlags mainWorld j fimps) ∧
    ∀ ending ∈ [".json", ".fimps"], mainWorld.dirs (modelFile mainTrainFlags ending) = false ∧
      mainWorld.allowed (modelFile mainTrainFlags ending) = true := by
  refine ⟨Or.inr (by decide +kernel), by decide +kernel, ?_, by decide +kernel⟩
  obtain ⟨_, hd⟩ := C155_train mainPlatform (fl := mainTrainFlags) rfl (Prod.eta (runMain mainPlatform mainTrainFlags mainWorld)).symm
  obtain ⟨j, fimps, ht, _⟩ := hd main_runs.1
  exact ⟨j, fimps, ht⟩

/-- The hypotheses of C155, C157 and C159 hold in the example; the files that the runs leave. -/
example : runMain mainPlatform mainTrainFlags mainWorld = ((runMain mainPlatform mainTrainFlags mainWorld).1, .done) ∧
    (∀ k : Int, 0 < k → (runMain mainPlatform mainTrainFlags mainWorld).1.files (scoreFile mainTestFlags k) = none) ∧
    (runMain mainPlatform mainTrainFlags mainWorld).1.files "out//clicks.fimps".toList = some "size\t1".toList := by
  refine ⟨Prod.ext rfl main_runs.1, ?_, by decide +kernel⟩
  intro k hk
  rw [scoreFile_eq]
  have hstart : ∀ q : Text, ("scores".toList <+: q) = False → mainTestFlags.scorePath k ≠ q := by
    intro q hq e
    have h1 : "scores".toList <+: mainTestFlags.scorePath k := by
      rw [scorePath_eq]
      exact ⟨_, rfl⟩
    rw [e, hq] at h1
    exact h1
  have h1 := (C155_train mainPlatform (fl := mainTrainFlags) rfl (Prod.eta (runMain mainPlatform mainTrainFlags mainWorld)).symm).1
    (mainTestFlags.scorePath k) (hstart _ (by decide +kernel)) (hstart _ (by decide +kernel))
  rw [h1]
  simp only [mainWorld]
  rw [if_neg (hstart _ (by decide +kernel)), if_neg (hstart _ (by decide +kernel)), if_neg (hstart _ (by decide +kernel)),
    if_neg (hstart _ (by decide +kernel))]

/-- A run that fails: the model file is not there. -/
example : runMain mainPlatform mainTestFlags mainWorld = (mainWorld, .died) := rfl

end Gbdt
