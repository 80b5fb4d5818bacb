import Verif.Props.TsvPipeline

/-!
# C121: the program and the package do the same with the same files
-/

set_option autoImplicit false
set_option linter.unusedSectionVars false

namespace Gbdt

open Outcome

/-! ## Specification -/

/-- The raw columns that Python has to ask for to load what the program loads: the additional ones, the targets and the weights. -/
def rawColumnsOf {D : Type} (c : CliConfig D) : List String :=
  c.additionalFloat ++ [c.train.targetColumn, c.train.weightColumn].filter (· ≠ "")

/-- The string columns likewise: the categorical features, the groups and the additional ones. -/
def stringColumnsOf {D : Type} (c : CliConfig D) : List String :=
  c.train.catFeature ++ [c.train.groupColumn].filter (· ≠ "") ++ c.additionalString

section same
variable {D A N : Type} [Dbl D] [FpOrder D] [EqOrder D] [LinearOrder A] [ThrOps A]

theorem loadTSVs_requests (fmax : A) (parse : Text → Option (Fl A)) (sched : Nat → List Handle → List Handle) (files : List (Option Text))
    {c c' : TsvConfig} (h : c.requests = c'.requests) : loadTSVs fmax parse sched files c = loadTSVs fmax parse sched files c' := by
  have : ∀ f, (setupColumns f c : Except Code (Setup A)) = setupColumns f c' := by
    intro f
    unfold setupColumns
    rw [h]
  unfold loadTSVs
  simp only [this]

theorem pyColumns_requests (c : CliConfig D) :
    (pyColumns c.train.floatFeature (stringColumnsOf c) (rawColumnsOf c)).requests = c.tsv.requests := by
  simp only [TsvConfig.requests, pyColumns, CliConfig.tsv, rawColumnsOf, stringColumnsOf, List.filter_cons, List.filter_nil]
  by_cases h1 : c.train.targetColumn = "" <;> by_cases h2 : c.train.weightColumn = "" <;> by_cases h3 : c.train.groupColumn = "" <;>
    simp [h1, h2, h3]

/-- **C121 (loading).** `from_tsvs` with the columns that the configuration names gives the store that the program loads; it raises an
exception if the program ends with an error. -/
theorem C121_load (fmax : A) (parse : Text → Option (Fl A)) {sched sched' : Nat → List Handle → List Handle} (hs : AnyOrder sched)
    (hs' : AnyOrder sched') {files : List (Option Text)} {c : CliConfig D}
    (hn : (c.train.floatFeature ++ rawColumnsOf c ++ stringColumnsOf c).Nodup) (hnc : NoBucketCrash fmax parse files c.tsv) :
    (∃ t, loadStoreOrDie fmax parse sched files c = ok t ∧
      pyFromTsvs fmax parse sched' files c.train.floatFeature (stringColumnsOf c) (rawColumnsOf c) = ok (.ok (some t))) ∨
    loadStoreOrDie fmax parse sched files c = fatal ∧
      ∃ e, pyFromTsvs fmax parse sched' files c.train.floatFeature (stringColumnsOf c) (rawColumnsOf c) = ok (.error e) := by
  have hn' := pyColumns_names hn
  have hreq := pyColumns_requests c
  have hnc' : NoBucketCrash fmax parse files (pyColumns c.train.floatFeature (stringColumnsOf c) (rawColumnsOf c)) := hnc
  rcases C119_from_tsvs fmax parse hs' files hn hnc' with ⟨e, he⟩ | ⟨t, ht⟩
  · right
    refine ⟨?_, e, he⟩
    cases files with
    | nil => rfl
    | cons f fs =>
      obtain ⟨r, hr⟩ := C18_distinct_names_partial fmax parse sched' (f :: fs) _ hs' hnc' hn'
      cases r with
      | ok t =>
        unfold pyFromTsvs at he
        rw [show loadTSVs fmax parse sched' (f :: fs) { floatFeature := c.train.floatFeature, additionalFloat := rawColumnsOf c, additionalString := stringColumnsOf c } = ok (.ok t) from hr] at he
        cases he
      | error e' =>
        have := (C17_schedule_independent fmax parse sched' sched hs' hs _ _ _ hn').mp hr
        rw [loadTSVs_requests fmax parse sched _ hreq] at this
        simp only [loadStoreOrDie, this, ok_bind]
  · left
    refine ⟨t, ?_, ht⟩
    have hl := pyFromTsvs_ok ht
    have := (C17_schedule_independent fmax parse sched' sched hs' hs _ _ _ hn').mp hl
    rw [loadTSVs_requests fmax parse sched _ hreq] at this
    cases files with
    | nil => cases this
    | cons f fs => simp only [loadStoreOrDie, this, ok_bind]

/-- **C121 (training).** If `from_tsvs` gives a store and the base model, if any, can be read, the program writes a model exactly if `train` with
the same features, configuration, weights, seed and number of threads returns a forest that can be written as JSON, and then it
writes that forest, and its feature importance. -/
theorem C121_train {mc : Machine D A} (hset : ∀ l l' : List String, l.Nodup → l.Perm l' → mc.listing l = mc.listing l')
    (nc : NumCodec D A N) (zero : A) {fmax : A} {parse : Text → Option (Fl A)} {sched sched' : Nat → List Handle → List Handle}
    (hs : AnyOrder sched) (hs' : AnyOrder sched') (isort : List (String × D) → List (String × D)) {first : Text} {rest : List Text}
    {c : CliConfig D} (hn : (c.train.floatFeature ++ rawColumnsOf c ++ stringColumnsOf c).Nodup)
    (hlines : 0 < (tableLines (first :: rest)).length ∧ (tableLines (first :: rest)).length < 2 ^ 31)
    (hhuge : NoHuge fmax parse (first :: rest) c.tsv)
    (hrates : c.train.exampleRate ≠ none ∧ c.train.featureRate ≠ none) (htarget : c.train.targetColumn ≠ "")
    (hbin : c.train.binarize = false) {features : List String} (hf0 : features ≠ [])
    (hf : ∀ name, name ∈ features ↔ name ∈ c.train.floatFeature ∨ name ∈ c.train.catFeature)
    {t : DataStore A} (ht : pyFromTsvs fmax parse sched' ((first :: rest).map some) c.train.floatFeature (stringColumnsOf c) (rawColumnsOf c) = ok (.ok (some t)))
    {w : List (Fl A)}
    (hw : c.train.weightColumn = "" ∧ w = [] ∨ c.train.weightColumn ≠ "" ∧ ∃ col, t.getRaw c.train.weightColumn = some col ∧ w = col.raw)
    {base : Option (Option (Json N))} {b : Option (List (Tree D A))}
    (hb : base = none ∧ b = none ∨ ∃ j f, base = some (some j) ∧ forestFromJson nc zero 100 j = .ok f ∧ b = some f.trees)
    (seed nt : Int) (j : Json N) (fimps : List (String × D)) :
    cliTrainMain mc nc zero fmax parse sched isort ((first :: rest).map some) c base seed nt = ok (j, fimps) ↔
      ∃ forest, pyTrain mc (some t) c.train [] features w b seed nt = ok (.ok forest) ∧ forestToJson nc 64 ⟨forest, ""⟩ = .ok j ∧
        fimps = featureImportance isort forest := by
  have hn' := pyColumns_names hn
  have hreq := pyColumns_requests c
  have hl := pyFromTsvs_ok ht
  have hcli := (C17_schedule_independent fmax parse sched' sched hs' hs _ _ _ hn').mp hl
  rw [loadTSVs_requests fmax parse sched _ hreq] at hcli
  rw [hreq] at hn'
  have hload : loadStoreOrDie fmax parse sched ((first :: rest).map some) c = ok t := by
    simp only [loadStoreOrDie, List.map_cons]
    rw [List.map_cons] at hcli
    simp only [hcli, ok_bind]
  have hbase : loadBaseOrDie nc zero base = ok b := by
    rcases hb with ⟨rfl, rfl⟩ | ⟨jb, f, rfl, h1, rfl⟩
    · rfl
    · simp only [loadBaseOrDie, loadForestOrDie, h1, ok_bind]; rfl
  have hgood := load_good hs hn' hcli hlines.2 hhuge
  have hq := fun name => C17_requested c.tsv name
  have hraw : ∀ name, (ColType.raw, name) ∈ c.tsv.requests →
      ∃ col, t.getRaw name = some col ∧ col.raw.length = (tableLines (first :: rest)).length := by
    intro name hr
    obtain ⟨i, _, cols, h1, h2⟩ := load_holds hs hn' hcli hr
    exact ⟨⟨.ok, cols.flatten⟩, by simp only [DataStore.getRaw, h2], holds_length h1⟩
  have hsame : SameCall t (tableLines (first :: rest)).length c.train features w := {
    store := hgood
    rows := hlines.1
    named := hf
    some := hf0
    known := by
      intro name hname
      rcases (hf name).mp hname with h | h
      · obtain ⟨col, h1, h2⟩ := load_hasKinds hs hn' hcli _ _ (kind_of_mem hn' (r := (.bucketized, name)) ((hq name).1.mpr h))
        exact ⟨col, h1, Or.inl h2⟩
      · obtain ⟨col, h1, h2⟩ := load_hasKinds hs hn' hcli _ _ (kind_of_mem hn' (r := (.string, name)) ((hq name).2.2.mpr (Or.inl h)))
        exact ⟨col, h1, Or.inr h2⟩
    rates := hrates
    target := by
      obtain ⟨col, h1, _⟩ := hraw _ ((hq _).2.1.mpr (Or.inr ⟨htarget, Or.inl rfl⟩))
      exact ⟨htarget, by rw [h1]; simp⟩
    weights := by
      rcases hw with h | ⟨h1, col, h2, h3⟩
      · exact Or.inl h
      · refine Or.inr ⟨h1, col, h2, h3, ?_⟩
        obtain ⟨col', h4, h5⟩ := hraw _ ((hq _).2.1.mpr (Or.inr ⟨h1, Or.inr rfl⟩))
        rw [h2] at h4
        cases h4
        rw [h3, h5] }
  have key := (C88_same hset hsame hbin b seed nt).1
  unfold cliTrainMain
  rw [hload, ok_bind, hbase, ok_bind]
  constructor
  · intro h
    obtain ⟨forest, h1, h2⟩ := bind_eq_ok.mp h
    refine ⟨forest, (key forest).mp h1, ?_⟩
    split at h2
    · cases h2
    · next j' hj =>
      simp only [Outcome.ok.injEq, Prod.mk.injEq] at h2
      exact ⟨by rw [hj, h2.1], h2.2.symm⟩
  · rintro ⟨forest, h1, h2, rfl⟩
    rw [(key forest).mpr h1, ok_bind, h2]

/-- **C121 (testing).** The program writes the score files that `predict_and_output` writes for the same files, forest and checkpoints. -/
theorem C121_test (nc : NumCodec D A N) (zero : A) {fmax : A} {parse : Text → Option (Fl A)} {sched sched' : Nat → List Handle → List Handle}
    (hs : AnyOrder sched) (hs' : AnyOrder sched') {files : List (Option Text)} {c : CliConfig D}
    (hn : (c.train.floatFeature ++ rawColumnsOf c ++ stringColumnsOf c).Nodup)
    {t : DataStore A} (ht : pyFromTsvs fmax parse sched' files c.train.floatFeature (stringColumnsOf c) (rawColumnsOf c) = ok (.ok (some t)))
    {j : Json N} {f : ForestMsg D A} (hj : forestFromJson nc zero 100 j = .ok f) (nt : Int) (out : List (Int × List D)) :
    cliTestMain nc zero fmax parse sched files c (some j) nt = ok out ↔
      pyPredictAndOutput (some t) f.trees (getTestPoints c.evalInterval f.trees.length) nt = ok (.ok out) := by
  have hn' := pyColumns_names hn
  have hl := pyFromTsvs_ok ht
  have hcli := (C17_schedule_independent fmax parse sched' sched hs' hs _ _ _ hn').mp hl
  rw [loadTSVs_requests fmax parse sched _ (pyColumns_requests c)] at hcli
  have hload : loadStoreOrDie fmax parse sched files c = ok t := by
    cases files with
    | nil => cases hcli
    | cons f fs => simp only [loadStoreOrDie, hcli, ok_bind]
  simp only [cliTestMain, loadForestOrDie, hj, ok_bind, hload, pyPredictAndOutput]
  cases t.numRows with
  | ub => simp
  | fatal => simp
  | ok n =>
    simp only [ok_bind]
    cases he : evaluateCheckpoints t.getColumn n nt f.trees (getTestPoints c.evalInterval f.trees.length) with
    | ub => simp
    | fatal => simp
    | ok r =>
      obtain ⟨e, out'⟩ := r
      simp only [ok_bind]
      by_cases hok : e = .ok
      · simp [hok]
      · rw [if_neg hok, if_neg hok]
        have : e = .notFound := by
          unfold evaluateCheckpoints at he
          split at he
          · next e' h =>
            simp only [Outcome.ok.injEq, Prod.mk.injEq] at he
            rw [← he.1]
            exact loadFeatures_error h
          · obtain ⟨s, _, he⟩ := bind_eq_ok.mp he
            obtain ⟨s', _, he⟩ := bind_eq_ok.mp he
            simp only [pure, Outcome.ok.injEq, Prod.mk.injEq] at he
            exact absurd he.1.symm hok
        simp [this, raise, throwException]

end same

/-! ## Examples -/

/-- The hypotheses hold for the files of C119. -/
example : (tsvCliConfig.train.floatFeature ++ rawColumnsOf tsvCliConfig ++ stringColumnsOf tsvCliConfig).Nodup ∧
    rawColumnsOf tsvCliConfig = ["clicked"] ∧ stringColumnsOf tsvCliConfig = ["color"] ∧
    0 < (tableLines trainTsvs).length ∧ (tableLines trainTsvs).length < 2 ^ 31 ∧
    NoHuge (1000 : ℚ) ratParse trainTsvs tsvCliConfig.tsv ∧ NoBucketCrash (1000 : ℚ) ratParse (trainTsvs.map some) tsvCliConfig.tsv :=
  ⟨by decide +kernel, by decide +kernel, by decide +kernel, by decide +kernel, by decide +kernel, ratParse_noHuge _ _,
    noBucketCrash_of_few _ _ _ trainTsvs_few⟩

/-- Both ways give the same model there, with a base model. -/
example : (match cliTrainMain cliMachine plainCodec 0 1000 ratParse (fun _ l => l.reverse) id (trainTsvs.map some) tsvCliConfig (some (some sizeModel)) 1 2,
      pyFromTsvs (1000 : ℚ) ratParse (fun _ l => l) (trainTsvs.map some) ["size"] ["color"] ["clicked"] with
    | .ok (j, _), .ok (.ok t) =>
      (match pyTrain cliMachine t tsvCliConfig.train [] ["color", "size"] [] (some [sizeTree]) 1 2 with
        | .ok (.ok forest) => (match forestFromJson plainCodec 0 100 j with
          | .ok f => decide (f.trees = forest ∧ forest.length = 4)
          | _ => false)
        | _ => false)
    | _, _ => false) = true := by decide +kernel

end Gbdt
