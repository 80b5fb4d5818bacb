import Verif.Lemmas.FlatTrain
import Verif.Props.TsvPipeline

/-!
# The program on flat files

C126: training and testing on flat files is training and testing on a store that holds their columns.
C129, C130: what goes wrong with empty stores and empty columns.
-/

set_option autoImplicit false
set_option linter.unusedSectionVars false

namespace Gbdt

open Outcome

section flat
variable {D A N : Type} [Dbl D] [FpOrder D] [EqOrder D] [LinearOrder A] [ThrOps A]

/-! ## C126 -/

/-- Flat files to train on: reading them is defined, there are `n > 0` targets, and the weights, if they are asked for, are not an empty
file.  Files of other columns may be missing or have other numbers of rows.  No file has an empty name. -/
structure FlatInput (d : FlatDisk A) (mc : Machine D A) (c : Config D) (n : Nat) : Prop where
  sound : d.Sound
  place : ∀ s, (d.place s).Perm s
  listing : ∀ l name, name ∈ mc.listing l ↔ name ∈ l
  rows : 0 < n
  target : (d.columnOf n c.targetColumn).isSome
  weight : c.weightColumn ≠ "" → d.columnOf 0 c.weightColumn = none
  unnamed : d.column "" = none

/-- The columns of a configuration. -/
def Config.columns (c : Config D) : List String := c.weightColumn :: c.targetColumn :: c.groupColumn :: featuresOf c

/-- A store in memory with the columns of the files that have `n` rows. -/
structure HoldsFiles (d : FlatDisk A) (n : Nat) (names : List String) (t : DataStore A) : Prop where
  rows : t.numRows = ok n
  cols : ∀ name ∈ names, t.getColumn name = d.columnOf n name
  unnamed : t.getColumn "" = none

/-- **C126, training.** On flat files the program writes what it writes on a store that holds their columns, whichever thread loads which
column when, and whichever of weights and targets is loaded first; a file that is missing, of unknown type, or has another number of rows than
the targets counts as missing.  The features of the base forest are to be among those of the configuration. -/
theorem C126_train {d : FlatDisk A} {mc : Machine D A} {c : Config D} {n : Nat} (hin : FlatInput d mc c n) {t : DataStore A}
    (ht : HoldsFiles d n c.columns t) (nc : NumCodec D A N) (zero : A) (weightsFirst : Bool) (sched : List Nat)
    (isort : List (String × D) → List (String × D)) (base : Option (Option (Json N)))
    (hbase : ∀ b, loadBaseOrDie nc zero base = ok b → ∀ name ∈ forestFeatures (b.getD []), name ∈ featuresOf c) (seed nt : Int) :
    cliTrainFFMain d mc nc zero weightsFirst sched isort c base seed nt = (do
      let b ← loadBaseOrDie nc zero base
      let forest ← cliTrain mc t c b seed nt
      match forestToJson nc 64 ⟨forest, ""⟩ with
      | .error _ => Outcome.fatal
      | .ok j => Outcome.ok (j, featureImportance isort forest)) := by
  unfold cliTrainFFMain
  refine bind_congr_ok fun b hb => ?_
  rw [cliTrainFF_eq hin.sound hin.place hin.rows hin.listing ht.rows ht.cols ⟨ht.unnamed, hin.unnamed⟩ hin.target hin.weight
    (hbase b hb) weightsFirst sched seed nt]
  rfl

/-- The columns of files, as a store. -/
def flatStore (d : FlatDisk A) (n : Nat) (names : List String) : DataStore A :=
  names.filterMap (fun name => (d.columnOf n name).map (fun c => (name, c)))

theorem flatStore_lookup (d : FlatDisk A) (n : Nat) (name : String) : ∀ names : List String,
    (flatStore d n names).lookup name = if name ∈ names then d.columnOf n name else none
  | [] => rfl
  | x :: xs => by
    have ih := flatStore_lookup d n name xs
    unfold flatStore at ih ⊢
    rw [List.filterMap_cons]
    cases hx : d.columnOf n x with
    | none =>
      simp only [Option.map_none, ih, List.mem_cons]
      by_cases hn : name = x
      · subst hn
        simp [hx]
      · simp [hn]
    | some c =>
      simp only [Option.map_some, List.mem_cons]
      by_cases hn : name = x
      · subst hn
        simp [hx]
      · rw [List.lookup_cons]
        have : (name == x) = false := by simpa using hn
        rw [this]
        simp only [ih, hn, false_or]

/-- Every collection of flat files has a store in memory that holds its columns. -/
theorem C126_store {d : FlatDisk A} {mc : Machine D A} {c : Config D} {n : Nat} (hin : FlatInput d mc c n) :
    ∃ t : DataStore A, HoldsFiles d n c.columns t := by
  refine ⟨flatStore d n c.columns, ?_, ?_, ?_⟩
  · cases hf : flatStore d n c.columns with
    | nil =>
      have := flatStore_lookup d n c.targetColumn c.columns
      rw [hf, if_pos (by simp [Config.columns])] at this
      have ht := hin.target
      rw [← this] at ht
      cases ht
    | cons e l =>
      have he : e ∈ flatStore d n c.columns := by rw [hf]; exact List.mem_cons_self
      obtain ⟨name, _, h⟩ := List.mem_filterMap.mp he
      obtain ⟨col, hc, rfl⟩ := Option.map_eq_some_iff.mp h
      exact (columnOf_size hc).2
  · intro name hname
    exact (flatStore_lookup d n name c.columns).trans (if_pos hname)
  · refine (flatStore_lookup d n "" c.columns).trans ?_
    split
    · simp [FlatDisk.columnOf, hin.unnamed]
    · rfl

/-- **C126, threads.** What training on flat files writes depends neither on the threads that load the features nor on the order in which
weights and targets are loaded. -/
theorem C126_schedule {d : FlatDisk A} {mc : Machine D A} {c : Config D} {n : Nat} (hin : FlatInput d mc c n)
    (nc : NumCodec D A N) (zero : A) (weightsFirst weightsFirst' : Bool) (sched sched' : List Nat)
    (isort : List (String × D) → List (String × D)) (base : Option (Option (Json N)))
    (hbase : ∀ b, loadBaseOrDie nc zero base = ok b → ∀ name ∈ forestFeatures (b.getD []), name ∈ featuresOf c) (seed nt : Int) :
    cliTrainFFMain d mc nc zero weightsFirst sched isort c base seed nt =
      cliTrainFFMain d mc nc zero weightsFirst' sched' isort c base seed nt := by
  obtain ⟨t, ht⟩ := C126_store hin
  rw [C126_train hin ht nc zero weightsFirst sched isort base hbase, C126_train hin ht nc zero weightsFirst' sched' isort base hbase]

/-- **C126, testing.** If the forest has features, and all of their files have `n > 0` rows, then the score files are those of a store that
holds the columns of the files. -/
theorem C126_test {d : FlatDisk A} (sound : d.Sound) (place : ∀ s, (d.place s).Perm s) (unnamed : d.column "" = none) {n : Nat} (hn : 0 < n)
    {listing : List String → List String} (hlist : ∀ l name, name ∈ listing l ↔ name ∈ l) (nc : NumCodec D A N) (zero : A)
    {model : Option (Json N)} {forest : List (Tree D A)} (hmodel : loadForestOrDie nc zero model = ok forest)
    (hne : forestFeatures forest ≠ []) (hsome : ∀ name ∈ forestFeatures forest, (d.columnOf n name).isSome)
    {t : DataStore A} (ht : HoldsFiles d n (forestFeatures forest) t) (sched : List Nat) (interval : Int) (nt : Int) :
    cliTestFFMain d listing nc zero sched interval model nt = (do
      let rows ← t.numRows
      let (e, scores) ← evaluateCheckpoints t.getColumn rows nt forest (getTestPoints interval forest.length)
      if e = Code.ok then Outcome.ok scores else Outcome.fatal) := by
  rw [cliTestFFMain_eq sound place hn hlist nc zero hmodel hne hsome t.getColumn ht.cols ⟨ht.unnamed, unnamed⟩, ht.rows]
  rfl

/-! ## C129 -/

/-- **C129 in part.** If the forest has a feature, and the files of its features have `n > 0` rows, then every score file has `n` scores. -/
theorem C129_scores_partial {d : FlatDisk A} (sound : d.Sound) (place : ∀ s, (d.place s).Perm s) (unnamed : d.column "" = none) {n : Nat} (hn : 0 < n)
    {listing : List String → List String} (hlist : ∀ l name, name ∈ listing l ↔ name ∈ l) (nc : NumCodec D A N) (zero : A)
    {model : Option (Json N)} {forest : List (Tree D A)} (hmodel : loadForestOrDie nc zero model = ok forest)
    (hne : forestFeatures forest ≠ []) (hsome : ∀ name ∈ forestFeatures forest, (d.columnOf n name).isSome)
    {sched : List Nat} {interval nt : Int} {files : List (Int × List D)}
    (h : cliTestFFMain d listing nc zero sched interval model nt = ok files) : ∀ f ∈ files, f.2.length = n := by
  rw [cliTestFFMain_eq sound place hn hlist nc zero hmodel hne hsome (d.columnOf n) (fun _ _ => rfl)
    ⟨by simp [FlatDisk.columnOf, unnamed], unnamed⟩] at h
  obtain ⟨⟨e, scores⟩, h1, h⟩ := bind_eq_ok.mp h
  dsimp only at h
  split at h
  · cases h
    exact evaluateCheckpoints_length h1
  · cases h

/-- C129 in full: a model is tested on all rows, if all flat files have `n` rows. -/
def C129_full : Prop :=
  ∀ (d : FlatDisk ℚ) (n : Nat) (j : Json (ℚ ⊕ Nat)) (forest : List (Tree ℚ ℚ)) (sched : List Nat) (files : List (Int × List ℚ)),
    d.Sound → (∀ s, (d.place s).Perm s) → (∀ name c, d.column name = some c → c.size = ok n) →
    forestFromJson plainCodec 0 100 j = .ok ⟨forest, ""⟩ → (∀ name ∈ forestFeatures forest, (d.column name).isSome) →
    cliTestFFMain d id plainCodec 0 sched 0 (some j) 1 = ok files → ∀ f ∈ files, f.2.length = n

/-! ## C130 -/

/-- **C130 in part.** If no flat file has an empty column: whatever calls of `GetColumn` are in progress, all columns of the store have the same
number of rows. -/
theorem C130_equal_rows_partial {d : FlatDisk A} (sound : d.Sound) (place : ∀ s, (d.place s).Perm s) (noEmpty : d.NoEmpty) (names : List String)
    (sched : List Nat) : ∃ st n, runFF d.fmax d.parse d.place d.files sched (startFF [] 0 names) = ok st ∧
      ∀ e ∈ st.store, d.column e.1 = some e.2.2 ∧ e.2.2.size = ok n := by
  obtain ⟨st, h1, h2⟩ := fairState_run sound noEmpty place sched _ (fairState_start d names)
  rcases h2.mem with h | ⟨n, _, h⟩
  · refine ⟨st, 0, h1, ?_⟩
    rw [h]
    intro e he
    cases he
  · exact ⟨st, n, h1, fun e he => columnOf_size (h.good e he)⟩

/-- **C130 in part, testing.** If no flat file has an empty column, then a model is only tested on features that all have the same number of
rows, and gets one score for each. -/
theorem C130_test_partial {d : FlatDisk A} (sound : d.Sound) (place : ∀ s, (d.place s).Perm s) (noEmpty : d.NoEmpty) (unnamed : d.column "" = none)
    {listing : List String → List String} (hlist : ∀ l name, name ∈ listing l ↔ name ∈ l) (nc : NumCodec D A N) (zero : A)
    {model : Option (Json N)} {forest : List (Tree D A)} (hmodel : loadForestOrDie nc zero model = ok forest)
    (hne : forestFeatures forest ≠ []) {sched : List Nat} {interval nt : Int} {files : List (Int × List D)}
    (h : cliTestFFMain d listing nc zero sched interval model nt = ok files) :
    ∃ n, 0 < n ∧ (∀ name ∈ forestFeatures forest, ∃ c, d.column name = some c ∧ c.size = ok n) ∧ ∀ f ∈ files, f.2.length = n := by
  have hmem : ∀ name, name ∈ listing (forestFeatures forest).dedup ↔ name ∈ forestFeatures forest := by
    intro name
    rw [hlist, List.mem_dedup]
  have hnames : listing (forestFeatures forest).dedup ≠ [] := by
    obtain ⟨x, hx⟩ := List.exists_mem_of_ne_nil _ hne
    exact List.ne_nil_of_mem ((hmem x).mpr hx)
  have h0 := h
  unfold cliTestFFMain at h0
  rw [hmodel, ok_bind] at h0
  obtain ⟨⟨m, loaded⟩, h1, h0⟩ := bind_eq_ok.mp h0
  dsimp only at h0
  cases loaded with
  | false => rw [if_pos rfl] at h0; cases h0
  | true =>
    obtain ⟨n, hn, hs⟩ := ffLoadFeatures_loaded sound noEmpty place sched hnames h1
    have hsome : ∀ name ∈ forestFeatures forest, (d.columnOf n name).isSome := fun name hname => hs name ((hmem name).mpr hname)
    refine ⟨n, hn, ?_, C129_scores_partial sound place unnamed hn hlist nc zero hmodel hne hsome h⟩
    intro name hname
    obtain ⟨c, hc⟩ := Option.isSome_iff_exists.mp (hsome name hname)
    exact ⟨c, columnOf_size hc⟩

/-- C130 in full: all columns of a flat file store have the same number of rows. -/
def C130_full : Prop :=
  ∀ (d : FlatDisk ℚ) (names : List String) (sched : List Nat) (st : FFState ℚ), d.Sound → (∀ s, (d.place s).Perm s) →
    runFF d.fmax d.parse d.place d.files sched (startFF [] 0 names) = ok st → ∃ n, ∀ e ∈ st.store, e.2.2.size = ok n

end flat

/-! ### Example -/

/-- Three flat files of five rows, and one of one row. -/
def trainFlat : FlatDisk ℚ where
  fmax := 1000
  parse := ratParse
  place := List.reverse
  files := fun name =>
    if name = "size" then some "# dtype=bucketized_floats\n5\n?\n7\n9\n9\n".toList
    else if name = "color" then some "# dtype=strings\nb\na\nc\nb\nc\n".toList
    else if name = "clicked" then some "# dtype=raw_floats\n1\n0\n1\n0\n0\n".toList
    else if name = "short" then some "# dtype=raw_floats\n1\n".toList
    else none

theorem trainFlat_sound : trainFlat.Sound := by
  intro name s h
  simp only [trainFlat] at h ⊢
  have key : ∀ s ∈ ["# dtype=bucketized_floats\n5\n?\n7\n9\n9\n".toList, "# dtype=strings\nb\na\nc\nb\nc\n".toList,
      "# dtype=raw_floats\n1\n0\n1\n0\n0\n".toList, "# dtype=raw_floats\n1\n".toList],
      (match loadFile (1000 : ℚ) ratParse s with
        | .ok _ => true
        | _ => false) = true := by decide +kernel
  have hs : s ∈ ["# dtype=bucketized_floats\n5\n?\n7\n9\n9\n".toList, "# dtype=strings\nb\na\nc\nb\nc\n".toList,
      "# dtype=raw_floats\n1\n0\n1\n0\n0\n".toList, "# dtype=raw_floats\n1\n".toList] := by
    split at h <;> [skip; (split at h <;> [skip; (split at h <;> [skip; split at h])])]
    all_goals cases h
    all_goals simp only [List.mem_cons, true_or, or_true]
  have := key s hs
  split at this
  · next c hc => exact ⟨c, hc⟩
  · cases this

theorem columnOf_isSome_of {A : Type} [LinearOrder A] {d : FlatDisk A} {n : Nat} {name : String}
    (h : (match d.column name with
      | some c => decide (c.size = ok n)
      | none => false) = true) : (d.columnOf n name).isSome := by
  unfold FlatDisk.columnOf
  split at h
  · next c hc =>
    rw [hc]
    simp only [of_decide_eq_true h, if_true, Option.isSome_some]
  · cases h

/-- None of them is empty. -/
theorem trainFlat_noEmpty : trainFlat.NoEmpty := by
  intro name c h
  have key : ∀ s ∈ ["# dtype=bucketized_floats\n5\n?\n7\n9\n9\n".toList, "# dtype=strings\nb\na\nc\nb\nc\n".toList,
      "# dtype=raw_floats\n1\n0\n1\n0\n0\n".toList, "# dtype=raw_floats\n1\n".toList],
      (match loadFile (1000 : ℚ) ratParse s with
        | .ok (some c) => decide (c.size ≠ ok 0)
        | _ => true) = true := by decide +kernel
  obtain ⟨s, h1, h2⟩ := column_load h
  have hs : s ∈ ["# dtype=bucketized_floats\n5\n?\n7\n9\n9\n".toList, "# dtype=strings\nb\na\nc\nb\nc\n".toList,
      "# dtype=raw_floats\n1\n0\n1\n0\n0\n".toList, "# dtype=raw_floats\n1\n".toList] := by
    simp only [trainFlat] at h1
    split at h1 <;> [skip; (split at h1 <;> [skip; (split at h1 <;> [skip; split at h1])])]
    all_goals cases h1
    all_goals simp only [List.mem_cons, true_or, or_true]
  have := key s hs
  simp only [trainFlat] at h2
  rw [h2] at this
  exact of_decide_eq_true this

/-- A configuration for them. -/
def flatCfg : Config ℚ := { tsvCliConfig.train with weightColumn := "" }

/-- The hypotheses of C126 hold of these files. -/
theorem trainFlatInput : FlatInput trainFlat cliMachine flatCfg 5 where
  sound := trainFlat_sound
  place := fun s => List.reverse_perm s
  listing := fun l name => (cliMachine_perm l).mem_iff
  rows := by decide
  target := columnOf_isSome_of (by decide +kernel)
  weight := fun h => absurd rfl h
  unnamed := by decide +kernel

/-- The program trains on them; the model gives the scores of that of the TSV files with the same rows. -/
example : (match cliTrainFFMain trainFlat cliMachine plainCodec 0 true [1, 0, 0, 1, 1, 0] id flatCfg none 1 2,
      cliTrainMain cliMachine plainCodec 0 1000 ratParse (fun _ l => l.reverse) id (trainTsvs.map some) tsvCliConfig none 1 2 with
    | .ok (j, fimps), .ok (j', fimps') =>
      (match cliTestMain plainCodec 0 1000 ratParse (fun _ l => l) (testTsvs.map some) tsvCliConfig (some j) 2,
          cliTestMain plainCodec 0 1000 ratParse (fun _ l => l) (testTsvs.map some) tsvCliConfig (some j') 2 with
        | .ok files, .ok files' => decide (fimps = fimps' ∧ files = files')
        | _, _ => false)
    | _, _ => false) = true := by decide +kernel

/-- A model with one feature on these files. -/
example : (match cliTestFFMain trainFlat id plainCodec 0 [0, 0] 0 (some sizeModel) 2 with
    | .ok files => decide (files = [(1, [1, 1, 0, 0, 0])])
    | _ => false) = true := by decide +kernel

/-- The hypotheses of `C126_test` hold of that model. -/
example : (match loadForestOrDie plainCodec 0 (some sizeModel) with
    | .ok forest => decide (forestFeatures forest = ["size"])
    | _ => false) = true ∧ (trainFlat.columnOf 5 "size").isSome ∧ HoldsFiles trainFlat 5 ["size"] (flatStore trainFlat 5 ["size"]) := by
  have h : (trainFlat.columnOf 5 "size").isSome := columnOf_isSome_of (by decide +kernel)
  refine ⟨by decide +kernel, h, ?_, ?_, ?_⟩
  · obtain ⟨c, hc⟩ := Option.isSome_iff_exists.mp h
    simp only [flatStore, List.filterMap_cons, hc, Option.map_some, List.filterMap_nil]
    exact (columnOf_size hc).2
  · intro name hname
    unfold DataStore.getColumn
    rw [flatStore_lookup, if_pos hname]
  · unfold DataStore.getColumn
    rw [flatStore_lookup, if_neg (by decide)]

/-! ### Witnesses -/

/-- A forest that is a constant. -/
def constModel : Json (ℚ ⊕ Nat) :=
  match forestToJson plainCodec 64 ⟨[.node 3 none .absent .absent], ""⟩ with
  | .ok j => j
  | .error _ => .null

/-- One flat file with two rows. -/
def twoRows : FlatDisk ℚ where
  fmax := 1000
  parse := ratParse
  place := id
  files := fun name => if name = "size" then some "# dtype=raw_floats\n5\n6\n".toList else none

theorem twoRows_load : loadFile (1000 : ℚ) ratParse "# dtype=raw_floats\n5\n6\n".toList = ok (some (.raw ⟨.ok, [.num 5, .num 6]⟩)) := by
  rfl

/-- **C129 refuted.** A constant forest loads no column, so that there are no rows and no scores. -/
theorem C129_refuted : ¬ C129_full := by
  intro h
  have hcol : ∀ name c, twoRows.column name = some c → c = .raw ⟨.ok, [.num 5, .num 6]⟩ := by
    intro name c hc
    obtain ⟨s, hs, hl⟩ := column_load hc
    simp only [twoRows] at hs hl
    split at hs
    · cases hs
      rw [twoRows_load] at hl
      cases hl
      rfl
    · cases hs
  have key : (match cliTestFFMain twoRows id plainCodec 0 [] 0 (some constModel) 1 with
      | .ok files => decide (files = [(1, [])])
      | _ => false) = true := by decide +kernel
  split at key
  · next files hf =>
    have := h twoRows 2 constModel [.node 3 none .absent .absent] [] files ?_ (fun s => List.Perm.refl _)
      (fun name c hc => by rw [hcol name c hc]; rfl)
      (C99_roundtrip plainCodec_exact 0 (limit := 64) ⟨[.node 3 none .absent .absent], ""⟩ (by simp) (by simp [treeNesting]) rfl)
      (by simp [forestFeatures, treeFeatures]) hf
    · rw [of_decide_eq_true key] at this
      exact absurd (this _ List.mem_cons_self) (by decide)
    · intro name s hs
      simp only [twoRows] at hs ⊢
      split at hs
      · cases hs
        exact ⟨_, twoRows_load⟩
      · cases hs
  · cases key

/-- The files of `trainFlat`, and an empty file of weights. -/
def emptyWeights : FlatDisk ℚ := { trainFlat with
  files := fun name => if name = "weight" then some "# dtype=raw_floats\n".toList else trainFlat.files name }

theorem emptyWeights_sound : emptyWeights.Sound := by
  intro name s h
  simp only [emptyWeights] at h ⊢
  split at h
  · cases h
    exact ⟨some (.raw ⟨.ok, []⟩), rfl⟩
  · exact trainFlat_sound name s h

/-- **C130 refuted.** A column without rows does not keep columns with rows from being loaded after it. -/
theorem C130_refuted : ¬ C130_full := by
  intro h
  have key : (match runFF emptyWeights.fmax emptyWeights.parse emptyWeights.place emptyWeights.files [0, 0, 0, 0, 1, 1, 1, 1]
        (startFF [] 0 ["weight", "clicked"]) with
      | .ok st => (match st.store with
        | [e, e'] => decide (e.2.2.size = ok 0 ∧ e'.2.2.size = ok 5)
        | _ => false)
      | _ => false) = true := by decide +kernel
  split at key
  · next st hst =>
    obtain ⟨n, hn⟩ := h emptyWeights ["weight", "clicked"] _ st emptyWeights_sound (fun s => List.reverse_perm s) hst
    split at key
    · next e e' hs =>
      obtain ⟨h1, h2⟩ := of_decide_eq_true key
      have g1 := hn e (by rw [hs]; simp)
      have g2 := hn e' (by rw [hs]; simp)
      rw [h1] at g1
      rw [h2] at g2
      cases g1
      cases g2
    · cases key
  · cases key

/-- **C130 refuted, training.** With an empty file of weights, the program stops if the compiler has the targets loaded first; otherwise it may
read weights that are not there (here), or find no rows. -/
theorem C130_refuted_train : (match cliTrainFFMain { emptyWeights with place := id } cliMachine plainCodec 0 false [] id
        { flatCfg with weightColumn := "weight" } none 1 2 with
      | .fatal => true
      | _ => false) = true ∧
    (match cliTrainFFMain { emptyWeights with place := id } cliMachine plainCodec 0 true [] id
        { flatCfg with weightColumn := "weight" } none 1 2 with
      | .ub => true
      | _ => false) = true := by
  constructor <;> decide +kernel

end Gbdt
