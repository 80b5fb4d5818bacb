import Verif.Props.FlatTrain
import Verif.Props.Flatfile

/-!
# C127: TSV files and flat files of the same table
-/

set_option autoImplicit false
set_option linter.unusedSectionVars false

namespace Gbdt

open Outcome

/-- The first line of a flat file. -/
def typeLine : ColType → Text
  | .bucketized => "# dtype=bucketized_floats".toList
  | .raw => "# dtype=raw_floats".toList
  | .string => "# dtype=strings".toList

/-- The flat file of a column of a table in TSV files: after the line of the type, the cells of the data lines of all files, each on a line
of its own.  No cell starts with `#`. -/
structure FlatFileOf (contents : List Text) (name : String) (k : ColType) (s : Text) : Prop where
  cells : ∃ first rest, contents = first :: rest ∧ ∀ i, IsColumn (headerNames first) name i →
    ∃ cells : List Text, (tableLines contents).map (cellAt i) = cells.map some ∧ fileLines s = typeLine k :: (cells ++ [[]]) ∧
      ∀ t ∈ cells, t.head? ≠ some '#'

section tsv
variable {D A N : Type} [Dbl D] [FpOrder D] [EqOrder D] [LinearOrder A] [ThrOps A]

theorem typeLine_head (k : ColType) : (typeLine k).head? = some '#' := by cases k <;> decide

theorem typeLine_ne_strings {k : ColType} (h : k ≠ .string) : some (typeLine k) ≠ some "# dtype=strings".toList := by
  cases k with
  | string => exact absurd rfl h
  | _ => decide

theorem typeLine_ne_raw : some (typeLine .bucketized) ≠ some "# dtype=raw_floats".toList := by decide

theorem flatRows_of {k : ColType} {s : Text} {cells : List Text} (h : fileLines s = typeLine k :: (cells ++ [[]]))
    (hc : ∀ t ∈ cells, t.head? ≠ some '#') : flatRows s = cells := by
  unfold flatRows
  dsimp only
  rw [h]
  have e1 : (typeLine k :: (cells ++ [[]])).getLast? = some [] := by
    rw [← List.cons_append, List.getLast?_concat]
  rw [if_pos e1, ← List.cons_append, List.dropLast_concat, List.filter_cons_of_neg (by simp [typeLine_head]), List.filter_eq_self]
  intro t ht
  simpa using hc t ht

/-- Feeding few floats in blocks is feeding them at once. -/
theorem BktCol.build_few (fmax : A) (nb : Nat) (blocks : List (List (Fl A))) (h : blocks.flatten.length ≤ 100 * nb) :
    BktCol.build fmax nb blocks = BktCol.build fmax nb [blocks.flatten] := by
  have key : ∀ (bs : List (List (Fl A))) (buf : List (Fl A)), buf.length + bs.flatten.length ≤ 100 * nb →
      BktCol.adds fmax ({ nb := nb, buffer := buf } : BktCol A) bs = ok { nb := nb, buffer := buf ++ bs.flatten } := by
    intro bs
    induction bs with
    | nil => intro buf _; simp [BktCol.adds]
    | cons b bs ih =>
      intro buf hb
      rw [List.flatten_cons, List.length_append] at hb
      have e : BktCol.add fmax ({ nb := nb, buffer := buf } : BktCol A) b = ok { nb := nb, buffer := buf ++ b } := by
        unfold BktCol.add
        simp only [ne_eq, not_true_eq_false, if_false, Bool.false_eq_true, List.length_nil, if_true]
        rw [if_neg (by rw [List.length_append]; omega)]
      rw [BktCol.adds, e, ok_bind, ih _ (by rw [List.length_append]; omega), List.flatten_cons, List.append_assoc]
  unfold BktCol.build
  have e1 := key blocks [] (by simpa using h)
  have e2 := key [blocks.flatten] [] (by simpa using h)
  have hnew : (BktCol.new nb : BktCol A) = { nb := nb, buffer := [] } := rfl
  rw [hnew, e1, e2]
  simp

theorem getD_of_cellValue {parse : Text → Option (Fl A)} {t : Text} {v : Fl A} (h : cellValue parse t = some v) : (parse t).getD .nan = v := by
  unfold cellValue at h
  split at h
  · next w hw =>
    cases h
    rw [hw]
    rfl
  · next hw =>
    split at h
    · cases h
      rw [hw]
      rfl
    · cases h

/-- The column of a flat file is the column that the TSV loader makes. -/
theorem flatFile_column {d : FlatDisk A} {sched : Nat → List Handle → List Handle} (hs : AnyOrder sched) {first : Text} {rest : List Text}
    {config : TsvConfig} {t : DataStore A} (hn : (config.requests.map Prod.snd).Nodup)
    (h : loadTSVs d.fmax d.parse sched ((first :: rest).map some) config = ok (.ok t))
    (hsize : (tableLines (first :: rest)).length ≤ 3000000) {r : ColType × String} (hr : r ∈ config.requests) {s : Text}
    (hfile : d.files r.2 = some s) (hf : FlatFileOf (first :: rest) r.2 r.1 s) :
    ∃ c, t.getColumn r.2 = some c ∧ d.columnOf (tableLines (first :: rest)).length r.2 = some c := by
  obtain ⟨i, hi, hh⟩ := load_holds hs hn h hr
  obtain ⟨f, rs, e, hcells⟩ := hf.cells
  cases e
  obtain ⟨cells, h1, h2, h3⟩ := hcells i hi
  have hrows := flatRows_of h2 h3
  have hhead : (fileLines s).head? = some (typeLine r.1) := by rw [h2]; rfl
  have hlen : cells.length = (tableLines (first :: rest)).length := by
    have := congrArg List.length h1
    simpa using this.symm
  suffices hload : ∃ c, t.getColumn r.2 = some c ∧ loadFile d.fmax d.parse s = ok (some c) by
    obtain ⟨c, g1, g2⟩ := hload
    refine ⟨c, g1, ?_⟩
    have hc : d.column r.2 = some c := by unfold FlatDisk.column; simp only [hfile, g2]
    have hz := PyStore.hasRows_size (load_rows hs hn h (by omega) g1)
    simp [FlatDisk.columnOf, hc, hz]
  have hfloat : ∀ cols : List (List (Fl A)),
      (linesPerFile (first :: rest)).map (·.map (fun l => (cellAt i l).bind (cellValue d.parse))) = cols.map (·.map some) →
      cells.map (fun l => (d.parse l).getD .nan) = cols.flatten := by
    intro cols hcols
    have e1 := flatten_of_map_map hcols
    have e2 : (tableLines (first :: rest)).map (fun l => (cellAt i l).bind (cellValue d.parse)) = cells.map (cellValue d.parse) := by
      have := congrArg (List.map (fun o : Option Text => o.bind (cellValue d.parse))) h1
      simpa only [List.map_map, Function.comp_def, Option.bind_some] using this
    have e3 : cells.map (cellValue d.parse) = cols.flatten.map some := by rw [← e2]; exact e1
    apply List.ext_getElem?
    intro j
    have e4 := congrArg (fun l => l[j]?) e3
    simp only [List.getElem?_map] at e4 ⊢
    cases hj : cells[j]? with
    | none =>
      rw [hj] at e4
      cases hk : cols.flatten[j]? with
      | none => rfl
      | some v => rw [hk] at e4; cases e4
    | some x =>
      rw [hj] at e4
      cases hk : cols.flatten[j]? with
      | none => rw [hk] at e4; cases e4
      | some v =>
        rw [hk] at e4
        simp only [Option.map_some, Option.some.injEq] at e4 ⊢
        exact getD_of_cellValue e4
  rw [C19_flatfile_rows, hrows, hhead]
  obtain ⟨k, name⟩ := r
  simp only at hh ⊢
  cases k with
  | string =>
    obtain ⟨cols, e1, e2⟩ := hh
    have e3 : cells = cols.flatten := by
      have := flatten_of_map_map e1
      have e4 : cells.map some = cols.flatten.map some := by rw [← h1]; exact this
      exact (List.map_injective_iff.mpr (Option.some_injective _)) e4
    refine ⟨_, e2, ?_⟩
    rw [if_pos (by rfl), C02_block_independent (cols.map (·.map String.ofList)) [cells.map String.ofList]]
    · rw [← List.map_flatten, List.length_map, ← e3, hlen]
      omega
    · rw [← List.map_flatten, e3]
      simp
  | raw =>
    obtain ⟨cols, e1, e2⟩ := hh
    refine ⟨_, e2, ?_⟩
    rw [if_neg (typeLine_ne_strings (by decide)), if_pos (by rfl), hfloat cols e1]
  | bucketized =>
    obtain ⟨cols, c, e1, e2, e3⟩ := hh
    refine ⟨_, e3, ?_⟩
    rw [if_neg (typeLine_ne_strings (by decide)), if_neg typeLine_ne_raw, if_pos (by rfl), hfloat cols e1, ← BktCol.build_few, e2]
    · rfl
    · rw [holds_length e1]
      exact le_trans hsize (by norm_num)

/-! ## C127 -/

/-- Flat files of the columns `names` of a table in TSV files.  No column has an empty name. -/
structure FlatTable (d : FlatDisk A) (contents : List Text) (config : TsvConfig) (names : List String) : Prop where
  sound : d.Sound
  place : ∀ s, (d.place s).Perm s
  unnamed : d.column "" = none
  named : ∀ r ∈ config.requests, r.2 ≠ ""
  files : ∀ r ∈ config.requests, r.2 ∈ names → ∃ s, d.files r.2 = some s ∧ FlatFileOf contents r.2 r.1 s

theorem flatTable_columns {d : FlatDisk A} {sched : Nat → List Handle → List Handle} (hs : AnyOrder sched) {first : Text} {rest : List Text}
    {config : TsvConfig} {t : DataStore A} (hn : (config.requests.map Prod.snd).Nodup)
    (h : loadTSVs d.fmax d.parse sched ((first :: rest).map some) config = ok (.ok t))
    (hsize : (tableLines (first :: rest)).length ≤ 3000000) {names : List String} (hd : FlatTable d (first :: rest) config names)
    {name : String} (hname : name ∈ names) (hreq : name = "" ∨ ∃ k, (k, name) ∈ config.requests) :
    t.getColumn name = d.columnOf (tableLines (first :: rest)).length name ∧ (name ≠ "" → (t.getColumn name).isSome) := by
  by_cases hk : ∃ k, (k, name) ∈ config.requests
  · obtain ⟨k, hk⟩ := hk
    obtain ⟨s, h1, h2⟩ := hd.files _ hk hname
    obtain ⟨c, g1, g2⟩ := flatFile_column hs hn h hsize hk h1 h2
    simp only at g1 g2
    rw [g1, g2]
    exact ⟨rfl, fun _ => rfl⟩
  · rcases hreq with rfl | hreq
    · refine ⟨?_, fun h => absurd rfl h⟩
      have e1 : d.columnOf (tableLines (first :: rest)).length "" = none := by simp [FlatDisk.columnOf, hd.unnamed]
      rw [e1]
      cases hc : t.getColumn "" with
      | none => rfl
      | some c =>
        obtain ⟨r, hr, e⟩ := load_asked hs hn h hc
        exact absurd ⟨r.1, by rw [← e]; exact hr⟩ hk
    · exact absurd hreq hk

omit [Dbl D] [FpOrder D] [EqOrder D] in
/-- Every column of a configuration is asked of the TSV loader. -/
theorem columns_requested (c : CliConfig D) {name : String} (h : name ∈ c.train.columns) : name = "" ∨ ∃ k, (k, name) ∈ c.tsv.requests := by
  by_cases hne : name = ""
  · exact Or.inl hne
  · right
    unfold Config.columns featuresOf at h
    simp only [List.mem_cons, List.mem_dedup, List.mem_append] at h
    rcases h with rfl | rfl | rfl | h | h
    · exact ⟨.raw, (C17_requested c.tsv _).2.1.mpr (Or.inr ⟨hne, Or.inr rfl⟩)⟩
    · exact ⟨.raw, (C17_requested c.tsv _).2.1.mpr (Or.inr ⟨hne, Or.inl rfl⟩)⟩
    · exact ⟨.string, (C17_requested c.tsv _).2.2.mpr (Or.inr (Or.inr ⟨hne, rfl⟩))⟩
    · exact ⟨.bucketized, (C17_requested c.tsv _).1.mpr h⟩
    · exact ⟨.string, (C17_requested c.tsv _).2.2.mpr (Or.inl h)⟩

/-- **C127, training.** If a table can be loaded from TSV files, has between one and three million rows, and there are flat files of the
columns that the configuration names, then the program writes the same model and feature importances from both. -/
theorem C127_train {d : FlatDisk A} {mc : Machine D A} (hlist : ∀ l name, name ∈ mc.listing l ↔ name ∈ l)
    {tsched : Nat → List Handle → List Handle} (hs : AnyOrder tsched) {c : CliConfig D} (hn : (c.tsv.requests.map Prod.snd).Nodup)
    {first : Text} {rest : List Text} {t : DataStore A} (h : loadTSVs d.fmax d.parse tsched ((first :: rest).map some) c.tsv = ok (.ok t))
    (hpos : 0 < (tableLines (first :: rest)).length) (hsize : (tableLines (first :: rest)).length ≤ 3000000)
    (hd : FlatTable d (first :: rest) c.tsv c.train.columns) (htarget : c.train.targetColumn ≠ "")
    (nc : NumCodec D A N) (zero : A) (weightsFirst : Bool) (sched : List Nat)
    (isort : List (String × D) → List (String × D)) (base : Option (Option (Json N)))
    (hbase : ∀ b, loadBaseOrDie nc zero base = ok b → ∀ name ∈ forestFeatures (b.getD []), name ∈ featuresOf c.train) (seed nt : Int) :
    cliTrainFFMain d mc nc zero weightsFirst sched isort c.train base seed nt =
      cliTrainMain mc nc zero d.fmax d.parse tsched isort ((first :: rest).map some) c base seed nt := by
  have hcol := fun {name : String} (hname : name ∈ c.train.columns) =>
    flatTable_columns hs hn h hsize hd hname (columns_requested c hname)
  have hreq : c.tsv.requests ≠ [] := by
    have := (C17_requested c.tsv c.train.targetColumn).2.1.mpr (Or.inr ⟨htarget, Or.inl rfl⟩)
    exact List.ne_nil_of_mem this
  have ht : HoldsFiles d (tableLines (first :: rest)).length c.train.columns t := by
    refine ⟨load_numRows hs hn h (by omega) (load_ne hs hn h hreq), fun name hname => (hcol hname).1, ?_⟩
    cases hc : t.getColumn "" with
    | none => rfl
    | some col =>
      obtain ⟨r, hr, e⟩ := load_asked hs hn h hc
      exact absurd e (hd.named r hr)
  have hin : FlatInput d mc c.train (tableLines (first :: rest)).length := by
    refine ⟨hd.sound, hd.place, hlist, hpos, ?_, ?_, hd.unnamed⟩
    · have := hcol (name := c.train.targetColumn) (by simp [Config.columns])
      rw [← this.1]
      exact this.2 htarget
    · intro hw
      have := hcol (name := c.train.weightColumn) (by simp [Config.columns])
      obtain ⟨col, hc⟩ := Option.isSome_iff_exists.mp (this.2 hw)
      rw [this.1] at hc
      obtain ⟨g1, g2⟩ := columnOf_size hc
      unfold FlatDisk.columnOf
      rw [g1]
      simp only [g2, Outcome.ok.injEq]
      rw [if_neg (by omega)]
  rw [C126_train hin ht nc zero weightsFirst sched isort base hbase]
  unfold cliTrainMain
  have hl : loadStoreOrDie d.fmax d.parse tsched ((first :: rest).map some) c = ok t := by
    unfold loadStoreOrDie
    rw [List.map_cons] at h ⊢
    simp only [h, ok_bind]
  rw [hl, ok_bind]
  rfl

/-- **C127, testing.** Under the same conditions on the features of the forest, the score files are the same. -/
theorem C127_test {d : FlatDisk A} {listing : List String → List String} (hlist : ∀ l name, name ∈ listing l ↔ name ∈ l)
    {tsched : Nat → List Handle → List Handle} (hs : AnyOrder tsched) {c : CliConfig D} (hn : (c.tsv.requests.map Prod.snd).Nodup)
    {first : Text} {rest : List Text} {t : DataStore A} (h : loadTSVs d.fmax d.parse tsched ((first :: rest).map some) c.tsv = ok (.ok t))
    (hpos : 0 < (tableLines (first :: rest)).length) (hsize : (tableLines (first :: rest)).length ≤ 3000000)
    (nc : NumCodec D A N) (zero : A) {model : Option (Json N)} {forest : List (Tree D A)} (hmodel : loadForestOrDie nc zero model = ok forest)
    (hne : forestFeatures forest ≠ []) (hfeat : ∀ name ∈ forestFeatures forest, ∃ k, (k, name) ∈ c.tsv.requests)
    (hd : FlatTable d (first :: rest) c.tsv (forestFeatures forest)) (sched : List Nat) (nt : Int) :
    cliTestFFMain d listing nc zero sched c.evalInterval model nt =
      cliTestMain nc zero d.fmax d.parse tsched ((first :: rest).map some) c model nt := by
  have hcol := fun {name : String} (hname : name ∈ forestFeatures forest) =>
    flatTable_columns hs hn h hsize hd hname (Or.inr (hfeat name hname))
  have hreq : c.tsv.requests ≠ [] := by
    obtain ⟨x, hx⟩ := List.exists_mem_of_ne_nil _ hne
    obtain ⟨k, hk⟩ := hfeat x hx
    exact List.ne_nil_of_mem hk
  have ht : HoldsFiles d (tableLines (first :: rest)).length (forestFeatures forest) t := by
    refine ⟨load_numRows hs hn h (by omega) (load_ne hs hn h hreq), fun name hname => (hcol hname).1, ?_⟩
    cases hc : t.getColumn "" with
    | none => rfl
    | some col =>
      obtain ⟨r, hr, e⟩ := load_asked hs hn h hc
      exact absurd e (hd.named r hr)
  have hsome : ∀ name ∈ forestFeatures forest, (d.columnOf (tableLines (first :: rest)).length name).isSome := by
    intro name hname
    obtain ⟨k, hk⟩ := hfeat name hname
    rw [← (hcol hname).1]
    exact (hcol hname).2 (hd.named _ hk)
  rw [C126_test hd.sound hd.place hd.unnamed hpos hlist nc zero hmodel hne hsome ht]
  unfold cliTestMain
  have hl : loadStoreOrDie d.fmax d.parse tsched ((first :: rest).map some) c = ok t := by
    unfold loadStoreOrDie
    rw [List.map_cons] at h ⊢
    simp only [h, ok_bind]
  simp only [hmodel, hl, ok_bind]

end tsv

/-! ### Example -/

theorem isColumn_unique {hs : List String} {name : String} {i j : Nat} (h : IsColumn hs name i) (h' : IsColumn hs name j) : i = j := by
  rcases Nat.lt_trichotomy i j with hlt | rfl | hlt
  · exact absurd h'.1 (h.2 j hlt)
  · rfl
  · exact absurd h.1 (h'.2 i hlt)

/-- `trainFlat` has the flat files of the table in `trainTsvs`. -/
theorem trainFlat_table : FlatTable trainFlat trainTsvs tsvCliConfig.tsv tsvCliConfig.train.columns where
  sound := trainFlat_sound
  place := fun s => List.reverse_perm s
  unnamed := by decide +kernel
  named := by decide +kernel
  files := by
    intro r hr _
    have hr' : r = (.bucketized, "size") ∨ r = (.raw, "clicked") ∨ r = (.string, "color") := by
      have : tsvCliConfig.tsv.requests = [(.bucketized, "size"), (.raw, "clicked"), (.string, "color")] := by decide +kernel
      rw [this] at hr
      simpa using hr
    have hhead : headerNames trainTsvs.head! = ["size", "color", "clicked"] := by decide +kernel
    rcases hr' with rfl | rfl | rfl
    · refine ⟨"# dtype=bucketized_floats\n5\n?\n7\n9\n9\n".toList, rfl, ⟨_, _, rfl, fun i hi => ?_⟩⟩
      have h0 : IsColumn ["size", "color", "clicked"] "size" 0 := ⟨rfl, fun j hj => by
        rcases j with _ | _ | _ | j <;> simp at hj ⊢⟩
      cases isColumn_unique (hhead ▸ hi) h0
      exact ⟨["5".toList, "?".toList, "7".toList, "9".toList, "9".toList], by decide +kernel, by decide +kernel, by decide⟩
    · refine ⟨"# dtype=raw_floats\n1\n0\n1\n0\n0\n".toList, rfl, ⟨_, _, rfl, fun i hi => ?_⟩⟩
      have h0 : IsColumn ["size", "color", "clicked"] "clicked" 2 := ⟨rfl, fun j hj => by
        rcases j with _ | _ | _ | j <;> simp at hj ⊢⟩
      cases isColumn_unique (hhead ▸ hi) h0
      exact ⟨["1".toList, "0".toList, "1".toList, "0".toList, "0".toList], by decide +kernel, by decide +kernel, by decide⟩
    · refine ⟨"# dtype=strings\nb\na\nc\nb\nc\n".toList, rfl, ⟨_, _, rfl, fun i hi => ?_⟩⟩
      have h0 : IsColumn ["size", "color", "clicked"] "color" 1 := ⟨rfl, fun j hj => by
        rcases j with _ | _ | _ | j <;> simp at hj ⊢⟩
      cases isColumn_unique (hhead ▸ hi) h0
      exact ⟨["b".toList, "a".toList, "c".toList, "b".toList, "c".toList], by decide +kernel, by decide +kernel, by decide⟩

/-- The other hypotheses of C127 hold of `trainTsvs` and its flat files. -/
example : (match loadTSVs trainFlat.fmax trainFlat.parse (fun _ l => l.reverse) (trainTsvs.map some) tsvCliConfig.tsv with
      | .ok (.ok _) => true
      | _ => false) = true ∧
    (tsvCliConfig.tsv.requests.map Prod.snd).Nodup ∧ (tableLines trainTsvs).length = 5 ∧ tsvCliConfig.train.targetColumn ≠ "" :=
  ⟨by decide +kernel, by decide +kernel, by decide +kernel, by decide +kernel⟩

end Gbdt
