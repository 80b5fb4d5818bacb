import Verif.Model.Converter
import Verif.Props.FlatTsv

/-!
# C128: flat files that the script of the repository makes
-/

set_option autoImplicit false
set_option linter.unusedSectionVars false

namespace Gbdt

open Outcome

/-- A cell that is a line of its own in a flat file. -/
def LineCell (t : Text) : Prop := '\n' ∉ t ∧ t.getLast? ≠ some '\r' ∧ t.head? ≠ some '#'

/-- A table whose rows have a cell for every column, each of them on one line, with distinct file names for the columns. -/
structure PlainTable (header : List String) (rows : List (List Text)) : Prop where
  names : (header.map flatfileName).Nodup
  full : ∀ row ∈ rows, row.length = header.length
  cells : ∀ row ∈ rows, ∀ t ∈ row, LineCell t

/-- The disk has just the files that the script makes of a table. -/
def ConvertedTo {A : Type} (rawFloats strings header : List String) (rows : List (List Text)) (d : FlatDisk A) : Prop :=
  ∃ files, convertTsv rawFloats strings header rows = some files ∧ d.files = fun name => files.lookup name

section converter
variable {A : Type} [LinearOrder A]

theorem splitOn_line : ∀ (t : Text) (s : Text), '\n' ∉ t → (t ++ '\n' :: s).splitOn '\n' = t :: s.splitOn '\n'
  | [], s, _ => by rw [List.nil_append, List.splitOn_cons_eq_if_modifyHead]; simp
  | c :: t, s, h => by
    have hc : c ≠ '\n' := fun e => h (by simp [e])
    rw [List.cons_append, List.splitOn_cons_eq_if_modifyHead, splitOn_line t s (fun h' => h (List.mem_cons_of_mem _ h'))]
    simp [hc]

theorem rdropWhile_cr {t : Text} (h : t.getLast? ≠ some '\r') : t.rdropWhile (· == '\r') = t := by
  rcases List.eq_nil_or_concat t with rfl | ⟨l, c, rfl⟩
  · rfl
  · rw [List.concat_eq_append] at h ⊢
    rw [List.rdropWhile_concat, if_neg]
    simpa using h

/-- Lines that are printed are read back. -/
theorem fileLines_print : ∀ (ls : List Text), (∀ t ∈ ls, '\n' ∉ t ∧ t.getLast? ≠ some '\r') → fileLines (printLines ls) = ls ++ [[]]
  | [], _ => by simp [fileLines, printLines]
  | t :: ls, h => by
    have ih := fileLines_print ls (fun t' ht' => h t' (List.mem_cons_of_mem _ ht'))
    obtain ⟨h1, h2⟩ := h t List.mem_cons_self
    unfold fileLines printLines at *
    rw [List.flatMap_cons, List.append_assoc, List.singleton_append, splitOn_line _ _ h1, List.map_cons, ih, rdropWhile_cr h2,
      List.cons_append]

theorem converterTypeLine_line (raw strings : List String) (name : String) :
    '\n' ∉ converterTypeLine raw strings name ∧ (converterTypeLine raw strings name).getLast? ≠ some '\r' := by
  unfold converterTypeLine
  split
  · decide
  · split <;> decide

theorem filterMap_column {rows : List (List Text)} {i k : Nat} (h : ∀ row ∈ rows, row.length = k) (hi : i < k) :
    rows.filterMap (fun row => row[i]?) = rows.map (fun row => row.getD i []) := by
  induction rows with
  | nil => rfl
  | cons r rows ih =>
    have hr : i < r.length := by rw [h r List.mem_cons_self]; exact hi
    rw [List.filterMap_cons, List.getElem?_eq_getElem hr]
    simp only [List.map_cons, ih (fun r' hr' => h r' (List.mem_cons_of_mem _ hr')), List.getD_eq_getElem?_getD, List.getElem?_eq_getElem hr, Option.getD_some]

theorem flatfileName_id {name : String} (h : ∀ c ∈ name.toList, c ≠ ' ' ∧ c ≠ '/') : flatfileName name = name := by
  unfold flatfileName
  rw [List.map_map]
  have : name.toList.map ((fun c => if c = '/' then '_' else c) ∘ fun c => if c = ' ' then '_' else c) = name.toList.map id := by
    apply List.map_congr_left
    intro c hc
    obtain ⟨h1, h2⟩ := h c hc
    simp [h1, h2]
  rw [this, List.map_id, String.ofList_toList]

theorem flatfileName_chars (name : String) : ∀ c ∈ (flatfileName name).toList, c ≠ ' ' ∧ c ≠ '/' := by
  unfold flatfileName
  rw [String.toList_ofList, List.map_map]
  intro c hc
  obtain ⟨c', _, rfl⟩ := List.mem_map.mp hc
  simp only [Function.comp]
  by_cases h1 : c' = ' '
  · subst h1; decide
  · rw [if_neg h1]
    by_cases h2 : c' = '/'
    · subst h2; decide
    · rw [if_neg h2]; exact ⟨h1, h2⟩

theorem lookup_zipIdx_names {f : String × Nat → Text} : ∀ (header : List String) (k i : Nat) (name : String),
    (header.map flatfileName).Nodup → header[i]? = some name →
      ((header.zipIdx k).map (fun p => (flatfileName p.1, f p))).lookup (flatfileName name) = some (f (name, k + i))
  | [], k, i, name, _, hi => by simp at hi
  | x :: header, k, 0, name, _, hi => by
    simp only [List.getElem?_cons_zero, Option.some.injEq] at hi
    subst hi
    rw [List.zipIdx_cons, List.map_cons, List.lookup_cons, beq_self_eq_true, Nat.add_zero]
    rfl
  | x :: header, k, i + 1, name, h, hi => by
    rw [List.getElem?_cons_succ] at hi
    rw [List.map_cons, List.nodup_cons] at h
    have hx : (flatfileName name == flatfileName x) = false := by
      rw [beq_eq_false_iff_ne]
      intro e
      exact h.1 (e ▸ List.mem_map_of_mem (List.mem_of_getElem? hi))
    rw [List.zipIdx_cons, List.map_cons, List.lookup_cons, hx]
    have := lookup_zipIdx_names (f := f) header (k + 1) i name h.2 hi
    simp only [this]
    congr 3
    omega

theorem lookup_names_none {f : String × Nat → Text} {name : String} (header : List String) (k : Nat) (h : ∀ x ∈ header, flatfileName x ≠ name) :
    ((header.zipIdx k).map (fun p => (flatfileName p.1, f p))).lookup name = none := by
  induction header generalizing k with
  | nil => rfl
  | cons x header ih =>
    rw [List.zipIdx_cons, List.map_cons, List.lookup_cons]
    have hx : (name == flatfileName x) = false := by
      rw [beq_eq_false_iff_ne]
      exact fun e => h x List.mem_cons_self e.symm
    simp only [hx]
    exact ih (k + 1) (fun y hy => h y (List.mem_cons_of_mem _ hy))

/-- The file of a column. -/
theorem converted_file {raw strings header : List String} {rows : List (List Text)} {d : FlatDisk A}
    (h : ConvertedTo raw strings header rows d) (hn : (header.map flatfileName).Nodup) {i : Nat} {name : String} (hi : header[i]? = some name) :
    d.files (flatfileName name) = some (printLines (converterTypeLine raw strings name :: rows.filterMap (fun row => row[i]?))) := by
  obtain ⟨files, h1, h2⟩ := h
  unfold convertTsv at h1
  split at h1
  · cases h1
  · cases h1
    rw [h2]
    have := lookup_zipIdx_names (f := fun p => printLines (converterTypeLine raw strings p.1 :: rows.filterMap (fun row => row[p.2]?)))
      header 0 i name hn hi
    rw [Nat.zero_add] at this
    exact this

/-- **C128, file names.** A column whose name has a space or a slash has no file of its name. -/
theorem C128_refuted_name {raw strings header : List String} {rows : List (List Text)} {d : FlatDisk A}
    (h : ConvertedTo raw strings header rows d) {name : String} (hc : ' ' ∈ name.toList ∨ '/' ∈ name.toList) : d.column name = none := by
  obtain ⟨files, h1, h2⟩ := h
  unfold convertTsv at h1
  split at h1
  · cases h1
  · cases h1
    unfold FlatDisk.column
    rw [h2]
    simp only
    rw [lookup_names_none]
    intro x _ e
    have := flatfileName_chars x
    rw [e] at this
    rcases hc with hc | hc
    · exact (this _ hc).1 rfl
    · exact (this _ hc).2 rfl

theorem head_print {l : Text} {ls : List Text} (h : '\n' ∉ l ∧ l.getLast? ≠ some '\r') : (fileLines (printLines (l :: ls))).head? = some l := by
  unfold fileLines printLines
  rw [List.flatMap_cons, List.append_assoc, List.singleton_append, splitOn_line _ _ h.1, List.map_cons, rdropWhile_cr h.2, List.head?_cons]

theorem binned_unknown : some "# dtype=binned_floats".toList ≠ some "# dtype=strings".toList ∧
    some "# dtype=binned_floats".toList ≠ some "# dtype=raw_floats".toList ∧
    some "# dtype=binned_floats".toList ≠ some "# dtype=bucketized_floats".toList := by decide

/-- **C128, float features.** No column can be loaded that is not listed as raw floats or strings, whatever its cells: the store does not know
the type that the script writes. -/
theorem C128_refuted_type {raw strings header : List String} {rows : List (List Text)} {d : FlatDisk A}
    (h : ConvertedTo raw strings header rows d) (hn : (header.map flatfileName).Nodup) {name : String} (hname : name ∈ header)
    (hraw : name ∉ raw) (hstr : name ∉ strings) : d.column name = none := by
  by_cases hc : ∀ c ∈ name.toList, c ≠ ' ' ∧ c ≠ '/'
  · obtain ⟨i, hi⟩ := List.getElem?_of_mem hname
    have hf := converted_file h hn hi
    rw [flatfileName_id hc] at hf
    unfold FlatDisk.column
    rw [hf]
    simp only
    have ht : converterTypeLine raw strings name = "# dtype=binned_floats".toList := by
      unfold converterTypeLine
      rw [if_neg hraw, if_neg hstr]
    rw [C19_flatfile_rows, head_print (converterTypeLine_line _ _ _), ht, if_neg binned_unknown.1, if_neg binned_unknown.2.1,
      if_neg binned_unknown.2.2]
  · refine C128_refuted_name h ?_
    by_contra hno
    rw [not_or] at hno
    exact hc (fun c hc => ⟨fun e => hno.1 (e ▸ hc), fun e => hno.2 (e ▸ hc)⟩)

/-- The cells of a column. -/
def tableColumn (rows : List (List Text)) (i : Nat) : List Text := rows.filterMap (fun row => row[i]?)

theorem converted_rows {raw strings header : List String} {rows : List (List Text)} {i : Nat} {name : String} (ht : PlainTable header rows) :
    flatRows (printLines (converterTypeLine raw strings name :: rows.filterMap (fun row => row[i]?))) = tableColumn rows i := by
  have hcells : ∀ t ∈ rows.filterMap (fun row => row[i]?), LineCell t := by
    intro t h
    obtain ⟨row, hrow, he⟩ := List.mem_filterMap.mp h
    exact ht.cells row hrow t (List.mem_of_getElem? he)
  unfold flatRows
  dsimp only
  rw [fileLines_print _ (fun t h => by
    rcases List.mem_cons.mp h with rfl | h
    · exact converterTypeLine_line _ _ _
    · exact ⟨(hcells t h).1, (hcells t h).2.1⟩)]
  rw [if_pos List.getLast?_concat, List.dropLast_concat, List.filter_cons_of_neg, List.filter_eq_self.mpr]
  · rfl
  · intro t h
    simpa using (hcells t h).2.2
  · unfold converterTypeLine
    split
    · decide
    · split <;> decide

/-- **C128 in part.** Columns listed as raw floats or as strings, with names without spaces and slashes, are loaded with the cells of the table.
Missing: other names, and other columns, for which it is false. -/
theorem C128_partial {raw strings header : List String} {rows : List (List Text)} {d : FlatDisk A}
    (h : ConvertedTo raw strings header rows d) (ht : PlainTable header rows) {i : Nat} {name : String} (hi : header[i]? = some name)
    (hc : ∀ c ∈ name.toList, c ≠ ' ' ∧ c ≠ '/') :
    (tableColumn rows i).length = rows.length ∧
    (name ∈ raw → d.column name = some (.raw ⟨.ok, (tableColumn rows i).map (fun t => (d.parse t).getD .nan)⟩)) ∧
    (name ∉ raw → name ∈ strings → d.column name = some (.str (StrCol.build [(tableColumn rows i).map String.ofList]))) := by
  have hf := converted_file h ht.names hi
  rw [flatfileName_id hc] at hf
  have hlt : i < header.length := by
    by_contra hge
    rw [List.getElem?_eq_none (by omega)] at hi
    cases hi
  refine ⟨?_, ?_, ?_⟩
  · unfold tableColumn
    rw [filterMap_column ht.full hlt, List.length_map]
  · intro hraw
    have hty : converterTypeLine raw strings name = "# dtype=raw_floats".toList := by
      unfold converterTypeLine
      rw [if_pos hraw]
    unfold FlatDisk.column
    rw [hf]
    simp only
    rw [C19_flatfile_rows, head_print (converterTypeLine_line _ _ _), converted_rows ht, hty, if_neg (by decide), if_pos rfl]
  · intro hraw hstr
    have hty : converterTypeLine raw strings name = "# dtype=strings".toList := by
      unfold converterTypeLine
      rw [if_neg hraw, if_pos hstr]
    unfold FlatDisk.column
    rw [hf]
    simp only
    rw [C19_flatfile_rows, head_print (converterTypeLine_line _ _ _), converted_rows ht, hty, if_pos rfl]

/-- C128 in full: every column of a table is loaded, under its name, from the files that the script makes of it. -/
def C128_full : Prop :=
  ∀ (raw strings header : List String) (rows : List (List Text)) (d : FlatDisk ℚ), ConvertedTo raw strings header rows d →
    PlainTable header rows → ∀ name ∈ header, (d.column name).isSome

end converter

section train
variable {D A N : Type} [Dbl D] [FpOrder D] [EqOrder D] [LinearOrder A] [ThrOps A]

/-- Training needs all features. -/
theorem cliTrain_needs {mc : Machine D A} (hlist : ∀ l name, name ∈ mc.listing l ↔ name ∈ l) {t : DataStore A} {c : Config D}
    {name : String} (hname : name ∈ featuresOf c) (hnone : t.getColumn name = none) (base : Option (List (Tree D A))) (seed nt : Int)
    (forest : List (Tree D A)) : cliTrain mc t c base seed nt ≠ ok forest := by
  have hkey : ∀ (S : Type) (loss : (w y : Nat → D) → LossFunc S D) (forest : List (Tree D A)), (do
      let w ← sampleWeightsOrDie mc c t
      let y ← targetsOrDie mc c t
      let n ← t.numRows
      let r ← trainGBDT (mkEnv mc t n w seed nt) (loss w y) (mc.listing (featuresOf c)) (c.train mc 0) base [] 0
      if r.code = Code.ok then Outcome.ok r.forest else Outcome.fatal) ≠ ok forest := by
    intro S loss forest h
    obtain ⟨w, _, h⟩ := bind_eq_ok.mp h
    obtain ⟨y, _, h⟩ := bind_eq_ok.mp h
    obtain ⟨n, _, h⟩ := bind_eq_ok.mp h
    obtain ⟨r, hr, h⟩ := bind_eq_ok.mp h
    have hmiss : loadFeatures (mkEnv mc t n w seed nt).columns (mc.listing (featuresOf c)) = .error .notFound :=
      loadFeatures_lacks ⟨name, (hlist _ _).mpr hname, hnone⟩
    unfold trainGBDT at hr
    split at hr
    · next hc =>
      cases hr
      rw [if_neg hc] at h
      cases h
    · rw [hmiss] at hr
      cases hr
      cases h
  intro h
  unfold cliTrain at h
  split at h
  · cases h
  · next run hrun =>
    unfold withLoss at hrun
    subst h
    split at hrun
    all_goals first
      | (simp only [Option.some.injEq] at hrun
         exact hkey _ _ _ hrun)
      | (simp only [Option.some.injEq] at hrun
         obtain ⟨_, _, hrun⟩ := bind_eq_ok.mp hrun
         exact hkey _ _ _ hrun)
      | cases hrun

/-- **C128, training.** If a float feature of the configuration is a column of the table, the program cannot be trained on the files that the
script makes of the table. -/
theorem C128_refuted_train {raw strings header : List String} {rows : List (List Text)} {d : FlatDisk A}
    (h : ConvertedTo raw strings header rows d) (hn : (header.map flatfileName).Nodup) {name : String} (hname : name ∈ header)
    (hraw : name ∉ raw) (hstr : name ∉ strings) {mc : Machine D A} {c : Config D} {n : Nat} (hin : FlatInput d mc c n)
    (hf : name ∈ c.floatFeature) (nc : NumCodec D A N) (zero : A) (weightsFirst : Bool) (sched : List Nat)
    (isort : List (String × D) → List (String × D)) (seed nt : Int) (out : Json N × List (String × D)) :
    cliTrainFFMain d mc nc zero weightsFirst sched isort c none seed nt ≠ ok out := by
  obtain ⟨t, ht⟩ := C126_store hin
  rw [C126_train hin ht nc zero weightsFirst sched isort none (fun b hb name hname => by cases hb; cases hname) seed nt]
  intro ho
  obtain ⟨b, _, ho⟩ := bind_eq_ok.mp ho
  obtain ⟨forest, hforest, _⟩ := bind_eq_ok.mp ho
  have hfeat : name ∈ featuresOf c := by simp [featuresOf, hf]
  refine cliTrain_needs hin.listing hfeat ?_ b seed nt forest hforest
  rw [ht.cols name (by simp [Config.columns, hfeat])]
  unfold FlatDisk.columnOf
  rw [C128_refuted_type h hn hname hraw hstr]

end train

/-! ### Examples and witnesses -/

/-- A table with a number, a string and a target. -/
def convTable : List (List Text) := [["5".toList, "b".toList, "1".toList], ["?".toList, "a c".toList, "0".toList]]

def convHeader : List String := ["size", "color", "clicked"]

theorem convTable_plain : PlainTable convHeader convTable where
  names := by decide +kernel
  full := by decide +kernel
  cells := by
    have : ∀ row ∈ convTable, ∀ t ∈ row, '\n' ∉ t ∧ t.getLast? ≠ some '\r' ∧ t.head? ≠ some '#' := by decide +kernel
    exact this

/-- The files of the table. -/
def convDisk : FlatDisk ℚ where
  fmax := 1000
  parse := ratParse
  place := List.reverse
  files := fun name => ((convertTsv ["clicked"] ["color"] convHeader convTable).getD []).lookup name

theorem convDisk_converted : ConvertedTo ["clicked"] ["color"] convHeader convTable convDisk := ⟨_, rfl, rfl⟩

example : convertTsv ["clicked"] ["color"] convHeader convTable = some
    [("size", "# dtype=binned_floats\n5\n?\n".toList), ("color", "# dtype=strings\nb\na c\n".toList),
      ("clicked", "# dtype=raw_floats\n1\n0\n".toList)] := by decide +kernel

/-- **C128 for tables with short rows, refuted.** The converter takes rows that lack cells, and the cells of later rows move up: the
second cell of the second file comes from the third row. -/
theorem C128_refuted_rows : ¬ ∀ (rawFloats strings header : List String) (rows : List (List Text)) (files : List (String × Text)),
    header.Nodup → convertTsv rawFloats strings header rows = some files → ∀ name text, files.lookup name = some text →
      (text.filter (fun c => c = '\n')).length = rows.length + 1 := by
  intro h
  have := h [] ["a", "b"] ["a", "b"] [["1".toList, "x".toList], ["2".toList], ["3".toList, "z".toList]] _ (by decide) rfl "b"
    "# dtype=strings\nx\nz\n".toList (by decide +kernel)
  revert this
  decide +kernel

/-- A row with a cell too many is an error. -/
example : convertTsv [] ["a", "b"] ["a", "b"] [["1".toList, "x".toList, "y".toList]] = none := by decide

/-- Target and string are read back. -/
example : convDisk.column "clicked" = some (.raw ⟨.ok, [.num 1, .num 0]⟩) ∧ (convDisk.column "color").isSome := by
  constructor
  · exact (C128_partial convDisk_converted convTable_plain (i := 2) rfl (by decide)).2.1 (by decide)
  · rw [(C128_partial convDisk_converted convTable_plain (i := 1) rfl (by decide)).2.2 (by decide) (by decide)]
    rfl

/-- **C128 refuted.** -/
theorem C128_refuted : ¬ C128_full := by
  intro h
  have := h _ _ _ _ _ convDisk_converted convTable_plain "size" (by decide)
  rw [C128_refuted_type convDisk_converted convTable_plain.names (by decide) (by decide) (by decide)] at this
  cases this

/-- The hypotheses of `C128_refuted_train` hold of the table. -/
example : FlatInput convDisk cliMachine flatCfg 2 ∧ "size" ∈ flatCfg.floatFeature ∧ "size" ∈ convHeader := by
  refine ⟨⟨?_, fun s => List.reverse_perm s, fun l name => (cliMachine_perm l).mem_iff, by decide, columnOf_isSome_of (by decide +kernel),
    fun h => absurd rfl h, by decide +kernel⟩, by decide +kernel, by decide⟩
  intro name s hs
  have key : ∀ p ∈ (convertTsv ["clicked"] ["color"] convHeader convTable).getD [],
      (match loadFile (1000 : ℚ) ratParse p.2 with
        | .ok _ => true
        | _ => false) = true := by decide +kernel
  have := key _ (lookup_mem hs)
  simp only at this
  split at this
  · next c hc => exact ⟨c, hc⟩
  · cases this

end Gbdt
