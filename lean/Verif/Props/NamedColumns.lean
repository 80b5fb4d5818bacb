import Verif.Lemmas.NamedColumns
import Verif.Props.TsvPipeline

/-!
# C125: columns that are not named do not matter
-/

set_option autoImplicit false
set_option linter.unusedSectionVars false

namespace Gbdt

open Outcome

/-! ## From Python -/

section python
variable {D A : Type} [Dbl D] [LinearOrder A] [ThrOps A]

theorem lookup_keep {β : Type} {keep : String → Bool} {name : String} (h : keep name = true) :
    ∀ l : List (String × β), (l.filter (fun p => keep p.1)).lookup name = l.lookup name
  | [] => rfl
  | (n, b) :: l => by
    rw [List.filter_cons, List.lookup_cons]
    by_cases hn : name = n
    · subst hn
      simp [h]
    · have : (name == n) = false := by simpa using hn
      rw [this]
      simp only
      split
      · rw [List.lookup_cons, this]
        exact lookup_keep h l
      · exact lookup_keep h l

theorem namesOf_keep (keep : String → Bool) {features : List String} (h : ∀ name ∈ features, keep name = true) (ty : ColType) :
    ∀ t : DataStore A, ((DataStore.namesOf (t.filter (fun p => keep p.1)) ty).filter (fun n => features.contains n)) =
      (t.namesOf ty).filter (fun n => features.contains n)
  | [] => rfl
  | (n, c) :: t => by
    have ih := namesOf_keep keep h ty t
    unfold DataStore.namesOf at ih ⊢
    by_cases hk : keep n = true
    · rw [List.filter_cons_of_pos (by simpa using hk)]
      by_cases ht : (c.type == ty) = true
      · rw [List.filter_cons_of_pos (by simpa using ht), List.filter_cons_of_pos (by simpa using ht), List.map_cons, List.map_cons,
          List.filter_cons, List.filter_cons, ih]
      · rw [List.filter_cons_of_neg (by simpa using ht), List.filter_cons_of_neg (by simpa using ht), ih]
    · have hn : n ∉ features := fun hm => hk (h n hm)
      rw [List.filter_cons_of_neg (by simpa using hk), ih]
      by_cases ht : (c.type == ty) = true
      · rw [List.filter_cons_of_pos (l := t) (by simpa using ht), List.map_cons, List.filter_cons_of_neg (by simpa using hn)]
      · rw [List.filter_cons_of_neg (l := t) (by simpa using ht)]

theorem trainPyFull_named (mc : Machine D A) (hlist : ∀ l, ∀ name ∈ mc.listing l, name ∈ l) {t t' : DataStore A} {c : Config D}
    {fs : List String} {y : List (Fl A)} {base : Option (List (Tree D A))} (hrows : t.numRows = t'.numRows)
    (hf : ∀ name ∈ fs, t.getColumn name = t'.getColumn name) (hy : y = [] → t.getColumn c.targetColumn = t'.getColumn c.targetColumn)
    (hg : c.groupColumn ≠ "" → t.getColumn c.groupColumn = t'.getColumn c.groupColumn)
    (hb : ∀ name ∈ forestFeatures (base.getD []), t.getColumn name = t'.getColumn name) (he : t.getColumn "" = t'.getColumn "")
    (w : List (Fl A)) (seed nt : Int) :
    trainPyFull mc (some t) c y w base seed nt fs = trainPyFull mc (some t') c y w base seed nt fs := by
  have hw : ∀ l : List (Fl A), wrongLength (some t) l = wrongLength (some t') l := by
    intro l
    unfold wrongLength PyStore.len
    simp only [hrows]
  have hy' : trainPyTargets mc (some t) c y = trainPyTargets mc (some t') c y := by
    unfold trainPyTargets
    split
    · rfl
    · next h0 =>
      simp only [ne_eq, not_not] at h0
      simp only [DataStore.getRaw, hy h0]
  have hrun : ∀ wf yf, trainPyRun mc t c wf yf base seed nt fs = trainPyRun mc t' c wf yf base seed nt fs := by
    intro wf yf
    have key : ∀ k k' : ∀ S : Type, ((w y : Nat → D) → LossFunc S D) → Outcome (Except PyErr (List (Tree D A))),
        (∀ S loss, k S loss = k' S loss) → withLoss mc c seed nt k = withLoss mc c seed nt k' := by
      intro k k' h
      have : k = k' := by
        funext S loss
        exact h S loss
      rw [this]
    unfold trainPyRun
    rw [key]
    intro S loss
    split
    · rfl
    · rw [hrows]
      refine bind_congr_ok fun n _ => ?_
      rw [trainGBDT_named (env := mkEnv mc t n wf seed nt) (cols' := t'.getColumn) (loss := loss wf yf)]
      · rfl
      · rintro name ((h | h) | rfl)
        · exact hf name (hlist _ name h)
        · exact hb name h
        · exact he
      · exact hg
  unfold trainPyFull
  simp only [hw, hy', Option.getD_some, hrun]

/-- **C125 (train).** Removing columns from the store does not change what `train` does, as long as the features, the target and
group columns that are used, and the features of a base forest remain, and something is to be learned from.  (A base forest may have nodes with
children and without a split; they are read as splits on "".) -/
theorem C125_train (mc : Machine D A) (hlist : ∀ l, ∀ name ∈ mc.listing l, name ∈ l) {n : Nat} {t : DataStore A} (ht : GoodStore n t)
    (keep : String → Bool) {features : List String} (hf0 : features ≠ []) (hf : ∀ name ∈ features, keep name = true) {c : Config D}
    {y : List (Fl A)} (hy : y = [] → keep c.targetColumn = true) (hg : c.groupColumn ≠ "" → keep c.groupColumn = true)
    {base : Option (List (Tree D A))} (hb : ∀ name ∈ forestFeatures (base.getD []), keep name = true) (he : keep "" = true)
    (w : List (Fl A)) (seed nt : Int) :
    pyTrain mc (some (t.filter (fun p => keep p.1))) c y features w base seed nt = pyTrain mc (some t) c y features w base seed nt := by
  have hcol : ∀ name, keep name = true → DataStore.getColumn (t.filter (fun p => keep p.1)) name = t.getColumn name :=
    fun name h => lookup_keep h t
  unfold pyTrain
  simp only [namesOfType, namesOf_keep keep hf]
  by_cases hall : ∃ p ∈ t, p.1 ∈ features
  · obtain ⟨p, hp, hpf⟩ := hall
    refine if_congr Iff.rfl rfl ?_
    refine trainPyFull_named mc hlist ?_ (fun name h => hcol name ?_) (fun h => hcol _ (hy h)) (fun h => hcol _ (hg h))
      (fun name h => hcol name (hb name h)) (hcol _ he) w seed nt
    · have h1 : p ∈ t.filter (fun p => keep p.1) := List.mem_filter.mpr ⟨hp, hf _ hpf⟩
      rw [ht.numRows (List.ne_nil_of_mem hp), PyStore.numRows_of (n := n), if_neg (List.ne_nil_of_mem h1)]
      intro q hq
      exact PyStore.hasRows_size (ht.rows q (List.mem_filter.mp hq).1).hasRows
    · simp only [List.mem_append, List.mem_filter, List.contains_iff_mem] at h
      rcases h with h | h <;> exact hf name h.2
  · obtain ⟨name, hname⟩ := List.exists_mem_of_ne_nil _ hf0
    have hnone : ∀ ty, name ∉ t.namesOf ty := by
      intro ty h
      rw [DataStore.namesOf, List.mem_map] at h
      obtain ⟨p, hp, rfl⟩ := h
      exact hall ⟨p, (List.mem_filter.mp hp).1, hname⟩
    have hany : (features.any fun n => !(((t.namesOf .bucketized).filter (fun n => features.contains n)).contains n ||
        ((t.namesOf .string).filter (fun n => features.contains n)).contains n)) = true := by
      rw [List.any_eq_true]
      refine ⟨name, hname, ?_⟩
      simp [List.mem_filter, hnone]
    exact (if_pos hany).trans (if_pos hany).symm

/-- **C125 (predict).** Nor does it change the predictions of a forest whose features remain. -/
theorem C125_predict {n : Nat} {t : DataStore A} (ht : GoodStore n t) (keep : String → Bool) {forest : List (Tree D A)}
    (hf : ∀ name ∈ forestFeatures forest, keep name = true) (he : keep "" = true) (hne : t.filter (fun p => keep p.1) ≠ []) (nt : Int) :
    pyPredict (some (t.filter (fun p => keep p.1))) forest nt = pyPredict (some t) forest nt := by
  have h0 : t ≠ [] := by
    rintro rfl
    exact hne rfl
  have hrows : DataStore.numRows (t.filter (fun p => keep p.1)) = t.numRows := by
    rw [ht.numRows h0, PyStore.numRows_of (n := n), if_neg hne]
    intro q hq
    exact PyStore.hasRows_size (ht.rows q (List.mem_filter.mp hq).1).hasRows
  have hcol : AgreeOn (· ∈ forestFeatures forest) (DataStore.getColumn (t.filter (fun p => keep p.1))) t.getColumn := by
    rintro name (h | rfl)
    · exact lookup_keep (hf name h) t
    · exact lookup_keep he t
  simp only [pyPredict, hrows]
  cases t.numRows with
  | ok n =>
    simp only [evaluateForest_named hcol]
  | ub => rfl
  | fatal => rfl

end python

/-! ## The program on TSV files -/

section tsv
variable {D A N : Type} [Dbl D] [LinearOrder A] [ThrOps A]

/-- Two tables have the same cells under the header `name`, file by file and line by line; either may have it anywhere. -/
def SameCells (first : Text) (rest : List Text) (first' : Text) (rest' : List Text) (name : String) : Prop :=
  ∀ i i', IsColumn (headerNames first) name i → IsColumn (headerNames first') name i' →
    (linesPerFile (first :: rest)).map (·.map (cellAt i)) = (linesPerFile (first' :: rest')).map (·.map (cellAt i'))

theorem map_map_some_inj {α : Type} {a b : List (List α)} (h : a.map (·.map some) = b.map (·.map some)) : a = b :=
  (List.map_injective_iff.mpr (List.map_injective_iff.mpr (Option.some_injective _))) h

theorem holds_same {fmax : A} {parse : Text → Option (Fl A)} {contents contents' : List Text} {i i' : Nat} {k : ColType} {col col' : Option (Column A)}
    (e : (linesPerFile contents).map (·.map (cellAt i)) = (linesPerFile contents').map (·.map (cellAt i')))
    (h : Holds fmax parse contents i k col) (h' : Holds fmax parse contents' i' k col') : col = col' := by
  have e2 : (linesPerFile contents).map (·.map (fun l => (cellAt i l).bind (cellValue parse))) =
      (linesPerFile contents').map (·.map (fun l => (cellAt i' l).bind (cellValue parse))) := by
    have := congrArg (fun L : List (List (Option Text)) => L.map (·.map (fun o => o.bind (cellValue parse)))) e
    simpa only [List.map_map, Function.comp_def] using this
  cases k with
  | string =>
    obtain ⟨cols, h1, rfl⟩ := h
    obtain ⟨cols', h1', rfl⟩ := h'
    rw [h1, h1'] at e
    rw [map_map_some_inj e]
  | raw =>
    obtain ⟨cols, h1, rfl⟩ := h
    obtain ⟨cols', h1', rfl⟩ := h'
    rw [h1, h1'] at e2
    rw [map_map_some_inj e2]
  | bucketized =>
    obtain ⟨cols, b, h1, hb, rfl⟩ := h
    obtain ⟨cols', b', h1', hb', rfl⟩ := h'
    rw [h1, h1'] at e2
    rw [map_map_some_inj e2, hb'] at hb
    cases hb
    rfl

theorem load_same {fmax : A} {parse : Text → Option (Fl A)} {sched sched' : Nat → List Handle → List Handle} (hs : AnyOrder sched)
    (hs' : AnyOrder sched') {first first' : Text} {rest rest' : List Text} {config config' : TsvConfig} {t t' : DataStore A}
    (hn : (config.requests.map Prod.snd).Nodup) (hn' : (config'.requests.map Prod.snd).Nodup)
    (h : loadTSVs fmax parse sched ((first :: rest).map some) config = ok (.ok t))
    (h' : loadTSVs fmax parse sched' ((first' :: rest').map some) config' = ok (.ok t')) {name : String}
    (hk : config.kind name = config'.kind name) (hc : SameCells first rest first' rest' name) : t.getColumn name = t'.getColumn name := by
  cases hty : config.kind name with
  | none =>
    have h1 : t.getColumn name = none := by
      have := load_kind hs hn h name
      rw [hty, storeKind, Option.map_eq_none_iff] at this
      exact this
    have h2 : t'.getColumn name = none := by
      have := load_kind hs' hn' h' name
      rw [← hk, hty, storeKind, Option.map_eq_none_iff] at this
      exact this
    rw [h1, h2]
  | some ty =>
    obtain ⟨i, hi, h1⟩ := load_holds hs hn h (mem_of_kind hty)
    obtain ⟨i', hi', h1'⟩ := load_holds hs' hn' h' (mem_of_kind (hk ▸ hty))
    exact holds_same (hc i i' hi hi') h1 h1'

/-- The names of columns that training reads: the features, the columns of the configuration, the features of the base forest.  (Nodes of
a base forest with children and without a split are read as splits on "".) -/
def NamedIn (c : Config D) (base : List (Tree D A)) (name : String) : Prop :=
  name ∈ c.floatFeature ∨ name ∈ c.catFeature ∨ name = c.targetColumn ∨ name = c.weightColumn ∨ name = c.groupColumn ∨
    name ∈ forestFeatures base ∨ name = ""

/-- **C125 (the program, training).** The program writes the same model for two tables that have the same cells under the names that the
configuration and the base forest use, wherever they are in the lines and whatever else is in the tables or is asked for as
additional columns. -/
theorem C125_program_train (mc : Machine D A) (hlist : ∀ l, ∀ name ∈ mc.listing l, name ∈ l) (nc : NumCodec D A N) (zero : A) {fmax : A}
    {parse : Text → Option (Fl A)} {sched sched' : Nat → List Handle → List Handle} (hs : AnyOrder sched) (hs' : AnyOrder sched')
    (isort : List (String × D) → List (String × D)) {first first' : Text} {rest rest' : List Text} {c c' : CliConfig D} {t t' : DataStore A}
    (hn : (c.tsv.requests.map Prod.snd).Nodup) (hn' : (c'.tsv.requests.map Prod.snd).Nodup)
    (h : loadTSVs fmax parse sched ((first :: rest).map some) c.tsv = ok (.ok t))
    (h' : loadTSVs fmax parse sched' ((first' :: rest').map some) c'.tsv = ok (.ok t'))
    (hlines : (tableLines (first :: rest)).length < 2 ^ 31) (hcfg : c.train = c'.train) (htarget : c.train.targetColumn ≠ "")
    {base : Option (Option (Json N))}
    (hsame : ∀ b, loadBaseOrDie nc zero base = ok b → ∀ name, NamedIn c.train (b.getD []) name →
      c.tsv.kind name = c'.tsv.kind name ∧ SameCells first rest first' rest' name) (seed nt : Int) :
    cliTrainMain mc nc zero fmax parse sched isort ((first :: rest).map some) c base seed nt =
      cliTrainMain mc nc zero fmax parse sched' isort ((first' :: rest').map some) c' base seed nt := by
  have hl : loadStoreOrDie fmax parse sched ((first :: rest).map some) c = ok t := by
    simp only [loadStoreOrDie, List.map_cons] at h ⊢
    simp only [h, ok_bind]
  have hl' : loadStoreOrDie fmax parse sched' ((first' :: rest').map some) c' = ok t' := by
    simp only [loadStoreOrDie, List.map_cons] at h' ⊢
    simp only [h', ok_bind]
  simp only [cliTrainMain, hl, hl', ok_bind]
  refine bind_congr_ok fun b hb => ?_
  have hcol : ∀ name, NamedIn c.train (b.getD []) name → t.getColumn name = t'.getColumn name :=
    fun name hname => load_same hs hs' hn hn' h h' (hsame b hb name hname).1 (hsame b hb name hname).2
  have hreq : (ColType.raw, c.train.targetColumn) ∈ c.tsv.requests :=
    (C17_requested c.tsv _).2.1.mpr (Or.inr ⟨htarget, Or.inl rfl⟩)
  have hreq' : (ColType.raw, c.train.targetColumn) ∈ c'.tsv.requests :=
    (C17_requested c'.tsv _).2.1.mpr (Or.inr ⟨htarget, Or.inl (by rw [hcfg]; rfl)⟩)
  have hlen : (tableLines (first' :: rest')).length = (tableLines (first :: rest)).length := by
    obtain ⟨i, hi, _⟩ := load_holds hs hn h hreq
    obtain ⟨i', hi', _⟩ := load_holds hs' hn' h' hreq'
    have := (hsame b hb _ (Or.inr (Or.inr (Or.inl rfl)))).2 i i' hi hi'
    have := congrArg (fun L : List (List (Option Text)) => (L.map List.length).sum) this
    simpa [tableLines, List.length_flatten, Function.comp_def] using this.symm
  have hrows : t.numRows = t'.numRows := by
    rw [load_numRows hs hn h hlines (load_ne hs hn h (List.ne_nil_of_mem hreq)),
      load_numRows hs' hn' h' (hlen ▸ hlines) (load_ne hs' hn' h' (List.ne_nil_of_mem hreq')), hlen]
  rw [← hcfg, cliTrain_named mc hlist (t := t) (t' := t') (c := c.train) (base := b) ?_ ?_ ?_ ?_ hrows]
  · intro name hname
    simp only [featuresOf, List.mem_dedup, List.mem_append] at hname
    rcases hname with hname | hname
    · exact hcol name (Or.inl hname)
    · exact hcol name (Or.inr (Or.inl hname))
  · exact fun name hname => hcol name (Or.inr (Or.inr (Or.inr (Or.inr (Or.inr (Or.inl hname))))))
  · intro name hname _
    simp only [List.mem_cons, List.not_mem_nil, or_false] at hname
    refine hcol name ?_
    unfold NamedIn
    tauto
  · exact hcol "" (Or.inr (Or.inr (Or.inr (Or.inr (Or.inr (Or.inr rfl))))))

/-- **C125 (the program, testing).** The program writes the same scores for two tables of as many lines that have the same cells under the
names that the model uses, if the same of them are asked for. -/
theorem C125_program_test (nc : NumCodec D A N) (zero : A) {fmax : A}
    {parse : Text → Option (Fl A)} {sched sched' : Nat → List Handle → List Handle} (hs : AnyOrder sched) (hs' : AnyOrder sched')
    {first first' : Text} {rest rest' : List Text} {c c' : CliConfig D} {t t' : DataStore A}
    (hn : (c.tsv.requests.map Prod.snd).Nodup) (hn' : (c'.tsv.requests.map Prod.snd).Nodup)
    (hne : c.tsv.requests ≠ []) (hne' : c'.tsv.requests ≠ [])
    (h : loadTSVs fmax parse sched ((first :: rest).map some) c.tsv = ok (.ok t))
    (h' : loadTSVs fmax parse sched' ((first' :: rest').map some) c'.tsv = ok (.ok t'))
    (hlines : (tableLines (first :: rest)).length < 2 ^ 31)
    (hlen : (tableLines (first' :: rest')).length = (tableLines (first :: rest)).length) (hint : c.evalInterval = c'.evalInterval)
    {model : Option (Json N)}
    (hsame : ∀ forest, loadForestOrDie nc zero model = ok forest → ∀ name, (name ∈ forestFeatures forest ∨ name = "") →
      c.tsv.kind name = c'.tsv.kind name ∧ SameCells first rest first' rest' name) (nt : Int) :
    cliTestMain nc zero fmax parse sched ((first :: rest).map some) c model nt =
      cliTestMain nc zero fmax parse sched' ((first' :: rest').map some) c' model nt := by
  have hl : loadStoreOrDie fmax parse sched ((first :: rest).map some) c = ok t := by
    simp only [loadStoreOrDie, List.map_cons] at h ⊢
    simp only [h, ok_bind]
  have hl' : loadStoreOrDie fmax parse sched' ((first' :: rest').map some) c' = ok t' := by
    simp only [loadStoreOrDie, List.map_cons] at h' ⊢
    simp only [h', ok_bind]
  unfold cliTestMain
  refine bind_congr_ok fun forest hforest => ?_
  have hcol : AgreeOn (· ∈ forestFeatures forest) t.getColumn t'.getColumn := fun name hname =>
    load_same hs hs' hn hn' h h' (hsame forest hforest name hname).1 (hsame forest hforest name hname).2
  simp only [hl, hl', ok_bind, load_numRows hs hn h hlines (load_ne hs hn h hne),
    load_numRows hs' hn' h' (hlen ▸ hlines) (load_ne hs' hn' h' hne'), hlen, evaluateCheckpoints_named hcol, hint]

end tsv

/-! ## Examples -/

theorem sameCells_of {first first' : Text} {rest rest' : List Text} {name : String}
    (h : ∀ i < (headerNames first).length, ∀ i' < (headerNames first').length, (headerNames first)[i]? = some name →
      (headerNames first')[i']? = some name →
      (linesPerFile (first :: rest)).map (·.map (cellAt i)) = (linesPerFile (first' :: rest')).map (·.map (cellAt i'))) :
    SameCells first rest first' rest' name := fun i i' hi hi' =>
  h i (List.getElem?_eq_some_iff.mp hi.1).1 i' (List.getElem?_eq_some_iff.mp hi'.1).1 hi.1 hi'.1

/-- The training data of `trainTsvs` with the columns in another order, two more of them, and a blank line. -/
def widerTsvs : List Text :=
  ["city	clicked	 size	note	color
x	1	5	-	b
y	0	?	-	a

z	1	7	-	c
".toList, "x	0	9	!	b
y	0	9	!	c".toList]

/-- The configuration that asks for one of the other columns, too. -/
def widerConfig : CliConfig ℚ := { tsvCliConfig with additionalString := ["city"] }

/-- The hypotheses of `C125_program_train` hold of the two tables. -/
example : (tsvCliConfig.tsv.requests.map Prod.snd).Nodup ∧ (widerConfig.tsv.requests.map Prod.snd).Nodup ∧
    (match loadTSVs (1000 : ℚ) ratParse (fun _ l => l) (trainTsvs.map some) tsvCliConfig.tsv,
        loadTSVs (1000 : ℚ) ratParse (fun _ l => l.reverse) (widerTsvs.map some) widerConfig.tsv with
      | .ok (.ok _), .ok (.ok _) => true
      | _, _ => false) = true ∧
    (tableLines trainTsvs).length < 2 ^ 31 ∧ tsvCliConfig.train.targetColumn ≠ "" ∧
    ∀ name, NamedIn tsvCliConfig.train ([] : List (Tree ℚ ℚ)) name → tsvCliConfig.tsv.kind name = widerConfig.tsv.kind name ∧
      SameCells trainTsvs.head! trainTsvs.tail widerTsvs.head! widerTsvs.tail name := by
  refine ⟨by decide, by decide, by decide +kernel, lt_trans trainTsvs_few (by norm_num), by decide, ?_⟩
  intro name h
  have h4 : name ∈ ["size", "color", "clicked", ""] := by
    simp only [NamedIn, tsvCliConfig, cliCfg, forestFeatures, List.flatMap_nil, List.not_mem_nil, List.mem_cons, or_false, false_or] at h ⊢
    tauto
  have hk : ∀ name ∈ ["size", "color", "clicked", ""], tsvCliConfig.tsv.kind name = widerConfig.tsv.kind name := by decide +kernel
  have hc : ∀ name ∈ ["size", "color", "clicked", ""], ∀ i < (headerNames trainTsvs.head!).length, ∀ i' < (headerNames widerTsvs.head!).length,
      (headerNames trainTsvs.head!)[i]? = some name → (headerNames widerTsvs.head!)[i']? = some name →
      decide ((linesPerFile (trainTsvs.head! :: trainTsvs.tail)).map (·.map (cellAt i)) =
        (linesPerFile (widerTsvs.head! :: widerTsvs.tail)).map (·.map (cellAt i'))) = true := by decide +kernel
  exact ⟨hk name h4, sameCells_of (fun i hi i' hi' e e' => of_decide_eq_true (hc name h4 i hi i' hi' e e'))⟩

/-- Both give a model with trees, and the same one. -/
example : (match cliTrainMain ratMachine plainCodec 0 1000 ratParse (fun _ l => l) id (trainTsvs.map some) tsvCliConfig none 1 2,
      cliTrainMain ratMachine plainCodec 0 1000 ratParse (fun _ l => l.reverse) id (widerTsvs.map some) widerConfig none 1 2 with
    | .ok (_, fimps), .ok (_, fimps') => decide (fimps = fimps' ∧ fimps ≠ [])
    | _, _ => false) = true := by decide +kernel

/-- A store of five columns, of which a training with one feature and its own targets needs one. -/
example {t : DataStore ℚ} (ht : pyDict id = ok (.ok (some t))) (y w : List (Fl ℚ)) (hy : y ≠ []) :
    pyTrain ratMachine (some (t.filter (fun p => p.1 == "size" || p.1 == ""))) pyCfg y ["size"] w none 1 2 =
      pyTrain ratMachine (some t) pyCfg y ["size"] w none 1 2 :=
  C125_train ratMachine (fun l name h => (l.reverse_perm.mem_iff).mp h) (pyDict_store ht).1 (fun n => n == "size" || n == "") (by simp) (by simp)
    (fun h => absurd h hy) (fun h => absurd rfl h) (by simp [forestFeatures]) (by simp) w 1 2

end Gbdt
