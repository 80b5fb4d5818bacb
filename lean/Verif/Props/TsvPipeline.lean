import Verif.Model.Cli
import Verif.Props.Checkpoints
import Verif.Props.Json
import Verif.Props.OtherStore
import Verif.Props.PipelineCli
import Verif.Props.TsvLoad

/-!
# C119: from TSV files to predictions
-/

set_option autoImplicit false
set_option linter.unusedSectionVars false

namespace Gbdt

open Outcome

/-! ## Specification -/

section spec
variable {A : Type} [LinearOrder A]

/-- The data lines of all files, in order. -/
def tableLines (contents : List Text) : List Text := (linesPerFile contents).flatten

/-- The type that a column is asked to have, if it is asked for. -/
def TsvConfig.kind (c : TsvConfig) (name : String) : Option ColType := (c.requests.find? (fun r => r.2 == name)).map Prod.fst

/-- `row` says what the line has in the numeric and string columns that are asked for: under the last header of that name, strings as
they are and numbers as they are parsed. -/
def LineShows (parse : Text → Option (Fl A)) (headers : List String) (kind : String → Option ColType) (l : Text)
    (row : String → Option (Cell A)) : Prop :=
  ∀ name i, IsColumn headers name i →
    (kind name = some .bucketized → row name = ((cellAt i l).bind (cellValue parse)).map Cell.num) ∧
    (kind name = some .string → row name = (cellAt i l).map (fun s => Cell.str (String.ofList s)))

/-- No number in a numeric feature is above `FLT_MAX`. -/
def NoHuge (fmax : A) (parse : Text → Option (Fl A)) (contents : List Text) (c : TsvConfig) : Prop :=
  ∀ name ∈ c.floatFeature, ∀ first, contents.head? = some first → ∀ i, IsColumn (headerNames first) name i →
    ∀ l ∈ tableLines contents, ∀ v, (cellAt i l).bind (cellValue parse) = some (.num v) → v ≤ fmax

end spec

/-! ## The loaded store -/

section store
variable {A : Type} [LinearOrder A]

theorem storeOf_keys (heap : List (Option (Column A))) (m : List (String × Nat)) :
    ((storeOf heap m).map Prod.fst).Sublist (m.map Prod.fst) := by
  induction m with
  | nil => exact .slnil
  | cons p m ih =>
    simp only [storeOf]
    split
    · exact ih.cons_cons _
    · exact ih.cons _

/-- The names of a loaded store are names asked for. -/
theorem load_keys {fmax : A} {parse : Text → Option (Fl A)} {sched : Nat → List Handle → List Handle} {files : List (Option Text)}
    {config : TsvConfig} {t : DataStore A} (hn : (config.requests.map Prod.snd).Nodup)
    (h : loadTSVs fmax parse sched files config = ok (.ok t)) :
    (t.map Prod.fst).Sublist (config.requests.map Prod.snd).reverse := by
  unfold loadTSVs at h
  cases files with
  | nil => cases h
  | cons f fs =>
    simp only at h
    cases hset : (setupColumns f config : Except Code (Setup A)) with
    | error e => rw [hset] at h; cases h
    | ok s =>
      rw [hset] at h
      simp only [bind_eq_ok] at h
      obtain ⟨r, hp, h⟩ := h
      cases r with
      | error e => cases h
      | ok heap =>
        simp only [bind_eq_ok] at h
        obtain ⟨heap1, hfin, st, hst, h⟩ := h
        split at h
        · cases h
        · cases h
          cases f with
          | none => cases hset
          | some first =>
            simp only [setupColumns] at hset
            have inv := setupInv_fold _ _ _ _ (setupInv_nil _) (by simpa using hn) hset
            rw [List.nil_append] at inv
            have := storeOf_keys heap1 s.map
            rw [inv.map] at this
            have e : ((config.requests.zipIdx.map (fun p => (p.1.2, p.2))).reverse.map Prod.fst) =
                (config.requests.map Prod.snd).reverse := by
              rw [List.map_reverse, List.map_map]
              congr 1
              apply List.ext_getElem <;> simp
            rwa [inv.map, ← e]

theorem kind_of_mem {config : TsvConfig} (hn : (config.requests.map Prod.snd).Nodup) {r : ColType × String}
    (hr : r ∈ config.requests) : config.kind r.2 = some r.1 := by
  unfold TsvConfig.kind
  generalize config.requests = l at hn hr
  induction l with
  | nil => cases hr
  | cons q l ih =>
    rw [List.map_cons, List.nodup_cons] at hn
    rcases List.mem_cons.mp hr with rfl | hr
    · simp
    · have : (q.2 == r.2) = false := by
        rw [beq_eq_false_iff_ne]
        intro e
        exact hn.1 (by rw [e]; exact List.mem_map_of_mem hr)
      rw [List.find?_cons, this]
      exact ih hn.2 hr

theorem mem_of_kind {config : TsvConfig} {name : String} {ty : ColType} (h : config.kind name = some ty) :
    (ty, name) ∈ config.requests := by
  unfold TsvConfig.kind at h
  obtain ⟨r, hr, rfl⟩ := Option.map_eq_some_iff.mp h
  have h1 := List.mem_of_find?_eq_some hr
  have h2 := List.find?_some hr
  simp only [beq_iff_eq] at h2
  subst h2
  exact h1

theorem holds_length {α β : Type} {f : α → Option β} {ls : List (List α)} {cols : List (List β)}
    (h : ls.map (·.map f) = cols.map (·.map some)) : cols.flatten.length = ls.flatten.length := by
  have := congrArg List.length (flatten_of_map_map h)
  simp only [List.length_map] at this
  exact this.symm

theorem holds_get {α β : Type} {f : α → Option β} {ls : List (List α)} {cols : List (List β)}
    (h : ls.map (·.map f) = cols.map (·.map some)) {j : Nat} {l : α} (hj : ls.flatten[j]? = some l) :
    ∃ v, f l = some v ∧ cols.flatten[j]? = some v := by
  have e := congrArg (fun x => x[j]?) (flatten_of_map_map h)
  simp only [List.getElem?_map, hj, Option.map_some] at e
  cases hc : cols.flatten[j]? with
  | none => rw [hc] at e; cases e
  | some v =>
    rw [hc] at e
    simp only [Option.map_some, Option.some.injEq] at e
    exact ⟨v, e, rfl⟩

variable {fmax : A} {parse : Text → Option (Fl A)} {sched : Nat → List Handle → List Handle} (hs : AnyOrder sched)
  {first : Text} {rest : List Text} {config : TsvConfig} {t : DataStore A} (hn : (config.requests.map Prod.snd).Nodup)
  (h : loadTSVs fmax parse sched ((first :: rest).map some) config = ok (.ok t))
include hs hn h

/-- A column of the store is one that was asked for. -/
theorem load_asked {name : String} {c : Column A} (hc : t.getColumn name = some c) : ∃ r ∈ config.requests, r.2 = name := by
  have hm : name ∈ t.map Prod.fst := by
    have := mem_of_lookup_eq (l := t) hc
    exact List.mem_map_of_mem (f := Prod.fst) this
  have := (load_keys hn h).subset hm
  rw [List.mem_reverse, List.mem_map] at this
  exact this

theorem load_nodup : (t.map Prod.fst).Nodup := (load_keys hn h).nodup (List.nodup_reverse.mpr hn)

theorem load_length : t.length ≤ config.requests.length := by
  have := (load_keys hn h).length_le
  simpa using this

theorem load_kind (name : String) : storeKind t name = config.kind name := by
  cases hk : config.kind name with
  | none =>
    cases hc : t.getColumn name with
    | none => rw [storeKind, hc]; rfl
    | some c =>
      obtain ⟨r, hr, rfl⟩ := load_asked hs hn h hc
      rw [kind_of_mem hn hr] at hk
      cases hk
  | some ty =>
    obtain ⟨i, _, hh⟩ := load_holds hs hn h (mem_of_kind hk)
    cases ty with
    | string => obtain ⟨cols, _, e⟩ := hh; simp only [storeKind, e]; rfl
    | raw => obtain ⟨cols, _, e⟩ := hh; simp only [storeKind, e]; rfl
    | bucketized => obtain ⟨cols, c, _, _, e⟩ := hh; simp only [storeKind, e]; rfl

/-- The loaded columns have a row for every data line. -/
theorem load_rows (hsize : (tableLines (first :: rest)).length < 2 ^ 31) {name : String} {c : Column A}
    (hc : t.getColumn name = some c) : HasRows (tableLines (first :: rest)).length c := by
  obtain ⟨⟨ty, _⟩, hr, rfl⟩ := load_asked hs hn h hc
  obtain ⟨i, _, hh⟩ := load_holds hs hn h hr
  simp only at hh hc
  rw [hc] at hh
  cases ty with
  | string =>
    obtain ⟨cols, e, e2⟩ := hh
    cases e2
    refine HasRows.str _ ?_ (by omega)
    rw [← List.map_flatten, List.length_map, holds_length e]
    rfl
  | raw =>
    obtain ⟨cols, e, e2⟩ := hh
    cases e2
    refine HasRows.raw _ ?_
    show u32 cols.flatten.length = _
    rw [holds_length e]
    exact Nat.mod_eq_of_lt (lt_trans hsize (by norm_num))
  | bucketized =>
    obtain ⟨cols, b, e, hb, e2⟩ := hh
    cases e2
    exact HasRows.bkt fmax 30000 cols b (holds_length e) (by omega) (by norm_num) hb

theorem load_trainRows (hsize : (tableLines (first :: rest)).length < 2 ^ 31) (hfin : NoHuge fmax parse (first :: rest) config)
    {name : String} {c : Column A} (hc : t.getColumn name = some c) : TrainRows (tableLines (first :: rest)).length c := by
  obtain ⟨⟨ty, nm⟩, hr, rfl⟩ := load_asked hs hn h hc
  have hrows := load_rows hs hn h hsize hc
  obtain ⟨i, hi, hh⟩ := load_holds hs hn h hr
  simp only at hh hc hi
  rw [hc] at hh
  cases ty with
  | string =>
    obtain ⟨cols, e, e2⟩ := hh
    cases e2
    refine TrainRows.str _ ?_ (by omega)
    rw [← List.map_flatten, List.length_map, holds_length e]
    rfl
  | raw =>
    obtain ⟨cols, e, e2⟩ := hh
    cases e2
    refine TrainRows.raw _ ?_
    show u32 cols.flatten.length = _
    rw [holds_length e]
    exact Nat.mod_eq_of_lt (lt_trans hsize (by norm_num))
  | bucketized =>
    obtain ⟨cols, b, e, hb, e2⟩ := hh
    cases e2
    refine TrainRows.bkt fmax 30000 cols b (holds_length e) (by omega) (by norm_num) hb ?_
    intro v hv
    obtain ⟨j, hj⟩ := List.mem_iff_getElem?.mp hv
    have hjl : j < (tableLines (first :: rest)).length := by
      have := (List.getElem?_eq_some_iff.mp hj).1
      rw [holds_length e] at this
      exact this
    obtain ⟨w, hw, hw'⟩ := holds_get e (List.getElem?_eq_getElem hjl)
    rw [hj] at hw'
    cases hw'
    exact hfin nm (mem_requests_bucketized.mp hr) first rfl i hi _ (List.getElem_mem hjl) v hw

theorem load_good (hsize : (tableLines (first :: rest)).length < 2 ^ 31) (hfin : NoHuge fmax parse (first :: rest) config) :
    GoodStore (tableLines (first :: rest)).length t where
  names := load_nodup hs hn h
  rows := fun p hp => load_trainRows hs hn h hsize hfin (name := p.1) ((DataStore.get_some (load_nodup hs hn h) _ _).mpr hp)

theorem load_numRows (hsize : (tableLines (first :: rest)).length < 2 ^ 31) (hne : t ≠ []) :
    t.numRows = ok (tableLines (first :: rest)).length := by
  rw [PyStore.numRows_of (fun p hp => PyStore.hasRows_size (load_rows hs hn h hsize (name := p.1)
    ((DataStore.get_some (load_nodup hs hn h) _ _).mpr hp))), if_neg hne]

/-- Scoring sees the cells of the lines, if they are few. -/
theorem load_sees (hsmall : (tableLines (first :: rest)).length < 60000) {name : String} {ty : ColType} (hk : config.kind name = some ty)
    (hty : ty ≠ .raw) {j : Nat} {l : Text} (hj : (tableLines (first :: rest))[j]? = some l) {row : String → Option (Cell A)}
    (hrow : LineShows parse (headerNames first) config.kind l row) :
    ∃ c x, t.getColumn name = some c ∧ row name = some x ∧ ColSees c j x := by
  obtain ⟨i, hi, hh⟩ := load_holds hs hn h (mem_of_kind hk)
  simp only at hh hi
  cases ty with
  | raw => exact absurd rfl hty
  | string =>
    obtain ⟨cols, e, e2⟩ := hh
    obtain ⟨s, hs1, hs2⟩ := holds_get e hj
    refine ⟨_, .str (String.ofList s), e2, by rw [(hrow name i hi).2 hk, hs1]; rfl, ?_⟩
    have hfl : (cols.map (·.map String.ofList)).flatten = cols.flatten.map String.ofList := by rw [List.map_flatten]
    have hlen : cols.flatten.length < 60000 := by rw [holds_length e]; exact hsmall
    have hjl := (List.getElem?_eq_some_iff.mp hs2).1
    have hr := (C01_string_roundtrip (cols.map (·.map String.ofList)) (by rw [hfl, List.length_map]; omega)).2 j
      (by rw [hfl, List.length_map]; exact hjl)
    show (StrCol.build _).rowString j = _
    rw [hr]
    congr 1
    rw [List.getElem_of_eq hfl, List.getElem_map, (List.getElem?_eq_some_iff.mp hs2).2]
  | bucketized =>
    obtain ⟨cols, b, e, hb, e2⟩ := hh
    obtain ⟨s, hs1, hs2⟩ := holds_get e hj
    refine ⟨_, .num s, e2, by rw [(hrow name i hi).1 hk, hs1]; rfl, ?_⟩
    have hlen : cols.flatten.length < 60000 := by rw [holds_length e]; exact hsmall
    have hf : Fits 30000 cols := ⟨by omega, by norm_num⟩
    have hjl := (List.getElem?_eq_some_iff.mp hs2).1
    have hm := (C03_missing_iff_nan hf hb).2 j hjl
    rw [(List.getElem?_eq_some_iff.mp hs2).2] at hm
    cases s with
    | nan => show b.ints.missing j = ok true; simpa using hm
    | num a => exact ⟨by simpa using hm, (C07_few_values_exact hf hb (by omega) hs2).2⟩

theorem load_ne (hreq : config.requests ≠ []) : t ≠ [] := by
  obtain ⟨r, hr⟩ := List.exists_mem_of_ne_nil _ hreq
  have := load_kind hs hn h r.2
  rintro rfl
  rw [kind_of_mem hn hr] at this
  cases this

theorem load_hasKinds : HasKinds t.getColumn config.kind := by
  intro name ty hk
  rw [← load_kind hs hn h name, storeKind] at hk
  exact Option.map_eq_some_iff.mp hk

omit hs hn h in
/-- The score of a row is the value of the forest, if scoring sees the values of the row. -/
theorem scores_forestValue {D : Type} [Dbl D] {columns : String → Option (Column A)} {forest : List (Tree D A)} {i : Nat}
    {row : String → Option (Cell A)}
    (hrow : ∀ name ∈ forestFeatures forest, ∃ c x, columns name = some c ∧ row name = some x ∧ ColSees c i x) {xs : List D}
    (hx : forest.mapM (fun tr => scoreOf columns tr i) = some xs) : forestValue row forest = some (sumScores xs) := by
  have hcongr : ∀ (l : List (Tree D A)), (∀ tr ∈ l, tr ∈ forest) →
      l.mapM (fun tr => scoreOf columns tr i) = l.mapM (treeValue row) := by
    intro l
    induction l with
    | nil => intro _; rfl
    | cons tr l ih =>
      intro hm
      rw [List.mapM_cons, List.mapM_cons, ih (fun x hx => hm x (List.mem_cons_of_mem _ hx)),
        scoreOf_treeValue tr (row := row) (fun name hn => hrow name (by
          rw [forestFeatures, List.mem_flatMap]; exact ⟨tr, hm tr (List.mem_cons_self ..), hn⟩))]
  rw [forestValue, ← hcongr forest (fun _ h => h), hx]
  rfl

theorem load_usable {D : Type} [Dbl D] {forest : List (Tree D A)} (hf : ∀ tr ∈ forest, TypedTree config.kind tr) :
    UsableForest t forest where
  features := by
    intro name hname
    rw [forestFeatures, List.mem_flatMap] at hname
    obtain ⟨tr, htr, hname⟩ := hname
    rcases (hf tr htr).feature hname with h' | h' <;> obtain ⟨c, hc, _⟩ := load_hasKinds hs hn h _ _ h' <;> rw [hc] <;> simp
  scorable := fun tr htr => (hf tr htr).scorable (load_hasKinds hs hn h)

/-- What evaluating a forest on a loaded store gives. -/
theorem load_evaluate {D : Type} [Dbl D] (hsmall : (tableLines (first :: rest)).length < 60000)
    {forest : List (Tree D A)} (hf : ∀ tr ∈ forest, TypedTree config.kind tr) {nt : Int} (hnt : 0 < nt) :
    ∃ scores, evaluateForest t.getColumn (tableLines (first :: rest)).length nt forest = ok (.ok, some scores) ∧
      scores.length = (tableLines (first :: rest)).length ∧
      ∀ (j : Nat) (l : Text), (tableLines (first :: rest))[j]? = some l → ∀ row, LineShows parse (headerNames first) config.kind l row →
        ∃ x, scores[j]? = some x ∧ forestValue row forest = some x := by
  have hu := load_usable hs hn h hf
  obtain ⟨scores, h1, h2, h3⟩ := C37_prediction (columns := t.getColumn)
    (fun name c hc => load_rows hs hn h (by omega) hc) hnt forest hu.features hu.scorable
  refine ⟨scores, h1, h2, ?_⟩
  intro j l hj row hrow
  obtain ⟨xs, k1, k2⟩ := h3 j (List.getElem?_eq_some_iff.mp hj).1
  refine ⟨_, k2, scores_forestValue (fun name hname => ?_) k1⟩
  rw [forestFeatures, List.mem_flatMap] at hname
  obtain ⟨tr, htr, hname⟩ := hname
  rcases (hf tr htr).feature hname with h' | h' <;> exact load_sees hs hn h hsmall h' (by decide) hj hrow

end store

/-! ## Small files -/

section small
variable {A : Type} [LinearOrder A]

theorem sampleOf_length (nb : Nat) : ∀ (bs : List (List (Fl A))) (acc : List (Fl A)),
    (sampleOf nb acc bs).length ≤ acc.length + bs.flatten.length
  | [], acc => by simp [sampleOf]
  | b :: bs, acc => by
    rw [sampleOf]
    split
    · simp
    · have := sampleOf_length nb bs (acc ++ b)
      simp only [List.length_append, List.flatten_cons] at this ⊢
      omega

theorem linesPerFile_append (a b : List Text) :
    ∃ x, linesPerFile (a ++ b) = linesPerFile a ++ x := by
  refine ⟨(b.zipIdx a.length).map (fun p => dataLines p.1 (p.2 == 0)), ?_⟩
  simp only [linesPerFile, List.zipIdx_append, List.map_append, Nat.zero_add]

/-- With fewer than 29999 data lines no bucket construction crashes. -/
theorem noBucketCrash_of_few (fmax : A) (parse : Text → Option (Fl A)) {contents : List Text} (config : TsvConfig)
    (h : (tableLines contents).length < 29999) : NoBucketCrash fmax parse (contents.map some) config := by
  intro name _ first rest i cols hpre hi hcols
  obtain ⟨tail, ht⟩ := hpre
  obtain ⟨l2, rfl⟩ : ∃ l2 : List Text, contents = (first :: rest) ++ l2 := by
    obtain ⟨l1, l2, h1, h2, h3⟩ := List.map_eq_append_iff.mp ht.symm
    have : first :: rest = l1 := ((List.map_injective_iff.mpr (Option.some_injective _)) h2).symm
    exact ⟨l2, by rw [this, h1]⟩
  obtain ⟨x, hx⟩ := linesPerFile_append (first :: rest) l2
  rw [tableLines, hx, List.flatten_append, List.length_append] at h
  have hlen := holds_length hcols
  refine (C08_crash_iff_partial fmax 30000 cols ⟨by omega, by norm_num⟩).2 ?_
  have hs := sampleOf_length 30000 cols ([] : List (Fl A))
  rw [not_or]
  refine ⟨by norm_num, ?_⟩
  intro e
  have h1 := Finset.card_filter_le (sampleOf 30000 [] cols).toFinset
    (fun v => v ≠ Fl.nan ∧ max 1 ((sampleOf 30000 [] cols).length / 30000) ≤ (sampleOf 30000 [] cols).count v)
  have h2 := List.toFinset_card_le (sampleOf 30000 ([] : List (Fl A)) cols)
  simp only [List.length_nil, Nat.zero_add] at hs
  omega

end small

/-! ## Training from the command line -/

section trained
variable {D A : Type} [Dbl D] [FpOrder D] [EqOrder D] [LinearOrder A] [ThrOps A]

/-- The configuration as the command line reads it: a sampling rate that is not written is 0. -/
def Config.asWritten (c : Config D) : Config D :=
  { c with exampleRate := some (c.exampleRate.getD 0), featureRate := some (c.featureRate.getD 0) }

theorem weights_cases (mc : Machine D A) (c : Config D) (t : DataStore A) :
    sampleWeightsOrDie mc c t = fatal ∨ ∃ w, sampleWeightsOrDie mc c t = ok w := by
  unfold sampleWeightsOrDie
  split
  · exact Or.inr ⟨_, rfl⟩
  · split
    · exact Or.inl rfl
    · exact Or.inr ⟨_, rfl⟩

theorem targets_cases (mc : Machine D A) (c : Config D) (t : DataStore A) :
    targetsOrDie mc c t = fatal ∨ ∃ y col, targetsOrDie mc c t = ok y ∧ t.getRaw c.targetColumn = some col := by
  unfold targetsOrDie
  split
  · exact Or.inl rfl
  · split
    · exact Or.inl rfl
    · next col hcol =>
      split
      · exact Or.inr ⟨_, col, rfl, hcol⟩
      · exact Or.inr ⟨_, col, rfl, hcol⟩

/-- What training on the command line comes down to: the process ends, or a successful run of `TrainGBDT`. -/
theorem cliTrain_cases {mc : Machine D A} {t : DataStore A} {n : Nat} {c : Config D} {base : Option (List (Tree D A))}
    {nt : Int} (hi : PyInput mc t n c.asWritten base nt) (hlen : (featuresOf c).length < 2 ^ 31) (seed : Int) :
    cliTrain mc t c base seed nt = fatal ∨
    ∃ (wf yf : Nat → D) (e : PointLoss D) (r : TrainResult D A), t ≠ [] ∧
      cliTrain mc t c base seed nt = ok r.forest ∧ r.code = .ok ∧ PointOf mc c.asWritten nt wf yf e ∧
      TrainStore (mkEnv mc t n wf seed nt) (mc.listing (featuresOf c)) (c.asWritten.train mc (mc.ofNat 1)) (base.getD []) ∧
      trainGBDT (mkEnv mc t n wf seed nt) e.toLoss (mc.listing (featuresOf c)) (c.asWritten.train mc (mc.ofNat 1)) base [] 0 = ok r := by
  obtain ⟨e, he, hw⟩ := withLoss_point mc seed nt hi.loss
  have hw' : ∀ k : ∀ S : Type, ((w y : Nat → D) → LossFunc S D) → Outcome (List (Tree D A)), withLoss mc c seed nt k = withLoss mc c.asWritten seed nt k := fun _ => rfl
  unfold cliTrain
  rw [hw', hw]
  simp only
  rcases weights_cases mc c t with h | ⟨w, h⟩
  · rw [h]; exact Or.inl rfl
  rw [h, ok_bind]
  rcases targets_cases mc c t with h | ⟨y, col, h, hcol⟩
  · rw [h]; exact Or.inl rfl
  rw [h, ok_bind]
  have hne : t ≠ [] := by
    rintro rfl
    cases hcol
  rw [hi.store.numRows hne, ok_bind]
  have hlen' : (mc.listing (featuresOf c)).length < 2 ^ 31 := by rw [(hi.machine.listing _).length_eq]; exact hlen
  obtain ⟨r, hr, hcode⟩ := hi.run w seed (names := mc.listing (featuresOf c)) hlen' (he w y).numThreads
  have htr : c.train mc 0 = c.asWritten.train mc (mc.ofNat 1) := rfl
  rw [htr, hr, ok_bind]
  by_cases hok : r.code = .ok
  · right
    rw [if_pos hok]
    refine ⟨w, y, e w y, r, hne, rfl, hok, he w y, hi.trainStore w seed hlen' ?_, hr⟩
    by_contra hc
    have hr' : trainGBDT (mkEnv mc t n w seed nt) (e w y).toLoss (mc.listing (featuresOf c)) (c.asWritten.train mc (mc.ofNat 1)) base [] 0 =
        ok ⟨checkConfig (mc.ofNat 1) (c.asWritten.train mc (mc.ofNat 1)), [], [], 0⟩ := by
      unfold trainGBDT
      exact if_pos hc
    rw [hr', Outcome.ok.injEq] at hr
    subst hr
    exact hc hok
  · left
    rw [if_neg hok]

/-- A forest trained on the command line: it is not empty, fits the types of the columns, and can be written as JSON and read again. -/
theorem cliTrain_forest {mc : Machine D A} {t : DataStore A} {n : Nat} {c : Config D} {base : Option (List (Tree D A))}
    {nt : Int} (hi : PyInput mc t n c.asWritten base nt) (hlen : (featuresOf c).length < 2 ^ 31) {seed : Int}
    (hfeat : ∀ name ∈ featuresOf c, ∀ col, t.getColumn name = some col → col.type ≠ .raw)
    (hbase : ∀ tr ∈ base.getD [], TypedTree (storeKind t) tr)
    {limit : Nat} (hleaves : 0 < limit ∧ c.numLeaves < limit) (hnest : ∀ tr ∈ base.getD [], treeNesting tr ≤ limit)
    {forest : List (Tree D A)} (h : cliTrain mc t c base seed nt = ok forest) :
    forest ≠ [] ∧ (∀ tr ∈ forest, TypedTree (storeKind t) tr) ∧ ∀ tr ∈ forest, tr ≠ .absent ∧ treeNesting tr ≤ limit := by
  rcases cliTrain_cases hi hlen seed with h' | ⟨wf, yf, e, r, hne, h1, hok, he, hs, hr⟩
  · rw [h] at h'; cases h'
  · rw [h, Outcome.ok.injEq] at h1
    subst h1
    have hd := pointTrainData hs (e := e) (he.numThreads ▸ hi.threads)
    refine ⟨?_, ?_, ?_⟩
    · obtain ⟨fitted, constants, g1, _⟩ := C39_function_values hd hr hok
      rw [g1]
      simp
    · obtain ⟨fitted, constants, g1, _, _, _, g5, _⟩ := C39_function_values hd hr hok
      intro tr htr
      rw [g1] at htr
      rcases List.mem_cons.mp htr with rfl | htr
      · exact ⟨fun _ => rfl, fun s hs => (by cases hs), trivial, trivial⟩
      · obtain ⟨t0, ht0, rfl⟩ := List.mem_map.mp htr
        rcases List.mem_append.mp ht0 with ht0 | ht0
        · exact (hbase t0 (List.mem_of_mem_filter ht0)).clear
        · refine WellFormed.typed (columns := t.getColumn) ?_ (g5 t0 ht0).2.2
          rintro s ⟨_, hs', col, hc, hfit⟩
          exact ⟨col, hc, hfit, hfeat _ ((hi.machine.listing _).mem_iff.mp hs') col hc⟩
    · obtain ⟨k, trees, g1, _, g3⟩ := C40_shape hd hr hok
      intro tr htr
      rw [g1] at htr
      rcases List.mem_cons.mp htr with rfl | htr
      · refine ⟨by simp, ?_⟩
        simp only [treeNesting]
        omega
      · rcases List.mem_append.mp htr with htr | htr
        · obtain ⟨t0, ht0, rfl⟩ := List.mem_map.mp htr
          have hm := List.mem_filter.mp ht0
          refine ⟨clearInternal_set ?_, (nesting_clearInternal t0).trans (hnest t0 hm.1)⟩
          rintro rfl
          simp [isSingleNode] at hm
        · obtain ⟨a1, a2, a3, a4⟩ := g3 tr htr
          refine ⟨?_, ?_⟩
          · rintro rfl; exact a4
          · have := (nesting_le_leaves tr a4 a1).1
            simp only [Config.train, Config.asWritten] at a3
            omega

/-- What is assumed of a call with `--mode=train`: no column is named twice; the training data are not too large, without numbers above
`FLT_MAX` and without the crash of C08; a loss that looks at one row at a time; fewer than 64 leaves; and a base model, if any, whose
splits fit the types of the columns named in the configuration.  Whether the files exist and can be read is open. -/
structure CliInput {N : Type} (mc : Machine D A) (nc : NumCodec D A N) (zero fmax : A) (parse : Text → Option (Fl A))
    (sched : Nat → List Handle → List Handle) (files : List (Option Text)) (c : CliConfig D) (base : Option (Option (Json N)))
    (nt : Int) : Prop where
  machine : MachineOk mc
  codec : nc.Exact
  order : AnyOrder sched
  names : (c.tsv.requests.map Prod.snd).Nodup
  columnCount : c.tsv.requests.length < 2 ^ 31
  lines : ∀ contents, files = contents.map some → (tableLines contents).length < 2 ^ 31 ∧ NoHuge fmax parse contents c.tsv
  buckets : NoBucketCrash fmax parse files c.tsv
  loss : c.train.lossFunc ∈ ["mse", "logloss", "huberized_hinge"]
  exampleRate : NotNaN (c.train.exampleRate.getD 0)
  featureRate : NotNaN (c.train.featureRate.getD 0)
  threads : 0 < nt
  leaves : c.train.numLeaves < 64
  base : ∀ j f, base = some (some j) → forestFromJson nc zero 100 j = .ok f →
    ∀ tr ∈ f.trees, TypedTree c.tsv.kind tr ∧ treeNesting tr ≤ 64

theorem featuresOf_kind {c : CliConfig D} (hn : (c.tsv.requests.map Prod.snd).Nodup) {name : String} (h : name ∈ featuresOf c.train) :
    c.tsv.kind name = some .bucketized ∨ c.tsv.kind name = some .string := by
  rw [featuresOf, List.mem_dedup, List.mem_append] at h
  rcases h with h | h
  · exact Or.inl (kind_of_mem hn (r := (.bucketized, name)) ((C17_requested c.tsv name).1.mpr h))
  · exact Or.inr (kind_of_mem hn (r := (.string, name)) ((C17_requested c.tsv name).2.2.mpr (Or.inl h)))

theorem featuresOf_length (c : CliConfig D) : (featuresOf c.train).length ≤ c.tsv.requests.length := by
  refine ((List.dedup_sublist _).length_le).trans ?_
  simp only [TsvConfig.requests, CliConfig.tsv, List.length_append, List.length_map]
  omega

/-- The store that the command line trains on is as training needs it. -/
theorem CliInput.input {N : Type} {mc : Machine D A} {nc : NumCodec D A N} {zero fmax : A} {parse : Text → Option (Fl A)}
    {sched : Nat → List Handle → List Handle} {first : Text} {rest : List Text} {c : CliConfig D} {base : Option (Option (Json N))}
    {nt : Int} (hi : CliInput mc nc zero fmax parse sched ((first :: rest).map some) c base nt) {t : DataStore A}
    (h : loadTSVs fmax parse sched ((first :: rest).map some) c.tsv = ok (.ok t)) {b : Option (List (Tree D A))}
    (hb : ∀ tr ∈ b.getD [], TypedTree c.tsv.kind tr) :
    PyInput mc t (tableLines (first :: rest)).length c.train.asWritten b nt where
  machine := hi.machine
  store := load_good hi.order hi.names h (hi.lines _ rfl).1 (hi.lines _ rfl).2
  rowCount := (hi.lines _ rfl).1
  columnCount := lt_of_le_of_lt (load_length hi.order hi.names h) hi.columnCount
  loss := hi.loss
  exampleRate := hi.exampleRate
  featureRate := hi.featureRate
  threads := hi.threads
  group := by
    by_cases hg : c.train.groupColumn = ""
    · exact Or.inl hg
    · right
      have hk : c.tsv.kind c.train.groupColumn = some .string :=
        kind_of_mem hi.names (r := (.string, c.train.groupColumn)) ((C17_requested c.tsv _).2.2.mpr (Or.inr (Or.inr ⟨hg, rfl⟩)))
      obtain ⟨col, h1, h2⟩ := load_hasKinds hi.order hi.names h _ _ hk
      cases col with
      | str col => exact ⟨col, h1⟩
      | bkt col => cases h2
      | raw col => cases h2
  base := load_usable hi.order hi.names h hb

/-- **C119 (training).** `--mode=train` never crashes: the process ends with an error, or it writes a model.  The model can be read again, is
not empty, and its splits fit the types of the columns named in the configuration. -/
theorem C119_train {N : Type} {mc : Machine D A} {nc : NumCodec D A N} {zero fmax : A} {parse : Text → Option (Fl A)}
    {sched : Nat → List Handle → List Handle} {files : List (Option Text)} {c : CliConfig D} {base : Option (Option (Json N))}
    {nt : Int} (hi : CliInput mc nc zero fmax parse sched files c base nt) (isort : List (String × D) → List (String × D)) (seed : Int) :
    cliTrainMain mc nc zero fmax parse sched isort files c base seed nt = fatal ∨
    ∃ j fimps forest, cliTrainMain mc nc zero fmax parse sched isort files c base seed nt = ok (j, fimps) ∧
      forestFromJson nc zero 100 j = .ok ⟨forest, ""⟩ ∧ forest ≠ [] ∧ (∀ tr ∈ forest, TypedTree c.tsv.kind tr) ∧
      c.train.targetColumn ≠ "" := by
  unfold cliTrainMain
  have hload : loadStoreOrDie fmax parse sched files c = fatal ∨ ∃ (first : Text) (rest : List Text) (t : DataStore A),
      files = (first :: rest).map some ∧
      loadStoreOrDie fmax parse sched files c = ok t ∧ loadTSVs fmax parse sched ((first :: rest).map some) c.tsv = ok (.ok t) := by
    unfold loadStoreOrDie
    obtain ⟨r, hr⟩ := C18_distinct_names_partial fmax parse sched files c.tsv hi.order hi.buckets hi.names
    cases files with
    | nil => exact Or.inl rfl
    | cons f fs =>
      simp only [hr, ok_bind]
      cases r with
      | error e => exact Or.inl rfl
      | ok t =>
        obtain ⟨first, rest, e, _⟩ := C17_load_contents fmax parse sched hi.order _ c.tsv t hi.names hr
        exact Or.inr ⟨first, rest, t, e, rfl, by rw [← e]; exact hr⟩
  rcases hload with h | ⟨first, rest, t, rfl, h, hl⟩
  · rw [h]; exact Or.inl rfl
  rw [h, ok_bind]
  have hb : loadBaseOrDie nc zero base = fatal ∨ ∃ b, loadBaseOrDie nc zero base = ok b ∧ ∀ tr ∈ b.getD [], TypedTree c.tsv.kind tr ∧ treeNesting tr ≤ 64 := by
    have hbase := hi.base
    cases base with
    | none => exact Or.inr ⟨none, rfl, by simp⟩
    | some file =>
      cases file with
      | none => exact Or.inl rfl
      | some j =>
        simp only [loadBaseOrDie, loadForestOrDie]
        cases hf : forestFromJson nc zero 100 j with
        | error e => exact Or.inl rfl
        | ok f => exact Or.inr ⟨some f.trees, rfl, hbase j f rfl hf⟩
  rcases hb with hb | ⟨b, hb, hb'⟩
  · rw [hb]; exact Or.inl rfl
  rw [hb, ok_bind]
  have hin := hi.input hl (fun tr htr => (hb' tr htr).1)
  have hlen := lt_of_le_of_lt (featuresOf_length c) hi.columnCount
  rcases cliTrain_cases hin hlen seed with h' | ⟨wf, yf, e, r, hne, h1, hok, he, hs, hr⟩
  · rw [h']; exact Or.inl rfl
  have hkind : storeKind t = c.tsv.kind := funext (load_kind hi.order hi.names hl)
  obtain ⟨g1, g2, g3⟩ := cliTrain_forest hin hlen (seed := seed) (limit := 64) (by
      intro name hname col hcol
      have h1 := load_kind hi.order hi.names hl name
      rw [storeKind, hcol] at h1
      rcases featuresOf_kind hi.names hname with h2 | h2 <;> rw [h2] at h1 <;> simp only [Option.map_some, Option.some.injEq] at h1 <;>
        rw [h1] <;> decide)
    (by rw [hkind]; exact fun tr htr => (hb' tr htr).1) ⟨by norm_num, hi.leaves⟩ (fun tr htr => (hb' tr htr).2) h1
  rw [h1, ok_bind]
  obtain ⟨j, hj⟩ := (C99_saving nc 64 ⟨r.forest, ""⟩).mpr (fun tr htr => (g3 tr htr).2)
  rw [hj]
  refine Or.inr ⟨j, _, r.forest, rfl, ?_, g1, by rw [← hkind]; exact g2, ?_⟩
  · exact C99_roundtrip hi.codec zero _ (fun tr htr => (g3 tr htr).1) (fun tr htr => (g3 tr htr).2.trans (by norm_num)) hj
  · intro e0
    have : cliTrain mc t c.train b seed nt = fatal := by
      unfold cliTrain
      obtain ⟨e', _, hw⟩ := withLoss_point mc seed nt hi.loss
      rw [hw]
      simp only
      rcases weights_cases mc c.train t with h | ⟨w, h⟩
      · rw [h]; rfl
      · rw [h, ok_bind, targetsOrDie, if_pos e0]; rfl
    rw [this] at h1
    cases h1

/-- **C119 (testing).** `--mode=test` on files whose header has the columns named in the configuration and whose lines have their cells writes
one file for every checkpoint, with one score per data line: the value, for the cells of that line, of the trees up to the
checkpoint. -/
theorem C119_test {N : Type} {nc : NumCodec D A N} {zero fmax : A} {parse : Text → Option (Fl A)}
    {sched : Nat → List Handle → List Handle} (hs : AnyOrder sched) {c : CliConfig D} (hn : (c.tsv.requests.map Prod.snd).Nodup)
    (hreq : c.tsv.requests ≠ []) {first : Text} {rest : List Text}
    (hnc : NoBucketCrash fmax parse ((first :: rest).map some) c.tsv) (hsmall : (tableLines (first :: rest)).length < 60000)
    (hhead : ∀ r ∈ c.tsv.requests, r.2 ∈ headerNames first)
    (hread : ∀ (k : Nat) (file : Text), (first :: rest)[k]? = some file → FileReadable parse c.tsv (headerNames first) file (k == 0))
    {j : Json N} {f : ForestMsg D A} (hj : forestFromJson nc zero 100 j = .ok f) (hne : f.trees ≠ [])
    (hf : ∀ tr ∈ f.trees, TypedTree c.tsv.kind tr) {nt : Int} (hnt : 0 < nt) :
    ∃ files, cliTestMain nc zero fmax parse sched ((first :: rest).map some) c (some j) nt = ok files ∧
      files.map Prod.fst = getTestPoints c.evalInterval f.trees.length ∧
      ∀ p scores, (p, scores) ∈ files → scores.length = (tableLines (first :: rest)).length ∧
        ∀ (i : Nat) (l : Text), (tableLines (first :: rest))[i]? = some l →
          ∀ row, LineShows parse (headerNames first) c.tsv.kind l row →
            ∃ x, scores[i]? = some x ∧ forestValue row (f.trees.take p.toNat) = some x := by
  obtain ⟨t, ht⟩ := C17_succeeds fmax parse sched hs first rest c.tsv hn hnc hhead hread
  have hu := load_usable hs hn ht hf
  obtain ⟨files, h1, h2, h3⟩ := C44_all_written (columns := t.getColumn)
    (fun name c hc => load_rows hs hn ht (by omega) hc) hnt f.trees hne hu.features hu.scorable c.evalInterval
  refine ⟨files, ?_, h2, ?_⟩
  · have hnum := load_numRows hs hn ht (by omega) (load_ne hs hn ht hreq)
    simp only [cliTestMain, loadForestOrDie, hj, ok_bind, loadStoreOrDie, List.map_cons]
    rw [List.map_cons] at ht
    simp only [ht, ok_bind, hnum, h1, if_true]
  · intro p scores hp
    obtain ⟨sc, k1, k2, k3⟩ := load_evaluate hs hn ht hsmall (forest := f.trees.take p.toNat)
      (fun tr htr => hf tr (List.mem_of_mem_take htr)) hnt
    rw [h3 p scores hp] at k1
    simp only [Outcome.ok.injEq, Prod.mk.injEq, Option.some.injEq, true_and] at k1
    subst k1
    exact ⟨k2, k3⟩

/-- **C119 (both).** A model that `--mode=train` has written can be used by `--mode=test` with the same configuration. -/
theorem C119_train_test {N : Type} {mc : Machine D A} {nc : NumCodec D A N} {zero fmax : A} {parse : Text → Option (Fl A)}
    {sched : Nat → List Handle → List Handle} {files : List (Option Text)} {c : CliConfig D} {base : Option (Option (Json N))}
    {nt : Int} (hi : CliInput mc nc zero fmax parse sched files c base nt) {isort : List (String × D) → List (String × D)} {seed : Int}
    {j : Json N} {fimps : List (String × D)} (h : cliTrainMain mc nc zero fmax parse sched isort files c base seed nt = ok (j, fimps))
    {first : Text} {rest : List Text} {sched' : Nat → List Handle → List Handle} (hs' : AnyOrder sched')
    (hnc : NoBucketCrash fmax parse ((first :: rest).map some) c.tsv) (hsmall : (tableLines (first :: rest)).length < 60000)
    (hhead : ∀ r ∈ c.tsv.requests, r.2 ∈ headerNames first)
    (hread : ∀ (k : Nat) (file : Text), (first :: rest)[k]? = some file → FileReadable parse c.tsv (headerNames first) file (k == 0))
    {nt' : Int} (hnt' : 0 < nt') :
    ∃ forest, forestFromJson nc zero 100 j = .ok ⟨forest, ""⟩ ∧
    ∃ files', cliTestMain nc zero fmax parse sched' ((first :: rest).map some) c (some j) nt' = ok files' ∧
      files'.map Prod.fst = getTestPoints c.evalInterval forest.length ∧
      ∀ p scores, (p, scores) ∈ files' → scores.length = (tableLines (first :: rest)).length ∧
        ∀ (i : Nat) (l : Text), (tableLines (first :: rest))[i]? = some l →
          ∀ row, LineShows parse (headerNames first) c.tsv.kind l row →
            ∃ x, scores[i]? = some x ∧ forestValue row (forest.take p.toNat) = some x := by
  rcases C119_train hi isort seed with h' | ⟨j', _, forest, h', h1, h2, h3, h4⟩
  · rw [h] at h'; cases h'
  rw [h] at h'
  simp only [Outcome.ok.injEq, Prod.mk.injEq] at h'
  obtain ⟨rfl, rfl⟩ := h'
  refine ⟨forest, h1, C119_test hs' hi.names ?_ hnc hsmall hhead hread h1 h2 h3 hnt'⟩
  intro e
  have := (C17_requested c.tsv c.train.targetColumn).2.1.mpr (Or.inr ⟨h4, Or.inl rfl⟩)
  rw [e] at this
  cases this

/-! ## Loading from Python -/

/-- The columns asked for from Python. -/
def pyColumns (bucketized strings raw : List String) : TsvConfig where
  floatFeature := bucketized
  additionalFloat := raw
  additionalString := strings

theorem pyFromTsvs_ok {fmax : A} {parse : Text → Option (Fl A)} {sched : Nat → List Handle → List Handle} {files : List (Option Text)}
    {bucketized strings raw : List String} {t : DataStore A}
    (h : pyFromTsvs fmax parse sched files bucketized strings raw = ok (.ok (some t))) :
    loadTSVs fmax parse sched files (pyColumns bucketized strings raw) = ok (.ok t) := by
  unfold pyFromTsvs at h
  split at h
  · cases h
  · cases h
  · simp only [raise] at h
    split at h <;> cases h
  · next t' hr =>
    simp only [Outcome.ok.injEq, Except.ok.injEq, Option.some.injEq] at h
    subst h
    exact hr

theorem pyColumns_names {bucketized strings raw : List String} (hn : (bucketized ++ raw ++ strings).Nodup) :
    ((pyColumns bucketized strings raw).requests.map Prod.snd).Nodup := by
  simpa [TsvConfig.requests, pyColumns, List.map_append, Function.comp_def] using hn

/-- **C119 (loading from Python).** `from_tsvs` with columns that are all different never crashes: it raises an exception or gives a store. -/
theorem C119_from_tsvs (fmax : A) (parse : Text → Option (Fl A)) {sched : Nat → List Handle → List Handle} (hs : AnyOrder sched)
    (files : List (Option Text)) {bucketized strings raw : List String} (hn : (bucketized ++ raw ++ strings).Nodup)
    (hnc : NoBucketCrash fmax parse files (pyColumns bucketized strings raw)) :
    (∃ e, pyFromTsvs fmax parse sched files bucketized strings raw = ok (.error e)) ∨
    ∃ t, pyFromTsvs fmax parse sched files bucketized strings raw = ok (.ok (some t)) := by
  obtain ⟨r, hr⟩ := C18_distinct_names_partial fmax parse sched files _ hs hnc (pyColumns_names hn)
  have hr' : loadTSVs fmax parse sched files
      { floatFeature := bucketized, additionalFloat := raw, additionalString := strings } = ok r := hr
  unfold pyFromTsvs
  rw [hr']
  cases r with
  | ok t => exact Or.inr ⟨t, rfl⟩
  | error e =>
    left
    have : e ∈ [Code.invalidArgument, .notFound, .outOfRange] := by
      rcases C17_failure_reasons fmax parse sched hs files _ e (pyColumns_names hn) hr with h | h | ⟨_, _, h | ⟨_, _, _, h, _⟩⟩
      · simp [h.2]
      · simp [h.2]
      · simp [h.1]
      · simp only [List.mem_cons, List.not_mem_nil, or_false] at h ⊢
        tauto
    simp only [List.mem_cons, List.not_mem_nil, or_false] at this
    rcases this with rfl | rfl | rfl <;> exact ⟨_, rfl⟩

/-- **C119 (Python).** From TSV files to predictions: training on one set of files, predicting for another with the same columns.  Neither crashes;
training raises an exception or returns a forest, and with that, predicting raises none and gives one score per data line: the
value of the forest for the cells of that line. -/
theorem C119_python {mc : Machine D A} (hmc : MachineOk mc) {fmax : A} {parse : Text → Option (Fl A)}
    {sched sched' : Nat → List Handle → List Handle} (hs : AnyOrder sched) (hs' : AnyOrder sched')
    {bucketized strings raw : List String} (hn : (bucketized ++ raw ++ strings).Nodup)
    (hcount : (bucketized ++ raw ++ strings).length < 2 ^ 31)
    {first first' : Text} {rest rest' : List Text} (hlines : (tableLines (first :: rest)).length < 2 ^ 31)
    (hhuge : NoHuge fmax parse (first :: rest) (pyColumns bucketized strings raw))
    {t t' : DataStore A} (ht : pyFromTsvs fmax parse sched ((first :: rest).map some) bucketized strings raw = ok (.ok (some t)))
    (ht' : pyFromTsvs fmax parse sched' ((first' :: rest').map some) bucketized strings raw = ok (.ok (some t')))
    {c : Config D} (hloss : c.lossFunc ∈ ["mse", "logloss", "huberized_hinge"])
    (hrates : NotNaN (c.exampleRate.getD (mc.ofNat 1)) ∧ NotNaN (c.featureRate.getD (mc.ofNat 1)))
    (hgroup : c.groupColumn = "" ∨ c.groupColumn ∈ strings) {nt nt' : Int} (hnt : 0 < nt) (hnt' : 0 < nt')
    (hsmall : (tableLines (first' :: rest')).length < 60000)
    (y w : List (Fl A)) (features : List String) (seed : Int) :
    (∃ e, pyTrain mc (some t) c y features w none seed nt = ok (.error e)) ∨
    ∃ forest scores, pyTrain mc (some t) c y features w none seed nt = ok (.ok forest) ∧
      pyPredict (some t') forest nt' = ok (.ok scores) ∧ scores.length = (tableLines (first' :: rest')).length ∧
      ∀ (j : Nat) (l : Text), (tableLines (first' :: rest'))[j]? = some l →
        ∀ row, LineShows parse (headerNames first') (pyColumns bucketized strings raw).kind l row →
          ∃ x, scores[j]? = some x ∧ forestValue row forest = some x := by
  have hn' := pyColumns_names hn
  have hl := pyFromTsvs_ok ht
  have hl' := pyFromTsvs_ok ht'
  have hi : PyInput mc t (tableLines (first :: rest)).length c none nt := {
    machine := hmc
    store := load_good hs hn' hl hlines hhuge
    rowCount := hlines
    columnCount := by
      refine lt_of_le_of_lt (load_length hs hn' hl) ?_
      simp only [TsvConfig.requests, pyColumns, List.length_append, List.length_map] at hcount ⊢
      simp only [if_true, List.length_nil]
      omega
    loss := hloss
    exampleRate := hrates.1
    featureRate := hrates.2
    threads := hnt
    group := by
      refine hgroup.imp id (fun hg => ?_)
      have hk := kind_of_mem hn' (r := (.string, c.groupColumn)) ((C17_requested _ _).2.2.mpr (Or.inr (Or.inl hg)))
      obtain ⟨col, h1, h2⟩ := load_hasKinds hs hn' hl _ _ hk
      cases col with
      | str col => exact ⟨col, h1⟩
      | bkt col => cases h2
      | raw col => cases h2
    base := load_usable hs hn' hl (by simp) }
  rcases pyTrain_cases hi y w features seed with h | ⟨_, _, _, r, _, hne, h, _⟩
  · exact Or.inl h
  · right
    have htyped : ∀ tr ∈ r.forest, TypedTree (pyColumns bucketized strings raw).kind tr := by
      rw [← funext (load_kind hs hn' hl)]
      exact C96_trained hi (by simp) h
    obtain ⟨scores, h1, h2, h3⟩ := load_evaluate hs' hn' hl' hsmall htyped hnt'
    refine ⟨r.forest, scores, h, ?_, h2, h3⟩
    have hreq : (pyColumns bucketized strings raw).requests ≠ [] := by
      intro e
      have := load_length hs hn' hl
      rw [e] at this
      exact hne (List.length_eq_zero_iff.mp (by simpa using this))
    have hnum := load_numRows hs' hn' hl' (by omega) (load_ne hs' hn' hl' hreq)
    simp only [pyPredict, hnum, h1, if_true, Option.getD_some]

end trained

/-! ## Examples -/

/-- One digit is a number. -/
def ratParse (t : Text) : Option (Fl ℚ) :=
  match t with
  | [c] => if '0' ≤ c ∧ c ≤ '9' then some (.num ((c.toNat - '0'.toNat : Nat) : ℚ)) else none
  | _ => none

/-- Training data in two files. -/
def trainTsvs : List Text := ["size\tcolor\tclicked\n5\tb\t1\n?\ta\t0\n7\tc\t1\n".toList, "9\tb\t0\n9\tc\t0\n".toList]

/-- Data to test, with the columns in another order and one more. -/
def testTsvs : List Text := ["clicked\tcity\tcolor\t size \n0\tx\tb\t9\n0\ty\tc\t?\n1\tz\tq\t6\n".toList]

/-- A configuration with a numeric and a categorical feature, and a file for every second tree. -/
def tsvCliConfig : CliConfig ℚ where
  train := { cliCfg with catFeature := ["color"] }
  evalInterval := 2

theorem ratParse_small {t : Text} {v : ℚ} (h : cellValue ratParse t = some (.num v)) : v ≤ 1000 := by
  unfold cellValue at h
  split at h
  · next x hx =>
    cases h
    unfold ratParse at hx
    split at hx
    · next c =>
      split at hx
      · next hc =>
        simp only [Option.some.injEq, Fl.num.injEq] at hx
        subst hx
        have h9 : c.toNat ≤ 57 := hc.2
        have h48 : '0'.toNat = 48 := rfl
        have : ((c.toNat - '0'.toNat : Nat) : ℚ) ≤ (9 : ℕ) := by
          rw [h48]
          exact_mod_cast (by omega : c.toNat - 48 ≤ 9)
        exact this.trans (by norm_num)
      · cases hx
    · cases hx
  · split at h <;> cases h

theorem ratParse_noHuge (contents : List Text) (c : TsvConfig) : NoHuge (1000 : ℚ) ratParse contents c := by
  intro name _ first _ i _ l _ v hv
  obtain ⟨t, _, ht⟩ := Option.bind_eq_some_iff.mp hv
  exact ratParse_small ht

theorem readable_of {parse : Text → Option (Fl ℚ)} {config : TsvConfig} {hs : List String} {s : Text} {header : Bool}
    (h : ∀ l ∈ dataLines s header, ∀ r ∈ config.requests, ∀ i < hs.length, hs[i]? = some r.2 →
      (match cellAt i l with
        | none => false
        | some t => r.1 == .string || (cellValue parse t).isSome) = true) : FileReadable parse config hs s header := by
  intro l hl r hr i hi
  have := h l hl r hr i (List.getElem?_eq_some_iff.mp hi.1).1 hi.1
  split at this
  · cases this
  · next t ht =>
    refine ⟨t, ht, fun hne => ?_⟩
    rcases Bool.or_eq_true_iff.mp this with h' | h'
    · exact absurd (by simpa using h') hne
    · exact h'

theorem trainTsvs_few : (tableLines trainTsvs).length < 29999 := by decide +kernel

/-- The hypotheses of C119 hold for those files. -/
theorem tsvCliInput : CliInput ratMachine plainCodec 0 1000 ratParse (fun _ l => l.reverse) (trainTsvs.map some) tsvCliConfig none 2 where
  machine :=
    { sort := ratSort_spec
      top := ratTop_spec
      listing := fun l => l.reverse_perm
      toInt := by intros; simp [ratMachine] }
  codec := plainCodec_exact
  order := fun _ l => l.reverse_perm
  names := by decide
  columnCount := by decide
  lines := by
    intro contents h
    have h' : trainTsvs = contents := (List.map_injective_iff.mpr (Option.some_injective _)) h
    subst h'
    exact ⟨lt_trans trainTsvs_few (by norm_num), ratParse_noHuge _ _⟩
  buckets := noBucketCrash_of_few _ _ _ trainTsvs_few
  loss := by decide
  exampleRate := by simp [NotNaN]
  featureRate := by simp [NotNaN]
  threads := by decide
  leaves := by decide
  base := by intro j f h; cases h

/-- The hypotheses about the files to test hold. -/
theorem testTsvs_ok : (tableLines testTsvs).length < 29999 ∧
    (∀ r ∈ tsvCliConfig.tsv.requests, r.2 ∈ headerNames testTsvs.head!) ∧
    ∀ (k : Nat) (file : Text), testTsvs[k]? = some file → FileReadable ratParse tsvCliConfig.tsv (headerNames testTsvs.head!) file (k == 0) := by
  refine ⟨by decide +kernel, by decide +kernel, ?_⟩
  intro k file hk
  have hk0 : k = 0 := by
    have := (List.getElem?_eq_some_iff.mp hk).1
    simp only [testTsvs, List.length_cons, List.length_nil] at this
    omega
  subst hk0
  have : testTsvs.head! = file := by
    simp only [testTsvs, List.getElem?_cons_zero, Option.some.injEq] at hk
    exact hk
  rw [← this]
  refine readable_of ?_
  decide +kernel

/-- From files to files: the model has a constant and two trees, and there are score files after one and after three trees. -/
example : (match cliTrainMain ratMachine plainCodec 0 1000 ratParse (fun _ l => l.reverse) id (trainTsvs.map some) tsvCliConfig none 1 2 with
    | .ok (j, _) => (match cliTestMain plainCodec 0 1000 ratParse (fun _ l => l) (testTsvs.map some) tsvCliConfig (some j) 2 with
      | .ok files => decide (files = [(1, [41 / 100, 41 / 100, 41 / 100]), (3, [13 / 80, 13 / 80, 37 / 50])])
      | _ => false)
    | _ => false) = true := by decide +kernel

/-- The same from Python. -/
example : (match pyFromTsvs (1000 : ℚ) ratParse (fun _ l => l.reverse) (trainTsvs.map some) ["size"] ["color"] ["clicked"],
      pyFromTsvs (1000 : ℚ) ratParse (fun _ l => l) (testTsvs.map some) ["size"] ["color"] ["clicked"] with
    | .ok (.ok t), .ok (.ok t') =>
      (match pyTrain ratMachine t { pyCfg with targetColumn := "clicked" } [] ["size", "color"] [] none 1 2 with
        | .ok (.ok forest) => (match pyPredict t' forest 2 with
          | .ok (.ok scores) => decide (scores.length = 3)
          | _ => false)
        | _ => false)
    | _, _ => false) = true ∧
    (["size"] ++ ["clicked"] ++ ["color"]).Nodup ∧
    NoHuge (1000 : ℚ) ratParse trainTsvs (pyColumns ["size"] ["color"] ["clicked"]) :=
  ⟨by decide +kernel, by decide, ratParse_noHuge _ _⟩

/-! ## C120 -/

/-- C120 in full: a model can be tested on files that have the features it uses. -/
def C120_full : Prop :=
  ∀ (c : CliConfig ℚ) (forest : List (Tree ℚ ℚ)) (j : Json (ℚ ⊕ Nat)) (first : Text),
    forestFromJson plainCodec 0 100 j = .ok ⟨forest, ""⟩ → forest ≠ [] → (∀ tr ∈ forest, TypedTree c.tsv.kind tr) →
    (∀ name ∈ c.train.floatFeature ++ c.train.catFeature, name ∈ headerNames first) →
    FileReadable ratParse c.tsv (headerNames first) first true → (tableLines [first]).length < 29999 →
    (c.tsv.requests.map Prod.snd).Nodup → c.tsv.requests ≠ [] →
    ∃ files, cliTestMain plainCodec 0 1000 ratParse (fun _ l => l) [some first] c (some j) 1 = ok files

/-- A tree on one feature. -/
def sizeTree : Tree ℚ ℚ :=
  .node 0 (some { feature := "size", floatSplit := some ⟨.num 7, false⟩, gain := 1 }) (.node 1 none .absent .absent)
    (.node 0 none .absent .absent)

/-- The tree as JSON. -/
def sizeModel : Json (ℚ ⊕ Nat) :=
  match forestToJson plainCodec 64 ⟨[sizeTree], ""⟩ with
  | .ok j => j
  | .error _ => .null

/-- **C120 refuted.** The files must also have the target column of the configuration, though testing does not use it. -/
theorem C120_refuted : ¬ C120_full := by
  intro h
  obtain ⟨files, hf⟩ := h tsvCliConfig [sizeTree] sizeModel "size\tcolor\n5\tb\n".toList
    (C99_roundtrip plainCodec_exact 0 (limit := 64) ⟨[sizeTree], ""⟩ (by simp [sizeTree]) (by simp [sizeTree, treeNesting, splitNesting]) rfl)
    (by simp)
    (by
      intro tr htr
      rw [List.mem_singleton.mp htr]
      refine ⟨fun h => (by cases h), fun s hs => ?_, ⟨fun _ => rfl, fun _ h => (by cases h), trivial, trivial⟩,
        ⟨fun _ => rfl, fun _ h => (by cases h), trivial, trivial⟩⟩
      cases hs
      exact Or.inl ⟨rfl, _, rfl⟩)
    (by decide +kernel) (readable_of (by decide +kernel)) (by decide +kernel) (by decide +kernel) (by decide +kernel)
  have : (match cliTestMain plainCodec 0 1000 ratParse (fun _ l => l) [some "size\tcolor\n5\tb\n".toList] tsvCliConfig (some sizeModel) 1 with
    | .fatal => true
    | _ => false) = true := by decide +kernel
  rw [hf] at this
  cases this

/-- **C120 partial.** It can if every file also has the other columns that the configuration names: the target, weights, groups and additional
columns.  Missing: files without the columns that only training uses. -/
theorem C120_partial {D A N : Type} [Dbl D] [FpOrder D] [EqOrder D] [LinearOrder A] [ThrOps A] {nc : NumCodec D A N} {zero fmax : A} {parse : Text → Option (Fl A)}
    {sched : Nat → List Handle → List Handle} (hs : AnyOrder sched) {c : CliConfig D} (hn : (c.tsv.requests.map Prod.snd).Nodup)
    (hreq : c.tsv.requests ≠ []) {first : Text} (hsmall : (tableLines [first]).length < 29999)
    (hfeat : ∀ name ∈ c.train.floatFeature ++ c.train.catFeature, name ∈ headerNames first)
    (hother : ∀ name, (name ≠ "" ∧ name ∈ [c.train.targetColumn, c.train.weightColumn, c.train.groupColumn]) ∨
      name ∈ c.additionalFloat ++ c.additionalString → name ∈ headerNames first)
    (hread : FileReadable parse c.tsv (headerNames first) first true)
    {j : Json N} {f : ForestMsg D A} (hj : forestFromJson nc zero 100 j = .ok f) (hne : f.trees ≠ [])
    (hf : ∀ tr ∈ f.trees, TypedTree c.tsv.kind tr) {nt : Int} (hnt : 0 < nt) :
    ∃ files, cliTestMain nc zero fmax parse sched [some first] c (some j) nt = ok files ∧
      files.map Prod.fst = getTestPoints c.evalInterval f.trees.length := by
  obtain ⟨files, h1, h2, _⟩ := C119_test (fmax := fmax) hs hn hreq (first := first) (rest := [])
    (noBucketCrash_of_few _ _ _ hsmall) (by omega)
    (by
      rintro ⟨k, name⟩ hr
      have hq := C17_requested c.tsv name
      simp only [List.mem_append, List.mem_cons, List.not_mem_nil, or_false] at hfeat hother
      cases k with
      | bucketized => exact hfeat _ (Or.inl (hq.1.mp hr))
      | raw =>
        rcases hq.2.1.mp hr with h | ⟨h0, h | h⟩
        · exact hother _ (Or.inr (Or.inl h))
        · exact hother _ (Or.inl ⟨h0, Or.inl h⟩)
        · exact hother _ (Or.inl ⟨h0, Or.inr (Or.inl h)⟩)
      | string =>
        rcases hq.2.2.mp hr with h | h | ⟨h0, h⟩
        · exact hfeat _ (Or.inr h)
        · exact hother _ (Or.inr (Or.inr h))
        · exact hother _ (Or.inl ⟨h0, Or.inr (Or.inr h)⟩))
    (by
      intro k file hk
      cases k with
      | zero => cases hk; exact hread
      | succ k => simp at hk)
    hj hne hf hnt
  exact ⟨files, h1, h2⟩

/-- The hypotheses hold for `testTsvs`, and the model is a forest that fits the configuration. -/
example : (tableLines testTsvs).length < 29999 ∧ (tsvCliConfig.tsv.requests.map Prod.snd).Nodup ∧
    (∀ name ∈ ["size", "color", "clicked"], name ∈ headerNames testTsvs.head!) ∧
    (match cliTestMain plainCodec 0 1000 ratParse (fun _ l => l) (testTsvs.map some) tsvCliConfig (some sizeModel) 1 with
      | .ok files => decide (files = [(1, [0, 1, 1])])
      | _ => false) = true := by
  refine ⟨by decide +kernel, by decide +kernel, by decide +kernel, by decide +kernel⟩

end Gbdt
