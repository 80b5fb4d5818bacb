import Verif.Lemmas.TsvLoad
import Verif.Props.TsvBlock
import Verif.Props.StringColumn
import Verif.Props.BucketColumn

/-!
# C17, C18: loading TSV files

Specification: the lines of the files are those of C16, the first line of the first file being the header.  A requested
column is at the position of the last header equal to its name (headers are trimmed).
-/

set_option linter.unusedSectionVars false

set_option autoImplicit false

namespace Gbdt

open Outcome

variable {A : Type} [LinearOrder A]

/-- The column names on the first line of a file. -/
def headerNames (s : Text) : List String :=
  match fileLines s with
  | [] => []
  | l :: _ => if l = [] then [] else (l.splitOn '\t').map (fun t => String.ofList (trim t))

/-- The characters that are removed at the ends of a header. -/
def blanks : List Char := [' ', '\t', '\n', '\r', Char.ofNat 11, Char.ofNat 12]

theorem isSpace_iff (c : Char) : isSpace c = true ↔ c ∈ blanks := by
  simp [isSpace, blanks, or_assoc]

theorem dropWhile_split (p : Char → Bool) (s : Text) : ∃ a, s = a ++ s.dropWhile p ∧ ∀ c ∈ a, p c = true := by
  induction s with
  | nil => exact ⟨[], rfl, by simp⟩
  | cons x s ih =>
    by_cases hx : p x = true
    · obtain ⟨a, h1, h2⟩ := ih
      refine ⟨x :: a, ?_, by simpa [hx] using h2⟩
      rw [List.dropWhile_cons_of_pos hx, List.cons_append, ← h1]
    · exact ⟨[], by rw [List.dropWhile_cons_of_neg hx]; rfl, by simp⟩

/-- **C17 (headers).** Trimming removes blanks at both ends, and all of them: what is left neither begins nor ends with one. -/
theorem C17_trim (s : Text) : ∃ a b, s = a ++ trim s ++ b ∧ (∀ c ∈ a, c ∈ blanks) ∧ (∀ c ∈ b, c ∈ blanks) ∧
    (∀ c, (trim s).head? = some c → c ∉ blanks) ∧ ∀ c, (trim s).getLast? = some c → c ∉ blanks := by
  obtain ⟨a, h1, h2⟩ := dropWhile_split isSpace s
  obtain ⟨b, h3, h4⟩ := dropWhile_split isSpace (s.dropWhile isSpace).reverse
  have hs : s.dropWhile isSpace = trim s ++ b.reverse := by
    rw [trim, ← List.reverse_append, ← h3, List.reverse_reverse]
  refine ⟨a, b.reverse, by rw [List.append_assoc, ← hs]; exact h1, fun c hc => (isSpace_iff c).mp (h2 c hc),
    fun c hc => (isSpace_iff c).mp (h4 c (List.mem_reverse.mp hc)), ?_, ?_⟩
  · intro c hc hb
    have hd : (s.dropWhile isSpace).head? = some c := by
      rw [hs]
      cases ht : trim s with
      | nil => rw [ht] at hc; cases hc
      | cons x l => rw [ht] at hc; exact hc
    have := List.head?_dropWhile_not isSpace s
    rw [hd] at this
    simp only at this
    rw [(isSpace_iff c).mpr hb] at this
    cases this
  · intro c hc hb
    rw [trim, List.getLast?_reverse] at hc
    have := List.head?_dropWhile_not isSpace (s.dropWhile isSpace).reverse
    rw [hc] at this
    simp only at this
    rw [(isSpace_iff c).mpr hb] at this
    cases this

example : trim "  a b\t\r".toList = "a b".toList := by decide

/-- `i` is the position of the column called `name`. -/
def IsColumn (hs : List String) (name : String) (i : Nat) : Prop :=
  hs[i]? = some name ∧ ∀ j, i < j → hs[j]? ≠ some name

/-- The data lines of each file. -/
def linesPerFile (contents : List Text) : List (List Text) :=
  contents.zipIdx.map (fun p => dataLines p.1 (p.2 == 0))

/-- The cell of a line at a position. -/
def cellAt (i : Nat) (l : Text) : Option Text := (l.splitOn '\t')[i]?

/-- The order in which the pool's threads run the tasks they are given is arbitrary. -/
def AnyOrder (sched : Nat → List Handle → List Handle) : Prop := ∀ n l, (sched n l).Perm l

theorem headerIndex_iff (headers : List Text) (name : String) (i : Nat) :
    headerIndex headers name = some i ↔ IsColumn (headers.map (fun t => String.ofList (trim t))) name i := by
  unfold headerIndex IsColumn
  simp only [Option.map_eq_some_iff]
  induction headers using List.reverseRecOn generalizing i with
  | nil => simp
  | append_singleton hs x ih =>
    simp only [List.zipIdx_append, List.filter_append, List.zipIdx_cons, List.zipIdx_nil, Nat.zero_add,
      List.map_append, List.map_cons, List.map_nil]
    by_cases hx : String.ofList (trim x) = name
    · rw [List.filter_cons_of_pos (by simpa using hx), List.filter_nil, List.getLast?_concat]
      simp only [Option.some.injEq, exists_eq_left']
      constructor
      · rintro rfl
        refine ⟨by simp [hx], ?_⟩
        intro j hj
        rw [List.getElem?_eq_none (by simp; omega)]
        simp
      · rintro ⟨h1, h2⟩
        by_contra hne
        have hlt : i < hs.length := by
          have := (List.getElem?_eq_some_iff.mp h1).1
          simp only [List.length_append, List.length_map, List.length_cons, List.length_nil] at this
          omega
        exact h2 hs.length hlt (by simp [hx])
    · rw [List.filter_cons_of_neg (by simpa using hx), List.filter_nil, List.append_nil, ih]
      constructor
      · rintro ⟨h1, h2⟩
        have hlt := (List.getElem?_eq_some_iff.mp h1).1
        refine ⟨by rw [List.getElem?_append_left hlt, h1], ?_⟩
        intro j hj
        by_cases hjl : j < (hs.map (fun t => String.ofList (trim t))).length
        · rw [List.getElem?_append_left hjl]
          exact h2 j hj
        · rw [List.getElem?_append_right (by omega)]
          intro e
          have := List.mem_of_getElem? e
          simp only [List.mem_singleton] at this
          exact hx this.symm
      · rintro ⟨h1, h2⟩
        by_cases hjl : i < (hs.map (fun t => String.ofList (trim t))).length
        · rw [List.getElem?_append_left hjl] at h1
          refine ⟨h1, ?_⟩
          intro j hj
          by_cases hjl' : j < (hs.map (fun t => String.ofList (trim t))).length
          · have := h2 j hj
            rwa [List.getElem?_append_left hjl'] at this
          · rw [List.getElem?_eq_none (by omega)]
            simp
        · rw [List.getElem?_append_right (by omega)] at h1
          have := List.mem_of_getElem? h1
          simp only [List.mem_singleton] at this
          exact absurd this.symm hx

theorem headers_eq (s : Text) :
    ((headersOf s).map (fun t => String.ofList (trim t))) = headerNames s := by
  unfold headerNames fileLines headersOf
  rw [← readLines_eq]
  cases readLines s with
  | nil => rfl
  | cons l ls =>
    simp only
    split
    · rename_i h
      subst h
      rfl
    · rename_i h
      rw [splitTab_eq h]

theorem readAll_contents {parse : Text → Option (Fl A)} {fidx sidx : List Nat} {n : Nat} {files : List (Option Text)}
    {bs : List (Block A)} (h : ReadAll parse fidx sidx n files bs) :
    ∃ contents : List Text, files = contents.map some ∧
      List.Forall₂ (fun p b => readTSV parse (some p.1) fidx sidx (p.2 == 0) = .ok b) (contents.zipIdx n) bs := by
  induction files generalizing n bs with
  | nil =>
    cases h
    exact ⟨[], rfl, .nil⟩
  | cons f files ih =>
    unfold ReadAll at h
    rw [List.zipIdx_cons] at h
    cases h with
    | cons h1 h2 =>
      obtain ⟨cs, e, h3⟩ := ih h2
      cases f with
      | none => cases h1
      | some s =>
        refine ⟨s :: cs, by simp [e], ?_⟩
        rw [List.zipIdx_cons]
        exact .cons h1 h3

theorem blocks_strings {parse : Text → Option (Fl A)} {fidx sidx : List Nat} {ps : List (Text × Nat)}
    {bs : List (Block A)}
    (h : List.Forall₂ (fun p b => readTSV parse (some p.1) fidx sidx (p.2 == 0) = .ok b) ps bs)
    {slot i : Nat} (hi : sidx[slot]? = some i) :
    ∃ cols : List (List Text), ps.map (fun p => (dataLines p.1 (p.2 == 0)).map (cellAt i)) = cols.map (·.map some) ∧
      bs.map (fun b => b.strings[slot]?) = cols.map (fun c => some (c.map String.ofList)) := by
  induction h with
  | nil => exact ⟨[], rfl, rfl⟩
  | cons h1 _ ih =>
    obtain ⟨cols, e1, e2⟩ := ih
    obtain ⟨ts, t1, t2⟩ := (C16_block_contents _ _ _ _ _ _ h1).2.2.1 slot i hi
    exact ⟨ts :: cols, by simp only [List.map_cons, e1]; rw [← t1]; rfl, by simp [e2, t2]⟩

theorem blocks_floats {parse : Text → Option (Fl A)} {fidx sidx : List Nat} {ps : List (Text × Nat)}
    {bs : List (Block A)}
    (h : List.Forall₂ (fun p b => readTSV parse (some p.1) fidx sidx (p.2 == 0) = .ok b) ps bs)
    {slot i : Nat} (hi : fidx[slot]? = some i) :
    ∃ cols : List (List (Fl A)),
      ps.map (fun p => (dataLines p.1 (p.2 == 0)).map (fun l => (cellAt i l).bind (cellValue parse))) =
        cols.map (·.map some) ∧
      bs.map (fun b => b.floats[slot]?) = cols.map some := by
  induction h with
  | nil => exact ⟨[], rfl, rfl⟩
  | cons h1 _ ih =>
    obtain ⟨cols, e1, e2⟩ := ih
    obtain ⟨ts, t1, t2⟩ := (C16_block_contents _ _ _ _ _ _ h1).2.2.2 slot i hi
    exact ⟨ts :: cols, by simp only [List.map_cons, e1]; rw [← t1]; rfl, by simp [e2, t2]⟩

theorem addAll_str {fmax : A} {slot : Nat} (bs : List (Block A)) (cols : List (List String)) (c : StrCol)
    (h : bs.map (fun b => b.strings[slot]?) = cols.map some) :
    addAll fmax slot (.str c) bs = ok (.str (cols.foldl StrCol.add c)) := by
  induction bs generalizing cols c with
  | nil =>
    cases cols with
    | nil => rfl
    | cons _ _ => simp at h
  | cons b bs ih =>
    cases cols with
    | nil => simp at h
    | cons v cols =>
      simp only [List.map_cons, List.cons.injEq] at h
      simp only [addAll, List.foldlM_cons, Column.addCells, vecGet_eq_ok.mpr h.1, ok_bind, pure_eq]
      exact ih cols (c.add v) h.2

theorem addAll_raw {fmax : A} {slot : Nat} (bs : List (Block A)) (cols : List (List (Fl A))) (vals : List (Fl A))
    (h : bs.map (fun b => b.floats[slot]?) = cols.map some) :
    addAll fmax slot (.raw ⟨.ok, vals⟩) bs = ok (.raw ⟨.ok, vals ++ cols.flatten⟩) := by
  induction bs generalizing cols vals with
  | nil =>
    cases cols with
    | nil => simp [addAll]
    | cons _ _ => simp at h
  | cons b bs ih =>
    cases cols with
    | nil => simp at h
    | cons v cols =>
      simp only [List.map_cons, List.cons.injEq] at h
      simp only [addAll, List.foldlM_cons, Column.addCells, vecGet_eq_ok.mpr h.1, ok_bind, pure_eq]
      have := ih cols (vals ++ v) h.2
      have e : RawCol.add ⟨.ok, vals⟩ v = (⟨.ok, vals ++ v⟩ : RawCol A) := by simp [RawCol.add]
      rw [e, List.flatten_cons, ← List.append_assoc]
      exact this

theorem addAll_bkt {fmax : A} {slot : Nat} (bs : List (Block A)) (cols : List (List (Fl A))) (c : BktCol A)
    (h : bs.map (fun b => b.floats[slot]?) = cols.map some) :
    addAll fmax slot (.bkt c) bs = (c.adds fmax cols >>= fun c' => ok (.bkt c')) := by
  induction bs generalizing cols c with
  | nil =>
    cases cols with
    | nil => rfl
    | cons _ _ => simp at h
  | cons b bs ih =>
    cases cols with
    | nil => simp at h
    | cons v cols =>
      simp only [List.map_cons, List.cons.injEq] at h
      simp only [addAll, List.foldlM_cons, Column.addCells, vecGet_eq_ok.mpr h.1, ok_bind, pure_eq, BktCol.adds]
      cases c.add fmax v with
      | ok c1 =>
        simp only [ok_bind]
        exact ih cols c1 h.2
      | ub => rfl
      | fatal => rfl

/-- What it means that a column of the store holds the requested cells: `cols` lists, file by file, the cells at
position `i` of the data lines. -/
def Holds (fmax : A) (parse : Text → Option (Fl A)) (contents : List Text) (i : Nat) (k : ColType)
    (col : Option (Column A)) : Prop :=
  match k with
  | .string => ∃ cols : List (List Text), (linesPerFile contents).map (·.map (cellAt i)) = cols.map (·.map some) ∧
      col = some (.str (StrCol.build (cols.map (·.map String.ofList))))
  | .raw => ∃ cols : List (List (Fl A)),
      (linesPerFile contents).map (·.map (fun l => (cellAt i l).bind (cellValue parse))) = cols.map (·.map some) ∧
      col = some (.raw ⟨.ok, cols.flatten⟩)
  | .bucketized => ∃ cols : List (List (Fl A)), ∃ c,
      (linesPerFile contents).map (·.map (fun l => (cellAt i l).bind (cellValue parse))) = cols.map (·.map some) ∧
      BktCol.build fmax 30000 cols = ok c ∧ col = some (.bkt c)

/-- The shape of the columns after the setup. -/
theorem setup_objs {headers : List Text} {reqs : List (ColType × String)} {s : Setup A}
    (inv : SetupInv headers reqs s) : s.handles.map Handle.obj = List.range reqs.length := by
  apply List.ext_getElem
  · simp [inv.len]
  · intro k h1 h2
    have hk : k < reqs.length := by simpa using h2
    obtain ⟨slot, i, e, _⟩ := inv.handle k reqs[k] (List.getElem?_eq_getElem hk)
    have := (List.getElem?_eq_some_iff.mp e).2
    simp [this]

theorem setup_map_obj {headers : List Text} {reqs : List (ColType × String)} {s : Setup A}
    (inv : SetupInv headers reqs s) : ∀ p ∈ s.map, ∃ x ∈ s.handles, x.obj = p.2 := by
  intro p hp
  rw [inv.map] at hp
  simp only [List.mem_reverse, List.mem_map] at hp
  obtain ⟨q, hq, rfl⟩ := hp
  obtain ⟨h1, h2, _⟩ := List.mem_zipIdx hq
  have hk : q.2 < reqs.length := by omega
  obtain ⟨slot, i, e, _⟩ := inv.handle q.2 reqs[q.2] (List.getElem?_eq_getElem hk)
  exact ⟨_, List.mem_of_getElem? e, rfl⟩

theorem setup_lookup {headers : List Text} {reqs : List (ColType × String)} {s : Setup A}
    (inv : SetupInv headers reqs s) (hn : (reqs.map Prod.snd).Nodup) {k : Nat} {r : ColType × String}
    (hk : reqs[k]? = some r) : s.map.lookup r.2 = some k := by
  rw [inv.map]
  have hmem : (r.2, k) ∈ (reqs.zipIdx.map (fun p => (p.1.2, p.2))).reverse := by
    simp only [List.mem_reverse, List.mem_map]
    exact ⟨(r, k), by rw [List.mem_zipIdx_iff_getElem?]; exact hk, rfl⟩
  have hnd : ((reqs.zipIdx.map (fun p => (p.1.2, p.2))).reverse.map Prod.fst).Nodup := by
    rw [List.map_reverse, List.nodup_reverse, List.map_map]
    have : reqs.zipIdx.map (Prod.fst ∘ fun p => (p.1.2, p.2)) = reqs.map Prod.snd := by
      apply List.ext_getElem <;> simp
    rw [this]
    exact hn
  revert hmem hnd
  generalize (reqs.zipIdx.map (fun p => (p.1.2, p.2))).reverse = m
  intro hmem hnd
  induction m with
  | nil => cases hmem
  | cons p m ih =>
    rw [List.map_cons, List.nodup_cons] at hnd
    rcases List.mem_cons.mp hmem with rfl | hm
    · simp
    · have hne : (r.2 == p.1) = false := by
        rw [beq_eq_false_iff_ne]
        intro e
        exact hnd.1 (by rw [← e]; exact List.mem_map_of_mem (f := Prod.fst) hm)
      rw [List.lookup_cons, hne]
      exact ih hm hnd.2

/-- **C17 (which columns).** The columns requested by a configuration: float features as bucketized columns; additional
floats, target and weight as raw columns; categorical features, group and additional strings as string columns; nothing
else.  An empty target, weight or group name requests nothing. -/
theorem C17_requested (config : TsvConfig) (name : String) :
    ((ColType.bucketized, name) ∈ config.requests ↔ name ∈ config.floatFeature) ∧
    ((ColType.raw, name) ∈ config.requests ↔
      name ∈ config.additionalFloat ∨ (name ≠ "" ∧ (name = config.target ∨ name = config.weight))) ∧
    ((ColType.string, name) ∈ config.requests ↔
      name ∈ config.categoricalFeature ∨ name ∈ config.additionalString ∨ (name ≠ "" ∧ name = config.group)) := by
  have h1 : ∀ s : String, name ∈ (if s = "" then [] else [s]) ↔ (name ≠ "" ∧ name = s) := by
    intro s
    split
    · rename_i h
      subst h
      simp
    · rename_i h
      simp only [List.mem_singleton]
      constructor
      · rintro rfl; exact ⟨h, rfl⟩
      · exact fun h => h.2
  refine ⟨?_, ?_, ?_⟩
  · simp [TsvConfig.requests]
  · simp only [TsvConfig.requests, List.mem_append, List.mem_map, Prod.mk.injEq, reduceCtorEq, false_and, and_false,
      exists_const, true_and, exists_eq_right, false_or, or_false, h1]
    tauto
  · simp only [TsvConfig.requests, List.mem_append, List.mem_map, Prod.mk.injEq, reduceCtorEq, false_and, and_false,
      exists_const, true_and, exists_eq_right, false_or, or_false, h1]
    tauto

example : ({ floatFeature := ["f"], target := "t", categoricalFeature := ["c"], group := "g" } : TsvConfig).requests =
    [(.bucketized, "f"), (.raw, "t"), (.string, "c"), (.string, "g")] := by decide +kernel

/-- **C17 (contents).** When loading succeeds, all files exist and every requested column holds the cells of the data
lines of all files in file order, whatever the order in which the pool runs its tasks. -/
theorem C17_load_contents (fmax : A) (parse : Text → Option (Fl A)) (sched : Nat → List Handle → List Handle)
    (hs : AnyOrder sched) (files : List (Option Text)) (config : TsvConfig) (store : DataStore A)
    (hn : (config.requests.map Prod.snd).Nodup)
    (h : loadTSVs fmax parse sched files config = ok (.ok store)) :
    ∃ first rest, files = (first :: rest).map some ∧
      ∀ r ∈ config.requests, ∃ i, IsColumn (headerNames first) r.2 i ∧
        Holds fmax parse (first :: rest) i r.1 (store.getColumn r.2) := by
  unfold loadTSVs at h
  cases files with
  | nil => cases h
  | cons f fs =>
    simp only at h
    cases hset : (setupColumns f config : Except Code (Setup A)) with
    | error e => rw [hset] at h; cases h
    | ok s =>
      rw [hset] at h
      simp only [bind_eq_ok] at h
      obtain ⟨r, hp, h⟩ := h
      cases r with
      | error e => cases h
      | ok heap =>
        simp only [bind_eq_ok] at h
        obtain ⟨heap1, hfin, st, hst, h⟩ := h
        split at h
        · cases h
        · cases h
          cases f with
          | none => cases hset
          | some first =>
            simp only [setupColumns] at hset
            have inv := setupInv_fold _ _ _ _ (setupInv_nil _) (by simpa using hn) hset
            rw [List.nil_append] at inv
            have hobj := setup_objs inv
            have hnd : (s.handles.map Handle.obj).Nodup := by rw [hobj]; exact List.nodup_range
            have hheap : ∀ (k : Nat) (r : ColType × String), config.requests[k]? = some r →
                s.heap[k]? = some (some (newColumn r.1)) := by
              intro k r hk
              rw [inv.heap]
              simp [hk]
            have hlive : ∀ x ∈ s.handles, ∃ c, s.heap[x.obj]? = some (some c) := by
              intro x hx
              have : x.obj ∈ s.handles.map Handle.obj := List.mem_map_of_mem hx
              rw [hobj, List.mem_range] at this
              exact ⟨_, hheap x.obj _ (List.getElem?_eq_getElem this)⟩
            obtain ⟨bs, hread, _, hcols⟩ := processBlocks_ok hs hnd _ _ _ _ hp hlive
            obtain ⟨contents, hc, hread'⟩ := readAll_contents hread
            cases contents with
            | nil => simp at hc
            | cons c0 cs =>
              have hc0 : c0 = first := by
                simp only [List.map_cons, List.cons.injEq, Option.some.injEq] at hc
                exact hc.1.symm
              subst hc0
              refine ⟨c0, cs, hc, ?_⟩
              intro r hr
              obtain ⟨k, hk⟩ := List.mem_iff_getElem?.mp hr
              obtain ⟨slot, i, hh, hi, hidx⟩ := inv.handle k r hk
              have hmem := List.mem_of_getElem? hh
              refine ⟨i, ?_, ?_⟩
              · rw [← headers_eq]
                exact (headerIndex_iff _ _ _).mp hi
              · obtain ⟨c, c', e1, e2, e3⟩ := hcols _ hmem
                simp only at e1 e2 e3
                rw [hheap k r hk] at e1
                simp only [Option.some.injEq] at e1
                subst e1
                obtain ⟨_, l2, _⟩ := runTasks_ok _ _ _ _ (perm_obj_nodup (hs _ _) hnd) hfin
                obtain ⟨d, d', f1, f2, f3⟩ := l2 _ ((hs _ _).mem_iff.mpr hmem)
                simp only at f1 f2 f3
                rw [e3] at f1
                simp only [Option.some.injEq] at f1
                subst f1
                have hget : DataStore.getColumn (storeOf heap1 s.map) r.2 = some d' :=
                  storeOf_lookup _ _ _ _ _ (setup_lookup inv hn hk) f3
                rw [hget]
                obtain ⟨rk, rn⟩ := r
                cases rk with
                | string =>
                  obtain ⟨cols, g1, g2⟩ := blocks_strings hread' hidx
                  refine ⟨cols, ?_, ?_⟩
                  · unfold linesPerFile
                    rw [List.map_map]
                    exact g1
                  · have g3 := addAll_str (fmax := fmax) bs (cols.map (·.map String.ofList)) StrCol.new (by
                      rw [g2, List.map_map]; rfl)
                    have e2' : addAll fmax slot (Column.str StrCol.new : Column A) bs = ok c' := e2
                    rw [g3] at e2'
                    cases e2'
                    cases f2
                    rfl
                | raw =>
                  obtain ⟨cols, g1, g2⟩ := blocks_floats hread' hidx
                  refine ⟨cols, ?_, ?_⟩
                  · unfold linesPerFile
                    rw [List.map_map]
                    exact g1
                  · have g3 := addAll_raw (fmax := fmax) bs cols [] g2
                    have e2' : addAll fmax slot (Column.raw ⟨.ok, []⟩ : Column A) bs = ok c' := e2
                    rw [g3] at e2'
                    cases e2'
                    cases f2
                    rfl
                | bucketized =>
                  obtain ⟨cols, g1, g2⟩ := blocks_floats hread' hidx
                  have g3 := addAll_bkt (fmax := fmax) bs cols (BktCol.new 30000) g2
                  have e2' : addAll fmax slot (Column.bkt (BktCol.new 30000) : Column A) bs = ok c' := e2
                  rw [g3, bind_eq_ok] at e2'
                  obtain ⟨c1, a1, a2⟩ := e2'
                  cases a2
                  simp only [Column.finalize, bind_eq_ok] at f2
                  obtain ⟨c2, b1, b2⟩ := f2
                  cases b2
                  refine ⟨cols, c2, ?_, ?_, rfl⟩
                  · unfold linesPerFile
                    rw [List.map_map]
                    exact g1
                  · simp only [BktCol.build, a1, ok_bind, b1]

/-- The contents of a store loaded from existing files. -/
theorem load_holds {fmax : A} {parse : Text → Option (Fl A)} {sched : Nat → List Handle → List Handle}
    (hs : AnyOrder sched) {first : Text} {rest : List Text} {config : TsvConfig} {store : DataStore A}
    (hn : (config.requests.map Prod.snd).Nodup)
    (h : loadTSVs fmax parse sched ((first :: rest).map some) config = ok (.ok store))
    {r : ColType × String} (hr : r ∈ config.requests) : ∃ i, IsColumn (headerNames first) r.2 i ∧
      Holds fmax parse (first :: rest) i r.1 (store.getColumn r.2) := by
  obtain ⟨f, rs, e, hall⟩ := C17_load_contents fmax parse sched hs _ config store hn h
  have : first :: rest = f :: rs := (List.map_injective_iff.mpr (Option.some_injective _)) e
  cases this
  exact hall r hr

theorem flatten_of_map_map {α β : Type} {f : α → Option β} {ls : List (List α)} {cols : List (List β)}
    (h : ls.map (·.map f) = cols.map (·.map some)) : ls.flatten.map f = cols.flatten.map some := by
  rw [List.map_flatten, List.map_flatten, h]

/-- **C17 (string rows).** Row `j` of a loaded string column is the cell of the `j`-th data line of all files. -/
theorem C17_string_rows (fmax : A) (parse : Text → Option (Fl A)) (sched : Nat → List Handle → List Handle)
    (hs : AnyOrder sched) (first : Text) (rest : List Text) (config : TsvConfig) (store : DataStore A)
    (hn : (config.requests.map Prod.snd).Nodup)
    (h : loadTSVs fmax parse sched ((first :: rest).map some) config = ok (.ok store))
    (name : String) (hr : (ColType.string, name) ∈ config.requests)
    (hsize : (linesPerFile (first :: rest)).flatten.length + 1 < 2 ^ 32) :
    ∃ i c, IsColumn (headerNames first) name i ∧ store.getString name = some c ∧
      c.size = ok (linesPerFile (first :: rest)).flatten.length ∧
      ∀ (j : Nat) (l : Text), (linesPerFile (first :: rest)).flatten[j]? = some l →
        ∃ t, cellAt i l = some t ∧ c.rowString j = ok (String.ofList t) := by
  obtain ⟨i, hi, cols, h1, h2⟩ := load_holds hs hn h hr
  have hflat := flatten_of_map_map h1
  have hb : (cols.map (·.map String.ofList)).flatten = cols.flatten.map String.ofList := by
    rw [List.map_flatten]
  have hlen : cols.flatten.length = (linesPerFile (first :: rest)).flatten.length := by
    have := congrArg List.length hflat
    simp only [List.length_map] at this
    exact this.symm
  have hC := C01_string_roundtrip (cols.map (·.map String.ofList)) (by rw [hb, List.length_map]; omega)
  refine ⟨i, StrCol.build (cols.map (·.map String.ofList)), hi, by simp only [DataStore.getString, h2], ?_, ?_⟩
  · rw [hC.1, hb, List.length_map, hlen]
  · intro j l hj
    have hjl := (List.getElem?_eq_some_iff.mp hj).1
    have e := congrArg (fun x => x[j]?) hflat
    simp only [List.getElem?_map, hj, Option.map_some] at e
    rw [List.getElem?_eq_getElem (show j < cols.flatten.length by omega)] at e
    simp only [Option.map_some, Option.some.injEq] at e
    refine ⟨_, e, ?_⟩
    have hlt : j < (cols.map (·.map String.ofList)).flatten.length := by rw [hb, List.length_map]; omega
    rw [hC.2 j hlt]
    congr 1
    have := List.getElem_of_eq hb hlt
    rw [this, List.getElem_map]

/-- **C17 (raw float rows).** -/
theorem C17_raw_rows (fmax : A) (parse : Text → Option (Fl A)) (sched : Nat → List Handle → List Handle)
    (hs : AnyOrder sched) (first : Text) (rest : List Text) (config : TsvConfig) (store : DataStore A)
    (hn : (config.requests.map Prod.snd).Nodup)
    (h : loadTSVs fmax parse sched ((first :: rest).map some) config = ok (.ok store))
    (name : String) (hr : (ColType.raw, name) ∈ config.requests)
    (hsize : (linesPerFile (first :: rest)).flatten.length < 2 ^ 32) :
    ∃ i c, IsColumn (headerNames first) name i ∧ store.getRaw name = some c ∧
      c.size = (linesPerFile (first :: rest)).flatten.length ∧
      ∀ (j : Nat) (l : Text), (linesPerFile (first :: rest)).flatten[j]? = some l →
        ∃ v, (cellAt i l).bind (cellValue parse) = some v ∧ c.get j = ok v := by
  obtain ⟨i, hi, cols, h1, h2⟩ := load_holds hs hn h hr
  have hflat := flatten_of_map_map h1
  have hlen : cols.flatten.length = (linesPerFile (first :: rest)).flatten.length := by
    have := congrArg List.length hflat
    simp only [List.length_map] at this
    exact this.symm
  refine ⟨i, ⟨.ok, cols.flatten⟩, hi, by simp only [DataStore.getRaw, h2], ?_, ?_⟩
  · show u32 cols.flatten.length = _
    rw [hlen]
    exact Nat.mod_eq_of_lt hsize
  · intro j l hj
    have hjl := (List.getElem?_eq_some_iff.mp hj).1
    have e := congrArg (fun x => x[j]?) hflat
    simp only [List.getElem?_map, hj, Option.map_some] at e
    rw [List.getElem?_eq_getElem (show j < cols.flatten.length by omega)] at e
    simp only [Option.map_some, Option.some.injEq] at e
    exact ⟨_, e, vecGet_lt (show j < cols.flatten.length by omega)⟩

/-- **C17 (bucketized float rows).** A missing cell is a missing row; a finite number lies between the row's minimum
and maximum. -/
theorem C17_bucketized_rows (fmax : A) (parse : Text → Option (Fl A)) (sched : Nat → List Handle → List Handle)
    (hs : AnyOrder sched) (first : Text) (rest : List Text) (config : TsvConfig) (store : DataStore A)
    (hn : (config.requests.map Prod.snd).Nodup)
    (h : loadTSVs fmax parse sched ((first :: rest).map some) config = ok (.ok store))
    (name : String) (hr : (ColType.bucketized, name) ∈ config.requests)
    (hsize : (linesPerFile (first :: rest)).flatten.length + 2 < 2 ^ 32) :
    ∃ i c, IsColumn (headerNames first) name i ∧ store.getBucketized name = some c ∧
      c.size = ok (linesPerFile (first :: rest)).flatten.length ∧
      ∀ (j : Nat) (l : Text), (linesPerFile (first :: rest)).flatten[j]? = some l →
        ∃ v, (cellAt i l).bind (cellValue parse) = some v ∧ c.ints.missing j = ok (decide (v = Fl.nan)) ∧
          ∀ x, v = .num x → x ≤ fmax →
            ∃ lo hi, c.rowMin j = ok (.num lo) ∧ c.rowMax j = ok (.num hi) ∧ lo ≤ x ∧ x ≤ hi := by
  obtain ⟨i, hi, cols, c, h1, hb, h2⟩ := load_holds hs hn h hr
  have hflat := flatten_of_map_map h1
  have hlen : cols.flatten.length = (linesPerFile (first :: rest)).flatten.length := by
    have := congrArg List.length hflat
    simp only [List.length_map] at this
    exact this.symm
  have hf : Fits 30000 cols := ⟨by omega, by decide⟩
  have hC := C03_missing_iff_nan hf hb
  refine ⟨i, c, hi, by simp only [DataStore.getBucketized, h2], by rw [hC.1, hlen], ?_⟩
  intro j l hj
  have hjl := (List.getElem?_eq_some_iff.mp hj).1
  have e := congrArg (fun x => x[j]?) hflat
  simp only [List.getElem?_map, hj, Option.map_some] at e
  have hlt : j < cols.flatten.length := by omega
  rw [List.getElem?_eq_getElem hlt] at e
  simp only [Option.map_some, Option.some.injEq] at e
  refine ⟨_, e, hC.2 j hlt, ?_⟩
  intro x hx hle
  exact C04_row_in_bucket hf hb (by rw [List.getElem?_eq_getElem hlt, hx]) (Or.inl hle)

/-- **C17 (schedule).** The result of loading does not depend on the order in which the pool runs its tasks. -/
theorem C17_schedule_independent (fmax : A) (parse : Text → Option (Fl A))
    (sched sched' : Nat → List Handle → List Handle) (hs : AnyOrder sched) (hs' : AnyOrder sched')
    (files : List (Option Text)) (config : TsvConfig) (r : Except Code (DataStore A))
    (hn : (config.requests.map Prod.snd).Nodup) :
    loadTSVs fmax parse sched files config = ok r ↔ loadTSVs fmax parse sched' files config = ok r := by
  have one : ∀ (sched sched' : Nat → List Handle → List Handle), AnyOrder sched → AnyOrder sched' →
      loadTSVs fmax parse sched files config = ok r → loadTSVs fmax parse sched' files config = ok r := by
    intro sched sched' hs hs' h
    unfold loadTSVs at h ⊢
    cases files with
    | nil => exact h
    | cons f fs =>
      simp only at h ⊢
      cases hset : (setupColumns f config : Except Code (Setup A)) with
      | error e => rw [hset] at h; exact h
      | ok s =>
        rw [hset] at h
        simp only [bind_eq_ok] at h
        obtain ⟨q, hp, h⟩ := h
        cases f with
        | none => cases hset
        | some first =>
          simp only [setupColumns] at hset
          have inv := setupInv_fold _ _ _ _ (setupInv_nil _) (by simpa using hn) hset
          have hnd : (s.handles.map Handle.obj).Nodup := by rw [setup_objs inv]; exact List.nodup_range
          simp only [processBlocks_sched hs hs' hnd _ _ _ _ hp, ok_bind]
          cases q with
          | error e => exact h
          | ok heap =>
            simp only [bind_eq_ok] at h
            obtain ⟨heap1, hfin, h⟩ := h
            have := runTasks_perm _ ((hs' (some first :: fs).length s.handles).trans (hs _ s.handles).symm) _ _
              (perm_obj_nodup (hs _ s.handles) hnd) hfin
            simp only [this, ok_bind]
            obtain ⟨st, hst, h⟩ := h
            rw [hst]
            exact h
  exact ⟨one _ _ hs hs', one _ _ hs' hs⟩

/-- Every data line of the file provides the cells of the requested columns. -/
def FileReadable (parse : Text → Option (Fl A)) (config : TsvConfig) (hs : List String) (s : Text) (header : Bool) :
    Prop :=
  ∀ l ∈ dataLines s header, ∀ r ∈ config.requests, ∀ i, IsColumn hs r.2 i →
    ∃ t, cellAt i l = some t ∧ (r.1 ≠ .string → (cellValue parse t).isSome)

theorem goodLine_of_readable {parse : Text → Option (Fl A)} {config : TsvConfig} {first : Text} {s : Setup A}
    (idx : IdxInv (headersOf first) config.requests s)
    {file : Text} {header : Bool} (h : FileReadable parse config (headerNames first) file header) :
    ∃ b, readTSV parse (some file) s.fidx s.sidx header = .ok b := by
  rw [C16_success_iff]
  intro l hl
  constructor
  · intro i hi
    obtain ⟨r, hr, _, hri⟩ := idx.s i hi
    rw [headerIndex_iff, headers_eq] at hri
    obtain ⟨t, ht, _⟩ := h l hl r hr i hri
    exact (List.getElem?_eq_some_iff.mp ht).1
  · intro i hi
    obtain ⟨r, hr, hk, hri⟩ := idx.f i hi
    rw [headerIndex_iff, headers_eq] at hri
    obtain ⟨t, ht, hv⟩ := h l hl r hr i hri
    exact ⟨t, ht, hv hk⟩

/-- **C17 (failure).** Loading reports an error only if there is no file, a file is missing, a requested column is not
on the header line, or some file has a line that does not provide the requested cells. -/
theorem C17_failure_reasons (fmax : A) (parse : Text → Option (Fl A)) (sched : Nat → List Handle → List Handle)
    (hs : AnyOrder sched) (files : List (Option Text)) (config : TsvConfig) (e : Code)
    (hn : (config.requests.map Prod.snd).Nodup)
    (h : loadTSVs fmax parse sched files config = ok (.error e)) :
    (files = [] ∧ e = .invalidArgument) ∨ (none ∈ files ∧ e = .notFound) ∨
    ∃ first, files.head? = some (some first) ∧
      ((e = .notFound ∧ ∃ r ∈ config.requests, ∀ i, ¬ IsColumn (headerNames first) r.2 i) ∨
       ∃ k file, files[k]? = some (some file) ∧ e ∈ [.outOfRange, .invalidArgument] ∧
         ¬ FileReadable parse config (headerNames first) file (k == 0)) := by
  unfold loadTSVs at h
  cases files with
  | nil => cases h; exact .inl ⟨rfl, rfl⟩
  | cons f fs =>
    right
    simp only at h
    cases f with
    | none =>
      cases h
      exact .inl ⟨by simp, rfl⟩
    | some first =>
      cases hset : (setupColumns (some first) config : Except Code (Setup A)) with
      | error e' =>
        rw [hset] at h
        cases h
        right
        refine ⟨first, rfl, .inl ?_⟩
        simp only [setupColumns] at hset
        refine ⟨setup_fold_error _ _ _ hset, ?_⟩
        by_contra hc
        push Not at hc
        obtain ⟨s', hs'⟩ := (setup_fold_ok (headers := headersOf first) config.requests ({} : Setup A)).mpr (by
          intro r hr
          obtain ⟨i, hi⟩ := hc r hr
          rw [← headers_eq, ← headerIndex_iff] at hi
          simp [hi])
        rw [hs'] at hset
        cases hset
      | ok s =>
        rw [hset] at h
        simp only [bind_eq_ok] at h
        obtain ⟨q, hp, h⟩ := h
        simp only [setupColumns] at hset
        have inv := setupInv_fold _ _ _ _ (setupInv_nil _) (by simpa using hn) hset
        have idx := idxInv_fold _ [] _ _ ⟨by simp, by simp⟩ hset
        rw [List.nil_append] at inv idx
        have hobj := setup_objs inv
        have hnd : (s.handles.map Handle.obj).Nodup := by rw [hobj]; exact List.nodup_range
        have hfresh : ∀ x ∈ s.handles, ∃ c, s.heap[x.obj]? = some (some c) ∧ c.Fresh := by
          intro x hx
          have : x.obj ∈ s.handles.map Handle.obj := List.mem_map_of_mem hx
          rw [hobj, List.mem_range] at this
          refine ⟨newColumn (config.requests[x.obj]).1, ?_, Column.fresh_new _⟩
          rw [inv.heap]
          simp [this]
        cases q with
        | error e' =>
          cases h
          obtain ⟨k, file, hk, hr⟩ := processBlocks_fresh hs hnd (setup_map_obj inv) _ _ _ _ hfresh hp
          cases file with
          | none =>
            cases hr
            exact .inl ⟨List.mem_of_getElem? hk, rfl⟩
          | some file =>
            right
            refine ⟨first, rfl, .inr ⟨k, file, hk, ?_, ?_⟩⟩
            · obtain ⟨_, _, _, _, _, h | h⟩ := C16_failure _ _ _ _ _ _ hr <;> simp [h.1]
            intro hgood
            obtain ⟨b, hb⟩ := goodLine_of_readable idx hgood
            rw [Nat.zero_add, hb] at hr
            cases hr
        | ok heap =>
          exfalso
          simp only [bind_eq_ok] at h
          obtain ⟨heap1, hfin, st, hst, h⟩ := h
          obtain ⟨bs, hread, _, hcols⟩ := processBlocks_ok hs hnd _ _ _ _ hp
            (fun x hx => by obtain ⟨c, hc, _⟩ := hfresh x hx; exact ⟨c, hc⟩)
          obtain ⟨_, l2, _⟩ := runTasks_ok _ _ _ _ (perm_obj_nodup (hs _ _) hnd) hfin
          have : firstNotOk heap1 s.map = ok .ok := firstNotOk_ok _ _ (by
            intro p hp'
            obtain ⟨x, hx, e⟩ := setup_map_obj inv p hp'
            obtain ⟨c, c', e1, e2, e3⟩ := hcols x hx
            obtain ⟨d, d', f1, f2, f3⟩ := l2 x ((hs _ _).mem_iff.mpr hx)
            rw [e3] at f1
            simp only [Option.some.injEq] at f1
            subst f1
            obtain ⟨c0, g1, g2⟩ := hfresh x hx
            rw [e1] at g1
            simp only [Option.some.injEq] at g1
            subst g1
            refine ⟨d', by rw [← e, f3], Column.fresh_finalize ?_ f2⟩
            clear f2 f3 e1 e3 hp hcols hread
            induction bs generalizing c with
            | nil => cases e2; exact g2
            | cons b bs ih =>
              simp only [addAll, List.foldlM_cons, bind_eq_ok] at e2
              obtain ⟨c1, a1, a2⟩ := e2
              exact ih c1 a2 (Column.fresh_add g2 a1))
          rw [this] at hst
          cases hst
          rw [if_neg (by simp)] at h
          cases h

/-- No requested float feature makes the bucket construction crash (C08), for any number of leading files. -/
def NoBucketCrash (fmax : A) (parse : Text → Option (Fl A)) (files : List (Option Text)) (config : TsvConfig) : Prop :=
  ∀ name ∈ config.floatFeature, ∀ (first : Text) (rest : List Text) (i : Nat) (cols : List (List (Fl A))),
    (first :: rest).map some <+: files → IsColumn (headerNames first) name i →
    (linesPerFile (first :: rest)).map (·.map (fun l => (cellAt i l).bind (cellValue parse))) = cols.map (·.map some) →
    ∃ c, BktCol.build fmax 30000 cols = ok c

/-- C18 in full: loading is never undefined, bucket construction aside. -/
def C18_full : Prop :=
  ∀ (A : Type) [LinearOrder A] (fmax : A) (parse : Text → Option (Fl A)) (sched : Nat → List Handle → List Handle)
    (files : List (Option Text)) (config : TsvConfig), AnyOrder sched → NoBucketCrash fmax parse files config →
    ∃ r, loadTSVs fmax parse sched files config = ok r

theorem mem_requests_bucketized {config : TsvConfig} {name : String} :
    (ColType.bucketized, name) ∈ config.requests ↔ name ∈ config.floatFeature := by
  simp [TsvConfig.requests]

/-- Adding the blocks of some leading files to a new column, and finalizing it, succeeds. -/
theorem addAll_total {fmax : A} {parse : Text → Option (Fl A)} {files : List (Option Text)} {config : TsvConfig}
    (hnc : NoBucketCrash fmax parse files config) {first : Text} {fs : List (Option Text)}
    (hfiles : files = some first :: fs) {s : Setup A}
    (inv : SetupInv (headersOf first) config.requests s)
    {k : Nat} {r : ColType × String} (hk : config.requests[k]? = some r) {slot : Nat}
    (hh : s.handles[k]? = some ⟨r.1, k, slot⟩) (m : Nat) (bs : List (Block A))
    (hread : ReadAll parse s.fidx s.sidx 0 (files.take (m + 1)) bs) :
    ∃ c' c'', addAll fmax slot (newColumn r.1) bs = ok c' ∧ Column.finalize fmax c' = ok c'' := by
  obtain ⟨slot', i, hh', hi, hidx⟩ := inv.handle k r hk
  rw [hh] at hh'
  simp only [Option.some.injEq, Handle.mk.injEq, true_and] at hh'
  subst hh'
  obtain ⟨contents, hc, hread'⟩ := readAll_contents hread
  obtain ⟨rk, rn⟩ := r
  cases rk with
  | string =>
    obtain ⟨cols, g1, g2⟩ := blocks_strings hread' hidx
    have g3 := addAll_str (fmax := fmax) bs (cols.map (·.map String.ofList)) StrCol.new (by
      rw [g2, List.map_map]; rfl)
    exact ⟨_, _, g3, rfl⟩
  | raw =>
    obtain ⟨cols, g1, g2⟩ := blocks_floats hread' hidx
    have g3 := addAll_raw (fmax := fmax) bs cols [] g2
    exact ⟨_, _, g3, rfl⟩
  | bucketized =>
    obtain ⟨cols, g1, g2⟩ := blocks_floats hread' hidx
    have g3 := addAll_bkt (fmax := fmax) bs cols (BktCol.new 30000) g2
    cases contents with
    | nil => rw [hfiles] at hc; simp at hc
    | cons c0 cs =>
      have hc0 : c0 = first := by
        rw [hfiles] at hc
        simp only [List.take_succ_cons, List.map_cons, List.cons.injEq, Option.some.injEq] at hc
        exact hc.1.symm
      subst hc0
      obtain ⟨c, hbuild⟩ := hnc rn
        (mem_requests_bucketized.mp (List.mem_of_getElem? hk))
        c0 cs i cols (by rw [← hc]; exact List.take_prefix _ _)
        (by rw [← headers_eq]; exact (headerIndex_iff _ _ _).mp hi)
        (by unfold linesPerFile; rw [List.map_map]; exact g1)
      simp only [BktCol.build, bind_eq_ok] at hbuild
      obtain ⟨c1, a1, a2⟩ := hbuild
      refine ⟨.bkt c1, .bkt c, ?_, by simp [Column.finalize, a2]⟩
      show addAll fmax slot (.bkt (BktCol.new 30000)) bs = _
      rw [g3, a1, ok_bind]

/-- **C18 (partial).** If no column name is requested twice, loading is never undefined.
Missing: repeated names, for which the property is false (`C18_duplicates_undefined`). -/
theorem C18_distinct_names_partial (fmax : A) (parse : Text → Option (Fl A))
    (sched : Nat → List Handle → List Handle) (files : List (Option Text)) (config : TsvConfig)
    (hs : AnyOrder sched) (hnc : NoBucketCrash fmax parse files config)
    (hn : (config.requests.map Prod.snd).Nodup) :
    ∃ r, loadTSVs fmax parse sched files config = ok r := by
  unfold loadTSVs
  cases files with
  | nil => exact ⟨_, rfl⟩
  | cons f fs =>
    simp only
    cases hset : (setupColumns f config : Except Code (Setup A)) with
    | error e => exact ⟨_, rfl⟩
    | ok s =>
      cases f with
      | none => cases hset
      | some first =>
        simp only [setupColumns] at hset
        have inv := setupInv_fold _ _ _ _ (setupInv_nil _) (by simpa using hn) hset
        rw [List.nil_append] at inv
        have hobj := setup_objs inv
        have hnd : (s.handles.map Handle.obj).Nodup := by rw [hobj]; exact List.nodup_range
        have hheap : ∀ (k : Nat) (r : ColType × String), config.requests[k]? = some r →
            s.heap[k]? = some (some (newColumn r.1)) := by
          intro k r hk
          rw [inv.heap]
          simp [hk]
        have hreq : ∀ x ∈ s.handles, ∃ r, config.requests[x.obj]? = some r ∧
            s.handles[x.obj]? = some ⟨r.1, x.obj, x.slot⟩ := by
          intro x hx
          obtain ⟨k, hk⟩ := List.mem_iff_getElem?.mp hx
          have hkl : k < config.requests.length := by
            rw [← inv.len]
            exact (List.getElem?_eq_some_iff.mp hk).1
          obtain ⟨slot, i, e, _⟩ := inv.handle k _ (List.getElem?_eq_getElem hkl)
          have e' := e
          rw [hk] at e'
          simp only [Option.some.injEq] at e'
          subst e'
          exact ⟨_, List.getElem?_eq_getElem hkl, e⟩
        obtain ⟨q, hq⟩ := processBlocks_total (parse := parse) (fmax := fmax) hs hnd (setup_map_obj inv)
          (some first :: fs) 0 s.heap (by
          intro x hx
          obtain ⟨r, hr, hh⟩ := hreq x hx
          refine ⟨_, hheap _ _ hr, ?_⟩
          intro m bs hread
          cases m with
          | zero =>
            cases hread
            exact ⟨_, rfl⟩
          | succ m =>
            obtain ⟨c', _, h1, _⟩ := addAll_total hnc rfl inv hr hh m bs hread
            exact ⟨c', h1⟩)
        simp only [hq, ok_bind]
        cases q with
        | error e => exact ⟨_, rfl⟩
        | ok heap =>
          simp only
          obtain ⟨bs, hread, _, hcols⟩ := processBlocks_ok hs hnd _ _ _ _ hq (fun x hx => by
            obtain ⟨r, hr, _⟩ := hreq x hx
            exact ⟨_, hheap _ _ hr⟩)
          obtain ⟨heap1, h1⟩ := runTasks_exists (fun _ => Column.finalize fmax)
            (sched (some first :: fs).length s.handles) heap (perm_obj_nodup (hs _ _) hnd) (by
            intro x hx
            have hx' := (hs _ _).mem_iff.mp hx
            obtain ⟨r, hr, hh⟩ := hreq x hx'
            obtain ⟨c, c', e1, e2, e3⟩ := hcols x hx'
            rw [hheap _ _ hr] at e1
            simp only [Option.some.injEq] at e1
            subst e1
            obtain ⟨d, d', g1, g2⟩ := addAll_total hnc rfl inv hr hh (some first :: fs).length bs (by
              rw [List.take_of_length_le (by omega)]
              exact hread)
            rw [e2] at g1
            cases g1
            exact ⟨c', d', e3, g2⟩)
          obtain ⟨_, l2, _⟩ := runTasks_ok _ _ _ _ (perm_obj_nodup (hs _ _) hnd) h1
          obtain ⟨st, hst⟩ := firstNotOk_exists heap1 s.map (by
            intro p hp
            obtain ⟨x, hx, e⟩ := setup_map_obj inv p hp
            obtain ⟨c, c', _, _, e3⟩ := l2 x ((hs _ _).mem_iff.mpr hx)
            exact ⟨c', by rw [← e, e3]⟩)
          rw [h1, ok_bind, hst, ok_bind]
          split
          · exact ⟨_, rfl⟩
          · exact ⟨_, rfl⟩

/-- **C17 (success).** Loading succeeds if there is at least one file, all exist, all requested columns are on the
header line, and all lines provide the requested cells. -/
theorem C17_succeeds (fmax : A) (parse : Text → Option (Fl A)) (sched : Nat → List Handle → List Handle)
    (hs : AnyOrder sched) (first : Text) (rest : List Text) (config : TsvConfig)
    (hn : (config.requests.map Prod.snd).Nodup)
    (hnc : NoBucketCrash fmax parse ((first :: rest).map some) config)
    (hhead : ∀ r ∈ config.requests, r.2 ∈ headerNames first)
    (hread : ∀ (k : Nat) (file : Text), (first :: rest)[k]? = some file →
      FileReadable parse config (headerNames first) file (k == 0)) :
    ∃ store, loadTSVs fmax parse sched ((first :: rest).map some) config = ok (.ok store) := by
  obtain ⟨r, hr⟩ := C18_distinct_names_partial fmax parse sched _ config hs hnc hn
  cases r with
  | ok store => exact ⟨store, hr⟩
  | error e =>
    exfalso
    rcases C17_failure_reasons fmax parse sched hs _ config e hn hr with h | h | ⟨f, hf, h⟩
    · simp at h
    · simp at h
    · simp only [List.map_cons, List.head?_cons, Option.some.injEq] at hf
      subst hf
      rcases h with ⟨_, q, hq, hi⟩ | ⟨k, file, hk, _, hnr⟩
      · -- a name on the header line has a last position
        have hm := hhead q hq
        have : ∀ (l : List String), q.2 ∈ l → ∃ i, IsColumn l q.2 i := by
          intro l
          induction l with
          | nil => intro h; cases h
          | cons x l ih =>
            intro h
            by_cases hl : q.2 ∈ l
            · obtain ⟨i, h1, h2⟩ := ih hl
              refine ⟨i + 1, by simpa using h1, ?_⟩
              intro j hj
              cases j with
              | zero => omega
              | succ j => simpa using h2 j (by omega)
            · rcases List.mem_cons.mp h with rfl | h'
              · refine ⟨0, by simp, ?_⟩
                intro j hj
                cases j with
                | zero => omega
                | succ j =>
                  rw [List.getElem?_cons_succ]
                  intro e
                  exact hl (List.mem_of_getElem? e)
              · exact absurd h' hl
        obtain ⟨i, h⟩ := this _ hm
        exact hi i h
      · rw [List.getElem?_map] at hk
        obtain ⟨x, hx, hxe⟩ := Option.map_eq_some_iff.mp hk
        simp only [Option.some.injEq] at hxe
        subst hxe
        exact hnr (hread k x hx)

/-- **C18 (repeated names).** Whenever a column name is requested twice, the headers are found and the first file can be
read, the loader uses a destroyed column: it does not return. -/
theorem C18_duplicates_undefined (fmax : A) (parse : Text → Option (Fl A))
    (sched : Nat → List Handle → List Handle) (hs : AnyOrder sched) (first : Text) (rest : List (Option Text))
    (config : TsvConfig) (hdup : ¬ (config.requests.map Prod.snd).Nodup)
    (hhead : ∀ r ∈ config.requests, ∃ i, IsColumn (headerNames first) r.2 i)
    (hread : FileReadable parse config (headerNames first) first true) (r : Except Code (DataStore A)) :
    loadTSVs fmax parse sched (some first :: rest) config ≠ ok r := by
  intro h
  unfold loadTSVs at h
  simp only [setupColumns] at h
  obtain ⟨s, hset⟩ := (setup_fold_ok (headers := (headersOf first)) config.requests ({} : Setup A)).mpr (by
    intro r hr
    obtain ⟨i, hi⟩ := hhead r hr
    rw [← headers_eq, ← headerIndex_iff] at hi
    simp [hi])
  have dup := dupInv_fold _ [] _ _ ⟨rfl, rfl, by simp⟩ hset
  have idx := idxInv_fold _ [] _ _ ⟨by simp, by simp⟩ hset
  rw [List.nil_append] at dup idx
  rw [hset] at h
  simp only [bind_eq_ok] at h
  obtain ⟨q, hp, _⟩ := h
  obtain ⟨b, hb⟩ := goodLine_of_readable idx hread
  simp only [processBlocks, BEq.rfl] at hp
  rw [hb] at hp
  simp only [bind_eq_ok] at hp
  obtain ⟨heap1, h1, _⟩ := hp
  -- two requests of the same name: one of their columns is dead
  have : ∃ k, s.heap[k]? = some none ∧ k < config.requests.length := by
    by_contra hno
    push Not at hno
    apply hdup
    rw [List.nodup_iff_injective_get]
    intro a b hab
    have ha : a.1 < config.requests.length := by simpa using a.2
    have hb : b.1 < config.requests.length := by simpa using b.2
    have la := dup.live a.1 _ (List.getElem?_eq_getElem ha)
    have lb := dup.live b.1 _ (List.getElem?_eq_getElem hb)
    have la' := la.resolve_left (fun e => absurd (hno _ e) (by omega))
    have lb' := lb.resolve_left (fun e => absurd (hno _ e) (by omega))
    simp only [List.get_eq_getElem, List.getElem_map] at hab
    rw [hab, lb'] at la'
    simp only [Option.some.injEq] at la'
    exact Fin.ext la'.symm
  obtain ⟨k, hk, hkl⟩ := this
  have hmem : k ∈ s.handles.map Handle.obj := by rw [dup.objs]; simpa using hkl
  obtain ⟨x, hx, rfl⟩ := List.mem_map.mp hmem
  exact runTasks_dangling _ _ _ x ((hs _ _).mem_iff.mpr hx) hk _ h1

/-- The configuration of the examples. -/
def sampleTsvConfig : TsvConfig := { additionalFloat := ["x"], additionalString := ["y"] }

/-- A second file, without header. -/
def sampleTsv2 : Text := "7\tc\n".toList

example : (sampleTsvConfig.requests.map Prod.snd).Nodup ∧ AnyOrder (fun n l => if n = 0 then l.reverse else l) ∧
    (match loadTSVs (1000 : Nat) digitParse (fun n l => if n = 0 then l.reverse else l)
        [some sampleTsv, some sampleTsv2] sampleTsvConfig with
      | .ok (.ok store) => (store.getString "y").map (fun c => c.rowString 2)
      | _ => none) = some (ok "c") ∧
    (match loadTSVs (1000 : Nat) digitParse (fun _ l => l)
        [some sampleTsv, some sampleTsv2] sampleTsvConfig with
      | .ok (.ok store) => (store.getRaw "x").map (fun c => c.get 1)
      | _ => none) = some (ok Fl.nan) := by
  refine ⟨by decide, ?_, by decide +kernel, by decide +kernel⟩
  intro n l
  by_cases h : n = 0
  · simp only [h, if_true]
    exact List.reverse_perm l
  · simp only [h, if_false]
    exact List.Perm.refl l

/-- The same column as a raw column and as the target. -/
def duplicateConfig : TsvConfig := { additionalFloat := ["x"], target := "x" }

/-- **C18 is false**: a name given both as an additional float column and as the target is used after its first column
was destroyed. -/
theorem C18_refuted : ¬ C18_full := by
  intro h
  obtain ⟨r, hr⟩ := h Nat 1000 digitParse (fun _ l => l) [some sampleTsv] duplicateConfig
    (fun _ l => List.Perm.refl l) (by intro name hn; simp [duplicateConfig] at hn)
  have : (match loadTSVs (1000 : Nat) digitParse (fun _ l => l) [some sampleTsv] duplicateConfig with
      | .ub => true
      | _ => false) = true := by decide +kernel
  rw [hr] at this
  cases this

end Gbdt
