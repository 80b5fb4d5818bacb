import Verif.Lemmas.Tsv

/-!
# C16: reading one TSV file

Specification: the *data lines* of a file are its pieces between line-feeds, without trailing carriage returns, without
the first one if the file starts with a header, and without the empty ones.  The *cells* of a line are its pieces
between tabs.  A cell denotes a float if it parses as one, and NaN if it is one of the missing tokens.
-/

set_option linter.unusedSectionVars false

set_option autoImplicit false

namespace Gbdt

variable {A : Type} [LinearOrder A]

/-- The lines of a file. -/
def fileLines (s : Text) : List Text := (s.splitOn '\n').map (fun l => l.rdropWhile (· == '\r'))

/-- The data lines of a file. -/
def dataLines (s : Text) (header : Bool) : List Text :=
  (if header then (fileLines s).tail else fileLines s).filter (fun l => decide (l ≠ []))

/-- The float a cell denotes. -/
def cellValue (parse : Text → Option (Fl A)) (t : Text) : Option (Fl A) :=
  match parse t with
  | some v => some v
  | none => if String.ofList t ∈ ["NAN", "nan", "NaN", "?", "_", "-", "*"] then some .nan else none

/-- A line provides all requested cells. -/
def GoodLine (parse : Text → Option (Fl A)) (fidx sidx : List Nat) (l : Text) : Prop :=
  (∀ i ∈ sidx, i < (l.splitOn '\t').length) ∧
  ∀ i ∈ fidx, ∃ t, (l.splitOn '\t')[i]? = some t ∧ (cellValue parse t).isSome

theorem mem_nanTokens (t : Text) :
    t ∈ nanTokens ↔ String.ofList t ∈ ["NAN", "nan", "NaN", "?", "_", "-", "*"] := by
  simp only [nanTokens, List.mem_cons, List.not_mem_nil, or_false]
  have : ∀ u : String, String.ofList t = u ↔ t = u.toList := by
    intro u
    constructor
    · rintro rfl; simp
    · rintro rfl; simp
  simp only [this]

theorem stringCell_ok {row : List Text} {i : Nat} {v : String} :
    stringCell row i = .ok v ↔ row[i]?.map String.ofList = some v := by
  unfold stringCell
  cases row[i]? <;> simp

theorem floatCell_ok {parse : Text → Option (Fl A)} {row : List Text} {i : Nat} {v : Fl A} :
    floatCell parse row i = .ok v ↔ row[i]?.bind (cellValue parse) = some v := by
  unfold floatCell
  cases row[i]? with
  | none => simp
  | some t =>
    simp only [Option.bind_some, cellValue]
    cases parse t with
    | some w => simp
    | none =>
      by_cases h : t ∈ nanTokens
      · simp [h, (mem_nanTokens t).mp h]
      · have h' := h
        rw [mem_nanTokens] at h'
        simp only [h, if_false, h']
        simp

theorem readRow_ok {parse : Text → Option (Fl A)} {fidx sidx : List Nat} {line : Text}
    {r : List String × List (Fl A)} (hl : line ≠ []) : readRow parse fidx sidx line = .ok r ↔
      List.Forall₂ (fun i v => (line.splitOn '\t')[i]?.map String.ofList = some v) sidx r.1 ∧
      List.Forall₂ (fun i v => (line.splitOn '\t')[i]?.bind (cellValue parse) = some v) fidx r.2 := by
  unfold readRow
  rw [splitTab_eq hl]
  simp only [← stringCell_ok, ← floatCell_ok, ← mapM_except_ok]
  cases h1 : sidx.mapM (stringCell (line.splitOn '\t')) with
  | error e =>
    constructor
    · intro h; cases h
    · rintro ⟨h, _⟩; cases h
  | ok ss =>
    cases h2 : fidx.mapM (floatCell parse (line.splitOn '\t')) with
    | error e =>
      constructor
      · intro h; cases h
      · rintro ⟨_, h⟩; cases h
    | ok fs =>
      constructor
      · intro h; cases h; exact ⟨rfl, rfl⟩
      · rintro ⟨h, h'⟩
        cases h
        cases h'
        rfl

theorem readRow_ok_iff_good {parse : Text → Option (Fl A)} {fidx sidx : List Nat} {line : Text} (hl : line ≠ []) :
    (∃ r, readRow parse fidx sidx line = .ok r) ↔ GoodLine parse fidx sidx line := by
  simp only [readRow_ok hl]
  have ex : ∀ {β : Type} (f : Nat → Option β) (l : List Nat),
      (∃ r, List.Forall₂ (fun i v => f i = some v) l r) ↔ ∀ i ∈ l, (f i).isSome := by
    intro β f l
    induction l with
    | nil => simp
    | cons i l ih =>
      simp only [List.mem_cons, forall_eq_or_imp, ← ih]
      constructor
      · rintro ⟨r, hr⟩
        cases hr with
        | cons h1 h2 => exact ⟨by simp [h1], _, h2⟩
      · rintro ⟨h1, r, hr⟩
        obtain ⟨v, hv⟩ := Option.isSome_iff_exists.mp h1
        exact ⟨v :: r, .cons hv hr⟩
  constructor
  · rintro ⟨r, h1, h2⟩
    constructor
    · intro i hi
      have := (ex _ _).mp ⟨_, h1⟩ i hi
      simpa using this
    · intro i hi
      have := (ex _ _).mp ⟨_, h2⟩ i hi
      cases ht : (line.splitOn '\t')[i]? with
      | none => simp [ht] at this
      | some t => exact ⟨t, rfl, by simpa [ht] using this⟩
  · rintro ⟨h1, h2⟩
    obtain ⟨ss, hs⟩ := (ex (fun i => (line.splitOn '\t')[i]?.map String.ofList) sidx).mpr (by
      intro i hi
      simpa using h1 i hi)
    obtain ⟨fs, hf⟩ := (ex (fun i => (line.splitOn '\t')[i]?.bind (cellValue parse)) fidx).mpr (by
      intro i hi
      obtain ⟨t, ht, hv⟩ := h2 i hi
      simpa [ht] using hv)
    exact ⟨(ss, fs), hs, hf⟩

theorem dataLines_eq (s : Text) (header : Bool) :
    dataLines s header = (if header then (readLines s).tail else readLines s).filter (fun l => decide (l ≠ [])) := by
  rw [readLines_eq]
  rfl

/-- **C16 (contents).** A block that parses has, for every requested column, one value per data line: the cell at the
column's index. -/
theorem C16_block_contents (parse : Text → Option (Fl A)) (s : Text) (fidx sidx : List Nat) (header : Bool)
    (b : Block A) (h : readTSV parse (some s) fidx sidx header = .ok b) :
    b.strings.length = sidx.length ∧ b.floats.length = fidx.length ∧
    (∀ k i : Nat, sidx[k]? = some i → ∃ ts : List Text, (dataLines s header).map (fun l => (l.splitOn '\t')[i]?) = ts.map some ∧
      b.strings[k]? = some (ts.map String.ofList)) ∧
    (∀ k i : Nat, fidx[k]? = some i → ∃ vs : List (Fl A),
      (dataLines s header).map (fun l => (l.splitOn '\t')[i]?.bind (cellValue parse)) = vs.map some ∧
      b.floats[k]? = some vs) := by
  simp only [readTSV] at h
  rw [readRows_ok] at h
  obtain ⟨rows, hr, rfl⟩ := h
  rw [← dataLines_eq] at hr
  have hr' : List.Forall₂ (fun l (r : List String × List (Fl A)) =>
      List.Forall₂ (fun i v => (l.splitOn '\t')[i]?.map String.ofList = some v) sidx r.1 ∧
      List.Forall₂ (fun i v => (l.splitOn '\t')[i]?.bind (cellValue parse) = some v) fidx r.2)
      (dataLines s header) rows := by
    have hne : ∀ l ∈ dataLines s header, l ≠ [] := by
      intro l hl
      simp only [dataLines, List.mem_filter, decide_eq_true_eq] at hl
      exact hl.2
    revert hr hne
    generalize dataLines s header = ls
    intro hr hne
    induction hr with
    | nil => exact .nil
    | cons h1 h2 ih =>
      exact .cons ((readRow_ok (hne _ (by simp))).mp h1) (ih (fun l hl => hne l (by simp [hl])))
  have hs1 : ∀ r ∈ rows.map Prod.fst, r.length = sidx.length := by
    intro r hm
    obtain ⟨x, hx, rfl⟩ := List.mem_map.mp hm
    obtain ⟨l, _, hl⟩ := forall₂_mem_right hr' hx
    exact hl.1.length_eq.symm
  have hs2 : ∀ r ∈ rows.map Prod.snd, r.length = fidx.length := by
    intro r hm
    obtain ⟨x, hx, rfl⟩ := List.mem_map.mp hm
    obtain ⟨l, _, hl⟩ := forall₂_mem_right hr' hx
    exact hl.2.length_eq.symm
  have f1 := foldl_pushRow (rows.map Prod.fst) (List.replicate sidx.length []) sidx.length (by simp) hs1
  have f2 := foldl_pushRow (rows.map Prod.snd) (List.replicate fidx.length []) fidx.length (by simp) hs2
  simp only [List.foldl_map, List.map_map] at f1 f2
  refine ⟨f1.1, f2.1, ?_, ?_⟩
  · intro k i hk
    have hk' : k < sidx.length := (List.getElem?_eq_some_iff.mp hk).1
    obtain ⟨cells, hc1, hc2⟩ := f1.2 k hk'
    have hcell : ∃ ts : List Text, (dataLines s header).map (fun l => (l.splitOn '\t')[i]?) = ts.map some ∧
        cells = ts.map String.ofList := by
      clear f1 f2 hs1 hs2 hr hc2
      revert hc1 hr'
      generalize dataLines s header = ls
      intro hr'
      induction hr' generalizing cells with
      | nil =>
        intro hc1
        refine ⟨[], rfl, ?_⟩
        cases cells
        · rfl
        · simp at hc1
      | cons h1 _ ih =>
        intro hc1
        cases cells with
        | nil => simp at hc1
        | cons c cells =>
          simp only [List.map_cons, Function.comp_apply, List.cons.injEq] at hc1
          obtain ⟨ts, ht1, ht2⟩ := ih cells hc1.2
          have := h1.1.get (i := k) hk' (by have := h1.1.length_eq; omega)
          have hki := (List.getElem?_eq_some_iff.mp hk).2
          simp only [List.get_eq_getElem, hki] at this
          obtain ⟨t, ht, hto⟩ := Option.map_eq_some_iff.mp this
          refine ⟨t :: ts, by simp [ht, ht1], ?_⟩
          rw [List.getElem?_eq_getElem (by have := h1.1.length_eq; omega), ← hto] at hc1
          simp only [Option.some.injEq] at hc1
          simp [ht2, hc1.1]
    obtain ⟨ts, h1, h2⟩ := hcell
    refine ⟨ts, h1, ?_⟩
    rw [hc2, h2]
    simp [hk']
  · intro k i hk
    have hk' : k < fidx.length := (List.getElem?_eq_some_iff.mp hk).1
    obtain ⟨cells, hc1, hc2⟩ := f2.2 k hk'
    refine ⟨cells, ?_, by rw [hc2]; simp [hk']⟩
    rw [← hc1]
    clear f1 f2 hs1 hs2 hr hc1 hc2
    revert hr'
    generalize dataLines s header = ls
    intro hr'
    induction hr' with
    | nil => rfl
    | cons h1 _ ih =>
      have := h1.2.get (i := k) hk' (by have := h1.2.length_eq; omega)
      have hki := (List.getElem?_eq_some_iff.mp hk).2
      simp only [List.get_eq_getElem, hki] at this
      simp only [List.map_cons, Function.comp_apply, ih, this]
      rw [List.getElem?_eq_getElem (by have := h1.2.length_eq; omega)]

/-- **C16 (success).** A block parses exactly when every data line provides all requested cells. -/
theorem C16_success_iff (parse : Text → Option (Fl A)) (s : Text) (fidx sidx : List Nat) (header : Bool) :
    (∃ b, readTSV parse (some s) fidx sidx header = .ok b) ↔
      ∀ l ∈ dataLines s header, GoodLine parse fidx sidx l := by
  simp only [readTSV, readRows_ok, ← dataLines_eq]
  have hne : ∀ l ∈ dataLines s header, l ≠ [] := by
    intro l hl
    simp only [dataLines, List.mem_filter, decide_eq_true_eq] at hl
    exact hl.2
  have : (∃ rows, List.Forall₂ (fun l r => readRow parse fidx sidx l = .ok r) (dataLines s header) rows) ↔
      ∀ l ∈ dataLines s header, GoodLine parse fidx sidx l := by
    revert hne
    generalize dataLines s header = ls
    intro hne
    induction ls with
    | nil => simp
    | cons l ls ih =>
      simp only [List.mem_cons, forall_eq_or_imp]
      rw [← readRow_ok_iff_good (hne l (by simp)), ← ih (fun x hx => hne x (by simp [hx]))]
      constructor
      · rintro ⟨rows, hr⟩
        cases hr with
        | cons h1 h2 => exact ⟨⟨_, h1⟩, _, h2⟩
      · rintro ⟨⟨r, h1⟩, rows, h2⟩
        exact ⟨r :: rows, .cons h1 h2⟩
  rw [← this]
  constructor
  · rintro ⟨b, rows, h, _⟩; exact ⟨rows, h⟩
  · rintro ⟨rows, h⟩; exact ⟨_, rows, h, rfl⟩

/-- **C16 (failure).** A failure is reported for the first bad line: `OUT_OF_RANGE` when it is too short for a requested
column, `INVALID_ARGUMENT` when a requested float cell denotes no float. -/
theorem C16_failure (parse : Text → Option (Fl A)) (s : Text) (fidx sidx : List Nat) (header : Bool) (e : Code)
    (h : readTSV parse (some s) fidx sidx header = .error e) :
    ∃ pre l post, dataLines s header = pre ++ l :: post ∧ (∀ x ∈ pre, GoodLine parse fidx sidx x) ∧
      ((e = .outOfRange ∧ ∃ i ∈ sidx ++ fidx, (l.splitOn '\t').length ≤ i) ∨
       (e = .invalidArgument ∧ ∃ i ∈ fidx, ∃ t, (l.splitOn '\t')[i]? = some t ∧ cellValue parse t = none)) := by
  simp only [readTSV] at h
  obtain ⟨pre, l, post, h1, h2, h3⟩ := readRows_error _ _ _ _ _ _ h
  rw [← dataLines_eq] at h1
  have hne : ∀ l ∈ dataLines s header, l ≠ [] := by
    intro l hl
    simp only [dataLines, List.mem_filter, decide_eq_true_eq] at hl
    exact hl.2
  refine ⟨pre, l, post, h1, ?_, ?_⟩
  · intro x hx
    exact (readRow_ok_iff_good (hne x (by rw [h1]; simp [hx]))).mp (h2 x hx)
  · have hl : l ≠ [] := hne l (by rw [h1]; simp)
    unfold readRow at h3
    rw [splitTab_eq hl] at h3
    dsimp only at h3
    cases hs : sidx.mapM (stringCell (l.splitOn '\t')) with
    | error e' =>
      rw [hs] at h3
      cases h3
      obtain ⟨i, hi, hc⟩ := mapM_except_error _ _ _ hs
      unfold stringCell at hc
      cases ht : (l.splitOn '\t')[i]? with
      | none =>
        rw [ht] at hc
        cases hc
        exact .inl ⟨rfl, i, by simp [hi], by simpa using ht⟩
      | some t => rw [ht] at hc; cases hc
    | ok ss =>
      rw [hs] at h3
      cases hf : fidx.mapM (floatCell parse (l.splitOn '\t')) with
      | ok fs => 
        have h3' : (Except.ok (ss, fs) : Except Code _) = .error e := by
          rw [← h3]
          simp only [hf]
          rfl
        cases h3'
      | error e' =>
        have h3' : (Except.error e' : Except Code (List String × List (Fl A))) = .error e := by
          rw [← h3]
          simp only [hf]
          rfl
        cases h3'
        obtain ⟨i, hi, hc⟩ := mapM_except_error _ _ _ hf
        unfold floatCell at hc
        cases ht : (l.splitOn '\t')[i]? with
        | none =>
          rw [ht] at hc
          cases hc
          exact .inl ⟨rfl, i, by simp [hi], by simpa using ht⟩
        | some t =>
          rw [ht] at hc
          simp only at hc
          cases hp : parse t with
          | some v => rw [hp] at hc; cases hc
          | none =>
            rw [hp] at hc
            simp only at hc
            split at hc
            · cases hc
            · rename_i hn
              cases hc
              rw [mem_nanTokens] at hn
              exact .inr ⟨rfl, i, hi, t, ht, by simp only [cellValue, hp, hn, if_false]⟩

/-- **C16 (missing file).** -/
theorem C16_missing_file (parse : Text → Option (Fl A)) (fidx sidx : List Nat) (header : Bool) :
    readTSV parse none fidx sidx header = .error .notFound := rfl

/-- A toy float parser for the examples: one digit. -/
def digitParse (t : Text) : Option (Fl Nat) :=
  match t with
  | [c] => if '0' ≤ c ∧ c ≤ '9' then some (.num (c.toNat - '0'.toNat)) else none
  | _ => none

/-- A header, a carriage return, a blank line, a missing value, no line-feed at the end. -/
def sampleTsv : Text := "x\ty\r\n1\ta\r\n\n?\tb".toList

example : dataLines sampleTsv true = ["1\ta".toList, "?\tb".toList] := by decide +kernel

example : readTSV digitParse (some sampleTsv) [0] [1] true = .ok ⟨[["a", "b"]], [[.num 1, .nan]]⟩ := by decide +kernel

example : readTSV digitParse (some sampleTsv) [1] [0] true = .error .invalidArgument ∧
    readTSV digitParse (some sampleTsv) [2] [0] true = .error .outOfRange := by decide +kernel

end Gbdt
