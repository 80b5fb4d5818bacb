import Verif.Props.PyStore

/-!
# C93: columns as lists, stores as data frames, and back
-/

set_option autoImplicit false
set_option linter.unusedSectionVars false

namespace Gbdt

open Outcome

variable {A : Type} [LinearOrder A]

namespace PyStore

theorem item_end {n : Nat} (hn : n < 2 ^ 31) {c : Column A} (h : c.size = ok n) : item c n = ok (.error (.lib .outOfRange)) := by
  have hb : -2147483648 ≤ (n : Int) ∧ (n : Int) < 2147483648 := by omega
  have hi : ¬ (0 ≤ (n : Int) ∧ (n : Int) < n) := by omega
  cases c with
  | str c =>
    rw [item, asInt, if_pos hb, pyGet_out (size := StrCol.size) (row := StrCol.rowString) hn h hi hb]
    rfl
  | bkt c =>
    rw [item, asInt, if_pos hb, pyGet_out (size := BktCol.size) (row := BktCol.rowMin) hn h hi hb]
    rfl
  | raw c =>
    rw [item, asInt, if_pos hb, pyGet_out (size := fun c : RawCol A => .ok c.size) (row := RawCol.get) hn h hi hb]
    rfl

theorem listFrom_rows {n : Nat} (hn : n < 2 ^ 31) {c : Column A} (h : HasRows n c) : ∀ (k i fuel : Nat), i + k = n → k < fuel →
    ∃ vals, listFrom c fuel i = ok (.ok vals) ∧ vals.length = k ∧ (∀ x ∈ vals, Cell.Fit c.type x) ∧
      ∀ (j : Nat) x, vals[j]? = some x → item c (i + j : Nat) = ok (.ok x)
  | 0, i, fuel + 1, hik, _ => by
    obtain rfl : i = n := by omega
    refine ⟨[], ?_, rfl, by simp, by simp⟩
    rw [listFrom, item_end hn (hasRows_size h)]
  | k + 1, i, fuel + 1, hik, hf => by
    obtain ⟨x, hx, hfit⟩ := item_in hn h (i := (i : Int)) (by omega) (by omega)
    obtain ⟨vals, h1, h2, h3, h4⟩ := listFrom_rows hn h k (i + 1) fuel (by omega) (by omega)
    refine ⟨x :: vals, ?_, by simp [h2], ?_, ?_⟩
    · simp only [listFrom, hx, h1, PyRes.andThen]
    · intro y hy
      rcases List.mem_cons.mp hy with rfl | hy
      · exact hfit
      · exact h3 y hy
    · intro j y hy
      cases j with
      | zero =>
        simp only [List.getElem?_cons_zero, Option.some.injEq] at hy
        subst hy
        exact hx
      | succ j =>
        rw [List.getElem?_cons_succ] at hy
        have := h4 j y hy
        rwa [show i + 1 + j = i + (j + 1) by omega] at this
  | _, _, 0, _, hf => absurd hf (Nat.not_lt_zero _)

theorem strings_cells {l : List (Cell A)} (h : ∀ x ∈ l, Cell.Fit .string x) : (strings l).map Cell.str = l := by
  induction l with
  | nil => rfl
  | cons x l ih =>
    have h1 := h x (List.mem_cons_self ..)
    have ih := ih (fun y hy => h y (List.mem_cons_of_mem _ hy))
    cases x with
    | str s => simp only [strings, List.map_cons, ih]
    | num v => exact absurd h1 (by simp [Cell.Fit])

theorem numbers_cells {l : List (Cell A)} (h : ∀ x ∈ l, ∃ v, x = .num v) : (numbers l).map Cell.num = l := by
  induction l with
  | nil => rfl
  | cons x l ih =>
    obtain ⟨v, rfl⟩ := h x (List.mem_cons_self ..)
    have ih := ih (fun y hy => h y (List.mem_cons_of_mem _ hy))
    simp only [numbers, List.map_cons, ih]

theorem dfCells_of {t : ColType} {vals : List (Cell A)} (h : ∀ x ∈ vals, Cell.Fit t x) : dfCells (dfColOf t vals) = vals := by
  cases t with
  | string => exact strings_cells h
  | bucketized => exact numbers_cells (fun x hx => by have := h x hx; cases x with | num v => exact ⟨v, rfl⟩ | str s => exact absurd this (by simp [Cell.Fit]))
  | raw => exact numbers_cells (fun x hx => by have := h x hx; cases x with | num v => exact ⟨v, rfl⟩ | str s => exact absurd this (by simp [Cell.Fit]))

end PyStore

/-- **C93 (list).** `list(column)` is the list of all rows of the column. -/
theorem C93_list {n : Nat} (hn : n < 2 ^ 31) {c : Column A} (h : HasRows n c) :
    ∃ vals, PyStore.listCol c = ok (.ok vals) ∧ vals.length = n ∧
      ∀ (j : Nat) x, vals[j]? = some x → PyStore.item c j = ok (.ok x) := by
  obtain ⟨vals, h1, h2, _, h4⟩ := PyStore.listFrom_rows hn h n 0 (2 ^ 31 + 1) (by omega) (by omega)
  exact ⟨vals, h1, h2, fun j x hj => by have := h4 j x hj; rwa [Nat.zero_add] at this⟩

/-- The data frame shows the store: the same columns, strings as they are and numbers as numbers, all rows in order. -/
def ShowsStore (s : DataStore A) (n : Nat) (df : List (String × PyStore.DfCol A)) : Prop :=
  (df.map Prod.fst).Perm (s.map Prod.fst) ∧
  ∀ p ∈ df, ∃ c, s.getColumn p.1 = some c ∧ (c.type = .string ↔ ∃ vals, p.2 = .other vals) ∧ (dfCells p.2).length = n ∧
    ∀ (j : Nat) x, (dfCells p.2)[j]? = some x → PyStore.item c j = ok (.ok x)

theorem PyStore.toDfLoop_ok {s : DataStore A} (hk : (s.map Prod.fst).Nodup) {n : Nat} (hn : n < 2 ^ 31)
    (hr : ∀ p ∈ s, HasRows n p.2) : ∀ {names : List String}, (∀ name ∈ names, name ∈ s.allNames) →
    ∃ df, toDfLoop (some s) names = ok (.ok df) ∧ df.map Prod.fst = names ∧
      ∀ p ∈ df, ∃ c, s.getColumn p.1 = some c ∧ (c.type = .string ↔ ∃ vals, p.2 = .other vals) ∧ (dfCells p.2).length = n ∧
        ∀ (j : Nat) x, (dfCells p.2)[j]? = some x → PyStore.item c j = ok (.ok x)
  | [], _ => ⟨[], rfl, rfl, by simp⟩
  | name :: names, hnames => by
    obtain ⟨df, h1, h2, h3⟩ := toDfLoop_ok hk hn hr (names := names) (fun m hm => hnames m (List.mem_cons_of_mem _ hm))
    obtain ⟨c, hc, hm⟩ := keys_getColumn hk (hnames name (List.mem_cons_self ..))
    obtain ⟨vals, g1, g2, g3, g4⟩ := listFrom_rows hn (hr _ hm) n 0 (2 ^ 31 + 1) (by omega) (by omega)
    refine ⟨(name, dfColOf c.type vals) :: df, ?_, by simp [h2], ?_⟩
    · simp only [toDfLoop, getCol, hc, PyRes.andThen, listCol, g1, h1]
    · intro p hp
      rcases List.mem_cons.mp hp with rfl | hp
      · refine ⟨c, hc, ?_, ?_, ?_⟩
        · cases ht : c.type with
          | string => exact ⟨fun _ => ⟨_, rfl⟩, fun _ => rfl⟩
          | bucketized => exact ⟨fun h => (by cases h), fun ⟨v, hv⟩ => (by cases hv)⟩
          | raw => exact ⟨fun h => (by cases h), fun ⟨v, hv⟩ => (by cases hv)⟩
        · simp only [dfCells_of g3, g2]
        · intro j x hx
          simp only [dfCells_of g3] at hx
          have := g4 j x hx
          rwa [Nat.zero_add] at this
      · exact h3 p hp

/-- **C93 (to_df).** `to_df` succeeds and shows every column of the store, and nothing else. -/
theorem C93_to_df {s : DataStore A} (hk : (s.map Prod.fst).Nodup) {n : Nat} (hn : n < 2 ^ 31)
    (hr : ∀ p ∈ s, HasRows n p.2) : ∃ df, PyStore.toDf (some s) = ok (.ok df) ∧ ShowsStore s n df := by
  obtain ⟨df, h1, h2, h3⟩ := PyStore.toDfLoop_ok hk hn hr (names := s.allNames) (fun _ h => h)
  exact ⟨df, h1, h2 ▸ s.allNames_perm, h3⟩

/-- **C93 (round trip).** `from_df(store.to_df(), overrides)`, with `float` or `raw_float` for the raw columns and nothing else,
is a store with the same columns, the same types and the same values; or the process crashes, and this happens exactly when a
bucketized column has exactly one different number less than there are buckets. -/
theorem C93_round_trip (fmax : A) {nb : Nat} (hnb : nb < 2 ^ 32) {place : DataStore A → DataStore A}
    (hplace : ∀ l, (place l).Perm l) {s : DataStore A} (hk : (s.map Prod.fst).Nodup) {n : Nat} (hn : n < 2 ^ 31)
    (hr : ∀ p ∈ s, HasRows n p.2) (hsmall : n < 2 * nb) {df : List (String × PyStore.DfCol A)}
    (hdf : PyStore.toDf (some s) = ok (.ok df)) {overrides : String → Option String}
    (hraw : ∀ name c, s.getColumn name = some c → (c.type = .raw → overrides name = some "float" ∨ overrides name = some "raw_float") ∧
      (c.type ≠ .raw → overrides name = none)) :
    (¬ PicksDistinct s ((List.range n).map Int.ofNat) (nb - 1) →
      ∃ d, PyStore.fromDf fmax nb place df overrides = ok (.ok d) ∧ SameShape s n (d.getD []) ∧
        ∀ name c c', s.getColumn name = some c → (d.getD []).getColumn name = some c' → ∀ i : Nat, i < n →
          ∃ x, PyStore.item c i = ok (.ok x) ∧ PyStore.item c' i = ok (.ok x)) ∧
    (0 < nb → PicksDistinct s ((List.range n).map Int.ofNat) (nb - 1) → PyStore.fromDf fmax nb place df overrides = ub) := by
  obtain ⟨df', h1, h2, h3⟩ := C93_to_df hk hn hr
  rw [hdf] at h1
  obtain rfl : df = df' := by simpa using h1
  have hnd : (df.map Prod.fst).Nodup := h2.nodup_iff.mpr hk
  have htype : ∀ p ∈ df, ∀ c, s.getColumn p.1 = some c → dfType p.2 (overrides p.1) = c.type := by
    intro p hp c hc
    obtain ⟨c', hc', ht, _, _⟩ := h3 p hp
    obtain rfl : c = c' := by rw [hc] at hc'; simpa using hc'
    have ho := hraw p.1 c hc
    obtain ⟨name, col⟩ := p
    cases htc : c.type with
    | raw =>
      rcases ho.1 htc with h | h <;> simp only [h, dfType]
    | string =>
      obtain ⟨vals, hv⟩ := ht.mp htc
      simp only at hv
      simp only [ho.2 (by rw [htc]; decide), hv, dfType]
    | bucketized =>
      simp only [ho.2 (by rw [htc]; decide), dfType]
      cases col with
      | numeric vals => rfl
      | other vals =>
        have := ht.mpr ⟨vals, rfl⟩
        rw [htc] at this
        cases this
  -- the numbers of a bucketized column
  have hcount : ∀ name vals c, (name, PyStore.DfCol.numeric vals) ∈ df → s.getColumn name = some (.bkt c) →
      {v : A | ∃ i ∈ (List.range n).map Int.ofNat, PyStore.item (.bkt c) i = ok (.ok (.num (.num v)))} =
        {v : A | Fl.num v ∈ vals} := by
    intro name vals c hp hc
    obtain ⟨c', hc', _, hlen, hrows⟩ := h3 _ hp
    obtain rfl : Column.bkt c = c' := by simp only at hc'; rw [hc] at hc'; simpa using hc'
    simp only [dfCells, List.length_map, List.getElem?_map] at hlen hrows
    ext v
    simp only [Set.mem_ofPred_eq, List.mem_map, List.mem_range]
    constructor
    · rintro ⟨_, ⟨i, hi, rfl⟩, hv⟩
      have hlt : i < vals.length := by omega
      have := hrows i (.num vals[i]) (by rw [List.getElem?_eq_getElem hlt]; rfl)
      rw [show (Int.ofNat i) = (i : Int) from rfl, this] at hv
      simp only [Outcome.ok.injEq, Except.ok.injEq, Cell.num.injEq] at hv
      rw [← hv]
      exact List.getElem_mem hlt
    · intro hv
      obtain ⟨i, hi, hvi⟩ := List.mem_iff_getElem.mp hv
      exact ⟨_, ⟨i, by omega, rfl⟩, by
        have := hrows i (.num vals[i]) (by rw [List.getElem?_eq_getElem hi]; rfl)
        rw [show (Int.ofNat i) = (i : Int) from rfl, this, hvi]⟩
  have hcol : ∀ p ∈ df, ∃ c, s.getColumn p.1 = some c := fun p hp => by
    obtain ⟨c, hc, _⟩ := h3 p hp
    exact ⟨c, hc⟩
  have hcase := C82_from_df_partial fmax hnb hplace hn hsmall (df := df) (overrides := overrides) hnd
    (fun p hp => by obtain ⟨_, _, _, hl, _⟩ := h3 p hp; exact hl)
    (by
      intro name vals hp h
      obtain ⟨c, hc, ht, _, _⟩ := h3 _ hp
      have := htype _ hp c hc
      simp only at this
      rw [h] at this
      obtain ⟨v, hv⟩ := ht.mp this.symm
      cases hv)
    (by
      intro name vals hp
      obtain ⟨c, hc, ht, _, _⟩ := h3 _ hp
      have := htype _ hp c hc
      simp only at this
      rw [this]
      exact ht.mpr ⟨_, rfl⟩)
  have hbkt : ∀ c : Column A, c.type = .bucketized → ∃ b, c = .bkt b := by
    intro c h
    cases c with
    | bkt b => exact ⟨b, rfl⟩
    | str b => cases h
    | raw b => cases h
  refine ⟨fun hno => ?_, fun hpos hd => ?_⟩
  · obtain ⟨d, g1, g2, g3⟩ := hcase.1 (by
      intro name vals hp hb hcard
      obtain ⟨c, hc⟩ := hcol _ hp
      have := htype _ hp c hc
      simp only at this hc
      obtain ⟨b, rfl⟩ := hbkt c (this.symm.trans hb)
      exact hno ⟨name, b, hc, by rw [hcount name vals b hp hc]; omega⟩)
    have hof : ∀ name c, s.getColumn name = some c → ∃ col, (name, col) ∈ df := by
      intro name c hc
      have hm : name ∈ s.map Prod.fst := by
        by_contra hnot
        rw [(DataStore.get_none name).mpr hnot] at hc
        cases hc
      obtain ⟨⟨m, col⟩, hp, rfl⟩ := List.mem_map.mp (h2.mem_iff.mpr hm)
      exact ⟨col, hp⟩
    refine ⟨d, g1, ⟨g2.trans h2, ?_⟩, ?_⟩
    · intro name c hc
      obtain ⟨col, hp⟩ := hof name c hc
      obtain ⟨c', hc', ht', hr', _⟩ := g3 _ hp
      obtain ⟨_, _, _, hl, _⟩ := h3 _ hp
      rw [hl] at hr'
      exact ⟨c', hc', ht'.trans (htype _ hp c hc), hr'⟩
    · intro name c c' hc hc' i hi
      obtain ⟨col, hp⟩ := hof name c hc
      obtain ⟨c1, hc1, _, _, hv1⟩ := g3 _ hp
      obtain ⟨c2, hc2, _, hl, hv2⟩ := h3 _ hp
      simp only at hc1 hc2 hl
      rw [hc'] at hc1
      rw [hc] at hc2
      obtain rfl : c' = c1 := by simpa using hc1
      obtain rfl : c = c2 := by simpa using hc2
      have hlt : i < (dfCells col).length := by omega
      exact ⟨_, hv2 i _ (List.getElem?_eq_getElem hlt), hv1 i _ (List.getElem?_eq_getElem hlt)⟩
  · obtain ⟨name, b, hc, hcard⟩ := hd
    have hm : name ∈ s.map Prod.fst := by
      by_contra hnot
      rw [(DataStore.get_none name).mpr hnot] at hc
      cases hc
    obtain ⟨⟨m, col⟩, hp, rfl⟩ := List.mem_map.mp (h2.mem_iff.mpr hm)
    simp only at hc
    cases col with
    | other vals =>
      obtain ⟨c, hc', ht, _, _⟩ := h3 _ hp
      simp only at hc'
      rw [hc] at hc'
      obtain rfl : Column.bkt b = c := by simpa using hc'
      have := ht.mpr ⟨vals, rfl⟩
      cases this
    | numeric vals =>
      refine hcase.2 ⟨m, vals, hp, htype _ hp _ hc, ?_⟩
      rw [← hcount m vals b hp hc, hcard]
      omega

/-- **C93 (round trip without overrides).** Without overrides, raw columns come back as bucketized ones; names and values are the
same, if no number column has exactly one different number less than there are buckets. -/
theorem C93_round_trip_plain (fmax : A) {nb : Nat} (hnb : nb < 2 ^ 32) {place : DataStore A → DataStore A}
    (hplace : ∀ l, (place l).Perm l) {s : DataStore A} (hk : (s.map Prod.fst).Nodup) {n : Nat} (hn : n < 2 ^ 31)
    (hr : ∀ p ∈ s, HasRows n p.2) (hsmall : n + 1 < nb) {df : List (String × PyStore.DfCol A)}
    (hdf : PyStore.toDf (some s) = ok (.ok df)) :
    ∃ d, PyStore.fromDf fmax nb place df (fun _ => none) = ok (.ok d) ∧ ((d.getD []).map Prod.fst).Perm (s.map Prod.fst) ∧
      ∀ name c, s.getColumn name = some c → ∃ c', (d.getD []).getColumn name = some c' ∧
        c'.type = (if c.type = .string then .string else .bucketized) ∧ HasRows n c' ∧
        ∀ i : Nat, i < n → ∃ x, PyStore.item c i = ok (.ok x) ∧ PyStore.item c' i = ok (.ok x) := by
  obtain ⟨df', h1, h2, h3⟩ := C93_to_df hk hn hr
  rw [hdf] at h1
  obtain rfl : df = df' := by simpa using h1
  obtain ⟨d, g1, g2, g3⟩ := (C82_from_df_partial fmax hnb hplace hn (by omega : n < 2 * nb) (df := df)
    (overrides := fun _ => none) (h2.nodup_iff.mpr hk)
    (fun p hp => by obtain ⟨_, _, _, hl, _⟩ := h3 p hp; exact hl) (fun _ _ _ h => by cases h) (fun _ _ _ => rfl)).1 (by
      intro name vals hp _ hcard
      obtain ⟨_, _, _, hl, _⟩ := h3 _ hp
      simp only [dfCells, List.length_map] at hl
      have : PyStore.distinct (vals.map Cell.num) ≤ vals.length := by
        unfold PyStore.distinct
        refine (Finset.card_filter_le _ _).trans ((List.toFinset_card_le _).trans ?_)
        rw [PyStore.numbers_num]
      rw [PyStore.distinct_num] at this
      omega)
  refine ⟨d, g1, g2.trans h2, ?_⟩
  intro name c hc
  have hm : name ∈ s.map Prod.fst := by
    by_contra hnot
    rw [(DataStore.get_none name).mpr hnot] at hc
    cases hc
  obtain ⟨⟨m, col⟩, hp, rfl⟩ := List.mem_map.mp (h2.mem_iff.mpr hm)
  obtain ⟨c1, hc1, ht1, hr1, hv1⟩ := g3 _ hp
  obtain ⟨c2, hc2, ht2, hl, hv2⟩ := h3 _ hp
  simp only at hc hc1 hc2 hl ht2
  rw [hc] at hc2
  obtain rfl : c = c2 := by simpa using hc2
  rw [hl] at hr1
  refine ⟨c1, hc1, ?_, hr1, ?_⟩
  · rw [ht1]
    cases col with
    | numeric vals => rw [if_neg (fun h => by obtain ⟨v, hv⟩ := ht2.mp h; cases hv)]; rfl
    | other vals => rw [if_pos (ht2.mpr ⟨_, rfl⟩)]; rfl
  · intro i hi
    have hlt : i < (dfCells col).length := by omega
    exact ⟨_, hv2 i _ (List.getElem?_eq_getElem hlt), hv1 i _ (List.getElem?_eq_getElem hlt)⟩

/-- A store of four rows is shown, with its missing value, and read back. -/
example :
    (match dictStore.andThen PyStore.toDf with
      | .ok (.ok df) => decide (("x", PyStore.DfCol.numeric [.num 3, .nan, .num 1, .num 3]) ∈ df ∧
          ("c", PyStore.DfCol.other ["u", "v", "u", "w"]) ∈ df ∧ df.length = 4)
      | _ => false) = true ∧
    cellsOf (dictStore.andThen (fun s => (PyStore.toDf s).andThen (fun df => PyStore.fromDf 1000 4 rotate1 df
      (fun k => if k = "y" then some "float" else none)))) "x" [0, 1, 2, 3] =
      some [.num (.num 3), .num .nan, .num (.num 1), .num (.num 3)] := by
  decide +kernel

end Gbdt
