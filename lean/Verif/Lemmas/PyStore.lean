import Verif.Model.PyStore
import Verif.Props.DataStore
import Verif.Spec.Tree

/-!
# Lemmas about Python stores
-/

set_option autoImplicit false
set_option linter.unusedSectionVars false

namespace Gbdt

open Outcome

variable {A : Type} [LinearOrder A]

namespace PyStore

/-- The cell is of the kind that columns of the type hold. -/
def Cell.Fit (t : ColType) (x : Cell A) : Prop :=
  match t, x with
  | .string, .str _ => True
  | .bucketized, .num _ => True
  | .raw, .num _ => True
  | _, _ => False

theorem strings_length : ∀ {l : List (Cell A)}, (∀ x ∈ l, Cell.Fit .string x) → (strings l).length = l.length
  | [], _ => rfl
  | .str s :: l, h => by
    rw [strings, List.length_cons, List.length_cons, strings_length (fun x hx => h x (by simp [hx]))]
  | .num x :: l, h => (h _ (List.mem_cons_self ..)).elim

theorem strings_get' : ∀ (l : List (Cell A)), (∀ x ∈ l, Cell.Fit .string x) → ∀ (j : Nat) (x : Cell A), l[j]? = some x →
    ∃ s, x = .str s ∧ (strings l)[j]? = some s
  | [], _, j, x, hj => by simp at hj
  | .num x :: l, h, _, _, _ => (h _ (List.mem_cons_self ..)).elim
  | .str s :: l, h, 0, x, hj => by simp only [List.getElem?_cons_zero, Option.some.injEq] at hj; exact ⟨s, hj.symm, rfl⟩
  | .str s :: l, h, j + 1, x, hj => by
    rw [List.getElem?_cons_succ] at hj
    exact strings_get' l (fun x hx => h x (List.mem_cons_of_mem _ hx)) j x hj

theorem strings_get {l : List (Cell A)} (h : ∀ x ∈ l, Cell.Fit .string x) {j : Nat} {x : Cell A} (hj : l[j]? = some x) :
    ∃ s, x = .str s ∧ (strings l)[j]? = some s := strings_get' l h j x hj

theorem numbers_length : ∀ {l : List (Cell A)}, (∀ x ∈ l, Cell.Fit .raw x) → (numbers l).length = l.length
  | [], _ => rfl
  | .num s :: l, h => by
    rw [numbers, List.length_cons, List.length_cons, numbers_length (fun x hx => h x (by simp [hx]))]
  | .str x :: l, h => (h _ (List.mem_cons_self ..)).elim

theorem numbers_get' : ∀ (l : List (Cell A)), (∀ x ∈ l, Cell.Fit .raw x) → ∀ (j : Nat) (x : Cell A), l[j]? = some x →
    ∃ s, x = .num s ∧ (numbers l)[j]? = some s
  | [], _, j, x, hj => by simp at hj
  | .str x :: l, h, _, _, _ => (h _ (List.mem_cons_self ..)).elim
  | .num s :: l, h, 0, x, hj => by simp only [List.getElem?_cons_zero, Option.some.injEq] at hj; exact ⟨s, hj.symm, rfl⟩
  | .num s :: l, h, j + 1, x, hj => by
    rw [List.getElem?_cons_succ] at hj
    exact numbers_get' l (fun x hx => h x (List.mem_cons_of_mem _ hx)) j x hj

theorem numbers_get {l : List (Cell A)} (h : ∀ x ∈ l, Cell.Fit .raw x) {j : Nat} {x : Cell A} (hj : l[j]? = some x) :
    ∃ s, x = .num s ∧ (numbers l)[j]? = some s := numbers_get' l h j x hj

theorem fit_bkt {l : List (Cell A)} (h : ∀ x ∈ l, Cell.Fit .bucketized x) : ∀ x ∈ l, Cell.Fit .raw x := by
  intro x hx
  have := h x hx
  cases x <;> simp_all [Cell.Fit]

/-- Reading a bucketized column row by row. -/
theorem rowMin_ok {fmax : A} {nb : Nat} {blocks : List (List (Fl A))} {c : BktCol A} (hf : Fits nb blocks)
    (hok : BktCol.build fmax nb blocks = ok c) {i : Nat} (hi : i < blocks.flatten.length) :
    ∃ v, c.rowMin i = ok v ∧ (v = .nan ↔ blocks.flatten[i] = .nan) := by
  obtain ⟨buf, rest, M, _, _, _, _, r⟩ := build_ok hf.1 hf.2 hok
  cases hx : blocks.flatten[i] with
  | nan =>
    refine ⟨.nan, ?_, by simp⟩
    unfold BktCol.rowMin
    rw [r.code (x := .nan) (by rw [List.getElem?_eq_getElem hi, hx]), ok_bind]
    unfold BktCol.bucketMin
    rw [vecGet_eq_ok]
    exact r.placed.zero
  | num v =>
    obtain ⟨k, m, _, _, h2, _⟩ := r.row (i := i) (v := v) (by rw [List.getElem?_eq_getElem hi, hx])
    exact ⟨_, h2, by simp⟩

theorem intToUint_of {i : Int} {n : Nat} (hn : n < 2 ^ 31) (h0 : 0 ≤ i) (hi : i < n) : intToUint i = i.toNat := by
  unfold intToUint
  rw [Int.emod_eq_of_lt h0 (by omega)]

theorem intToUint_ge {i : Int} {n : Nat} (hn : n < 2 ^ 31) (h : ¬ (0 ≤ i ∧ i < n)) (hb : -2147483648 ≤ i ∧ i < 2147483648) :
    n ≤ intToUint i := by
  unfold intToUint
  omega

/-- An index in range. -/
theorem pyGet_in {C α : Type} {c : C} {size : C → Outcome Nat} {row : C → Nat → Outcome α} {n : Nat} (hn : n < 2 ^ 31)
    (hs : size c = ok n) {i : Int} (h0 : 0 ≤ i) (hi : i < n) {v : α} (hv : row c i.toNat = ok v) :
    pyGet (some c) size row i = ok (.ok v) := by
  simp only [pyGet, hs, ok_bind, intToUint_of hn h0 hi, hv]
  rw [if_neg (by omega)]
  rfl

/-- An index out of range. -/
theorem pyGet_out {C α : Type} {c : C} {size : C → Outcome Nat} {row : C → Nat → Outcome α} {n : Nat} (hn : n < 2 ^ 31)
    (hs : size c = ok n) {i : Int} (h : ¬ (0 ≤ i ∧ i < n)) (hb : -2147483648 ≤ i ∧ i < 2147483648) :
    pyGet (some c) size row i = ok (.error .outOfRange) := by
  simp only [pyGet, hs, ok_bind]
  rw [if_pos (intToUint_ge hn h hb)]
  rfl

theorem hasRows_size {n : Nat} {c : Column A} (h : HasRows n c) : c.size = ok n := by
  cases h with
  | str blocks hlen hsize => rw [Column.size, (C01_string_roundtrip blocks (by omega)).1, hlen]
  | bkt fmax nb blocks c hlen hsize hnb hok => rw [Column.size, (C03_missing_iff_nan ⟨by omega, hnb⟩ hok).1, hlen]
  | raw c hlen => rw [Column.size, hlen]

/-- Reading any row of a loaded column gives a cell of the right kind. -/
theorem item_in {n : Nat} (hn : n < 2 ^ 31) {c : Column A} (h : HasRows n c) {i : Int} (h0 : 0 ≤ i) (hi : i < n) :
    ∃ x, item c i = ok (.ok x) ∧ Cell.Fit c.type x := by
  have hb : -2147483648 ≤ i ∧ i < 2147483648 := by omega
  have hsz := hasRows_size h
  cases h with
  | str blocks hlen hsize =>
    have hr := (C01_string_roundtrip blocks (by omega)).2 i.toNat (by omega)
    refine ⟨.str blocks.flatten[i.toNat], ?_, trivial⟩
    rw [item, asInt, if_pos hb, pyGet_in (size := StrCol.size) (row := StrCol.rowString) hn hsz h0 hi hr]
    rfl
  | bkt fmax nb blocks c hlen hsize hnb hok =>
    obtain ⟨v, hv, _⟩ := rowMin_ok ⟨by omega, hnb⟩ hok (i := i.toNat) (by omega)
    refine ⟨.num v, ?_, trivial⟩
    rw [item, asInt, if_pos hb, pyGet_in (size := BktCol.size) (row := BktCol.rowMin) hn hsz h0 hi hv]
    rfl
  | raw c hlen =>
    have hl : i.toNat < c.raw.length := by
      unfold RawCol.size u32 at hlen
      have := Nat.mod_le c.raw.length 4294967296
      omega
    refine ⟨.num c.raw[i.toNat], ?_, trivial⟩
    rw [item, asInt, if_pos hb, pyGet_in (size := fun c : RawCol A => .ok c.size) (row := RawCol.get) hn hsz h0 hi (vecGet_lt hl)]
    rfl

/-- Reading outside raises. -/
theorem item_out {n : Nat} (hn : n < 2 ^ 31) {c : Column A} (h : c.size = ok n) {i : Int} (hi : ¬ (0 ≤ i ∧ i < n)) :
    ∃ e, item c i = ok (.error e) := by
  by_cases hb : -2147483648 ≤ i ∧ i < 2147483648
  · refine ⟨.lib .outOfRange, ?_⟩
    cases c with
    | str c =>
      rw [item, asInt, if_pos hb, pyGet_out (size := StrCol.size) (row := StrCol.rowString) hn h hi hb]
      rfl
    | bkt c =>
      rw [item, asInt, if_pos hb, pyGet_out (size := BktCol.size) (row := BktCol.rowMin) hn h hi hb]
      rfl
    | raw c =>
      rw [item, asInt, if_pos hb, pyGet_out (size := fun c : RawCol A => .ok c.size) (row := RawCol.get) hn h hi hb]
      rfl
  · refine ⟨.typeError, ?_⟩
    cases c <;> simp only [item, asInt, if_neg hb]

theorem items_in {n : Nat} (hn : n < 2 ^ 31) {c : Column A} (h : HasRows n c) : ∀ {index : List Int},
    (∀ i ∈ index, 0 ≤ i ∧ i < n) → ∃ vals, items c index = ok (.ok vals) ∧ vals.length = index.length ∧
      (∀ x ∈ vals, Cell.Fit c.type x) ∧
      ∀ (j : Nat) (i : Int), index[j]? = some i → ∃ x, vals[j]? = some x ∧ item c i = ok (.ok x)
  | [], _ => ⟨[], rfl, rfl, by simp, by simp⟩
  | i :: index, hi => by
    obtain ⟨x, hx, hfit⟩ := item_in hn h (hi i (by simp)).1 (hi i (by simp)).2
    obtain ⟨vals, h1, h2, h3, h4⟩ := items_in hn h (index := index) (fun k hk => hi k (by simp [hk]))
    refine ⟨x :: vals, ?_, by simp [h2], ?_, ?_⟩
    · simp only [items, hx, h1, PyRes.andThen]
    · intro y hy
      rcases List.mem_cons.mp hy with rfl | hy
      · exact hfit
      · exact h3 y hy
    · intro j k hk
      cases j with
      | zero =>
        simp only [List.getElem?_cons_zero, Option.some.injEq] at hk
        subst hk
        exact ⟨x, rfl, hx⟩
      | succ j =>
        rw [List.getElem?_cons_succ] at hk ⊢
        exact h4 j k hk

theorem items_out {n : Nat} (hn : n < 2 ^ 31) {c : Column A} (h : HasRows n c) : ∀ {index : List Int},
    (∃ i ∈ index, ¬ (0 ≤ i ∧ i < n)) → ∃ e, items c index = ok (.error e)
  | [], hi => by obtain ⟨_, h, _⟩ := hi; cases h
  | i :: index, hi => by
    by_cases hb : 0 ≤ i ∧ i < n
    · obtain ⟨x, hx, _⟩ := item_in hn h hb.1 hb.2
      obtain ⟨e, he⟩ := items_out hn h (index := index) (by
        obtain ⟨k, hk, hk'⟩ := hi
        rcases List.mem_cons.mp hk with rfl | hk
        · exact absurd hb hk'
        · exact ⟨k, hk, hk'⟩)
      exact ⟨e, by simp only [items, hx, he, PyRes.andThen]⟩
    · obtain ⟨e, he⟩ := item_out hn (hasRows_size h) hb
      exact ⟨e, by simp only [items, he, PyRes.andThen]⟩

/-- The number of different numbers among cells, missing values not counted. -/
def distinct (vals : List (Cell A)) : Nat := ((numbers vals).toFinset.filter (fun v => v ≠ Fl.nan)).card

/-- Creating a bucketized column of fewer than `2 * nb` values. -/
theorem createBucketized_iff (fmax : A) {nb : Nat} {vals : List (Fl A)} (hn : vals.length < 2 * nb) (hl : vals.length < 2 ^ 31)
    (hnb : nb < 2 ^ 32) :
    (Column.createBucketized fmax vals nb = ub ↔ (vals.toFinset.filter (fun v => v ≠ Fl.nan)).card + 1 = nb) ∧
    ((vals.toFinset.filter (fun v => v ≠ Fl.nan)).card + 1 ≠ nb →
      ∃ c, BktCol.build fmax nb [vals] = ok c ∧ Column.createBucketized fmax vals nb = ok (.bkt c)) := by
  have hf : Fits nb [vals] := by
    unfold Fits
    simp only [List.flatten_cons, List.flatten_nil, List.append_nil]
    omega
  obtain ⟨h1, h2⟩ := C08_crash_iff_partial fmax nb [vals] hf
  have hs : sampleOf nb [] [vals] = vals := by
    unfold sampleOf
    simp only [List.nil_append, sampleOf]
    split <;> rfl
  have hd : vals.length / nb ≤ 1 := by
    have := Nat.div_lt_of_lt_mul (show vals.length < nb * 2 by omega)
    omega
  have hset : vals.toFinset.filter (fun v => v ≠ Fl.nan ∧ max 1 (vals.length / nb) ≤ vals.count v) =
      vals.toFinset.filter (fun v => v ≠ Fl.nan) := by
    refine Finset.filter_congr ?_
    intro v hv
    rw [List.mem_toFinset] at hv
    have := List.count_pos_iff.mpr hv
    constructor
    · exact fun h => h.1
    · exact fun h => ⟨h, by omega⟩
  simp only [hs, hset] at h1 h2
  have hiff : BktCol.build fmax nb [vals] = ub ↔ (vals.toFinset.filter (fun v => v ≠ Fl.nan)).card + 1 = nb := by
    rw [h1]
    constructor
    · rintro (h | h)
      · omega
      · exact h
    · exact Or.inr
  refine ⟨?_, ?_⟩
  · rw [← hiff]
    unfold Column.createBucketized
    cases BktCol.build fmax nb [vals] <;> simp
  · intro hne
    obtain ⟨c, hc⟩ := h2 (by rintro (h | h); omega; exact hne h)
    exact ⟨c, hc, by simp only [Column.createBucketized, hc, ok_bind, pure_eq]⟩

/-- A created column has the type asked for, and reading it gives the values. -/
theorem createCol_read {fmax : A} {nb : Nat} {t : ColType} {vals : List (Cell A)} (hfit : ∀ x ∈ vals, Cell.Fit t x)
    (hl : vals.length < 2 ^ 31) (hnb : nb < 2 ^ 32) {c : Column A} (hc : createCol fmax nb t vals = ok c) :
    c.type = t ∧ HasRows vals.length c ∧ (t = .bucketized → vals.length < 2 * nb) →
      ∀ (j : Nat) (x : Cell A), vals[j]? = some x → item c j = ok (.ok x) := by
  rintro ⟨_, hrows, hsmall⟩ j x hj
  have hjl : j < vals.length := (List.getElem?_eq_some_iff.mp hj).1
  have hb : -2147483648 ≤ (j : Int) ∧ (j : Int) < 2147483648 := by omega
  have hsz := hasRows_size hrows
  cases t with
  | string =>
    rw [createCol, Outcome.ok.injEq] at hc
    subst hc
    obtain ⟨s, rfl, hs⟩ := strings_get hfit hj
    have hlen := strings_length hfit
    have hr := (C01_string_roundtrip [strings vals] (by simp only [List.flatten_cons, List.flatten_nil, List.append_nil]; omega)).2
      j (by simp only [List.flatten_cons, List.flatten_nil, List.append_nil]; omega)
    simp only [List.flatten_cons, List.flatten_nil, List.append_nil] at hr
    have : (strings vals)[j]'(by omega) = s := (List.getElem?_eq_some_iff.mp hs).2
    rw [this] at hr
    rw [Column.createString, item, asInt, if_pos hb, pyGet_in (size := StrCol.size) (row := StrCol.rowString) hl hsz (i := (j : Int)) (by omega) (by omega) (v := s) hr]
    rfl
  | bucketized =>
    have hfit' := fit_bkt hfit
    obtain ⟨s, rfl, hs⟩ := numbers_get hfit' hj
    have hlen := numbers_length hfit'
    rw [createCol, Column.createBucketized, bind_eq_ok] at hc
    obtain ⟨b, hb', hc⟩ := hc
    rw [pure_eq, Outcome.ok.injEq] at hc
    subst hc
    have hflat : [numbers vals].flatten = numbers vals := by simp
    have hf : Fits nb [numbers vals] := ⟨by rw [hflat]; omega, hnb⟩
    have hr : b.rowMin j = ok s := by
      cases s with
      | nan =>
        obtain ⟨v, hv, hvn⟩ := rowMin_ok hf hb' (i := j) (by rw [hflat]; omega)
        have : [numbers vals].flatten[j]'(by rw [hflat]; omega) = .nan := by
          have := (List.getElem?_eq_some_iff.mp hs).2
          simpa using this
        rw [hv, hvn.mpr this]
      | num a => exact (C07_few_values_exact hf hb' (by rw [hflat, hlen]; exact hsmall rfl) (by rw [hflat]; exact hs)).1
    rw [item, asInt, if_pos hb, pyGet_in (size := BktCol.size) (row := BktCol.rowMin) hl hsz (i := (j : Int)) (by omega) (by omega) (v := s) hr]
    rfl
  | raw =>
    rw [createCol, Outcome.ok.injEq] at hc
    subst hc
    obtain ⟨s, rfl, hs⟩ := numbers_get hfit hj
    have h0 : (RawCol.add ({} : RawCol A) (numbers vals)).finalize = { status := .ok, raw := numbers vals } := by
      simp [RawCol.add, RawCol.finalize]
    have hr : RawCol.get (RawCol.add ({} : RawCol A) (numbers vals)).finalize j = ok s := by
      rw [h0, RawCol.get, vecGet_eq_ok]; exact hs
    rw [Column.createRaw, item, asInt, if_pos hb, pyGet_in (size := fun c : RawCol A => .ok c.size) (row := RawCol.get)
      (c := (RawCol.add ({} : RawCol A) (numbers vals)).finalize) hl hsz (i := (j : Int)) (by omega) (by omega) (v := s) hr]
    rfl

theorem createCol_rows {fmax : A} {nb : Nat} {t : ColType} {vals : List (Cell A)} (hfit : ∀ x ∈ vals, Cell.Fit t x)
    (hl : vals.length < 2 ^ 31) (hnb : nb < 2 ^ 32) {c : Column A} (hc : createCol fmax nb t vals = ok c) :
    c.type = t ∧ HasRows vals.length c := by
  cases t with
  | string =>
    rw [createCol, Outcome.ok.injEq] at hc
    subst hc
    exact ⟨rfl, HasRows.str _ (by simpa using strings_length hfit) (by omega)⟩
  | bucketized =>
    rw [createCol, Column.createBucketized, bind_eq_ok] at hc
    obtain ⟨b, hb', hc⟩ := hc
    rw [pure_eq, Outcome.ok.injEq] at hc
    subst hc
    exact ⟨rfl, HasRows.bkt fmax nb _ b (by simpa using numbers_length (fit_bkt hfit)) (by omega) hnb hb'⟩
  | raw =>
    rw [createCol, Outcome.ok.injEq] at hc
    subst hc
    refine ⟨rfl, HasRows.raw _ ?_⟩
    have h0 : (RawCol.add ({} : RawCol A) (numbers vals)).finalize = { status := .ok, raw := numbers vals } := by
      simp [RawCol.add, RawCol.finalize]
    rw [h0, RawCol.size, numbers_length hfit]
    exact u32_of_lt (by omega)

/-- Reading a created bucketized column of any size: never above the value, and missing exactly when the value is. -/
theorem createCol_read_bkt {fmax : A} {nb : Nat} {vals : List (Cell A)} (hfit : ∀ x ∈ vals, Cell.Fit .bucketized x)
    (hl : vals.length < 2 ^ 31) (hnb : nb < 2 ^ 32) {c : Column A} (hc : createCol fmax nb .bucketized vals = ok c)
    {j : Nat} {x : Fl A} (hj : vals[j]? = some (.num x)) :
    ∃ y, item c j = ok (.ok (.num y)) ∧ (y = .nan ↔ x = .nan) ∧ ∀ a, x = .num a → ∃ b, y = .num b ∧ b ≤ a := by
  have hjl : j < vals.length := (List.getElem?_eq_some_iff.mp hj).1
  have hb : -2147483648 ≤ (j : Int) ∧ (j : Int) < 2147483648 := by omega
  have hsz := hasRows_size (createCol_rows hfit hl hnb hc).2
  have hfit' := fit_bkt hfit
  obtain ⟨s, hs', hs⟩ := numbers_get hfit' hj
  cases hs'
  have hlen := numbers_length hfit'
  rw [createCol, Column.createBucketized, bind_eq_ok] at hc
  obtain ⟨b, hb', hc⟩ := hc
  rw [pure_eq, Outcome.ok.injEq] at hc
  subst hc
  have hflat : [numbers vals].flatten = numbers vals := by simp
  have hf : Fits nb [numbers vals] := ⟨by rw [hflat]; omega, hnb⟩
  have hr : ∃ y, b.rowMin j = ok y ∧ (y = .nan ↔ x = .nan) ∧ ∀ a, x = .num a → ∃ b, y = .num b ∧ b ≤ a := by
    obtain ⟨v, hv, hvn⟩ := rowMin_ok hf hb' (i := j) (by rw [hflat]; omega)
    have hx : [numbers vals].flatten[j]'(by rw [hflat]; omega) = x := by
      have := (List.getElem?_eq_some_iff.mp hs).2
      simpa using this
    rw [hx] at hvn
    refine ⟨v, hv, hvn, ?_⟩
    intro a ha
    obtain ⟨buf, rest, M, _, _, _, _, r⟩ := build_ok hf.1 hf.2 hb'
    obtain ⟨k, m, _, _, h2, _, h4, _⟩ := r.row (i := j) (v := a) (by rw [hflat, hs, ha])
    rw [hv, Outcome.ok.injEq] at h2
    exact ⟨m, h2, h4⟩
  obtain ⟨y, hy, h2⟩ := hr
  refine ⟨y, ?_, h2⟩
  rw [item, asInt, if_pos hb, pyGet_in (size := BktCol.size) (row := BktCol.rowMin) hl hsz (i := (j : Int)) (by omega)
    (by omega) (v := y) hy]
  rfl

/-- Creating a column succeeds or crashes. -/
theorem createCol_ok_or_ub {fmax : A} {nb : Nat} {t : ColType} {vals : List (Cell A)} (hfit : ∀ x ∈ vals, Cell.Fit t x)
    (hl : vals.length < 2 ^ 31) (hnb : nb < 2 ^ 32) :
    createCol fmax nb t vals = ub ∨ ∃ c, createCol fmax nb t vals = ok c ∧ c.size = ok vals.length := by
  have hrest : (createCol fmax nb t vals = ub ∨ ∃ c, createCol fmax nb t vals = ok c) := by
    cases t with
    | string => exact Or.inr ⟨_, rfl⟩
    | raw => exact Or.inr ⟨_, rfl⟩
    | bucketized =>
      have hlen := numbers_length (fit_bkt hfit)
      have hf : Fits nb [numbers vals] := ⟨by simp only [List.flatten_cons, List.flatten_nil, List.append_nil]; omega, hnb⟩
      obtain ⟨h1, h2⟩ := C08_crash_iff_partial fmax nb [numbers vals] hf
      rcases Classical.em (BktCol.build fmax nb [numbers vals] = ub) with h | h
      · exact Or.inl (by simp only [createCol, Column.createBucketized, h, ub_bind])
      · obtain ⟨c, hc⟩ := h2 (fun h' => h (h1.mpr h'))
        exact Or.inr ⟨.bkt c, by simp only [createCol, Column.createBucketized, hc, ok_bind, pure_eq]⟩
  rcases hrest with h | ⟨c, hc⟩
  · exact Or.inl h
  · exact Or.inr ⟨c, hc, hasRows_size (createCol_rows hfit hl hnb hc).2⟩

theorem numRows_of {s : DataStore A} {n : Nat} (h : ∀ p ∈ s, p.2.size = ok n) : s.numRows = ok (if s = [] then 0 else n) := by
  cases s with
  | nil => rfl
  | cons p s => rw [DataStore.numRows, h p (by simp)]; rfl

/-- Adding a column of the right size under a new name. -/
theorem addCol_ok {fmax : A} {nb : Nat} {place : DataStore A → DataStore A} {d : Option (DataStore A)} {name : String}
    {t : ColType} {vals : List (Cell A)} {n : Nat} (hd : ∀ p ∈ d.getD [], p.2.size = ok n)
    (hnew : (d.getD []).getColumn name = none) {c : Column A} (hc : createCol fmax nb t vals = ok c) (hsz : c.size = ok n) :
    addCol fmax nb place d name t vals = ok (.ok (some (place ((name, c) :: d.getD [])))) := by
  have : DataStore.add place (d.getD []) name c = ok (.ok, place ((name, c) :: d.getD [])) := by
    rw [DataStore.add, hnew]
    simp only [Option.isSome_none, Bool.false_eq_true, if_false, numRows_of hd, ok_bind]
    by_cases he : d.getD [] = []
    · simp [he]
    · simp only [if_neg he, hsz, ok_bind, ne_eq, not_true_eq_false, if_false, pure_eq, ite_self]
  simp only [addCol, DataStorePy.add, hc, ok_bind, this, pure_eq, if_true]

theorem addAll_ok {fmax : A} {nb : Nat} {place : DataStore A → DataStore A} (hplace : ∀ l, (place l).Perm l) {n : Nat} :
    ∀ (L : List (String × ColType × List (Cell A))) (d : Option (DataStore A)) (cs0 : DataStore A),
    (d.getD []).Perm cs0 → (∀ p ∈ cs0, p.2.size = ok n) → (L.map (·.1) ++ cs0.map (·.1)).Nodup →
    (∀ l ∈ L, ∃ c, createCol fmax nb l.2.1 l.2.2 = ok c ∧ c.size = ok n) →
    ∃ d' cs, addAll fmax nb place d L = ok (.ok d') ∧
      List.Forall₂ (fun l p => p.1 = l.1 ∧ createCol fmax nb l.2.1 l.2.2 = ok p.2) L cs ∧
      (d'.getD []).Perm (cs ++ cs0) ∧ (d' = none ↔ d = none ∧ L = [])
  | [], d, cs0, hp, _, _, _ => ⟨d, [], rfl, .nil, hp, by simp⟩
  | (name, t, vals) :: L, d, cs0, hp, hsz, hnd, hL => by
    obtain ⟨c, hc, hcs⟩ := hL _ (List.mem_cons_self ..)
    have hnew : (d.getD []).getColumn name = none := by
      rw [DataStore.get_none]
      intro hm
      simp only [List.map_cons, List.cons_append, List.nodup_cons, List.mem_append, not_or] at hnd
      exact hnd.1.2 ((hp.map Prod.fst).mem_iff.mp hm)
    have ha := addCol_ok (place := place) (fun p hp' => hsz p (hp.mem_iff.mp hp')) hnew hc hcs
    obtain ⟨d', cs, h1, h2, h3, h4⟩ := addAll_ok hplace L (some (place ((name, c) :: d.getD []))) ((name, c) :: cs0)
      (((hplace _).trans (hp.cons _))) (by
        intro p hp'
        rcases List.mem_cons.mp hp' with rfl | hp'
        · exact hcs
        · exact hsz p hp') (by
        refine (List.Perm.nodup_iff ?_).mp hnd
        simp only [List.map_cons, List.cons_append]
        exact List.perm_middle.symm) (fun l hl => hL l (List.mem_cons_of_mem _ hl))
    refine ⟨d', (name, c) :: cs, ?_, .cons ⟨rfl, hc⟩ h2, h3.trans ?_, ?_⟩
    · simp only [addAll, ha, PyRes.andThen, h1]
    · rw [List.cons_append]; exact List.perm_middle
    · constructor
      · intro h; rw [h4] at h; cases h.1
      · intro h; cases h.2

/-- If some column cannot be created, adding them all crashes. -/
theorem addAll_ub {fmax : A} {nb : Nat} {place : DataStore A → DataStore A} (hplace : ∀ l, (place l).Perm l) {n : Nat} :
    ∀ (L : List (String × ColType × List (Cell A))) (d : Option (DataStore A)) (cs0 : DataStore A),
    (d.getD []).Perm cs0 → (∀ p ∈ cs0, p.2.size = ok n) → (L.map (·.1) ++ cs0.map (·.1)).Nodup →
    (∀ l ∈ L, createCol fmax nb l.2.1 l.2.2 = ub ∨ ∃ c, createCol fmax nb l.2.1 l.2.2 = ok c ∧ c.size = ok n) →
    (∃ l ∈ L, createCol fmax nb l.2.1 l.2.2 = ub) → addAll fmax nb place d L = ub
  | [], _, _, _, _, _, _, h => by obtain ⟨_, h, _⟩ := h; cases h
  | (name, t, vals) :: L, d, cs0, hp, hsz, hnd, hL, hex => by
    rcases hL _ (List.mem_cons_self ..) with hub | ⟨c, hc, hcs⟩
    · have : addCol fmax nb place d name t vals = ub := by
        simp only [addCol, DataStorePy.add, hub, ub_bind]
      simp only [addAll, this, PyRes.andThen]
    · have hnew : (d.getD []).getColumn name = none := by
        rw [DataStore.get_none]
        intro hm
        simp only [List.map_cons, List.cons_append, List.nodup_cons, List.mem_append, not_or] at hnd
        exact hnd.1.2 ((hp.map Prod.fst).mem_iff.mp hm)
      have ha := addCol_ok (place := place) (fun p hp' => hsz p (hp.mem_iff.mp hp')) hnew hc hcs
      have := addAll_ub hplace L (some (place ((name, c) :: d.getD []))) ((name, c) :: cs0)
        (((hplace _).trans (hp.cons _))) (by
          intro p hp'
          rcases List.mem_cons.mp hp' with rfl | hp'
          · exact hcs
          · exact hsz p hp') (by
          refine (List.Perm.nodup_iff ?_).mp hnd
          simp only [List.map_cons, List.cons_append]
          exact List.perm_middle.symm) (fun l hl => hL l (List.mem_cons_of_mem _ hl)) (by
          obtain ⟨l, hl, hl'⟩ := hex
          rcases List.mem_cons.mp hl with rfl | hl
          · rw [hc] at hl'; cases hl'
          · exact ⟨l, hl, hl'⟩)
      simp only [addAll, ha, PyRes.andThen, this]

/-- Slicing adds the columns read at the indices. -/
theorem sliceLoop_addAll {fmax : A} {nb : Nat} {place : DataStore A → DataStore A} {s : DataStore A} {index : List Int}
    {get : String → ColType × List (Cell A)} : ∀ (names : List String) (d : Option (DataStore A)),
    (∀ name ∈ names, ∃ c, s.getColumn name = some c ∧ (get name).1 = c.type ∧ items c index = ok (.ok (get name).2)) →
    sliceLoop fmax nb place (some s) index d names = addAll fmax nb place d (names.map (fun name => (name, get name)))
  | [], d, _ => rfl
  | name :: names, d, h => by
    obtain ⟨c, h1, h2, h3⟩ := h name (List.mem_cons_self ..)
    have ih := fun d1 => sliceLoop_addAll (fmax := fmax) (nb := nb) (place := place) names d1
      (fun x hx => h x (List.mem_cons_of_mem _ hx))
    simp only [sliceLoop, getCol, h1, h3, PyRes.andThen, List.map_cons, addAll, h2]
    cases addCol fmax nb place d name c.type (get name).2 with
    | ok r => cases r with
      | ok d1 => exact ih d1
      | error e => rfl
    | ub => rfl
    | fatal => rfl

end PyStore

end Gbdt
