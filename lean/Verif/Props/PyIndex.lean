import Verif.Props.PyDataFrame

/-!
# C161 and C165: indexing a store in Python, and loops over one
-/

set_option autoImplicit false
set_option linter.unusedSectionVars false

namespace Gbdt

open Outcome

variable {A : Type} [LinearOrder A]

namespace PyStore

theorem item_out_int {n : Nat} (hn : n < 2 ^ 31) {c : Column A} (h : c.size = ok n) {i : Int} (hi : ¬ (0 ≤ i ∧ i < n))
    (hb : -2147483648 ≤ i ∧ i < 2147483648) : item c i = ok (.error (.lib .outOfRange)) := by
  cases c with
  | str c =>
    rw [item, asInt, if_pos hb, pyGet_out (size := StrCol.size) (row := StrCol.rowString) hn h hi hb]
    rfl
  | bkt c =>
    rw [item, asInt, if_pos hb, pyGet_out (size := BktCol.size) (row := BktCol.rowMin) hn h hi hb]
    rfl
  | raw c =>
    rw [item, asInt, if_pos hb, pyGet_out (size := fun c : RawCol A => .ok c.size) (row := RawCol.get) hn h hi hb]
    rfl

theorem mem_pyRange {a b i : Int} : i ∈ pyRange a b ↔ a ≤ i ∧ i < b := by
  simp only [pyRange, List.mem_map, List.mem_range]
  constructor
  · rintro ⟨j, hj, rfl⟩
    omega
  · rintro ⟨h1, h2⟩
    exact ⟨(i - a).toNat, by omega, by omega⟩

theorem pyRange_length (a b : Int) : (pyRange a b).length = (b - a).toNat := by simp [pyRange]

theorem pyRange_get {a b : Int} {j : Nat} (h : a + j < b) : (pyRange a b)[j]? = some (a + j) := by
  rw [pyRange, List.getElem?_map, List.getElem?_range (by omega)]
  rfl

/-- In one row there is at most one number. -/
theorem one_row {s : DataStore A} {k : Int} {count : Nat} (hc : 1 < count) : ¬ PicksDistinct s [k] count := by
  rintro ⟨name, c, _, h⟩
  have hsub : {v : A | ∃ i ∈ [k], item (.bkt c) i = ok (.ok (.num (.num v)))}.Subsingleton := by
    rintro v ⟨i, hi, hv⟩ w ⟨i', hi', hw⟩
    rw [List.mem_singleton] at hi hi'
    subst hi hi'
    rw [hv] at hw
    cases hw
    rfl
  have := (Set.ncard_le_one hsub.finite).mpr (fun a ha b hb => hsub ha hb)
  omega

end PyStore

/-! ## C161 -/

/-- **C161 (a row).** `data_store[k]` is a store with the same columns whose only row is row `k`. -/
theorem C161_row (fmax : A) {nb : Nat} (h2 : 2 < nb) (hnb : nb < 2 ^ 32) {place : DataStore A → DataStore A}
    (hplace : ∀ l, (place l).Perm l) {s : DataStore A} (hk : (s.map Prod.fst).Nodup) {n : Nat} (hn : n < 2 ^ 31)
    (hr : ∀ p ∈ s, HasRows n p.2) {k : Int} (h0 : 0 ≤ k) (hi : k < n) :
    ∃ d, PyStore.getItem fmax nb place (some s) (.int k) = ok (.ok (.inl d)) ∧ SameShape s 1 (d.getD []) ∧
      ∀ name c c', s.getColumn name = some c → (d.getD []).getColumn name = some c' →
        ∃ x, PyStore.item c k = ok (.ok x) ∧ PyStore.item c' 0 = ok (.ok x) := by
  obtain ⟨d, e, k1, k2⟩ := (C80_slice fmax hnb hplace hk hn hr (index := [k]) (by simpa using ⟨h0, hi⟩) (by simp) (by simp; omega)).1
    (PyStore.one_row (by omega))
  exact ⟨d, by rw [PyStore.getItem, e]; rfl, k1, fun name c c' h h' => k2 name c c' h h' 0 k rfl⟩

/-- **C161 (no row).** Any other integer that fits an `int` raises `IndexError`, if there is a column: negative ones do not count from the end. -/
theorem C161_no_row (fmax : A) (nb : Nat) (place : DataStore A → DataStore A) {s : DataStore A} (hk : (s.map Prod.fst).Nodup) {n : Nat}
    (hn : n < 2 ^ 31) (hr : ∀ p ∈ s, HasRows n p.2) (hs : s ≠ []) {k : Int} (hi : ¬ (0 ≤ k ∧ k < n)) (hb : -2147483648 ≤ k ∧ k < 2147483648) :
    PyStore.getItem fmax nb place (some s) (.int k) = ok (.error (.lib .outOfRange)) := by
  rw [PyStore.getItem, PyStore.slice, PyStore.cols]
  cases hnames : s.allNames with
  | nil =>
    have := s.allNames_perm
    rw [hnames] at this
    exact absurd (List.map_eq_nil_iff.mp this.symm.eq_nil) hs
  | cons name names =>
    obtain ⟨c, hc, hm⟩ := PyStore.keys_getColumn hk (name := name) (by rw [hnames]; exact List.mem_cons_self ..)
    simp only [PyStore.sliceLoop, PyStore.getCol, hc, PyRes.andThen, PyStore.items, PyStore.item_out_int hn (PyStore.hasRows_size (hr _ hm)) hi hb]

/-- **C161 (two numbers).** `data_store[a, b]` has the rows from `a` to `b - 1`, and none if `b ≤ a`.  (The two limits are those of C80: few rows, and
no bucketized column with exactly one number less than there are buckets.) -/
theorem C161_range (fmax : A) {nb : Nat} (hnb : nb < 2 ^ 32) {place : DataStore A → DataStore A}
    (hplace : ∀ l, (place l).Perm l) {s : DataStore A} (hk : (s.map Prod.fst).Nodup) {n : Nat} (hn : n < 2 ^ 31)
    (hr : ∀ p ∈ s, HasRows n p.2) {a b : Int} (h0 : 0 ≤ a ∨ b ≤ a) (hi : b ≤ n ∨ b ≤ a) (hsmall : b - a < 2 * nb) (hpos : 0 < nb)
    (hno : ¬ ∃ name c, s.getColumn name = some (.bkt c) ∧
      {v : A | ∃ i, (a ≤ i ∧ i < b) ∧ PyStore.item (.bkt c) i = ok (.ok (.num (.num v)))}.ncard = nb - 1) :
    ∃ d, PyStore.getItem fmax nb place (some s) (.pair a b) = ok (.ok (.inl d)) ∧ SameShape s (b - a).toNat (d.getD []) ∧
      ∀ name c c', s.getColumn name = some c → (d.getD []).getColumn name = some c' → ∀ j : Nat, a + j < b →
        ∃ x, PyStore.item c (a + j) = ok (.ok x) ∧ PyStore.item c' j = ok (.ok x) := by
  obtain ⟨d, e, k1, k2⟩ := (C80_slice fmax hnb hplace hk hn hr (index := PyStore.pyRange a b) (by
      intro i hi
      rw [PyStore.mem_pyRange] at hi
      omega) (by rw [PyStore.pyRange_length]; omega) (by rw [PyStore.pyRange_length]; omega)).1 (by
    simp only [PicksDistinct, PyStore.mem_pyRange]
    exact hno)
  rw [PyStore.pyRange_length] at k1
  exact ⟨d, by rw [PyStore.getItem, e]; rfl, k1, fun name c c' h h' j hj => k2 name c c' h h' j _ (PyStore.pyRange_get hj)⟩

/-- **C161 (a list).** `data_store[[i, j, ...]]` has the rows of the list, in its order. -/
theorem C161_list (fmax : A) {nb : Nat} (hnb : nb < 2 ^ 32) {place : DataStore A → DataStore A}
    (hplace : ∀ l, (place l).Perm l) {s : DataStore A} (hk : (s.map Prod.fst).Nodup) {n : Nat} (hn : n < 2 ^ 31)
    (hr : ∀ p ∈ s, HasRows n p.2) {index : List Int} (hi : ∀ i ∈ index, 0 ≤ i ∧ i < n) (hl : index.length < 2 ^ 31)
    (hsmall : index.length < 2 * nb) (hno : ¬ PicksDistinct s index (nb - 1)) :
    ∃ d, PyStore.getItem fmax nb place (some s) (.list index) = ok (.ok (.inl d)) ∧ SameShape s index.length (d.getD []) ∧
      PicksRows s index (d.getD []) := by
  obtain ⟨d, e, k⟩ := (C80_slice fmax hnb hplace hk hn hr hi hl hsmall).1 hno
  exact ⟨d, by rw [PyStore.getItem, e]; rfl, k⟩

/-- **C161 (a name).** `data_store[name]` is the column, or raises `ValueError`. -/
theorem C161_name (fmax : A) (nb : Nat) (place : DataStore A → DataStore A) (s : DataStore A) (hk : (s.map Prod.fst).Nodup) (name : String) :
    (∀ c, (name, c) ∈ s → PyStore.getItem fmax nb place (some s) (.name name) = ok (.ok (.inr c))) ∧
    (name ∉ s.map Prod.fst → PyStore.getItem fmax nb place (some s) (.name name) = ok (.error .valueError)) := by
  constructor
  · intro c hc
    simp only [PyStore.getItem, PyStore.getCol, (DataStore.get_some hk _ _).mpr hc, PyRes.andThen]
  · intro hn
    cases h : s.getColumn name with
    | none => simp only [PyStore.getItem, PyStore.getCol, h, PyRes.andThen]
    | some c => exact absurd (List.mem_map.mpr ⟨_, (DataStore.get_some hk _ _).mp h, rfl⟩) hn

/-! ## C165 -/

/-- A store with these rows: the names differ, and each column has `n` rows; no rows without columns. -/
def StoreOf (n : Nat) (s : Option (DataStore A)) : Prop :=
  ((s.getD []).map Prod.fst).Nodup ∧ (∀ p ∈ s.getD [], HasRows n p.2) ∧ (s.getD [] = [] → n = 0)

/-- C165 in full: a loop over a store has as many steps as the store has rows. -/
def C165_full : Prop :=
  ∀ (fmax : Int) (nb : Nat) (place : DataStore Int → DataStore Int) (s : Option (DataStore Int)) (n : Nat), 2 < nb → nb < 2 ^ 32 →
    (∀ l, (place l).Perm l) → n < 2 ^ 31 → StoreOf n s →
    ∃ fuel steps, PyStore.iterFrom fmax nb place s fuel 0 = ok (.ok (steps, true)) ∧ steps.length = n

theorem iterFrom_empty (fmax : A) (nb : Nat) (place : DataStore A → DataStore A) (fuel i : Nat) :
    PyStore.iterFrom fmax nb place none fuel i = ok (.ok (List.replicate fuel (.inl none), false)) := by
  induction fuel generalizing i with
  | zero => rfl
  | succ fuel ih =>
    simp only [PyStore.iterFrom, PyStore.getItem, PyStore.slice, PyStore.cols, PyStore.sliceLoop, PyRes.andThen, ih, List.replicate_succ]

/-- **C165 refuted.** A loop over a store without columns does not end. -/
theorem C165_refuted : ¬ C165_full := by
  intro h
  obtain ⟨fuel, steps, h1, _⟩ := h 1000 4 id none 0 (by decide) (by decide) (fun l => List.Perm.refl l) (by decide)
    ⟨List.nodup_nil, by simp, fun _ => rfl⟩
  rw [iterFrom_empty] at h1
  cases h1

theorem iterFrom_rows (fmax : A) {nb : Nat} (h2 : 2 < nb) (hnb : nb < 2 ^ 32) {place : DataStore A → DataStore A}
    (hplace : ∀ l, (place l).Perm l) {s : DataStore A} (hk : (s.map Prod.fst).Nodup) {n : Nat} (hn : n < 2 ^ 31)
    (hr : ∀ p ∈ s, HasRows n p.2) (hs : s ≠ []) : ∀ (m i : Nat), i + m = n →
    ∃ stores : List (Option (DataStore A)), PyStore.iterFrom fmax nb place (some s) (m + 1) i = ok (.ok (stores.map .inl, true)) ∧
      stores.length = m ∧ ∀ (j : Nat) (d : Option (DataStore A)), stores[j]? = some d → SameShape s 1 (d.getD []) ∧
        ∀ name c c', s.getColumn name = some c → (d.getD []).getColumn name = some c' →
          ∃ x, PyStore.item c (i + j : Nat) = ok (.ok x) ∧ PyStore.item c' 0 = ok (.ok x)
  | 0, i, hi => by
    refine ⟨[], ?_, rfl, by simp⟩
    simp only [PyStore.iterFrom, C161_no_row fmax nb place hk hn hr hs (k := i) (by omega) (by omega), List.map_nil]
  | m + 1, i, hi => by
    obtain ⟨d, e, k1, k2⟩ := C161_row fmax h2 hnb hplace hk hn hr (k := i) (by omega) (by omega)
    obtain ⟨stores, e', l1, l2⟩ := iterFrom_rows fmax h2 hnb hplace hk hn hr hs m (i + 1) (by omega)
    refine ⟨d :: stores, ?_, by rw [List.length_cons, l1], ?_⟩
    · rw [PyStore.iterFrom, e]
      simp only [e', PyRes.andThen, List.map_cons]
    · intro j d' hj
      cases j with
      | zero =>
        simp only [List.getElem?_cons_zero, Option.some.injEq] at hj
        subst hj
        exact ⟨k1, k2⟩
      | succ j =>
        rw [List.getElem?_cons_succ] at hj
        have := l2 j d' hj
        rwa [show i + 1 + j = i + (j + 1) by omega] at this

/-- **C165 partial.** A loop over a store with a column has as many steps as there are rows; step `j` is a store with the same columns, whose only row is
row `j`.  Missing: a store without columns. -/
theorem C165_partial (fmax : A) {nb : Nat} (h2 : 2 < nb) (hnb : nb < 2 ^ 32) {place : DataStore A → DataStore A}
    (hplace : ∀ l, (place l).Perm l) {s : DataStore A} (hk : (s.map Prod.fst).Nodup) {n : Nat} (hn : n < 2 ^ 31)
    (hr : ∀ p ∈ s, HasRows n p.2) (hs : s ≠ []) :
    ∃ stores : List (Option (DataStore A)), PyStore.iterFrom fmax nb place (some s) (n + 1) 0 = ok (.ok (stores.map .inl, true)) ∧
      stores.length = n ∧ ∀ (j : Nat) (d : Option (DataStore A)), stores[j]? = some d → SameShape s 1 (d.getD []) ∧
        ∀ name c c', s.getColumn name = some c → (d.getD []).getColumn name = some c' →
          ∃ x, PyStore.item c j = ok (.ok x) ∧ PyStore.item c' 0 = ok (.ok x) := by
  obtain ⟨stores, h, h', h''⟩ := iterFrom_rows fmax h2 hnb hplace hk hn hr hs n 0 (by omega)
  refine ⟨stores, h, h', ?_⟩
  intro j d hj
  have := h'' j d hj
  rwa [Nat.zero_add] at this

/-! ## Examples -/

/-- An element of the store of the examples for C80. -/
def elementOf (key : PyStore.PyKey) : PyRes (Option (DataStore Int) ⊕ Column Int) := dictStore.andThen (fun d => PyStore.getItem 1000 4 rotate1 d key)

/-- The store that is the element. -/
def asStore (r : PyRes (Option (DataStore Int) ⊕ Column Int)) : PyRes (Option (DataStore Int)) :=
  r.andThen (fun x => match x with | .inl d => .ok (.ok d) | .inr _ => .ok (.error .typeError))

/-- The exception, if there is one. -/
def errorOf {α : Type} (r : PyRes α) : Option PyErr := match r with | .ok (.error e) => some e | _ => none

/-- The store of the examples for C80 (which meets the hypotheses, as shown there) with each kind of key, and loops over it and over an empty store. -/
example :
    cellsOf (asStore (elementOf (.int 2))) "x" [0] = some [.num (.num 1)] ∧ cellsOf (asStore (elementOf (.int 2))) "c" [0] = some [.str "u"] ∧
    errorOf (elementOf (.int 4)) = some (.lib .outOfRange) ∧ errorOf (elementOf (.int (-1))) = some (.lib .outOfRange) ∧
    cellsOf (asStore (elementOf (.pair 1 3))) "w" [0, 1] = some [.num (.num 5), .num (.num 6)] ∧
    cellsOf (asStore (elementOf (.pair 1 3))) "w" [2] = none ∧
    cellsOf (asStore (elementOf (.list [3, 0]))) "c" [0, 1] = some [.str "w", .str "u"] ∧
    errorOf (elementOf (.name "z")) = some .valueError ∧ errorOf (elementOf (.name "y")) = none ∧
    errorOf (asStore (elementOf (.name "y"))) = some .typeError := by
  decide +kernel

example : (match dictStore.andThen (fun d => PyStore.iterFrom 1000 4 rotate1 d 5 0) with
    | .ok (.ok (l, b)) => (l.length, b)
    | _ => (0, false)) = (4, true) := by
  decide +kernel

end Gbdt
