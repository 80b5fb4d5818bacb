import Verif.Lemmas.PyStore
import Verif.Props.SplitWitness
import Mathlib.Data.Set.Card

/-!
# C80-C82: building and slicing stores from Python
-/

set_option autoImplicit false
set_option linter.unusedSectionVars false

namespace Gbdt

open Outcome

variable {A : Type} [LinearOrder A]

/-! ## Specification -/

/-- Columns with the same names and types, and `rows` rows each. -/
def SameShape (s : DataStore A) (rows : Nat) (d : DataStore A) : Prop :=
  (d.map Prod.fst).Perm (s.map Prod.fst) ∧
  ∀ name c, s.getColumn name = some c → ∃ c', d.getColumn name = some c' ∧ c'.type = c.type ∧ HasRows rows c'

/-- Row `j` of `d` is row `index[j]` of `s`, in every column. -/
def PicksRows (s : DataStore A) (index : List Int) (d : DataStore A) : Prop :=
  ∀ name c c', s.getColumn name = some c → d.getColumn name = some c' → ∀ (j : Nat) (i : Int), index[j]? = some i →
    ∃ x, PyStore.item c i = ok (.ok x) ∧ PyStore.item c' j = ok (.ok x)

/-- The same for strings and raw numbers; bucketized numbers may be smaller, but are missing for the same rows. -/
def PicksRowsBelow (s : DataStore A) (index : List Int) (d : DataStore A) : Prop :=
  ∀ name c c', s.getColumn name = some c → d.getColumn name = some c' → ∀ (j : Nat) (i : Int), index[j]? = some i →
    ∃ x y, PyStore.item c i = ok (.ok x) ∧ PyStore.item c' j = ok (.ok y) ∧
      (c.type ≠ .bucketized → y = x) ∧
      (c.type = .bucketized → (x = .num .nan ∧ y = .num .nan) ∨ ∃ a b, x = .num (.num a) ∧ y = .num (.num b) ∧ b ≤ a)

/-- A bucketized column has `count` different numbers in the rows of the index. -/
def PicksDistinct (s : DataStore A) (index : List Int) (count : Nat) : Prop :=
  ∃ name c, s.getColumn name = some (.bkt c) ∧
    {v : A | ∃ i ∈ index, PyStore.item (.bkt c) i = ok (.ok (.num (.num v)))}.ncard = count

namespace PyStore

theorem keys_getColumn {s : DataStore A} (hk : s.Keys) {name : String} (h : name ∈ s.allNames) :
    ∃ c, s.getColumn name = some c ∧ (name, c) ∈ s := by
  have := s.allNames_perm.mem_iff.mp h
  obtain ⟨⟨n, c⟩, hc, rfl⟩ := List.mem_map.mp this
  exact ⟨c, (DataStore.get_some hk _ _).mpr hc, hc⟩

/-- What slicing adds. -/
theorem slice_eq {fmax : A} {nb : Nat} {place : DataStore A → DataStore A} {s : DataStore A} (hk : s.Keys) {n : Nat}
    (hn : n < 2 ^ 31) (hr : ∀ p ∈ s, HasRows n p.2) {index : List Int} (hi : ∀ i ∈ index, 0 ≤ i ∧ i < n) :
    ∃ get : String → ColType × List (Cell A),
      (∀ name c, s.getColumn name = some c → (get name).1 = c.type ∧ items c index = ok (.ok (get name).2) ∧
        (get name).2.length = index.length ∧ (∀ x ∈ (get name).2, Cell.Fit c.type x) ∧
        ∀ (j : Nat) (i : Int), index[j]? = some i → ∃ x, (get name).2[j]? = some x ∧ item c i = ok (.ok x)) ∧
      slice fmax nb place (some s) index =
        addAll fmax nb place none (s.allNames.map (fun name => (name, get name))) := by
  classical
  have hex : ∀ name : String, ∃ g : ColType × List (Cell A), ∀ c, s.getColumn name = some c →
      g.1 = c.type ∧ items c index = ok (.ok g.2) ∧
        g.2.length = index.length ∧ (∀ x ∈ g.2, Cell.Fit c.type x) ∧
        ∀ (j : Nat) (i : Int), index[j]? = some i → ∃ x, g.2[j]? = some x ∧ item c i = ok (.ok x) := by
    intro name
    cases hg : s.getColumn name with
    | none => exact ⟨(.string, []), by simp⟩
    | some c =>
      obtain ⟨vals, h1, h2, h3, h4⟩ := items_in hn (hr _ ((DataStore.get_some hk _ _).mp hg)) hi
      refine ⟨(c.type, vals), ?_⟩
      intro c' hc'
      cases hc'
      exact ⟨rfl, h1, h2, h3, h4⟩
  choose get hget using hex
  refine ⟨get, hget, ?_⟩
  rw [slice, cols]
  refine sliceLoop_addAll _ none ?_
  intro name hname
  obtain ⟨c, hc, _⟩ := keys_getColumn hk hname
  exact ⟨c, hc, (hget name c hc).1, (hget name c hc).2.1⟩

/-- The outcome of slicing, given which columns can be created. -/
theorem slice_outcome {fmax : A} {nb : Nat} {place : DataStore A → DataStore A} (hplace : ∀ l, (place l).Perm l)
    (hnb : nb < 2 ^ 32) {s : DataStore A} (hk : s.Keys) {index : List Int} (hl : index.length < 2 ^ 31)
    {get : String → ColType × List (Cell A)}
    (hget : ∀ name c, s.getColumn name = some c → (get name).1 = c.type ∧ items c index = ok (.ok (get name).2) ∧
        (get name).2.length = index.length ∧ (∀ x ∈ (get name).2, Cell.Fit c.type x) ∧
        ∀ (j : Nat) (i : Int), index[j]? = some i → ∃ x, (get name).2[j]? = some x ∧ item c i = ok (.ok x)) :
    ((∃ name c, s.getColumn name = some c ∧ createCol fmax nb (get name).1 (get name).2 = ub) →
      addAll fmax nb place none (s.allNames.map (fun name => (name, get name))) = ub) ∧
    ((∀ name c, s.getColumn name = some c → createCol fmax nb (get name).1 (get name).2 ≠ ub) →
      ∃ d, addAll fmax nb place none (s.allNames.map (fun name => (name, get name))) = ok (.ok d) ∧
        ((d.getD []).map Prod.fst).Perm (s.map Prod.fst) ∧
        ∀ name c, s.getColumn name = some c → ∃ c', (d.getD []).getColumn name = some c' ∧
          createCol fmax nb (get name).1 (get name).2 = ok c') := by
  have hnd : ((s.allNames.map (fun name => (name, get name))).map (·.1) ++ (([] : DataStore A).map (·.1))).Nodup := by
    simp only [List.map_map, List.map_nil, List.append_nil, Function.comp_def, List.map_id']
    exact s.allNames_perm.nodup_iff.mpr hk
  have hor : ∀ l ∈ s.allNames.map (fun name => (name, get name)),
      createCol fmax nb l.2.1 l.2.2 = ub ∨ ∃ c, createCol fmax nb l.2.1 l.2.2 = ok c ∧ c.size = ok index.length := by
    intro l hl'
    obtain ⟨name, hname, rfl⟩ := List.mem_map.mp hl'
    obtain ⟨c, hc, _⟩ := keys_getColumn hk hname
    obtain ⟨g1, g2, g3, g4, _⟩ := hget name c hc
    have := createCol_ok_or_ub (fmax := fmax) (nb := nb) (t := (get name).1) (vals := (get name).2) (by rw [g1]; exact g4)
      (by omega) hnb
    rwa [g3] at this
  have hmem : ∀ name c, s.getColumn name = some c → name ∈ s.allNames := by
    intro name c hc
    exact s.allNames_perm.mem_iff.mpr (List.mem_map.mpr ⟨_, (DataStore.get_some hk _ _).mp hc, rfl⟩)
  refine ⟨?_, ?_⟩
  · rintro ⟨name, c, hc, hub⟩
    exact addAll_ub hplace _ none [] List.Perm.nil (by simp) hnd hor
      ⟨_, List.mem_map.mpr ⟨name, hmem name c hc, rfl⟩, hub⟩
  · intro hno
    obtain ⟨d, cs, h1, h2, h3, _⟩ := addAll_ok hplace (n := index.length) (s.allNames.map (fun name => (name, get name))) none []
      List.Perm.nil (by simp) hnd (by
        intro l hl'
        rcases hor l hl' with h | h
        · obtain ⟨name, hname, rfl⟩ := List.mem_map.mp hl'
          obtain ⟨c, hc, _⟩ := keys_getColumn hk hname
          exact absurd h (hno name c hc)
        · exact h)
    rw [List.append_nil] at h3
    have hnames : cs.map Prod.fst = s.allNames := by
      clear h1 h3 hno hor hnd hmem
      generalize s.allNames = L at h2
      induction L generalizing cs with
      | nil => cases h2; rfl
      | cons a L ih =>
        cases h2 with
        | cons hh ht => rw [List.map_cons, hh.1, ih _ ht]
    have hp : ((d.getD []).map Prod.fst).Perm (s.map Prod.fst) := by
      refine (h3.map Prod.fst).trans ?_
      rw [hnames]
      exact s.allNames_perm
    refine ⟨d, h1, hp, ?_⟩
    intro name c hc
    have hkd : (d.getD []).Keys := hp.nodup_iff.mpr hk
    obtain ⟨p, hp1, hp2⟩ : ∃ p ∈ cs, p.1 = name ∧ createCol fmax nb (get name).1 (get name).2 = ok p.2 := by
      have hm := hmem name c hc
      clear h1 h3 hno hor hnd hmem hnames hp hkd
      generalize s.allNames = L at h2 hm
      induction L generalizing cs with
      | nil => cases hm
      | cons a L ih =>
        cases h2 with
        | cons hh ht =>
          rcases List.mem_cons.mp hm with rfl | hm
          · exact ⟨_, List.mem_cons_self .., hh.1, hh.2⟩
          · obtain ⟨p, h1, h2⟩ := ih _ ht hm
            exact ⟨p, List.mem_cons_of_mem _ h1, h2⟩
    obtain ⟨pn, pc⟩ := p
    cases hp2.1
    exact ⟨pc, (DataStore.get_some hkd _ _).mpr (h3.mem_iff.mpr hp1), hp2.2⟩

/-- Counting the different numbers read from a column. -/
theorem distinct_ncard {c : BktCol A} {index : List Int} {vals : List (Cell A)} (hit : items (.bkt c) index = ok (.ok vals)) :
    {v : A | ∃ i ∈ index, item (.bkt c) i = ok (.ok (.num (.num v)))}.ncard = distinct vals := by
  have hmem : ∀ v : A, (∃ i ∈ index, item (.bkt c) i = ok (.ok (.num (.num v)))) ↔ Fl.num v ∈ numbers vals := by
    intro v
    induction index generalizing vals with
    | nil =>
      simp only [items, Outcome.ok.injEq, Except.ok.injEq] at hit
      subst hit
      simp [numbers]
    | cons i index ih =>
      simp only [items, PyRes.andThen] at hit
      cases hx : item (.bkt c) i with
      | ub => rw [hx] at hit; cases hit
      | fatal => rw [hx] at hit; cases hit
      | ok r =>
        rw [hx] at hit
        cases r with
        | error e => cases hit
        | ok x =>
          simp only at hit
          cases hy : items (.bkt c) index with
          | ub => rw [hy] at hit; cases hit
          | fatal => rw [hy] at hit; cases hit
          | ok r =>
            rw [hy] at hit
            cases r with
            | error e => cases hit
            | ok vs =>
              simp only [Outcome.ok.injEq, Except.ok.injEq] at hit
              subst hit
              have := ih hy
              simp only [List.mem_cons, exists_eq_or_imp, hx, Outcome.ok.injEq, Except.ok.injEq, this]
              cases x with
              | str s => simp [numbers]
              | num x => simp [numbers, eq_comm]
  have hset : ((fun v : A => Fl.num v) '' {v : A | ∃ i ∈ index, item (.bkt c) i = ok (.ok (.num (.num v)))}) =
      ↑((numbers vals).toFinset.filter (fun v => v ≠ Fl.nan)) := by
    ext w
    simp only [Set.mem_image, Set.mem_ofPred_eq, Finset.coe_filter, List.mem_toFinset, hmem]
    constructor
    · rintro ⟨v, hv, rfl⟩
      exact ⟨hv, by simp⟩
    · rintro ⟨hw, hne⟩
      cases w with
      | nan => exact absurd rfl hne
      | num v => exact ⟨v, hw, rfl⟩
  rw [← Set.ncard_image_of_injective _ (f := fun v : A => Fl.num v) (by intro a b h; cases h; rfl), hset,
    Set.ncard_coe_finset]
  rfl

end PyStore

/-! ## C80: slices and copies -/

/-- **C80 (slice).** Slicing fewer than twice the number of buckets of rows (60000) gives a store with the same columns
whose rows are the chosen rows, in the order of the index, repeats included; or the process crashes, and this happens
exactly when some bucketized column has exactly one number less than there are buckets in the chosen rows. -/
theorem C80_slice (fmax : A) {nb : Nat} (hnb : nb < 2 ^ 32) {place : DataStore A → DataStore A}
    (hplace : ∀ l, (place l).Perm l) {s : DataStore A} (hk : (s.map Prod.fst).Nodup) {n : Nat} (hn : n < 2 ^ 31)
    (hr : ∀ p ∈ s, HasRows n p.2) {index : List Int} (hi : ∀ i ∈ index, 0 ≤ i ∧ i < n) (hl : index.length < 2 ^ 31)
    (hsmall : index.length < 2 * nb) :
    (¬ PicksDistinct s index (nb - 1) → ∃ d, PyStore.slice fmax nb place (some s) index = ok (.ok d) ∧
      SameShape s index.length (d.getD []) ∧ PicksRows s index (d.getD [])) ∧
    (PicksDistinct s index (nb - 1) → PyStore.slice fmax nb place (some s) index = ub) := by
  obtain ⟨get, hget, heq⟩ := PyStore.slice_eq (fmax := fmax) (nb := nb) (place := place) hk hn hr hi
  obtain ⟨hub, hok⟩ := PyStore.slice_outcome (fmax := fmax) hplace hnb hk hl hget
  have hcrash : ∀ name c, s.getColumn name = some c → (PyStore.createCol fmax nb (get name).1 (get name).2 = ub ↔
      ∃ b, c = .bkt b ∧
        {v : A | ∃ i ∈ index, PyStore.item (.bkt b) i = ok (.ok (.num (.num v)))}.ncard = nb - 1) := by
    intro name c hc
    obtain ⟨g1, g2, g3, g4, _⟩ := hget name c hc
    rw [g1]
    cases c with
    | str c => simp [Column.type, PyStore.createCol]
    | raw c => simp [Column.type, PyStore.createCol]
    | bkt c =>
      have hlen := PyStore.numbers_length (PyStore.fit_bkt g4)
      have h := (PyStore.createBucketized_iff fmax (nb := nb) (vals := PyStore.numbers (get name).2) (by omega) (by omega) hnb).1
      simp only [Column.type, PyStore.createCol]
      rw [h]
      simp only [Column.bkt.injEq, exists_eq_left', PyStore.distinct_ncard g2, PyStore.distinct]
      omega
  rw [heq]
  refine ⟨?_, ?_⟩
  · intro hno
    obtain ⟨d, h1, h2, h3⟩ := hok (by
      intro name c hc h
      obtain ⟨b, rfl, hb⟩ := (hcrash name c hc).mp h
      exact hno ⟨name, b, hc, hb⟩)
    refine ⟨d, h1, ⟨h2, ?_⟩, ?_⟩
    · intro name c hc
      obtain ⟨c', h4, h5⟩ := h3 name c hc
      obtain ⟨g1, g2, g3, g4, _⟩ := hget name c hc
      have := PyStore.createCol_rows (by rw [g1]; exact g4) (by omega) hnb h5
      exact ⟨c', h4, by rw [this.1, g1], by rw [← g3]; exact this.2⟩
    · intro name c c' hc hc' j i hj
      obtain ⟨c'', h4, h5⟩ := h3 name c hc
      rw [hc'] at h4
      cases h4
      obtain ⟨g1, g2, g3, g4, g5⟩ := hget name c hc
      obtain ⟨x, hx, hxi⟩ := g5 j i hj
      have hrow := PyStore.createCol_rows (by rw [g1]; exact g4) (by omega) hnb h5
      exact ⟨x, hxi, PyStore.createCol_read (by rw [g1]; exact g4) (by omega) hnb h5
        ⟨hrow.1, hrow.2, fun _ => by omega⟩ j x hx⟩
  · rintro ⟨name, b, hc, hb⟩
    exact hub ⟨name, _, hc, (hcrash name _ hc).mpr ⟨b, rfl, hb⟩⟩

/-- **C80 (slices of any size).** Whatever the number of rows, slicing crashes or gives the same columns with the chosen
rows, where the numbers of bucketized columns may have become smaller (the minimum of the new bucket). -/
theorem C80_slice_large (fmax : A) {nb : Nat} (hnb : nb < 2 ^ 32) {place : DataStore A → DataStore A}
    (hplace : ∀ l, (place l).Perm l) {s : DataStore A} (hk : (s.map Prod.fst).Nodup) {n : Nat} (hn : n < 2 ^ 31)
    (hr : ∀ p ∈ s, HasRows n p.2) {index : List Int} (hi : ∀ i ∈ index, 0 ≤ i ∧ i < n) (hl : index.length < 2 ^ 31) :
    PyStore.slice fmax nb place (some s) index = ub ∨ ∃ d, PyStore.slice fmax nb place (some s) index = ok (.ok d) ∧
      SameShape s index.length (d.getD []) ∧ PicksRowsBelow s index (d.getD []) := by
  obtain ⟨get, hget, heq⟩ := PyStore.slice_eq (fmax := fmax) (nb := nb) (place := place) hk hn hr hi
  obtain ⟨hub, hok⟩ := PyStore.slice_outcome (fmax := fmax) hplace hnb hk hl hget
  rw [heq]
  by_cases hc0 : ∃ name c, s.getColumn name = some c ∧ PyStore.createCol fmax nb (get name).1 (get name).2 = ub
  · exact Or.inl (hub hc0)
  · right
    obtain ⟨d, h1, h2, h3⟩ := hok (fun name c hc h => hc0 ⟨name, c, hc, h⟩)
    refine ⟨d, h1, ⟨h2, ?_⟩, ?_⟩
    · intro name c hc
      obtain ⟨c', h4, h5⟩ := h3 name c hc
      obtain ⟨g1, g2, g3, g4, _⟩ := hget name c hc
      have := PyStore.createCol_rows (by rw [g1]; exact g4) (by omega) hnb h5
      exact ⟨c', h4, by rw [this.1, g1], by rw [← g3]; exact this.2⟩
    · intro name c c' hc hc' j i hj
      obtain ⟨c'', h4, h5⟩ := h3 name c hc
      rw [hc'] at h4
      cases h4
      obtain ⟨g1, g2, g3, g4, g5⟩ := hget name c hc
      obtain ⟨x, hx, hxi⟩ := g5 j i hj
      have hrow := PyStore.createCol_rows (by rw [g1]; exact g4) (by omega) hnb h5
      by_cases ht : c.type = .bucketized
      · rw [g1, ht] at h5
        rw [ht] at g4
        have hfx := g4 x (List.mem_of_getElem? hx)
        cases x with
        | str s => exact hfx.elim
        | num x =>
          obtain ⟨y, hy, hy1, hy2⟩ := PyStore.createCol_read_bkt g4 (by omega) hnb h5 hx
          refine ⟨_, _, hxi, hy, fun h => absurd ht h, fun _ => ?_⟩
          cases x with
          | nan => exact Or.inl ⟨rfl, by rw [hy1.mpr rfl]⟩
          | num a =>
            obtain ⟨b, rfl, hb⟩ := hy2 a rfl
            exact Or.inr ⟨a, b, rfl, rfl, hb⟩
      · exact ⟨x, x, hxi, PyStore.createCol_read (by rw [g1]; exact g4) (by omega) hnb h5
          ⟨hrow.1, hrow.2, fun h => absurd (g1.symm.trans h) ht⟩ j x hx, fun _ => rfl, fun h => absurd h ht⟩

/-- **C80 (wrong indices).** Slicing a store that has a column with an index that is not the number of a row (negative
ones too, and ones that do not fit an `int`) raises an exception. -/
theorem C80_bad_index (fmax : A) (nb : Nat) (place : DataStore A → DataStore A) {s : DataStore A}
    (hk : (s.map Prod.fst).Nodup) {n : Nat} (hn : n < 2 ^ 31) (hr : ∀ p ∈ s, HasRows n p.2) (hs : s ≠ []) {index : List Int}
    (hi : ∃ i ∈ index, ¬ (0 ≤ i ∧ i < n)) : ∃ e, PyStore.slice fmax nb place (some s) index = ok (.error e) := by
  rw [PyStore.slice, PyStore.cols]
  cases hnames : s.allNames with
  | nil =>
    have := s.allNames_perm
    rw [hnames] at this
    exact absurd (List.map_eq_nil_iff.mp this.symm.eq_nil) hs
  | cons name names =>
    obtain ⟨c, hc, hm⟩ := PyStore.keys_getColumn hk (name := name) (by rw [hnames]; exact List.mem_cons_self ..)
    obtain ⟨e, he⟩ := PyStore.items_out hn (hr _ hm) hi
    exact ⟨e, by simp only [PyStore.sliceLoop, PyStore.getCol, hc, PyRes.andThen, he]⟩

/-- **C80 (copy).** A copy of a store of fewer than 60000 rows has the same columns and rows. -/
theorem C80_copy (fmax : A) {nb : Nat} (hnb : nb < 2 ^ 32) {place : DataStore A → DataStore A}
    (hplace : ∀ l, (place l).Perm l) {s : DataStore A} (hk : (s.map Prod.fst).Nodup) {n : Nat} (hn : n < 2 ^ 31)
    (hr : ∀ p ∈ s, HasRows n p.2) (hsmall : n < 2 * nb)
    (hno : ¬ PicksDistinct s ((List.range n).map Int.ofNat) (nb - 1)) :
    ∃ d, PyStore.copy fmax nb place (some s) = ok (.ok d) ∧ SameShape s n (d.getD []) ∧
      ∀ name c c', s.getColumn name = some c → (d.getD []).getColumn name = some c' → ∀ i : Nat, i < n →
        ∃ x, PyStore.item c i = ok (.ok x) ∧ PyStore.item c' i = ok (.ok x) := by
  have hnr := PyStore.numRows_of (s := s) (n := n) (fun p hp => PyStore.hasRows_size (hr p hp))
  by_cases hs : s = []
  · subst hs
    refine ⟨none, rfl, ⟨List.Perm.nil, ?_⟩, ?_⟩
    · intro name c hc; cases hc
    · intro name c c' hc; cases hc
  · rw [if_neg hs] at hnr
    obtain ⟨d, h1, h2, h3⟩ := (C80_slice fmax hnb hplace hk hn hr (index := (List.range n).map Int.ofNat) (by
        intro i hi
        obtain ⟨k, hk', rfl⟩ := List.mem_map.mp hi
        rw [List.mem_range] at hk'
        simp only [Int.ofNat_eq_natCast]
        omega) (by simpa using hn) (by simpa using hsmall)).1 hno
    refine ⟨d, ?_, by simpa using h2, ?_⟩
    · simp only [PyStore.copy, PyStore.len, hnr]
      exact h1
    · intro name c c' hc hc' i hi
      exact h3 name c c' hc hc' i i (by rw [List.getElem?_map, List.getElem?_range hi]; rfl)

/-! ## C81: stores from dictionaries -/

/-- The store has a column of the name with the type and the values. -/
def HoldsCol (d : DataStore A) (name : String) (t : ColType) (vals : List (Cell A)) : Prop :=
  ∃ c, d.getColumn name = some c ∧ c.type = t ∧ HasRows vals.length c ∧
    ∀ (j : Nat) (x : Cell A), vals[j]? = some x → PyStore.item c j = ok (.ok x)

/-- Adding columns of one length under different names. -/
theorem PyStore.addAll_holds (fmax : A) {nb : Nat} (hnb : nb < 2 ^ 32) {place : DataStore A → DataStore A}
    (hplace : ∀ l, (place l).Perm l) {n : Nat} (hn : n < 2 ^ 31) (hsmall : n < 2 * nb)
    {L : List (String × ColType × List (Cell A))} (hnames : (L.map (·.1)).Nodup)
    (hL : ∀ l ∈ L, l.2.2.length = n ∧ ∀ x ∈ l.2.2, Cell.Fit l.2.1 x) :
    ((∀ l ∈ L, l.2.1 = .bucketized → PyStore.distinct l.2.2 + 1 ≠ nb) →
      ∃ d, PyStore.addAll fmax nb place none L = ok (.ok d) ∧ ((d.getD []).map Prod.fst).Perm (L.map (·.1)) ∧
        ∀ l ∈ L, HoldsCol (d.getD []) l.1 l.2.1 l.2.2) ∧
    ((∃ l ∈ L, l.2.1 = .bucketized ∧ PyStore.distinct l.2.2 + 1 = nb) → PyStore.addAll fmax nb place none L = ub) := by
  have hor : ∀ l ∈ L, PyStore.createCol fmax nb l.2.1 l.2.2 = ub ∨
      ∃ c, PyStore.createCol fmax nb l.2.1 l.2.2 = ok c ∧ c.size = ok n := by
    intro l hl
    have := PyStore.createCol_ok_or_ub (fmax := fmax) (nb := nb) (hL l hl).2 (by have := (hL l hl).1; omega) hnb
    rwa [(hL l hl).1] at this
  have hcrash : ∀ l ∈ L, (PyStore.createCol fmax nb l.2.1 l.2.2 = ub ↔ l.2.1 = .bucketized ∧ PyStore.distinct l.2.2 + 1 = nb) := by
    rintro ⟨name, t, vals⟩ hl
    obtain ⟨h1, h2⟩ := hL _ hl
    cases t with
    | string => simp [PyStore.createCol]
    | raw => simp [PyStore.createCol]
    | bucketized =>
      have hlen := PyStore.numbers_length (PyStore.fit_bkt h2)
      have h := (PyStore.createBucketized_iff fmax (nb := nb) (vals := PyStore.numbers vals) (by simp only at *; omega)
        (by simp only at *; omega) hnb).1
      simp only [PyStore.createCol, true_and]
      exact h
  refine ⟨?_, ?_⟩
  · intro hno
    obtain ⟨d, cs, h1, h2, h3, h9⟩ := PyStore.addAll_ok hplace (n := n) L none [] List.Perm.nil (by simp)
      (by simpa using hnames) (by
        intro l hl
        rcases hor l hl with h | h
        · have := (hcrash l hl).mp h
          exact absurd this.2 (hno l hl this.1)
        · exact h)
    clear h9
    rw [List.append_nil] at h3
    have hcs : cs.map Prod.fst = L.map (·.1) := by
      clear h1 h3 hno hor hnames hcrash hL
      induction L generalizing cs with
      | nil => cases h2; rfl
      | cons a L ih =>
        cases h2 with
        | cons hh ht => rw [List.map_cons, List.map_cons, hh.1, ih _ ht]
    have hp : ((d.getD []).map Prod.fst).Perm (L.map (·.1)) := by
      rw [← hcs]; exact h3.map Prod.fst
    refine ⟨d, h1, hp, ?_⟩
    intro l hl
    have hkd : (d.getD []).Keys := hp.nodup_iff.mpr hnames
    obtain ⟨p, hp1, hp2⟩ : ∃ p ∈ cs, p.1 = l.1 ∧ PyStore.createCol fmax nb l.2.1 l.2.2 = ok p.2 := by
      clear h1 h3 hno hor hnames hcrash hL hp hkd hcs
      induction L generalizing cs with
      | nil => cases hl
      | cons a L ih =>
        cases h2 with
        | cons hh ht =>
          rcases List.mem_cons.mp hl with rfl | hl
          · exact ⟨_, List.mem_cons_self .., hh.1, hh.2⟩
          · obtain ⟨p, h1, h2⟩ := ih _ ht hl
            exact ⟨p, List.mem_cons_of_mem _ h1, h2⟩
    obtain ⟨g1, g2⟩ := hL l hl
    have hrow := PyStore.createCol_rows g2 (by omega) hnb hp2.2
    refine ⟨p.2, (DataStore.get_some hkd _ _).mpr ?_, hrow.1, hrow.2, ?_⟩
    · rw [← hp2.1]; exact h3.mem_iff.mpr hp1
    · exact PyStore.createCol_read g2 (by omega) hnb hp2.2 ⟨hrow.1, hrow.2, fun _ => by omega⟩
  · rintro ⟨l, hl, hb, hd⟩
    exact PyStore.addAll_ub hplace (n := n) L none [] List.Perm.nil (by simp) (by simpa using hnames) hor
      ⟨l, hl, (hcrash l hl).mpr ⟨hb, hd⟩⟩

theorem PyStore.numbers_num (l : List (Fl A)) : PyStore.numbers (l.map Cell.num) = l := by
  induction l with
  | nil => rfl
  | cons a l ih => rw [List.map_cons, PyStore.numbers, ih]

theorem PyStore.distinct_num (l : List (Fl A)) :
    PyStore.distinct (l.map Cell.num) = {v : A | Fl.num v ∈ l}.ncard := by
  have hset : ((fun v : A => Fl.num v) '' {v : A | Fl.num v ∈ l}) = ↑(l.toFinset.filter (fun v => v ≠ Fl.nan)) := by
    ext w
    simp only [Set.mem_image, Set.mem_ofPred_eq, Finset.coe_filter, List.mem_toFinset]
    constructor
    · rintro ⟨v, hv, rfl⟩
      exact ⟨hv, by simp⟩
    · rintro ⟨hw, hne⟩
      cases w with
      | nan => exact absurd rfl hne
      | num v => exact ⟨v, hw, rfl⟩
  rw [← Set.ncard_image_of_injective _ (f := fun v : A => Fl.num v) (by intro a b h; cases h; rfl), hset,
    Set.ncard_coe_finset, PyStore.distinct, PyStore.numbers_num]

/-- **C81 (from_dict).** From dictionaries of fewer than 60000 rows whose columns have one length and different names, the
store holds exactly the given columns with the given values; or the process crashes, and this happens exactly when some
column to be bucketized has exactly one different number less than there are buckets. -/
theorem C81_from_dict (fmax : A) {nb : Nat} (hnb : nb < 2 ^ 32) {place : DataStore A → DataStore A}
    (hplace : ∀ l, (place l).Perm l) {n : Nat} (hn : n < 2 ^ 31) (hsmall : n < 2 * nb)
    {bucketized raw : List (String × List (Fl A))} {strs : List (String × List String)}
    (hnames : (bucketized.map Prod.fst ++ (strs.map Prod.fst ++ raw.map Prod.fst)).Nodup)
    (hb : ∀ p ∈ bucketized, p.2.length = n) (hs : ∀ p ∈ strs, p.2.length = n) (hr : ∀ p ∈ raw, p.2.length = n) :
    ((∀ p ∈ bucketized, {v : A | Fl.num v ∈ p.2}.ncard + 1 ≠ nb) →
      ∃ d, PyStore.fromDict fmax nb place bucketized strs raw = ok (.ok d) ∧
        ((d.getD []).map Prod.fst).Perm (bucketized.map Prod.fst ++ (strs.map Prod.fst ++ raw.map Prod.fst)) ∧
        (∀ p ∈ bucketized, HoldsCol (d.getD []) p.1 .bucketized (p.2.map Cell.num)) ∧
        (∀ p ∈ strs, HoldsCol (d.getD []) p.1 .string (p.2.map Cell.str)) ∧
        ∀ p ∈ raw, HoldsCol (d.getD []) p.1 .raw (p.2.map Cell.num)) ∧
    ((∃ p ∈ bucketized, {v : A | Fl.num v ∈ p.2}.ncard + 1 = nb) →
      PyStore.fromDict fmax nb place bucketized strs raw = ub) := by
  have h := PyStore.addAll_holds fmax hnb hplace hn hsmall
    (L := bucketized.map (fun p => (p.1, .bucketized, p.2.map Cell.num)) ++
      (strs.map (fun p => (p.1, .string, p.2.map Cell.str)) ++ raw.map (fun p => (p.1, .raw, p.2.map Cell.num))))
    (by simpa [List.map_append, Function.comp_def] using hnames) (by
      intro l hl
      simp only [List.mem_append, List.mem_map] at hl
      rcases hl with ⟨p, hp, rfl⟩ | ⟨p, hp, rfl⟩ | ⟨p, hp, rfl⟩
      · exact ⟨by simpa using hb p hp, by rintro x hx; obtain ⟨y, _, rfl⟩ := List.mem_map.mp hx; trivial⟩
      · exact ⟨by simpa using hs p hp, by rintro x hx; obtain ⟨y, _, rfl⟩ := List.mem_map.mp hx; trivial⟩
      · exact ⟨by simpa using hr p hp, by rintro x hx; obtain ⟨y, _, rfl⟩ := List.mem_map.mp hx; trivial⟩)
  refine ⟨?_, ?_⟩
  · intro hno
    obtain ⟨d, h1, h2, h3⟩ := h.1 (by
      intro l hl hbk
      simp only [List.mem_append, List.mem_map] at hl
      rcases hl with ⟨p, hp, rfl⟩ | ⟨p, hp, rfl⟩ | ⟨p, hp, rfl⟩
      · rw [PyStore.distinct_num]; exact hno p hp
      · cases hbk
      · cases hbk)
    refine ⟨d, h1, by simpa [List.map_append, Function.comp_def] using h2, ?_, ?_, ?_⟩
    · intro p hp
      exact h3 (p.1, .bucketized, p.2.map Cell.num) (List.mem_append_left _ (List.mem_map.mpr ⟨p, hp, rfl⟩))
    · intro p hp
      exact h3 (p.1, .string, p.2.map Cell.str)
        (List.mem_append_right _ (List.mem_append_left _ (List.mem_map.mpr ⟨p, hp, rfl⟩)))
    · intro p hp
      exact h3 (p.1, .raw, p.2.map Cell.num)
        (List.mem_append_right _ (List.mem_append_right _ (List.mem_map.mpr ⟨p, hp, rfl⟩)))
  · rintro ⟨p, hp, hd⟩
    exact h.2 ⟨(p.1, .bucketized, p.2.map Cell.num), List.mem_append_left _ (List.mem_map.mpr ⟨p, hp, rfl⟩), rfl,
      by rw [PyStore.distinct_num]; exact hd⟩

/-- **C81 (the store is sound).** The store that `from_dict` gives has different names and columns of the one length, as C80
and the training and prediction properties need. -/
theorem C81_sound (fmax : A) {nb : Nat} (hnb : nb < 2 ^ 32) {place : DataStore A → DataStore A}
    (hplace : ∀ l, (place l).Perm l) {n : Nat} (hn : n < 2 ^ 31) (hsmall : n < 2 * nb)
    {bucketized raw : List (String × List (Fl A))} {strs : List (String × List String)}
    (hnames : (bucketized.map Prod.fst ++ (strs.map Prod.fst ++ raw.map Prod.fst)).Nodup)
    (hb : ∀ p ∈ bucketized, p.2.length = n) (hs : ∀ p ∈ strs, p.2.length = n) (hr : ∀ p ∈ raw, p.2.length = n)
    {d : Option (DataStore A)} (hd : PyStore.fromDict fmax nb place bucketized strs raw = ok (.ok d)) :
    ((d.getD []).map Prod.fst).Nodup ∧ ∀ p ∈ d.getD [], HasRows n p.2 := by
  obtain ⟨h1, h2⟩ := C81_from_dict fmax hnb hplace hn hsmall hnames hb hs hr
  have hno : ∀ p ∈ bucketized, {v : A | Fl.num v ∈ p.2}.ncard + 1 ≠ nb := by
    intro p hp h
    rw [h2 ⟨p, hp, h⟩] at hd
    cases hd
  obtain ⟨d', g1, g2, g3, g4, g5⟩ := h1 hno
  rw [hd] at g1
  cases g1
  have hk := g2.nodup_iff.mpr hnames
  refine ⟨hk, ?_⟩
  intro p hp
  have hc := (DataStore.get_some hk p.1 p.2).mpr hp
  have hm := g2.mem_iff.mp (List.mem_map.mpr ⟨p, hp, rfl⟩)
  have fin : ∀ t vals, vals.length = n → HoldsCol (d.getD []) p.1 t vals → HasRows n p.2 := by
    rintro t vals hlen ⟨c, h3, _, h4, _⟩
    rw [hc] at h3
    cases h3
    rw [← hlen]
    exact h4
  simp only [List.mem_append, List.mem_map] at hm
  rcases hm with ⟨q, hq, he⟩ | ⟨q, hq, he⟩ | ⟨q, hq, he⟩
  · exact fin _ _ (by simpa using hb q hq) (he ▸ g3 q hq)
  · exact fin _ _ (by simpa using hs q hq) (he ▸ g4 q hq)
  · exact fin _ _ (by simpa using hr q hq) (he ▸ g5 q hq)

/-- **C81 (different lengths).** When the first column has a row and some column another number of rows, no store comes
back: an exception is raised, unless an earlier column crashed the process. -/
theorem C81_ragged (fmax : A) {nb : Nat} (hnb : nb < 2 ^ 32) {place : DataStore A → DataStore A}
    (hplace : ∀ l, (place l).Perm l) {L : List (String × ColType × List (Cell A))} {name : String} {t : ColType}
    {vals : List (Cell A)} (hnames : (name :: L.map (·.1)).Nodup)
    (hL : ∀ l ∈ (name, t, vals) :: L, l.2.2.length < 2 ^ 31 ∧ ∀ x ∈ l.2.2, PyStore.Cell.Fit l.2.1 x) (hpos : 0 < vals.length)
    (hne : ∃ l ∈ L, l.2.2.length ≠ vals.length) :
    PyStore.addAll fmax nb place none ((name, t, vals) :: L) = ub ∨
      PyStore.addAll fmax nb place none ((name, t, vals) :: L) = ok (.error (.lib .outOfRange)) := by
  have key : ∀ (L : List (String × ColType × List (Cell A))) (d : DataStore A), d ≠ [] →
      (∀ p ∈ d, p.2.size = ok vals.length) → (L.map (·.1) ++ d.map (·.1)).Nodup →
      (∀ l ∈ L, l.2.2.length < 2 ^ 31 ∧ ∀ x ∈ l.2.2, PyStore.Cell.Fit l.2.1 x) →
      (∃ l ∈ L, l.2.2.length ≠ vals.length) →
      PyStore.addAll fmax nb place (some d) L = ub ∨ PyStore.addAll fmax nb place (some d) L = ok (.error (.lib .outOfRange)) := by
    intro L
    induction L with
    | nil => intro d _ _ _ _ h; obtain ⟨_, h, _⟩ := h; cases h
    | cons l L ih =>
      obtain ⟨name', t', vals'⟩ := l
      intro d hd hsz hnd hL hne
      obtain ⟨g1, g2⟩ := hL _ (List.mem_cons_self ..)
      have hnew : d.getColumn name' = none := by
        rw [DataStore.get_none]
        simp only [List.map_cons, List.cons_append, List.nodup_cons, List.mem_append, not_or] at hnd
        exact hnd.1.2
      rcases PyStore.createCol_ok_or_ub (fmax := fmax) (nb := nb) g2 g1 hnb with hub | ⟨c, hc, hcs⟩
      · left
        have : PyStore.addCol fmax nb place (some d) name' t' vals' = ub := by
          simp only at hub
          simp only [PyStore.addCol, DataStorePy.add, hub, ub_bind]
        simp only [PyStore.addAll, this, PyRes.andThen]
      · by_cases hlen : vals'.length = vals.length
        · have ha := PyStore.addCol_ok (place := place) (d := some d) hsz hnew hc (by rw [hcs]; simp only [hlen])
          have := ih (place ((name', c) :: d)) (by
              intro h
              have := (hplace ((name', c) :: d)).length_eq
              rw [h] at this
              simp at this) (by
              intro p hp
              rcases List.mem_cons.mp ((hplace _).mem_iff.mp hp) with rfl | hp
              · rw [hcs]; simp only [hlen]
              · exact hsz p hp) (by
              refine (List.Perm.nodup_iff ?_).mp hnd
              simp only [List.map_cons, List.cons_append]
              exact List.perm_middle.symm.trans (List.Perm.append_left _ ((hplace ((name', c) :: d)).map Prod.fst).symm))
            (fun l hl => hL l (List.mem_cons_of_mem _ hl)) (by
              obtain ⟨l, hl, hl'⟩ := hne
              rcases List.mem_cons.mp hl with rfl | hl
              · exact absurd hlen hl'
              · exact ⟨l, hl, hl'⟩)
          simp only [PyStore.addAll, ha, PyRes.andThen]
          exact this
        · right
          have hnr := PyStore.numRows_of hsz
          rw [if_neg hd] at hnr
          simp only at hc hcs
          have := (C14_failures_raise_partial (A := A)).2 place (some d) name' c vals.length vals'.length hnew hnr hcs hpos
            (fun h => hlen h.symm)
          have h2 : PyStore.addCol fmax nb place (some d) name' t' vals' = ok (.error (.lib .outOfRange)) := by
            simp only [PyStore.addCol, hc, this]
          simp only [PyStore.addAll, h2, PyRes.andThen]
  obtain ⟨g1, g2⟩ := hL _ (List.mem_cons_self ..)
  rcases PyStore.createCol_ok_or_ub (fmax := fmax) (nb := nb) g2 g1 hnb with hub | ⟨c, hc, hcs⟩
  · left
    have : PyStore.addCol fmax nb place none name t vals = ub := by
      simp only at hub
      simp only [PyStore.addCol, DataStorePy.add, hub, ub_bind]
    simp only [PyStore.addAll, this, PyRes.andThen]
  · have ha := PyStore.addCol_ok (place := place) (d := none) (n := vals.length) (name := name) (by simp) rfl hc hcs
    simp only [PyStore.addAll, ha, PyRes.andThen]
    simp only [Option.getD_none]
    have hp := hplace [(name, c)]
    refine key L _ ?_ ?_ ?_ (fun l hl => hL l (List.mem_cons_of_mem _ hl)) hne
    · intro h
      rw [h] at hp
      simpa using hp.length_eq
    · intro p hp'
      rcases List.mem_cons.mp (hp.mem_iff.mp hp') with rfl | hp'
      · exact hcs
      · cases hp'
    · refine (List.Perm.nodup_iff ?_).mp hnames
      refine List.Perm.trans ?_ (List.Perm.append_left _ (hp.map Prod.fst).symm)
      exact (List.perm_append_singleton _ _).symm

/-! ## Examples for C80 and C81 -/

/-- The cells of a column of a store, for examples. -/
def cellsOf (d : PyRes (Option (DataStore Int))) (name : String) (index : List Int) : Option (List (Cell Int)) :=
  match d with
  | .ok (.ok d) => match PyStore.getCol d name with
    | .ok (.ok c) => match PyStore.items c index with
      | .ok (.ok l) => some l
      | _ => none
    | _ => none
  | _ => none

/-- The slice of a store, for examples. -/
def sliceOf (d : PyRes (Option (DataStore Int))) (index : List Int) : PyRes (Option (DataStore Int)) :=
  d.andThen (fun d => PyStore.slice 1000 4 rotate1 d index)

/-- The outcome is a crash. -/
def isUb (d : PyRes (Option (DataStore Int))) : Bool := match d with | .ub => true | _ => false

/-- The outcome is an exception. -/
def raises (d : PyRes (Option (DataStore Int))) : Bool := match d with | .ok (.error _) => true | _ => false

/-- Four rows with four different numbers, with 4 buckets. -/
def dictStore : PyRes (Option (DataStore Int)) :=
  PyStore.fromDict 1000 4 rotate1 [("x", [.num 3, .nan, .num 1, .num 3]), ("w", [.num 7, .num 5, .num 6, .num 8])]
    [("c", ["u", "v", "u", "w"])] [("y", [.num 0, .num 1, .num 1, .num 0])]

/-- The hypotheses of `C81_from_dict` and of `C80_slice` hold, and so do the conclusions: rows are repeated and reordered. -/
example :
    cellsOf dictStore "x" [0, 1, 2, 3] = some [.num (.num 3), .num .nan, .num (.num 1), .num (.num 3)] ∧
    cellsOf (sliceOf dictStore [2, 1, 1, 2]) "x" [0, 1, 2, 3] =
      some [.num (.num 1), .num .nan, .num .nan, .num (.num 1)] ∧
    cellsOf (sliceOf dictStore [2, 0, 0, 1, 3]) "c" [0, 1, 2, 3, 4] =
      some [.str "u", .str "u", .str "u", .str "v", .str "w"] ∧
    cellsOf (sliceOf dictStore [3, 2]) "y" [0, 1] = some [.num (.num 0), .num (.num 1)] := by
  decide +kernel

/-- Three rows with three different numbers crash, although the store of all four rows is fine; wrong indices raise. -/
example : isUb (sliceOf dictStore [0, 1, 2]) = true ∧ isUb dictStore = false ∧ raises (sliceOf dictStore [0, 4]) = true ∧
    raises (sliceOf dictStore [-1]) = true ∧ raises (sliceOf dictStore [4294967296]) = true := by
  decide +kernel

example : ∃ d, dictStore = ok (.ok d) ∧ ((d.getD []).map Prod.fst).Nodup ∧ (∀ p ∈ d.getD [], HasRows 4 p.2) ∧
    d.getD [] ≠ [] := by
  cases h : dictStore with
  | ub => exact absurd (show isUb dictStore = false by decide +kernel) (by rw [h]; decide)
  | fatal =>
    have : cellsOf dictStore "x" [] = some [] := by decide +kernel
    rw [h] at this
    cases this
  | ok r =>
    cases r with
    | error e =>
      have : cellsOf dictStore "x" [] = some [] := by decide +kernel
      rw [h] at this
      cases this
    | ok d =>
      have hs := C81_sound 1000 (nb := 4) (by decide) rotate1_perm (n := 4) (by decide) (by decide) (by decide)
        (by decide) (by decide) (by decide) h
      refine ⟨d, rfl, hs.1, hs.2, ?_⟩
      intro he
      have : cellsOf (.ok (.ok d)) "x" [] = some [] := by rw [← h]; decide +kernel
      cases d with
      | none => cases this
      | some d =>
        cases he
        cases this

/-- Columns of different lengths raise. -/
example : raises (PyStore.fromDict 1000 4 rotate1 [("x", [.num 3, .nan])] [("c", ["u", "v", "u"])] []) = true := by
  decide +kernel

/-! ## C82: stores from data frames -/

/-- The type a column of a data frame should get (`_data_store.py:144-148`): what the override says, or else bucketized for
numbers and string for the rest. -/
def dfType (col : PyStore.DfCol A) (override : Option String) : ColType :=
  match override with
  | some "string" => .string
  | some "bucketized_float" => .bucketized
  | some "float" => .raw
  | some "raw_float" => .raw
  | _ => match col with
    | .numeric _ => .bucketized
    | .other _ => .string

/-- The cells of a column of a data frame. -/
def dfCells : PyStore.DfCol A → List (Cell A)
  | .numeric vals => vals.map Cell.num
  | .other vals => vals.map Cell.str

/-- **C82 (the full property, false).** Every column of the data frame is in the store with the type that the documentation
promises. -/
def C82_full : Prop :=
  ∀ (fmax : ℚ) (nb : Nat) (place : DataStore ℚ → DataStore ℚ) (df : List (String × PyStore.DfCol ℚ))
    (overrides : String → Option String) (d : Option (DataStore ℚ)), (∀ l, (place l).Perm l) → (df.map Prod.fst).Nodup →
    PyStore.fromDf fmax nb place df overrides = ok (.ok d) → ∀ p ∈ df, ∃ c, (d.getD []).getColumn p.1 = some c ∧
      c.type = dfType p.2 (overrides p.1)

/-- A number column with the override `string` is dropped without a word. -/
theorem C82_refuted : ¬ C82_full := by
  intro h
  obtain ⟨c, hc, _⟩ := h 100 30000 id [("zip", .numeric [.num 94043]), ("y", .other ["a"])]
    (fun k => if k = "zip" then some "string" else none) (some [("y", .str (StrCol.build [["a"]]))]) (fun l => List.Perm.refl l)
    (by decide) rfl ("zip", .numeric [.num 94043]) (by simp)
  cases hc

/-- **C82 (from_df).** When no number column is overridden to `string` and no other column to a number type, every column of
the data frame is in the store with the promised type and with its values, and nothing else is; or the process crashes, and
this happens exactly when some bucketized column has exactly one different number less than there are buckets. -/
theorem C82_from_df_partial (fmax : A) {nb : Nat} (hnb : nb < 2 ^ 32) {place : DataStore A → DataStore A}
    (hplace : ∀ l, (place l).Perm l) {n : Nat} (hn : n < 2 ^ 31) (hsmall : n < 2 * nb)
    {df : List (String × PyStore.DfCol A)} {overrides : String → Option String} (hnames : (df.map Prod.fst).Nodup)
    (hlen : ∀ p ∈ df, (dfCells p.2).length = n)
    (hnum : ∀ name vals, (name, PyStore.DfCol.numeric vals) ∈ df → dfType (.numeric vals) (overrides name) ≠ .string)
    (hoth : ∀ name vals, (name, PyStore.DfCol.other vals) ∈ df →
      dfType (PyStore.DfCol.other (A := A) vals) (overrides name) = .string) :
    ((∀ name vals, (name, PyStore.DfCol.numeric vals) ∈ df → dfType (.numeric vals) (overrides name) = .bucketized →
        {v : A | Fl.num v ∈ vals}.ncard + 1 ≠ nb) →
      ∃ d, PyStore.fromDf fmax nb place df overrides = ok (.ok d) ∧ ((d.getD []).map Prod.fst).Perm (df.map Prod.fst) ∧
        ∀ p ∈ df, HoldsCol (d.getD []) p.1 (dfType p.2 (overrides p.1)) (dfCells p.2)) ∧
    ((∃ name vals, (name, PyStore.DfCol.numeric vals) ∈ df ∧ dfType (.numeric vals) (overrides name) = .bucketized ∧
        {v : A | Fl.num v ∈ vals}.ncard + 1 = nb) → PyStore.fromDf fmax nb place df overrides = ub) := by
  have htype : ∀ name vals, (name, PyStore.DfCol.numeric vals) ∈ df →
      PyStore.dfNumeric (fun k => overrides k == some "float" || overrides k == some "raw_float")
        (fun k => overrides k == some "string") (name, PyStore.DfCol.numeric vals) =
      [(name, dfType (.numeric vals) (overrides name), vals.map Cell.num)] := by
    intro name vals hm
    have := hnum name vals hm
    revert this
    unfold dfType PyStore.dfNumeric
    split
    · intro h; exact absurd rfl h
    all_goals intro _; simp_all
  have hmem : ∀ l, l ∈ df.flatMap (PyStore.dfNumeric (fun k => overrides k == some "float" || overrides k == some "raw_float")
        (fun k => overrides k == some "string")) ++ df.flatMap PyStore.dfOther ↔
      ∃ p ∈ df, l = (p.1, dfType p.2 (overrides p.1), dfCells p.2) := by
    intro l
    simp only [List.mem_append, List.mem_flatMap]
    constructor
    · rintro (⟨⟨name, col⟩, hp, hl⟩ | ⟨⟨name, col⟩, hp, hl⟩)
      · cases col with
        | numeric vals =>
          rw [htype name vals hp, List.mem_singleton] at hl
          exact ⟨_, hp, hl⟩
        | other vals => cases hl
      · cases col with
        | numeric vals => cases hl
        | other vals =>
          rw [PyStore.dfOther, List.mem_singleton] at hl
          exact ⟨_, hp, by rw [hl, hoth name vals hp]; rfl⟩
    · rintro ⟨⟨name, col⟩, hp, rfl⟩
      cases col with
      | numeric vals => exact Or.inl ⟨_, hp, by rw [htype name vals hp]; exact List.mem_singleton.mpr rfl⟩
      | other vals => exact Or.inr ⟨_, hp, by rw [PyStore.dfOther, hoth name vals hp]; exact List.mem_singleton.mpr rfl⟩
  have hperm : ((df.flatMap (PyStore.dfNumeric (fun k => overrides k == some "float" || overrides k == some "raw_float")
        (fun k => overrides k == some "string")) ++ df.flatMap PyStore.dfOther).map (·.1)).Perm (df.map Prod.fst) := by
    clear hmem hnames hlen hoth hnum
    induction df with
    | nil => exact List.Perm.nil
    | cons p df ih =>
      have ih := ih (fun name vals hm => htype name vals (List.mem_cons_of_mem _ hm))
      obtain ⟨name, col⟩ := p
      cases col with
      | numeric vals =>
        rw [List.flatMap_cons, List.flatMap_cons, htype name vals (List.mem_cons_self ..)]
        simp only [PyStore.dfOther, List.nil_append, List.cons_append, List.map_cons]
        exact ih.cons _
      | other vals =>
        rw [List.flatMap_cons, List.flatMap_cons]
        simp only [PyStore.dfNumeric, PyStore.dfOther, List.nil_append, List.singleton_append, List.map_append, List.map_cons]
        refine List.perm_middle.trans ?_
        rw [List.map_append] at ih
        exact ih.cons _
  have h := PyStore.addAll_holds fmax hnb hplace hn hsmall (hperm.nodup_iff.mpr hnames) (by
    intro l hl
    obtain ⟨⟨name, col⟩, hp, rfl⟩ := (hmem l).mp hl
    refine ⟨hlen _ hp, ?_⟩
    cases col with
    | numeric vals =>
      intro x hx
      obtain ⟨y, _, rfl⟩ := List.mem_map.mp hx
      have := hnum name vals hp
      simp only at *
      cases hd : dfType (PyStore.DfCol.numeric vals) (overrides name) with
      | string => exact absurd hd this
      | bucketized => trivial
      | raw => trivial
    | other vals =>
      intro x hx
      obtain ⟨y, _, rfl⟩ := List.mem_map.mp hx
      simp only
      rw [hoth name vals hp]
      trivial)
  refine ⟨?_, ?_⟩
  · intro hno
    obtain ⟨d, h1, h2, h3⟩ := h.1 (by
      intro l hl hb
      obtain ⟨⟨name, col⟩, hp, rfl⟩ := (hmem l).mp hl
      cases col with
      | numeric vals => exact (PyStore.distinct_num vals) ▸ hno name vals hp hb
      | other vals => simp only at hb; rw [hoth name vals hp] at hb; cases hb)
    refine ⟨d, h1, h2.trans hperm, ?_⟩
    intro p hp
    exact h3 _ ((hmem _).mpr ⟨p, hp, rfl⟩)
  · rintro ⟨name, vals, hp, hb, hd⟩
    exact h.2 ⟨_, (hmem _).mpr ⟨_, hp, rfl⟩, hb, by rw [← hd, ← PyStore.distinct_num]; rfl⟩

example :
    cellsOf (PyStore.fromDf 1000 30 rotate1 [("x", .numeric [.num 3, .nan]), ("y", .numeric [.num 0, .num 1]),
      ("c", .other ["u", "v"])] (fun k => if k = "y" then some "float" else none)) "y" [0, 1] =
        some [.num (.num 0), .num (.num 1)] ∧
    cellsOf (PyStore.fromDf 1000 30 rotate1 [("x", .numeric [.num 3, .nan]), ("y", .numeric [.num 0, .num 1]),
      ("c", .other ["u", "v"])] (fun k => if k = "y" then some "string" else none)) "y" [] = none := by
  decide +kernel

end Gbdt
