import Verif.Model.BucketColumn
import Mathlib.Data.List.Sort
import Mathlib.Data.List.Count
import Mathlib.Data.List.Induction
import Mathlib.Data.List.Nodup
import Mathlib.Tactic.Linarith

/-! Lemmas on the sorted association lists that stand for `std::map<float, uint>`. -/

set_option linter.unusedSectionVars false

set_option autoImplicit false

namespace Gbdt

variable {A : Type} [LinearOrder A]

namespace FMap

/-- Keys strictly increasing. -/
def Sorted (m : FMap A) : Prop := m.Pairwise (fun p q => p.1 < q.1)

theorem mem_set {m : FMap A} (hs : Sorted m) (v : A) (x : Nat) (a : A) (i : Nat) :
    (a, i) ∈ set v x m ↔ (a = v ∧ i = x) ∨ (a ≠ v ∧ (a, i) ∈ m) := by
  induction m with
  | nil => simp [set]
  | cons p m ih =>
    obtain ⟨k, n⟩ := p
    have hs' : Sorted m := (List.pairwise_cons.mp hs).2
    have hlt : ∀ q ∈ m, k < q.1 := (List.pairwise_cons.mp hs).1
    unfold set
    split
    · rename_i hvk
      simp only [List.mem_cons, Prod.mk.injEq]
      constructor
      · rintro (h | h | h)
        · exact Or.inl h
        · right; refine ⟨?_, Or.inl h⟩; rintro rfl; rw [h.1] at hvk; exact lt_irrefl _ hvk
        · right; refine ⟨?_, Or.inr h⟩; rintro rfl; exact lt_asymm hvk (hlt _ h)
      · rintro (h | ⟨_, h⟩)
        · exact Or.inl h
        · exact Or.inr h
    · split
      · rename_i h1 hkv
        simp only [List.mem_cons, Prod.mk.injEq, ih hs']
        constructor
        · rintro (h | h | h)
          · right; refine ⟨?_, Or.inl h⟩; rintro rfl; rw [h.1] at hkv; exact lt_irrefl _ hkv
          · exact Or.inl h
          · exact Or.inr ⟨h.1, Or.inr h.2⟩
        · rintro (h | ⟨h, h' | h'⟩)
          · exact Or.inr (Or.inl h)
          · exact Or.inl h'
          · exact Or.inr (Or.inr ⟨h, h'⟩)
      · rename_i h1 h2
        have hkv : k = v := le_antisymm (not_lt.mp h1) (not_lt.mp h2)
        subst hkv
        simp only [List.mem_cons, Prod.mk.injEq]
        constructor
        · rintro (h | h)
          · exact Or.inl h
          · right; refine ⟨?_, Or.inr h⟩; rintro rfl; exact lt_irrefl _ (hlt _ h)
        · rintro (h | ⟨h, h' | h'⟩)
          · exact Or.inl h
          · exact absurd h'.1 h
          · exact Or.inr h'

theorem keys_set {m : FMap A} (v : A) (x : Nat) : ∀ p ∈ set v x m, p.1 = v ∨ ∃ q ∈ m, q.1 = p.1 := by
  induction m with
  | nil => simp [set]
  | cons p m ih =>
    obtain ⟨k, n⟩ := p
    unfold set
    split
    · intro p hp
      rcases List.mem_cons.mp hp with h | h
      · left; rw [h]
      · exact Or.inr ⟨p, h, rfl⟩
    · split
      · intro p hp
        rcases List.mem_cons.mp hp with h | h
        · right; exact ⟨(k, n), by simp, by rw [h]⟩
        · rcases ih p h with h | ⟨q, hq, h⟩
          · exact Or.inl h
          · exact Or.inr ⟨q, List.mem_cons_of_mem _ hq, h⟩
      · intro p hp
        rcases List.mem_cons.mp hp with h | h
        · right; exact ⟨(k, n), by simp, by rw [h]⟩
        · exact Or.inr ⟨p, List.mem_cons_of_mem _ h, rfl⟩

theorem sorted_set {m : FMap A} (hs : Sorted m) (v : A) (x : Nat) : Sorted (set v x m) := by
  induction m with
  | nil => simp [set, Sorted]
  | cons p m ih =>
    obtain ⟨k, n⟩ := p
    have hs' : Sorted m := (List.pairwise_cons.mp hs).2
    have hlt : ∀ q ∈ m, k < q.1 := (List.pairwise_cons.mp hs).1
    unfold set
    split
    · rename_i hvk
      refine List.pairwise_cons.mpr ⟨?_, hs⟩
      intro q hq
      rcases List.mem_cons.mp hq with h | h
      · rw [h]; exact hvk
      · exact lt_trans hvk (hlt q h)
    · split
      · rename_i h1 hkv
        refine List.pairwise_cons.mpr ⟨?_, ih hs'⟩
        intro q hq
        rcases keys_set v x q hq with h | ⟨r, hr, h⟩
        · rw [h]; exact hkv
        · rw [← h]; exact hlt r hr
      · exact List.pairwise_cons.mpr ⟨hlt, hs'⟩

theorem keys_inc {m : FMap A} (v : A) : ∀ p ∈ inc v m, p.1 = v ∨ ∃ q ∈ m, q.1 = p.1 := by
  induction m with
  | nil => simp [inc]
  | cons p m ih =>
    obtain ⟨k, n⟩ := p
    unfold inc
    split
    · intro p hp
      rcases List.mem_cons.mp hp with h | h
      · left; rw [h]
      · exact Or.inr ⟨p, h, rfl⟩
    · split
      · intro p hp
        rcases List.mem_cons.mp hp with h | h
        · right; exact ⟨(k, n), by simp, by rw [h]⟩
        · rcases ih p h with h | ⟨q, hq, h⟩
          · exact Or.inl h
          · exact Or.inr ⟨q, List.mem_cons_of_mem _ hq, h⟩
      · intro p hp
        rcases List.mem_cons.mp hp with h | h
        · right; exact ⟨(k, n), by simp, by rw [h]⟩
        · exact Or.inr ⟨p, List.mem_cons_of_mem _ h, rfl⟩

theorem sorted_inc {m : FMap A} (hs : Sorted m) (v : A) : Sorted (inc v m) := by
  induction m with
  | nil => simp [inc, Sorted]
  | cons p m ih =>
    obtain ⟨k, n⟩ := p
    have hs' : Sorted m := (List.pairwise_cons.mp hs).2
    have hlt : ∀ q ∈ m, k < q.1 := (List.pairwise_cons.mp hs).1
    unfold inc
    split
    · rename_i hvk
      refine List.pairwise_cons.mpr ⟨?_, hs⟩
      intro q hq
      rcases List.mem_cons.mp hq with h | h
      · rw [h]; exact hvk
      · exact lt_trans hvk (hlt q h)
    · split
      · rename_i h1 hkv
        refine List.pairwise_cons.mpr ⟨?_, ih hs'⟩
        intro q hq
        rcases keys_inc v q hq with h | ⟨r, hr, h⟩
        · rw [h]; exact hkv
        · rw [← h]; exact hlt r hr
      · exact List.pairwise_cons.mpr ⟨hlt, hs'⟩

/-- Total of the counts. -/
def total (m : FMap A) : Nat := (m.map Prod.snd).sum

theorem total_inc (m : FMap A) (v : A) : total (inc v m) = total m + 1 := by
  induction m with
  | nil => simp [inc, total]
  | cons p m ih =>
    obtain ⟨k, n⟩ := p
    unfold inc
    split
    · simp [total]; omega
    · split
      · simp only [total, List.map_cons, List.sum_cons] at ih ⊢; omega
      · simp only [total, List.map_cons, List.sum_cons]; omega

/-- The count stored for a key, 0 if absent. -/
def count (m : FMap A) (a : A) : Nat :=
  match m with
  | [] => 0
  | (k, n) :: m => if k = a then n else count m a

theorem count_eq_zero {m : FMap A} {a : A} (h : ∀ p ∈ m, p.1 ≠ a) : count m a = 0 := by
  induction m with
  | nil => rfl
  | cons p m ih =>
    obtain ⟨k, n⟩ := p
    simp only [count]
    rw [if_neg (h (k, n) (by simp))]
    exact ih (fun q hq => h q (List.mem_cons_of_mem _ hq))

theorem count_inc {m : FMap A} (hs : Sorted m) (v a : A) :
    count (inc v m) a = count m a + if v = a then 1 else 0 := by
  induction m with
  | nil => simp [inc, count]
  | cons p m ih =>
    obtain ⟨k, n⟩ := p
    have hs' : Sorted m := (List.pairwise_cons.mp hs).2
    have hlt : ∀ q ∈ m, k < q.1 := (List.pairwise_cons.mp hs).1
    unfold inc
    split
    · rename_i hvk
      by_cases hva : v = a
      · subst hva
        have : count ((k, n) :: m) v = 0 := by
          apply count_eq_zero
          intro p hp
          rcases List.mem_cons.mp hp with h | h
          · rw [h]; exact ne_of_gt hvk
          · exact ne_of_gt (lt_trans hvk (hlt p h))
        rw [this]
        simp [count]
      · simp [count, hva]
    · split
      · simp only [count, ih hs']
        split
        · rename_i h1 h2 h3
          subst h3
          simp [ne_of_gt h2]
        · rfl
      · rename_i h1 h2
        have hkv : k = v := le_antisymm (not_lt.mp h1) (not_lt.mp h2)
        subst hkv
        simp only [count]
        split <;> simp

theorem mem_iff_count {m : FMap A} (hs : Sorted m) (hp : ∀ p ∈ m, 0 < p.2) (a : A) (n : Nat) :
    (a, n) ∈ m ↔ count m a = n ∧ 0 < n := by
  induction m with
  | nil => simp only [List.not_mem_nil, count, false_iff]; omega
  | cons p m ih =>
    obtain ⟨k, j⟩ := p
    have hs' : Sorted m := (List.pairwise_cons.mp hs).2
    have hlt : ∀ q ∈ m, k < q.1 := (List.pairwise_cons.mp hs).1
    have hj : 0 < j := hp (k, j) (by simp)
    simp only [List.mem_cons, Prod.mk.injEq, count, ih hs' (fun q hq => hp q (List.mem_cons_of_mem _ hq))]
    by_cases hka : k = a
    · subst hka
      have : count m k = 0 := count_eq_zero (fun p hp => ne_of_gt (hlt p hp))
      simp only [true_and, this, if_true]
      omega
    · simp [hka, Ne.symm hka]

theorem pos_inc {m : FMap A} (hp : ∀ p ∈ m, 0 < p.2) (v : A) : ∀ p ∈ inc v m, 0 < p.2 := by
  induction m with
  | nil => simp [inc]
  | cons p m ih =>
    obtain ⟨k, j⟩ := p
    have hp' : ∀ p ∈ m, 0 < p.2 := fun q hq => hp q (List.mem_cons_of_mem _ hq)
    have hj : 0 < j := hp (k, j) (by simp)
    unfold inc
    split
    · intro p h
      rcases List.mem_cons.mp h with h | h
      · rw [h]; exact Nat.one_pos
      · exact hp p h
    · split
      · intro p h
        rcases List.mem_cons.mp h with h | h
        · rw [h]; exact hj
        · exact ih hp' p h
      · intro p h
        rcases List.mem_cons.mp h with h | h
        · rw [h]; exact Nat.succ_pos _
        · exact hp' p h

end FMap

/-- Folding the histogram loop over more values. -/
theorem histogram_snoc (raw : List (Fl A)) (v : Fl A) :
    histogram (raw ++ [v]) = match v with
      | .nan => histogram raw
      | .num a => (histogram raw).inc a := by
  unfold histogram
  rw [List.foldl_append]
  cases v <;> rfl

theorem histogram_spec (raw : List (Fl A)) :
    FMap.Sorted (histogram raw) ∧ (∀ p ∈ histogram raw, 0 < p.2) ∧
    (∀ a, FMap.count (histogram raw) a = raw.count (.num a)) ∧
    FMap.total (histogram raw) = raw.countP (fun v => !v.isNaN) := by
  induction raw using List.reverseRecOn with
  | nil => simp [histogram, FMap.Sorted, FMap.count, FMap.total]
  | append_singleton raw v ih =>
    obtain ⟨h1, h2, h3, h4⟩ := ih
    rw [histogram_snoc]
    cases v with
    | nan =>
      refine ⟨h1, h2, ?_, ?_⟩
      · intro a; rw [h3, List.count_append]; simp
      · rw [h4, List.countP_append]; simp
    | num b =>
      refine ⟨FMap.sorted_inc h1 b, FMap.pos_inc h2 b, ?_, ?_⟩
      · intro a
        rw [FMap.count_inc h1, h3, List.count_append, List.count_singleton]
        congr 1
        by_cases hb : b = a <;> simp [hb]
      · simp only [FMap.total_inc, h4, List.countP_append]; simp

theorem mem_histogram (raw : List (Fl A)) (a : A) (n : Nat) :
    (a, n) ∈ histogram raw ↔ raw.count (.num a) = n ∧ 0 < n := by
  obtain ⟨h1, h2, h3, _⟩ := histogram_spec raw
  rw [FMap.mem_iff_count h1 h2, h3]

namespace FMap

/-- The keys. -/
def keys (m : FMap A) : List A := m.map Prod.fst

theorem Sorted.keys_lt {m : FMap A} (h : Sorted m) : m.keys.Pairwise (· < ·) := by
  unfold keys
  rw [List.pairwise_map]
  exact h

theorem Sorted.filter {m : FMap A} (h : Sorted m) (p : A × Nat → Bool) : Sorted (m.filter p) :=
  List.Pairwise.filter _ h

theorem total_filter (m : FMap A) (p : A × Nat → Bool) :
    total (m.filter p) + total (m.filter (fun x => !p x)) = total m := by
  induction m with
  | nil => rfl
  | cons x m ih =>
    unfold total at ih ⊢
    by_cases h : p x = true
    · simp only [h, List.filter_cons_of_pos, List.map_cons, List.sum_cons, Bool.not_true, Bool.false_eq_true,
        not_false_eq_true, List.filter_cons_of_neg]; omega
    · have h' : p x = false := by simpa using h
      simp only [List.filter_cons, h', Bool.false_eq_true, if_false, List.map_cons, List.sum_cons, Bool.not_false,
        if_true]; omega

theorem lowerBound_some {m : FMap A} (hs : Sorted m) {v : A} {p : A × Nat} (h : m.lowerBound v = some p) :
    p ∈ m ∧ v ≤ p.1 ∧ ∀ q ∈ m, v ≤ q.1 → p.1 ≤ q.1 := by
  unfold lowerBound at h
  rw [List.find?_eq_some_iff_append] at h
  obtain ⟨h1, as, bs, h2, h3⟩ := h
  have hv : v ≤ p.1 := by simpa using h1
  refine ⟨by rw [h2]; simp, hv, ?_⟩
  intro q hq hvq
  rw [h2] at hq hs
  rcases List.mem_append.mp hq with h | h
  · have := h3 q h
    simp only [Bool.not_not, decide_eq_true_eq] at this
    exact absurd hvq (not_le.mpr this)
  · rcases List.mem_cons.mp h with h | h
    · rw [h]
    · have := (List.pairwise_append.mp hs).2.1
      exact le_of_lt ((List.pairwise_cons.mp this).1 q h)

theorem lowerBound_none {m : FMap A} {v : A} (h : m.lowerBound v = none) : ∀ q ∈ m, q.1 < v := by
  unfold lowerBound at h
  rw [List.find?_eq_none] at h
  intro q hq
  simpa using h q hq

theorem getLast_max {m : FMap A} (hs : Sorted m) {p : A × Nat} (h : m.getLast? = some p) :
    p ∈ m ∧ ∀ q ∈ m, q.1 ≤ p.1 := by
  obtain ⟨ys, rfl⟩ := List.getLast?_eq_some_iff.mp h
  refine ⟨by simp, ?_⟩
  intro q hq
  rcases List.mem_append.mp hq with h | h
  · exact le_of_lt ((List.pairwise_append.mp hs).2.2 q h p (by simp))
  · simp only [List.mem_singleton] at h; rw [h]

theorem key_inj {m : FMap A} (hs : Sorted m) {a : A} {i j : Nat} (h1 : (a, i) ∈ m) (h2 : (a, j) ∈ m) : i = j := by
  induction m with
  | nil => simp at h1
  | cons p m ih =>
    have hs' : Sorted m := (List.pairwise_cons.mp hs).2
    have hlt : ∀ q ∈ m, p.1 < q.1 := (List.pairwise_cons.mp hs).1
    rcases List.mem_cons.mp h1 with h | h
    · rcases List.mem_cons.mp h2 with h' | h'
      · rw [← h'] at h; exact (Prod.mk.inj h).2
      · have := hlt _ h'; rw [← h] at this; exact absurd this (lt_irrefl _)
    · rcases List.mem_cons.mp h2 with h' | h'
      · have := hlt _ h; rw [← h'] at this; exact absurd this (lt_irrefl _)
      · exact ih hs' h h'

end FMap

/-- `buildMap` over numbers: the entries afterwards. -/
theorem buildMap_spec (l : List A) (i : Nat) (m : FMap A) (hs : FMap.Sorted m) :
    ∃ m', buildMap (l.map Fl.num) i m = .ok m' ∧ FMap.Sorted m' ∧
      ∀ a j, (a, j) ∈ m' ↔
        ((∃ t, l[t]? = some a ∧ j = i + t ∧ ∀ u, t < u → l[u]? ≠ some a) ∨ (a ∉ l ∧ (a, j) ∈ m)) := by
  induction l generalizing i m with
  | nil => exact ⟨m, rfl, hs, by simp⟩
  | cons b l ih =>
    obtain ⟨m', h1, h2, h3⟩ := ih (i + 1) (m.set b i) (FMap.sorted_set hs b i)
    refine ⟨m', h1, h2, ?_⟩
    intro a j
    rw [h3, FMap.mem_set hs]
    constructor
    · rintro (⟨t, ht, hj, hu⟩ | ⟨hnot, ⟨hab, hji⟩ | ⟨hab, hm⟩⟩)
      · left
        refine ⟨t + 1, by simpa using ht, by omega, ?_⟩
        intro u htu
        cases u with
        | zero => omega
        | succ u => simpa using hu u (by omega)
      · left
        refine ⟨0, by simp [hab], by omega, ?_⟩
        intro u hu
        cases u with
        | zero => omega
        | succ u =>
          simp only [List.getElem?_cons_succ]
          intro h
          exact hnot (List.mem_of_getElem? h)
      · right
        exact ⟨by simp [hab, hnot], hm⟩
    · rintro (⟨t, ht, hj, hu⟩ | ⟨hnot, hm⟩)
      · cases t with
        | succ t =>
          left
          refine ⟨t, by simpa using ht, by omega, ?_⟩
          intro u htu
          have := hu (u + 1) (by omega)
          simpa using this
        | zero =>
          right
          have hab : b = a := by simpa using ht
          subst hab
          refine ⟨?_, Or.inl ⟨rfl, by omega⟩⟩
          intro hmem
          obtain ⟨u, hu'⟩ := List.mem_iff_getElem?.mp hmem
          exact hu (u + 1) (by omega) (by simpa using hu')
      · simp only [List.mem_cons, not_or] at hnot
        exact Or.inr ⟨hnot.2, Or.inr ⟨hnot.1, hm⟩⟩

end Gbdt
