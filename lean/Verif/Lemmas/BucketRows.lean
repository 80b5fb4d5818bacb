import Verif.Lemmas.BucketBuild

/-! Rows of a finalized bucketized column. -/

set_option linter.unusedSectionVars false

set_option autoImplicit false

namespace Gbdt

open Outcome

variable {A : Type} [LinearOrder A] {fmax : A} {S : List A} {M : FMap A}

theorem Bkts.unique (b : Bkts fmax S M) {a : A} {i j : Nat} (h1 : (a, i) ∈ M) (h2 : (a, j) ∈ M) : i = j := by
  obtain ⟨t, p1, p2, p3⟩ := (b.mem a i).mp h1
  obtain ⟨u, q1, q2, q3⟩ := (b.mem a j).mp h2
  rcases Nat.lt_trichotomy t u with h | h | h
  · exact absurd q1 (p3 u h)
  · omega
  · exact absurd p1 (q3 t h)

/-- A number not above `fmax` goes to the smallest limit not below it. -/
theorem Bkts.entry_le (b : Bkts fmax S M) {v : A} (hv : v ≤ fmax) :
    ∃ k, (k, codeOf M (.num v)) ∈ M ∧ v ≤ k ∧ k ≤ fmax ∧ ∀ q ∈ M, v ≤ q.1 → k ≤ q.1 := by
  obtain ⟨j, hj⟩ := b.has_key (a := fmax) (by simp)
  obtain ⟨k, h1, h2 | h2⟩ := b.entry v
  · exact ⟨k, h1, h2.1, h2.2 _ hj hv, h2.2⟩
  · exact absurd (h2.1 _ hj) (not_lt.mpr hv)

/-- A number that is a limit goes to that limit. -/
theorem Bkts.entry_key (b : Bkts fmax S M) {v : A} (hv : v ∈ S ++ [fmax]) : (v, codeOf M (.num v)) ∈ M := by
  obtain ⟨j, hj⟩ := b.has_key hv
  obtain ⟨k, h1, h2 | h2⟩ := b.entry v
  · have := le_antisymm (h2.2 _ hj le_rfl) h2.1
    rwa [this] at h1
  · exact absurd (h2.1 _ hj) (lt_irrefl _)

/-- Codes of numbers not above `fmax` are ordered as the limits are. -/
theorem Bkts.code_lt_of_key_lt (b : Bkts fmax S M) {a1 a2 : A} {i j : Nat} (h1 : (a1, i) ∈ M) (h2 : (a2, j) ∈ M)
    (hlt : a1 < a2) (hle : a2 ≤ fmax) : i < j := by
  obtain ⟨t, p1, p2, p3⟩ := (b.mem a1 i).mp h1
  obtain ⟨u, q1, q2, q3⟩ := (b.mem a2 j).mp h2
  have ht := (List.getElem?_eq_some_iff.mp p1).1
  have hu := (List.getElem?_eq_some_iff.mp q1).1
  simp only [List.length_append, List.length_singleton] at ht hu
  rcases Nat.lt_trichotomy t u with h | h | h
  · omega
  · subst h
    rw [p1] at q1
    simp only [Option.some.injEq] at q1
    exact absurd hlt (by rw [q1]; exact lt_irrefl _)
  · exfalso
    have hu' : u < S.length := by omega
    by_cases htS : t < S.length
    · rw [List.getElem?_append_left htS, List.getElem?_eq_getElem htS, Option.some.injEq] at p1
      rw [List.getElem?_append_left hu', List.getElem?_eq_getElem hu', Option.some.injEq] at q1
      have := List.pairwise_iff_getElem.mp b.incr u t hu' htS h
      rw [p1, q1] at this
      exact lt_asymm hlt this
    · have : t = S.length := by omega
      subst this
      rw [List.getElem?_append_right le_rfl] at p1
      simp only [Nat.sub_self, List.getElem?_cons_zero, Option.some.injEq] at p1
      rw [← p1] at hlt
      exact absurd hlt (not_lt.mpr hle)

theorem Bkts.code_mono (b : Bkts fmax S M) {v w : A} (h : v ≤ w) (hw : w ≤ fmax) :
    codeOf M (.num v) ≤ codeOf M (.num w) := by
  obtain ⟨k1, a1, a2, a3, a4⟩ := b.entry_le (h.trans hw)
  obtain ⟨k2, b1, b2, b3, b4⟩ := b.entry_le hw
  have hk : k1 ≤ k2 := a4 _ b1 (h.trans b2)
  rcases hk.lt_or_eq with hk | hk
  · exact le_of_lt (b.code_lt_of_key_lt a1 b1 hk b3)
  · subst hk
    exact le_of_eq (b.unique a1 b1)

variable {c : BktCol A} {raw : List (Fl A)}

theorem Ready.code (r : Ready fmax c raw S M) {i : Nat} {x : Fl A} (h : raw[i]? = some x) :
    c.ints.code i = ok (codeOf M x) := by
  unfold IntCol.code
  rw [r.data, ok_bind, vecGet_eq_ok, List.getElem?_map, h]
  rfl

theorem Ready.size (r : Ready fmax c raw S M) : c.size = ok (u32 raw.length) := by
  unfold BktCol.size IntCol.size
  rw [r.data]
  simp

theorem Ready.maxInt (r : Ready fmax c raw S M) : c.maxInt = S.length + 2 := by
  unfold BktCol.maxInt
  rw [r.maxs]
  simp only [List.length_cons, List.length_map, List.length_append, List.length_nil]
  rw [u32_of_lt (by have := r.small; omega)]

/-- What is reported about the bucket of limit number `t`. -/
theorem Ready.bucket (r : Ready fmax c raw S M) {t : Nat} {a : A} (h : (S ++ [fmax])[t]? = some a) :
    c.bucketMax (t + 1) = ok (.num a) ∧ ∃ m, c.bucketMin (t + 1) = ok (.num m) ∧ m ≤ a ∧
      (∀ v, Fl.num v ∈ raw → codeOf M (.num v) = t + 1 → m ≤ v) ∧
      (m = a ∨ (Fl.num m ∈ raw ∧ codeOf M (.num m) = t + 1)) := by
  constructor
  · unfold BktCol.bucketMax
    rw [vecGet_eq_ok, r.maxs, List.getElem?_cons_succ, List.getElem?_map, h]
    rfl
  · obtain ⟨m, h1, h2⟩ := r.placed.mn t a h
    exact ⟨m, by unfold BktCol.bucketMin; rw [vecGet_eq_ok]; exact h1, h2⟩

/-- What is reported about a row holding a number. -/
theorem Ready.row (r : Ready fmax c raw S M) {i : Nat} {v : A} (h : raw[i]? = some (.num v)) :
    ∃ k m, (k, codeOf M (.num v)) ∈ M ∧ c.rowMax i = ok (.num k) ∧ c.rowMin i = ok (.num m) ∧ m ≤ k ∧ m ≤ v ∧
      (v ≤ fmax → v ≤ k ∧ k ≤ fmax ∧ ∀ q ∈ M, v ≤ q.1 → k ≤ q.1) ∧
      (v ∈ S → k = v) ∧
      (∀ w, Fl.num w ∈ raw → codeOf M (.num w) = codeOf M (.num v) → m ≤ w) ∧
      (m = k ∨ (Fl.num m ∈ raw ∧ codeOf M (.num m) = codeOf M (.num v))) := by
  obtain ⟨k, hk, hcase⟩ := r.bkts.entry v
  obtain ⟨i1, i2, i3⟩ := r.bkts.idx hk
  obtain ⟨t, ht⟩ : ∃ t, codeOf M (.num v) = t + 1 := ⟨codeOf M (.num v) - 1, by omega⟩
  rw [ht] at i3
  obtain ⟨hmax, m, hm1, hm2, hm3, hm4⟩ := r.bucket i3
  refine ⟨k, m, hk, ?_, ?_, hm2, hm3 v (List.mem_of_getElem? h) ht, ?_, ?_, ?_, ?_⟩
  · unfold BktCol.rowMax; rw [r.code h, ok_bind, ht]; exact hmax
  · unfold BktCol.rowMin; rw [r.code h, ok_bind, ht]; exact hm1
  · intro hv
    obtain ⟨k', g1, g2⟩ := r.bkts.entry_le hv
    have : k = k' := by
      obtain ⟨_, _, j3⟩ := r.bkts.idx g1
      rw [ht] at j3
      rw [i3] at j3
      simpa using j3
    subst this
    exact g2
  · intro hv
    have g1 := r.bkts.entry_key (v := v) (List.mem_append_left _ hv)
    obtain ⟨_, _, j3⟩ := r.bkts.idx g1
    rw [ht, i3] at j3
    simpa using j3
  · rw [ht]; exact hm3
  · rw [ht]; exact hm4

end Gbdt
