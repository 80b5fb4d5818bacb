import Verif.Model.DataStore
import Mathlib.Data.List.Perm.Basic

/-! Lemmas on stores. -/

set_option linter.unusedSectionVars false

set_option autoImplicit false

namespace Gbdt

open Outcome

namespace DataStore

variable {A : Type} [LinearOrder A]

/-- Keys of a hash map are distinct. -/
def Keys (s : DataStore A) : Prop := (s.map Prod.fst).Nodup

theorem get_some {s : DataStore A} (h : s.Keys) (n : String) (c : Column A) :
    s.getColumn n = some c ↔ (n, c) ∈ s := by
  unfold getColumn
  unfold Keys at h
  induction s with
  | nil => simp
  | cons p s ih =>
    obtain ⟨k, d⟩ := p
    simp only [List.map_cons, List.nodup_cons, List.mem_map, not_exists, not_and] at h
    rw [List.lookup_cons]
    by_cases hk : n = k
    · subst hk
      simp only [BEq.rfl, Option.some.injEq, List.mem_cons, Prod.mk.injEq, true_and]
      constructor
      · intro e; exact Or.inl e.symm
      · rintro (e | e)
        · exact e.symm
        · exact absurd rfl (h.1 _ e)
    · have : (n == k) = false := by simpa using hk
      simp only [this, List.mem_cons, Prod.mk.injEq, hk, false_and, false_or]
      exact ih h.2

theorem get_none {s : DataStore A} (n : String) : s.getColumn n = none ↔ n ∉ s.map Prod.fst := by
  unfold getColumn
  induction s with
  | nil => simp
  | cons p s ih =>
    obtain ⟨k, d⟩ := p
    rw [List.lookup_cons]
    by_cases hk : n = k
    · subst hk; simp
    · have : (n == k) = false := by simpa using hk
      simp only [this, ih, List.map_cons, List.mem_cons, hk, false_or]

theorem get_perm {s t : DataStore A} (hp : s.Perm t) (h : s.Keys) (n : String) : s.getColumn n = t.getColumn n := by
  have ht : t.Keys := (hp.map Prod.fst).nodup_iff.mp h
  have : ∀ c, s.getColumn n = some c ↔ t.getColumn n = some c := by
    intro c
    rw [get_some h, get_some ht]
    exact hp.mem_iff
  cases hs : s.getColumn n with
  | some c => exact ((this c).mp hs).symm
  | none =>
    cases htn : t.getColumn n with
    | none => rfl
    | some c => rw [(this c).mpr htn] at hs; cases hs

theorem mem_remove {s : DataStore A} (h : s.Keys) (n : String) (p : String × Column A) :
    p ∈ s.remove n ↔ p ∈ s ∧ p.1 ≠ n := by
  unfold remove
  unfold Keys at h
  induction s with
  | nil => simp
  | cons q s ih =>
    simp only [List.map_cons, List.nodup_cons, List.mem_map, not_exists, not_and] at h
    by_cases hq : q.1 = n
    · rw [List.eraseP_cons_of_pos (by simpa using hq)]
      constructor
      · intro hp
        refine ⟨List.mem_cons_of_mem _ hp, ?_⟩
        intro e
        exact h.1 p hp (e.trans hq.symm)
      · rintro ⟨hp, hne⟩
        rcases List.mem_cons.mp hp with rfl | hp
        · exact absurd hq hne
        · exact hp
    · rw [List.eraseP_cons_of_neg (by simpa using hq), List.mem_cons, List.mem_cons, ih h.2]
      constructor
      · rintro (rfl | ⟨h1, h2⟩)
        · exact ⟨Or.inl rfl, hq⟩
        · exact ⟨Or.inr h1, h2⟩
      · rintro ⟨rfl | h1, h2⟩
        · exact Or.inl rfl
        · exact Or.inr ⟨h1, h2⟩

theorem keys_remove {s : DataStore A} (h : s.Keys) (n : String) : (s.remove n).Keys := by
  unfold Keys remove at *
  exact h.sublist (List.Sublist.map _ List.eraseP_sublist)

theorem get_remove {s : DataStore A} (h : s.Keys) (n m : String) :
    (s.remove n).getColumn m = if m = n then none else s.getColumn m := by
  have hk := keys_remove h n
  by_cases e : m = n
  · subst e
    rw [if_pos rfl, get_none]
    intro hm
    obtain ⟨p, hp, rfl⟩ := List.mem_map.mp hm
    exact ((mem_remove h _ p).mp hp).2 rfl
  · rw [if_neg e]
    have : ∀ c, (s.remove n).getColumn m = some c ↔ s.getColumn m = some c := by
      intro c
      rw [get_some hk, get_some h, mem_remove h]
      simp [e]
    cases hs : s.getColumn m with
    | some c => exact (this c).mpr hs
    | none =>
      cases htn : (s.remove n).getColumn m with
      | none => rfl
      | some c => rw [(this c).mp htn] at hs; cases hs

/-- All outcomes of `Add`. -/
theorem add_cases {place : DataStore A → DataStore A} {s : DataStore A} {name : String} {c : Column A}
    {code : Code} {t : DataStore A} (h : s.add place name c = ok (code, t)) :
    (code = .alreadyExists ∧ t = s ∧ s.getColumn name ≠ none) ∨
    (code = .outOfRange ∧ t = s ∧ s.getColumn name = none ∧ ∃ r n, s.numRows = ok r ∧ c.size = ok n ∧ 0 < r ∧ r ≠ n) ∨
    (code = .ok ∧ t = place ((name, c) :: s) ∧ s.getColumn name = none ∧
      ∃ r, s.numRows = ok r ∧ (0 < r → c.size = ok r)) := by
  unfold add at h
  split at h
  · rename_i hs
    simp only [Outcome.ok.injEq, Prod.mk.injEq] at h
    refine Or.inl ⟨h.1.symm, h.2.symm, ?_⟩
    intro e
    rw [e] at hs
    simp at hs
  · rename_i hs
    have hn : s.getColumn name = none := by simpa using hs
    obtain ⟨r, hr, h⟩ := bind_eq_ok.mp h
    split at h
    · rename_i hpos
      obtain ⟨n, hn', h⟩ := bind_eq_ok.mp h
      split at h
      · rename_i hne
        simp only [pure_eq, Outcome.ok.injEq, Prod.mk.injEq] at h
        exact Or.inr (Or.inl ⟨h.1.symm, h.2.symm, hn, r, n, hr, hn', hpos, hne⟩)
      · rename_i hne
        simp only [pure_eq, Outcome.ok.injEq, Prod.mk.injEq] at h
        refine Or.inr (Or.inr ⟨h.1.symm, h.2.symm, hn, r, hr, ?_⟩)
        intro _
        rw [hn', not_not.mp hne]
    · rename_i hpos
      simp only [pure_eq, Outcome.ok.injEq, Prod.mk.injEq] at h
      exact Or.inr (Or.inr ⟨h.1.symm, h.2.symm, hn, r, hr, fun hp => absurd hp hpos⟩)

end DataStore

end Gbdt
