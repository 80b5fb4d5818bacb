import Verif.Model.Group
import Mathlib.Data.List.Nodup
import Mathlib.Tactic.Ring
import Mathlib.Tactic.Linarith

/-!
# Lemmas about groups and pair sampling
-/

set_option autoImplicit false
set_option linter.unusedSectionVars false

namespace Gbdt

open Outcome

/-- The entries of a pair map that starts at key `k` and position `s` and ends at key `k'` and position `s'`: consecutive
blocks, each with one pair per row of the block and row behind it. -/
inductive Blocks (n : Nat) : Nat → Nat → List (Nat × Nat × Nat) → Nat → Nat → Prop
  | nil (k s : Nat) : Blocks n k s [] k s
  | cons {k s k' s' : Nat} {m : List (Nat × Nat × Nat)} (block : Nat) : 0 < block → s + block < n →
      Blocks n (k + block * (n - (s + block))) (s + block) m k' s' →
      Blocks n k s ((k + block * (n - (s + block)), block, s + block) :: m) k' s'

/-- Where the negatives of the blocks start. -/
def starts (m : List (Nat × Nat × Nat)) : List Nat := m.map (fun e => e.2.2)

theorem Blocks.le {n k s k' s' : Nat} {m : List (Nat × Nat × Nat)} (h : Blocks n k s m k' s') : k ≤ k' ∧ s ≤ s' := by
  induction h with
  | nil => exact ⟨le_refl _, le_refl _⟩
  | cons block _ _ _ ih => exact ⟨by omega, by omega⟩

theorem Blocks.keys {n k s k' s' : Nat} {m : List (Nat × Nat × Nat)} (h : Blocks n k s m k' s') : ∀ e ∈ m, e.1 ≤ k' := by
  induction h with
  | nil => simp
  | cons block _ _ htail ih =>
    intro e he
    rcases List.mem_cons.mp he with rfl | he
    · exact htail.le.1
    · exact ih e he

theorem Blocks.starts_gt {n k s k' s' : Nat} {m : List (Nat × Nat × Nat)} (h : Blocks n k s m k' s') :
    ∀ x ∈ starts m, s < x ∧ x ≤ s' ∧ x < n := by
  induction h with
  | nil => simp [starts]
  | cons block h1 h2 htail ih =>
    intro x hx
    rw [starts, List.map_cons, List.mem_cons] at hx
    rcases hx with rfl | hx
    · exact ⟨by simp; omega, htail.le.2, h2⟩
    · have := ih x hx
      omega

theorem Blocks.snoc {n k s k' s' : Nat} {m : List (Nat × Nat × Nat)} (h : Blocks n k s m k' s') (block : Nat)
    (hb : 0 < block) (hn : s' + block < n) :
    Blocks n k s (m ++ [(k' + block * (n - (s' + block)), block, s' + block)]) (k' + block * (n - (s' + block)))
      (s' + block) := by
  induction h with
  | nil k s => exact .cons block hb hn (.nil _ _)
  | cons b h1 h2 _ ih => exact .cons b h1 h2 (ih hn)

theorem pairMapInsert_last {k : Nat} {v : Nat × Nat} : ∀ {m : List (Nat × Nat × Nat)}, (∀ e ∈ m, e.1 < k) →
    pairMapInsert k v m = m ++ [(k, v)]
  | [], _ => rfl
  | e :: rest, h => by
    have he := h e (by simp)
    rw [pairMapInsert, if_neg (by omega), if_neg (by omega), pairMapInsert_last (fun x hx => h x (by simp [hx])),
      List.cons_append]

section loop
variable {D : Type} [Dbl D]

/-- The target changes at position `j`. -/
def Boundary (y : Nat → D) (rows : List Nat) (j : Nat) : Prop :=
  0 < j ∧ ∃ a b, rows[j - 1]? = some a ∧ rows[j]? = some b ∧ Dbl.eqb (y a) (y b) = false

theorem blockLoop_spec (y : Nat → D) {rows : List Nat} : ∀ (rest : List Nat) {done : List Nat} {last prev : Nat}
    {numPairs : Nat} {m : List (Nat × Nat × Nat)}, rows = done ++ prev :: rest → last ≤ done.length →
    Blocks rows.length 0 0 m numPairs last → (∀ j, j ≤ done.length → (Boundary y rows j ↔ j ∈ starts m)) →
    ∃ last', Blocks rows.length 0 0 (blockLoop y rows.length last (done.length + 1) prev rest numPairs m).2
        (blockLoop y rows.length last (done.length + 1) prev rest numPairs m).1 last' ∧
      ∀ j, Boundary y rows j ↔ j ∈ starts (blockLoop y rows.length last (done.length + 1) prev rest numPairs m).2
  | [], done, last, prev, numPairs, m, hr, hl, hb, hj => by
    refine ⟨last, hb, ?_⟩
    intro j
    by_cases h : j ≤ done.length
    · exact hj j h
    · constructor
      · rintro ⟨_, a, b, _, h2, _⟩
        have := (List.getElem?_eq_some_iff.mp h2).1
        rw [hr] at this
        simp at this
        omega
      · intro hm
        have := (hb.starts_gt j hm).2.2
        rw [hr] at this
        simp at this
        omega
  | r :: rest, done, last, prev, numPairs, m, hr, hl, hb, hj => by
    have hlen : rows.length = done.length + 1 + (rest.length + 1) := by rw [hr]; simp; omega
    have hr' : rows = (done ++ [prev]) ++ r :: rest := by rw [hr]; simp
    have hd : (done ++ [prev]).length = done.length + 1 := by simp
    have h1 : rows[done.length]? = some prev := by rw [hr]; simp
    have h2 : rows[done.length + 1]? = some r := by
      rw [hr', List.getElem?_append_right (by simp)]; simp
    have hbd : Boundary y rows (done.length + 1) ↔ Dbl.eqb (y prev) (y r) = false := by
      constructor
      · rintro ⟨_, a, b, ha, hb', hab⟩
        rw [Nat.add_sub_cancel, h1, Option.some.injEq] at ha
        rw [h2, Option.some.injEq] at hb'
        rw [ha, hb']
        exact hab
      · intro h
        exact ⟨by omega, prev, r, by rw [Nat.add_sub_cancel]; exact h1, h2, h⟩
    rw [blockLoop]
    by_cases he : Dbl.eqb (y prev) (y r) = true
    · rw [if_pos he]
      have := blockLoop_spec y rest (done := done ++ [prev]) (last := last) (prev := r) (numPairs := numPairs) (m := m)
        hr' (by rw [hd]; omega) hb ?_
      · rw [hd] at this; exact this
      · intro j hjl
        rw [hd] at hjl
        by_cases hj' : j ≤ done.length
        · exact hj j hj'
        · have : j = done.length + 1 := by omega
          subst this
          rw [hbd, he]
          constructor
          · intro h; cases h
          · intro hm
            have := (hb.starts_gt _ hm).2.1
            omega
    · rw [if_neg he]
      have he' : Dbl.eqb (y prev) (y r) = false := by simpa using he
      have hpos : 0 < done.length + 1 - last := by omega
      have hsum : last + (done.length + 1 - last) = done.length + 1 := by omega
      have hsnoc := hb.snoc (done.length + 1 - last) hpos (by rw [hsum]; omega)
      rw [hsum] at hsnoc
      have hgt : 0 < (done.length + 1 - last) * (rows.length - (done.length + 1)) :=
        Nat.mul_pos hpos (by omega)
      have hins := pairMapInsert_last (k := numPairs + (done.length + 1 - last) * (rows.length - (done.length + 1)))
        (v := (done.length + 1 - last, done.length + 1)) (m := m)
        (fun e hm => by have := hb.keys e hm; omega)
      simp only [hins]
      have := blockLoop_spec y rest (done := done ++ [prev]) (last := done.length + 1) (prev := r)
        (numPairs := numPairs + (done.length + 1 - last) * (rows.length - (done.length + 1)))
        (m := m ++ [(numPairs + (done.length + 1 - last) * (rows.length - (done.length + 1)),
          done.length + 1 - last, done.length + 1)]) hr' (by rw [hd]) hsnoc ?_
      · rw [hd] at this; exact this
      · intro j hjl
        rw [hd] at hjl
        simp only [starts, List.map_append, List.map_cons, List.map_nil, List.mem_append, List.mem_singleton]
        by_cases hj' : j ≤ done.length
        · rw [hj j hj']
          simp only [starts]
          constructor
          · exact Or.inl
          · rintro (h | h)
            · exact h
            · omega
        · have : j = done.length + 1 := by omega
          subst this
          rw [hbd]
          simp [he']

end loop

/-! ## From an index to a pair -/

/-- What `pairAt` computes from the map. -/
def pairIn (m : List (Nat × Nat × Nat)) (index : Nat) : Option (Nat × Nat) :=
  (m.find? (fun e => decide (index + 1 ≤ e.1))).map (fun e =>
    (e.2.2 - 1 - (e.1 - index - 1) % e.2.1, e.2.2 + (e.1 - index - 1) / e.2.1))

theorem pairAt_eq_pairIn {g : Group} {index : Nat} {p : Nat × Nat} :
    pairAt g index = ok p ↔ pairIn g.pairMap index = some p := by
  unfold pairAt pairIn
  cases g.pairMap.find? (fun e => decide (index + 1 ≤ e.1)) with
  | none => simp
  | some e => simp

theorem pairIn_head {e : Nat × Nat × Nat} {m : List (Nat × Nat × Nat)} {index : Nat} (h : index < e.1) :
    pairIn (e :: m) index = some (e.2.2 - 1 - (e.1 - index - 1) % e.2.1, e.2.2 + (e.1 - index - 1) / e.2.1) := by
  rw [pairIn, List.find?_cons_of_pos (by simp; omega)]
  rfl

theorem pairIn_tail {e : Nat × Nat × Nat} {m : List (Nat × Nat × Nat)} {index : Nat} (h : e.1 ≤ index) :
    pairIn (e :: m) index = pairIn m index := by
  rw [pairIn, List.find?_cons_of_neg (by simp; omega)]
  rfl

theorem Blocks.pair {n k s k' s' : Nat} {m : List (Nat × Nat × Nat)} (h : Blocks n k s m k' s') :
    ∀ index, k ≤ index → index < k' → ∃ a b, pairIn m index = some (a, b) ∧ s ≤ a ∧
      (∃ j ∈ starts m, a < j ∧ j ≤ b) ∧ b < n := by
  induction h with
  | nil k s => intro index h1 h2; omega
  | @cons k s k' s' m block hb hn htail ih =>
    intro index h1 h2
    by_cases hi : index < k + block * (n - (s + block))
    · have hl : k + block * (n - (s + block)) - index - 1 < block * (n - (s + block)) := by omega
      have hm := Nat.mod_lt (k + block * (n - (s + block)) - index - 1) hb
      have hq := Nat.div_lt_of_lt_mul hl
      refine ⟨_, _, pairIn_head (e := (k + block * (n - (s + block)), block, s + block)) hi, ?_, ⟨s + block, ?_, ?_, ?_⟩, ?_⟩
      · simp only; omega
      · simp [starts]
      · simp only; omega
      · exact Nat.le_add_right _ _
      · simp only; omega
    · obtain ⟨a, b, e1, e2, ⟨j, e3, e4⟩, e5⟩ := ih index (by omega) h2
      refine ⟨a, b, by rw [pairIn_tail (by simp only; omega)]; exact e1, by omega, ⟨j, ?_, e4⟩, e5⟩
      rw [starts, List.map_cons]
      exact List.mem_cons_of_mem _ e3

theorem Blocks.inj {n k s k' s' : Nat} {m : List (Nat × Nat × Nat)} (h : Blocks n k s m k' s') :
    ∀ i j, k ≤ i → i < k' → k ≤ j → j < k' → pairIn m i = pairIn m j → i = j := by
  induction h with
  | nil k s => intros; omega
  | @cons k s k' s' m block hb hn htail ih =>
    intro i j hi1 hi2 hj1 hj2 he
    by_cases hi : i < k + block * (n - (s + block)) <;> by_cases hj : j < k + block * (n - (s + block))
    · rw [pairIn_head (by exact hi), pairIn_head (by exact hj)] at he
      simp only [Option.some.injEq, Prod.mk.injEq] at he
      obtain ⟨e1, e2⟩ := he
      have m1 := Nat.mod_lt (k + block * (n - (s + block)) - i - 1) hb
      have m2 := Nat.mod_lt (k + block * (n - (s + block)) - j - 1) hb
      have hmod : (k + block * (n - (s + block)) - i - 1) % block = (k + block * (n - (s + block)) - j - 1) % block := by
        omega
      have hdiv : (k + block * (n - (s + block)) - i - 1) / block = (k + block * (n - (s + block)) - j - 1) / block := by
        omega
      have d1 := Nat.div_add_mod (k + block * (n - (s + block)) - i - 1) block
      have d2 := Nat.div_add_mod (k + block * (n - (s + block)) - j - 1) block
      rw [hmod, hdiv] at d1
      omega
    · obtain ⟨a, b, e1, e2, _⟩ := htail.pair j (by omega) hj2
      rw [pairIn_head (by exact hi), pairIn_tail (by simp only; omega), e1] at he
      simp only [Option.some.injEq, Prod.mk.injEq] at he
      omega
    · obtain ⟨a, b, e1, e2, _⟩ := htail.pair i (by omega) hi2
      rw [pairIn_tail (by simp only; omega), e1, pairIn_head (by exact hj)] at he
      simp only [Option.some.injEq, Prod.mk.injEq] at he
      omega
    · rw [pairIn_tail (by simp only; omega), pairIn_tail (by simp only; omega)] at he
      exact ih i j (by omega) hi2 (by omega) hj2 he

theorem Blocks.surj {n k s k' s' : Nat} {m : List (Nat × Nat × Nat)} (h : Blocks n k s m k' s') :
    ∀ a b, s ≤ a → (∃ j ∈ starts m, a < j ∧ j ≤ b) → b < n → ∃ index, k ≤ index ∧ index < k' ∧
      pairIn m index = some (a, b) := by
  induction h with
  | nil k s => intro a b _ ⟨j, hj, _⟩; simp [starts] at hj
  | @cons k s k' s' m block hb hn htail ih =>
    intro a b ha ⟨j, hj, hj1, hj2⟩ hbn
    rw [starts, List.map_cons, List.mem_cons] at hj
    by_cases hlt : a < s + block
    · have hsb : s + block ≤ b := by
        rcases hj with rfl | hj
        · exact hj2
        · have := (htail.starts_gt j hj).1; omega
      have hloc : (s + block - 1 - a) + block * (b - (s + block)) < block * (n - (s + block)) := by
        have h1 : block * (b - (s + block)) + block ≤ block * (n - (s + block)) := by
          have : block * (b - (s + block) + 1) ≤ block * (n - (s + block)) := Nat.mul_le_mul_left _ (by omega)
          rw [Nat.mul_add, Nat.mul_one] at this
          exact this
        omega
      refine ⟨k + block * (n - (s + block)) - 1 - ((s + block - 1 - a) + block * (b - (s + block))), by omega, ?_, ?_⟩
      · have := htail.le.1
        omega
      · rw [pairIn_head (by simp only; omega)]
        have hl : k + block * (n - (s + block)) -
            (k + block * (n - (s + block)) - 1 - ((s + block - 1 - a) + block * (b - (s + block)))) - 1 =
            (s + block - 1 - a) + block * (b - (s + block)) := by omega
        simp only [hl]
        rw [Nat.add_mul_mod_self_left, Nat.add_mul_div_left _ _ hb, Nat.mod_eq_of_lt (by omega),
          Nat.div_eq_of_lt (by omega)]
        simp only [Option.some.injEq, Prod.mk.injEq]
        omega
    · obtain ⟨index, e1, e2, e3⟩ := ih a b (by omega) ⟨j, by
        rcases hj with rfl | hj
        · simp only at hj1; omega
        · exact hj, hj1, hj2⟩ hbn
      exact ⟨index, by omega, e2, by rw [pairIn_tail (by simp only; omega)]; exact e3⟩

end Gbdt
