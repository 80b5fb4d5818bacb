import Verif.Model.Text
import Mathlib.Tactic.Common

/-!
# Lemmas on splitting and joining
-/

set_option autoImplicit false

namespace Gbdt

theorem find_some {d s : Text} {p : Nat} (h : Text.find d s = some p) :
    s = s.take p ++ d ++ s.drop (p + d.length) ∧ p + d.length ≤ s.length := by
  induction s generalizing p with
  | nil =>
    simp only [Text.find] at h
    split at h
    · cases h
      subst_vars
      simp
    · cases h
  | cons c s ih =>
    simp only [Text.find] at h
    split at h
    · rename_i hp
      cases h
      obtain ⟨t, ht⟩ := List.isPrefixOf_iff_prefix.mp hp
      rw [← ht]
      simp
    · obtain ⟨q, hq, rfl⟩ := Option.map_eq_some_iff.mp h
      obtain ⟨h1, h2⟩ := ih hq
      have e : q + 1 + d.length = (q + d.length) + 1 := by omega
      refine ⟨?_, by simp; omega⟩
      rw [e, List.take_succ_cons, List.drop_succ_cons, List.cons_append, List.cons_append, ← h1]

/-- Nothing found: the delimiter does not occur. -/
theorem find_none {d s : Text} (h : Text.find d s = none) : ¬ d <:+: s := by
  induction s with
  | nil =>
    simp only [Text.find] at h
    split at h
    · cases h
    · simpa using ‹_›
  | cons c s ih =>
    simp only [Text.find] at h
    split at h
    · cases h
    · rename_i hp
      rw [List.infix_cons_iff]
      rintro (h1 | h1)
      · exact hp (List.isPrefixOf_iff_prefix.mpr h1)
      · exact ih (by simpa using h) h1

/-- The part before the first occurrence does not contain the delimiter, even with all but its last character
appended. -/
theorem find_first {d s : Text} {p : Nat} (hd : d ≠ []) (h : Text.find d s = some p) : ¬ d <:+: s.take p := by
  induction s generalizing p with
  | nil =>
    simp only [Text.find, hd, if_false] at h
    cases h
  | cons c s ih =>
    simp only [Text.find] at h
    split at h
    · cases h
      simpa using hd
    · rename_i hp
      obtain ⟨q, hq, rfl⟩ := Option.map_eq_some_iff.mp h
      rw [List.take_succ_cons, List.infix_cons_iff]
      rintro (h1 | h1)
      · apply hp
        rw [List.isPrefixOf_iff_prefix]
        refine h1.trans ?_
        rw [← List.take_succ_cons]
        exact List.take_prefix _ _
      · exact ih hq h1

theorem joinLoop_append (d : Text) (ws : List Text) (b : Bool) (out : Text) :
    joinLoop d ws b out = out ++ (if b then joinLoop d ws true [] else joinLoop d ws false []) := by
  induction ws generalizing b out with
  | nil => cases b <;> simp [joinLoop]
  | cons w ws ih =>
    simp only [joinLoop]
    rw [ih]
    cases b
    · simp only [Bool.false_eq_true, if_false, List.nil_append]
      rw [ih false (d ++ w)]
      simp
    · simp only [if_true, List.nil_append, Bool.false_eq_true, if_false]
      rw [ih false w]
      simp

theorem join_cons_cons (d : Text) (w v : Text) (ws : List Text) :
    join (w :: v :: ws) d = w ++ d ++ join (v :: ws) d := by
  unfold join
  simp only [joinLoop, if_true, List.nil_append, Bool.false_eq_true, if_false]
  rw [joinLoop_append d ws false (w ++ d ++ v), joinLoop_append d ws false v]
  simp

theorem join_single (d w : Text) : join [w] d = w := by simp [join, joinLoop]

theorem splitLoop_words (d : Text) (fuel : Nat) (rest : Text) (words : List Text) :
    splitLoop d fuel rest words = (splitLoop d fuel rest []).map (words ++ ·) := by
  induction fuel generalizing rest words with
  | zero => rfl
  | succ n ih =>
    simp only [splitLoop]
    cases Text.find d rest with
    | none => simp
    | some p =>
      simp only
      rw [ih, ih _ ([] ++ [List.take p rest])]
      cases splitLoop d n (rest.drop (p + d.length)) [] <;> simp

/-- The loop ends, and what it returns joins to the string. -/
theorem splitLoop_spec (d : Text) (hd : d ≠ []) (fuel : Nat) (rest : Text) (hf : rest.length < fuel) :
    ∃ ws, splitLoop d fuel rest [] = some ws ∧ ws ≠ [] ∧ join ws d = rest ∧ ∀ w ∈ ws, ¬ d <:+: w := by
  induction fuel generalizing rest with
  | zero => omega
  | succ n ih =>
    simp only [splitLoop]
    cases h : Text.find d rest with
    | none => exact ⟨[rest], by simp, by simp, join_single d rest, by simpa using find_none h⟩
    | some p =>
      obtain ⟨h1, h2⟩ := find_some h
      have hdl : 0 < d.length := List.length_pos_iff.mpr hd
      obtain ⟨ws, h3, h4, h5, h6⟩ := ih (rest.drop (p + d.length)) (by simp only [List.length_drop]; omega)
      simp only
      rw [splitLoop_words, h3]
      refine ⟨rest.take p :: ws, by simp, by simp, ?_, ?_⟩
      · obtain ⟨v, vs, rfl⟩ := List.exists_cons_of_ne_nil h4
        rw [join_cons_cons, h5, ← h1]
      · intro w hw
        rcases List.mem_cons.mp hw with rfl | hw
        · exact find_first hd h
        · exact h6 w hw

theorem find_char_none {c : Char} {w : Text} (h : c ∉ w) : Text.find [c] w = none := by
  induction w with
  | nil => simp [Text.find]
  | cons x w ih =>
    simp only [List.mem_cons, not_or] at h
    have : ([c] : Text).isPrefixOf (x :: w) = false := by
      simp [List.isPrefixOf, h.1]
    simp [Text.find, this, ih h.2]

theorem find_char {c : Char} {w : Text} (h : c ∉ w) (t : Text) : Text.find [c] (w ++ c :: t) = some w.length := by
  induction w with
  | nil => simp [Text.find, List.isPrefixOf]
  | cons x w ih =>
    simp only [List.mem_cons, not_or] at h
    have : ([c] : Text).isPrefixOf (x :: (w ++ c :: t)) = false := by
      simp [List.isPrefixOf, h.1]
    simp [Text.find, this, ih h.2]

theorem splitLoop_join (c : Char) (ws : List Text) (hne : ws ≠ []) (hc : ∀ w ∈ ws, c ∉ w) (fuel : Nat)
    (hf : (join ws [c]).length < fuel) : splitLoop [c] fuel (join ws [c]) [] = some ws := by
  induction ws generalizing fuel with
  | nil => exact absurd rfl hne
  | cons w ws ih =>
    cases fuel with
    | zero => omega
    | succ n =>
      cases ws with
      | nil =>
        rw [join_single] at hf ⊢
        simp [splitLoop, find_char_none (hc w (by simp))]
      | cons v vs =>
        rw [join_cons_cons] at hf ⊢
        have e : w ++ [c] ++ join (v :: vs) [c] = w ++ c :: join (v :: vs) [c] := by simp
        rw [e] at hf ⊢
        simp only [splitLoop, find_char (hc w (by simp))]
        rw [splitLoop_words]
        have e2 : (w ++ c :: join (v :: vs) [c]).drop (w.length + [c].length) = join (v :: vs) [c] := by
          rw [← e]
          have : w.length + [c].length = (w ++ [c]).length := by simp
          rw [this, List.drop_left]
        rw [e2, ih (by simp) (fun x hx => hc x (List.mem_cons_of_mem _ hx)) n
          (by simp only [List.length_append, List.length_cons] at hf; omega)]
        simp

end Gbdt
