import Verif.Lemmas.Text

/-!
# C15: splitting and joining strings
-/

set_option autoImplicit false

namespace Gbdt

/-- **C15 (split, then join).** Splitting with a non-empty delimiter ends, the pieces joined with the delimiter are
the string, and no piece contains the delimiter. -/
theorem C15_join_split (s d : Text) (hd : d ≠ []) :
    ∃ ws, split s d = some ws ∧ join ws d = s ∧ ∀ w ∈ ws, ¬ d <:+: w := by
  unfold split
  by_cases hs : s = []
  · subst hs
    exact ⟨[], by simp, rfl, by simp⟩
  · obtain ⟨ws, h1, _, h3, h4⟩ := splitLoop_spec d hd (s.length + 1) s (by omega)
    exact ⟨ws, by simp [hs, h1], h3, h4⟩

example : split "a,,b,".toList ",".toList = some ["a".toList, [], "b".toList, []] := by decide +kernel

/-- **C15 (join, then split).** Pieces free of a one-character delimiter are recovered from their join, the list of
one empty piece excepted. -/
theorem C15_split_join (c : Char) (ws : List Text) (hc : ∀ w ∈ ws, c ∉ w) (hne : ws ≠ [[]]) :
    split (join ws [c]) [c] = some ws := by
  cases ws with
  | nil => rfl
  | cons w ws =>
    unfold split
    have : join (w :: ws) [c] ≠ [] := by
      cases ws with
      | nil =>
        rw [join_single]
        intro h
        exact hne (by rw [h])
      | cons v vs => rw [join_cons_cons]; simp
    rw [if_neg this]
    exact splitLoop_join c (w :: ws) (by simp) hc _ (Nat.lt_succ_self _)

/-- The excepted case: one empty piece comes back as no piece. -/
theorem C15_single_empty_piece (c : Char) : split (join [[]] [c]) [c] = some [] := rfl

example : (∀ w ∈ ["ab".toList, [], "c".toList], '\t' ∉ w) ∧
    join ["ab".toList, [], "c".toList] ['\t'] = "ab\t\tc".toList := by decide +kernel

/-- With an empty delimiter the loop of `split` never ends, whatever number of iterations is allowed. -/
theorem C15_empty_delimiter_diverges (fuel : Nat) (rest : Text) (words : List Text) :
    splitLoop [] fuel rest words = none := by
  induction fuel generalizing rest words with
  | zero => rfl
  | succ n ih =>
    have : Text.find [] rest = some 0 := by cases rest <;> simp [Text.find]
    simp [splitLoop, this, ih]

end Gbdt
