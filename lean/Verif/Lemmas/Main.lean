import Verif.Model.Main
import Verif.Lemmas.Text

/-!
# Lemmas about the files that the program writes
-/

set_option autoImplicit false

namespace Gbdt

open Outcome

theorem mkdir_files (w : World) (path : Text) : (w.mkdir path).files = w.files := by
  unfold World.mkdir; split <;> rfl

theorem put_canWrite (w : World) (path content p : Text) : (w.put path content).canWrite p = w.canWrite p := rfl

theorem writeAll_other (files : List (Text × Text)) : ∀ (w : World) (p : Text), (∀ f ∈ files, f.1 ≠ p) →
    (w.writeAll files).1.files p = w.files p := by
  induction files with
  | nil => intro w p _; rfl
  | cons f rest ih =>
    intro w p h
    obtain ⟨path, content⟩ := f
    rw [World.writeAll]
    split
    · rw [ih _ _ (fun f hf => h f (List.mem_cons_of_mem _ hf))]
      have := h _ List.mem_cons_self
      simp only [World.put, if_neg (Ne.symm this)]
    · rfl

theorem writeAll_done (files : List (Text × Text)) : ∀ (w : World), (w.writeAll files).2 = .done ↔ ∀ f ∈ files, w.canWrite f.1 = true := by
  induction files with
  | nil => intro w; simp [World.writeAll]
  | cons f rest ih =>
    intro w
    obtain ⟨path, content⟩ := f
    rw [World.writeAll]
    by_cases h : w.canWrite path = true
    · rw [if_pos h, ih]
      simp [put_canWrite, h]
    · rw [if_neg h]
      simp [h]

theorem writeAll_exit (files : List (Text × Text)) : ∀ (w : World), (w.writeAll files).2 = .done ∨ (w.writeAll files).2 = .died := by
  induction files with
  | nil => intro w; exact Or.inl rfl
  | cons f rest ih =>
    intro w
    obtain ⟨path, content⟩ := f
    rw [World.writeAll]
    split
    · exact ih _
    · exact Or.inr rfl

theorem writeAll_mem (files : List (Text × Text)) : ∀ (w : World), (files.map Prod.fst).Nodup → (w.writeAll files).2 = .done →
    ∀ f ∈ files, (w.writeAll files).1.files f.1 = some f.2 := by
  induction files with
  | nil => intro w _ _ f hf; cases hf
  | cons g rest ih =>
    intro w hn hd f hf
    obtain ⟨path, content⟩ := g
    have hw := (writeAll_done _ w).mp hd _ List.mem_cons_self
    have e : w.writeAll ((path, content) :: rest) = (w.put path content).writeAll rest := by rw [World.writeAll, if_pos hw]
    rw [e] at hd ⊢
    rw [List.map_cons, List.nodup_cons] at hn
    rcases List.mem_cons.mp hf with rfl | hf
    · rw [writeAll_other]
      · simp [World.put]
      · intro g hg e
        exact hn.1 (List.mem_map.mpr ⟨g, hg, e⟩)
    · exact ih _ hn.2 hd f hf

/-- Of files that can be written all or none are: what has changed is as promised even if the process dies. -/
theorem writeAll_any (files : List (Text × Text)) : ∀ (w : World) (p : Text),
    (w.writeAll files).1.files p = w.files p ∨ ∃ f ∈ files, f.1 = p ∧ (w.writeAll files).1.files p = some f.2 := by
  induction files with
  | nil => intro w p; exact Or.inl rfl
  | cons g rest ih =>
    intro w p
    obtain ⟨path, content⟩ := g
    rw [World.writeAll]
    split
    · rcases ih (w.put path content) p with h | ⟨f, hf, h1, h2⟩
      · rw [h]
        by_cases hp : p = path
        · exact Or.inr ⟨_, List.mem_cons_self, hp.symm, by simp [World.put, hp]⟩
        · exact Or.inl (by simp [World.put, hp])
      · exact Or.inr ⟨f, List.mem_cons_of_mem _ hf, h1, h2⟩
    · exact Or.inl rfl

theorem scorePath_inj {fl : Flags} {p q : Int} (hp : 0 ≤ p) (hq : 0 ≤ q) (h : fl.scorePath p = fl.scorePath q) : p = q := by
  simp only [Flags.scorePath, List.append_assoc, List.append_cancel_left_eq] at h
  rw [List.append_cancel_right_eq] at h
  simp only [showInt, not_lt.mpr hp, not_lt.mpr hq, if_false] at h
  have h2 := congrArg (fun l => Nat.ofDigitChars 10 l 0) h
  simp at h2
  omega

theorem modelPath_ne (fl : Flags) : fl.modelPath ".json" ≠ fl.modelPath ".fimps" := by
  intro h
  simp only [Flags.modelPath, List.append_cancel_left_eq] at h
  exact absurd h (by decide)

/-- The lines of a score file. -/
theorem formatScores_join {D A N : Type} (P : Platform D A N) (xs : List D) : formatScores P xs = join (xs.map P.showScore) ['\n'] := by
  cases xs with
  | nil => rfl
  | cons x xs =>
    rw [formatScores]
    induction xs generalizing x with
    | nil => simp [scoreLines, join_single]
    | cons y ys ih =>
      rw [List.map_cons, List.map_cons, join_cons_cons, ← List.map_cons, ← ih y, scoreLines]
      simp

theorem writeAll_dirs (files : List (Text × Text)) : ∀ (w : World),
    (w.writeAll files).1.dirs = w.dirs ∧ (w.writeAll files).1.allowed = w.allowed := by
  induction files with
  | nil => intro w; exact ⟨rfl, rfl⟩
  | cons g rest ih =>
    intro w
    rw [World.writeAll]
    split
    · exact ih _
    · exact ⟨rfl, rfl⟩

/-! ## Paths -/

theorem bare_append_slash (d : Text) : bare (d ++ ['/']) = bare d := by
  simp [bare]

theorem bare_length (d : Text) : (bare d).length ≤ d.length := by
  unfold bare
  rw [List.length_reverse]
  refine ((List.dropWhile_suffix _).length_le).trans ?_
  rw [List.length_reverse]

theorem parentOf_in (d n : Text) (h : '/' ∉ n) : parentOf (d ++ '/' :: n) = bare d := by
  unfold parentOf
  rw [if_pos (by simp), List.reverse_append, List.reverse_cons, List.append_assoc, List.dropWhile_append_of_pos]
  · simp [bare_append_slash]
  · intro x hx
    simp only [bne_iff_ne, ne_eq]
    rintro rfl
    exact h (List.mem_reverse.mp hx)

/-- A file right in a directory that is there, or can be made, can be opened. -/
theorem canWrite_in {w : World} {d n : Text} (hn : '/' ∉ n)
    (hd : w.dirs (bare d) = true ∨ (w.dirs (parentOf (bare d)) = true ∧ w.allowed (bare d) = true ∧ w.files (bare d) = none))
    (hf : w.dirs (d ++ '/' :: n) = false) (ha : w.allowed (d ++ '/' :: n) = true) :
    (w.mkdir d).canWrite (d ++ '/' :: n) = true := by
  have hne : (d ++ '/' :: n == bare d) = false := by
    rw [beq_eq_false_iff_ne]
    intro e
    have h1 := congrArg List.length e
    have h2 := bare_length d
    simp at h1
    omega
  unfold World.canWrite World.mkdir
  rw [parentOf_in d n hn]
  by_cases h : w.dirs (parentOf (bare d)) = true ∧ w.allowed (bare d) = true ∧ w.files (bare d) = none
  · simp [if_pos h, hne, hf, ha]
  · rcases hd with hd | hd
    · simp [if_neg h, hd, hf, ha]
    · exact absurd hd h

theorem showInt_noSlash {k : Int} (hk : 0 ≤ k) : '/' ∉ showInt k := by
  intro h
  rw [showInt, if_neg (by omega)] at h
  have := Nat.isDigit_of_mem_toDigits (by decide) (by decide) h
  exact absurd this (by decide)

theorem modelPath_eq (fl : Flags) (ending : String) :
    fl.modelPath ending = fl.outputDir.toList ++ '/' :: (fl.outputModelName.toList ++ ending.toList) := by
  simp [Flags.modelPath]

theorem scorePath_eq (fl : Flags) (k : Int) :
    fl.scorePath k = fl.outputDir.toList ++ '/' :: ("forest.".toList ++ (showInt k ++ ".score".toList)) := by
  rw [Flags.scorePath]
  have : "/forest.".toList = '/' :: "forest.".toList := by decide
  rw [this]
  simp only [List.append_assoc, List.cons_append]

theorem scoreName_noSlash {k : Int} (hk : 0 ≤ k) : '/' ∉ "forest.".toList ++ (showInt k ++ ".score".toList) := by
  rw [List.mem_append, List.mem_append]
  rintro (h | h | h)
  · exact absurd h (by decide)
  · exact showInt_noSlash hk h
  · exact absurd h (by decide)

end Gbdt
