import Verif.Model.Tsv
import Verif.Lemmas.Text
import Mathlib.Data.List.DropRight
import Mathlib.Data.List.Forall2

/-!
# Lemmas on reading TSV files
-/

set_option linter.unusedSectionVars false

set_option autoImplicit false

namespace Gbdt

/-- The pieces of `getLines` are those between line-feeds. -/
theorem getLines_eq (s : Text) : getLines s = s.splitOn '\n' := by
  induction s with
  | nil => rfl
  | cons c s ih =>
    simp only [getLines, List.splitOn_cons_eq_if_modifyHead, beq_iff_eq, ih]
    split
    · rfl
    · cases h : s.splitOn '\n' with
      | nil => exact absurd h (List.splitOn_ne_nil _ _)
      | cons l ls => rfl

theorem notMem_of_mem_splitOn {c : Char} {s l : Text} (h : l ∈ s.splitOn c) : c ∉ l := by
  induction s generalizing l with
  | nil =>
    simp only [List.splitOn_nil, List.mem_singleton] at h
    simp [h]
  | cons x s ih =>
    rw [List.splitOn_cons_eq_if_modifyHead] at h
    split at h
    · rcases List.mem_cons.mp h with rfl | h
      · simp
      · exact ih h
    · rename_i hx
      cases hs : s.splitOn c with
      | nil => exact absurd hs (List.splitOn_ne_nil _ _)
      | cons l0 ls =>
        rw [hs] at h
        simp only [List.modifyHead_cons, List.mem_cons] at h
        rcases h with rfl | h
        · rw [List.mem_cons, not_or]
          exact ⟨fun e => hx (by simp [e]), ih (by simp [hs])⟩
        · exact ih (by simp [hs, h])

/-- On a piece without line-feed, `chomp` drops trailing carriage returns. -/
theorem chomp_eq {l : Text} (h : '\n' ∉ l) : chomp l = l.rdropWhile (· == '\r') := by
  unfold chomp List.rdropWhile
  congr 1
  have : ∀ m : Text, '\n' ∉ m →
      m.dropWhile (fun c => c == '\n' || c == '\r') = m.dropWhile (· == '\r') := by
    intro m hm
    induction m with
    | nil => rfl
    | cons c m ih =>
      simp only [List.mem_cons, not_or] at hm
      have : (c == '\n') = false := by simpa using fun e => hm.1 e.symm
      simp only [List.dropWhile_cons, this, Bool.false_or]
      split
      · exact ih hm.2
      · rfl
  exact this _ (by simpa using h)

theorem readLines_eq (s : Text) :
    readLines s = (s.splitOn '\n').map (fun l => l.rdropWhile (· == '\r')) := by
  unfold readLines
  rw [getLines_eq]
  apply List.map_congr_left
  intro l hl
  exact chomp_eq (notMem_of_mem_splitOn hl)

theorem join_eq_intercalate (ws : List Text) (d : Text) : join ws d = d.intercalate ws := by
  induction ws with
  | nil => rfl
  | cons w ws ih =>
    cases ws with
    | nil => simp [join_single, List.intercalate]
    | cons v vs =>
      rw [join_cons_cons, ih]
      simp [List.intercalate, List.intersperse]

/-- On a non-empty line, splitting at tabs is the usual splitting. -/
theorem splitTab_eq {line : Text} (h : line ≠ []) : splitTab line = line.splitOn '\t' := by
  obtain ⟨ws, h1, h2, h3, h4⟩ := splitLoop_spec ['\t'] (by simp) (line.length + 1) line (by omega)
  have : split line ['\t'] = some ws := by simp [split, h, h1]
  simp only [splitTab, this]
  rw [← h3, join_eq_intercalate, List.splitOn_intercalate _ _ h2]
  intro l hl hm
  obtain ⟨a, t, rfl⟩ := List.append_of_mem hm
  exact h4 _ hl ⟨a, t, by simp⟩

/-- `mapM` in `Except` succeeds with `r` exactly when every element does with the corresponding element of `r`. -/
theorem mapM_except_ok {ε α β : Type} (f : α → Except ε β) (l : List α) (r : List β) :
    l.mapM f = .ok r ↔ List.Forall₂ (fun a b => f a = .ok b) l r := by
  induction l generalizing r with
  | nil =>
    simp only [List.mapM_nil]
    constructor
    · intro h; cases h; exact .nil
    · intro h; cases h; rfl
  | cons a l ih =>
    rw [List.mapM_cons]
    constructor
    · intro h
      cases ha : f a with
      | error e => rw [ha] at h; cases h
      | ok b =>
        rw [ha] at h
        cases hl : l.mapM f with
        | error e => rw [hl] at h; cases h
        | ok bs =>
          rw [hl] at h
          cases h
          exact .cons ha ((ih bs).mp hl)
    · intro h
      cases h with
      | cons ha hl =>
        rw [ha, (ih _).mpr hl]
        rfl

/-- `mapM` in `Except` fails with the error of some element. -/
theorem mapM_except_error {ε α β : Type} (f : α → Except ε β) (l : List α) (e : ε) (h : l.mapM f = .error e) :
    ∃ a ∈ l, f a = .error e := by
  induction l with
  | nil => cases h
  | cons a l ih =>
    rw [List.mapM_cons] at h
    cases ha : f a with
    | error e' =>
      rw [ha] at h
      cases h
      exact ⟨a, by simp, ha⟩
    | ok b =>
      rw [ha] at h
      cases hl : l.mapM f with
      | error e' =>
        rw [hl] at h
        cases h
        obtain ⟨x, hx, hfx⟩ := ih hl
        exact ⟨x, by simp [hx], hfx⟩
      | ok bs => rw [hl] at h; cases h

/-- Every element on the right of a `Forall₂` is related to one on the left. -/
theorem forall₂_mem_right {α β : Type} {R : α → β → Prop} {l : List α} {r : List β} (h : List.Forall₂ R l r)
    {b : β} (hb : b ∈ r) : ∃ a ∈ l, R a b := by
  induction h with
  | nil => cases hb
  | cons h1 _ ih =>
    rcases List.mem_cons.mp hb with rfl | hb
    · exact ⟨_, by simp, h1⟩
    · obtain ⟨a, ha, hr⟩ := ih hb
      exact ⟨a, by simp [ha], hr⟩

variable {A : Type} [LinearOrder A]

/-- What `readRows` does, in terms of `readRow` on the non-empty lines. -/
theorem readRows_ok (parse : Text → Option (Fl A)) (fidx sidx : List Nat) (lines : List Text) (b b' : Block A) :
    readRows parse fidx sidx lines b = .ok b' ↔
      ∃ rows, List.Forall₂ (fun l r => readRow parse fidx sidx l = .ok r) (lines.filter (fun l => decide (l ≠ []))) rows ∧
        b' = ⟨rows.foldl (fun c r => pushRow c r.1) b.strings, rows.foldl (fun c r => pushRow c r.2) b.floats⟩ := by
  induction lines generalizing b with
  | nil =>
    simp only [readRows, List.filter_nil, Except.ok.injEq]
    constructor
    · rintro rfl
      exact ⟨[], .nil, rfl⟩
    · rintro ⟨rows, hr, h⟩
      cases hr
      exact h.symm
  | cons line lines ih =>
    simp only [readRows]
    split
    · rename_i hl
      rw [ih]
      simp [hl]
    · rename_i hl
      rw [List.filter_cons_of_pos (by simpa using hl)]
      cases hrow : readRow parse fidx sidx line with
      | error e =>
        constructor
        · intro h; cases h
        · rintro ⟨rows, hr, _⟩
          cases hr with
          | cons h1 _ => rw [hrow] at h1; cases h1
      | ok r =>
        obtain ⟨ss, fs⟩ := r
        simp only [ih]
        constructor
        · rintro ⟨rows, hr, h⟩
          exact ⟨(ss, fs) :: rows, .cons hrow hr, by simpa using h⟩
        · rintro ⟨rows, hr, h⟩
          cases hr with
          | cons h1 h2 =>
            rw [hrow] at h1
            cases h1
            exact ⟨_, h2, by simpa using h⟩

theorem readRows_error (parse : Text → Option (Fl A)) (fidx sidx : List Nat) (lines : List Text) (b : Block A)
    (e : Code) (h : readRows parse fidx sidx lines b = .error e) :
    ∃ pre l post, lines.filter (fun l => decide (l ≠ [])) = pre ++ l :: post ∧
      (∀ x ∈ pre, ∃ r, readRow parse fidx sidx x = .ok r) ∧ readRow parse fidx sidx l = .error e := by
  induction lines generalizing b with
  | nil => cases h
  | cons line lines ih =>
    simp only [readRows] at h
    split at h
    · rename_i hl
      rw [List.filter_cons_of_neg (by simp [hl])]
      exact ih _ h
    · rename_i hl
      rw [List.filter_cons_of_pos (by simpa using hl)]
      cases hrow : readRow parse fidx sidx line with
      | error e' =>
        rw [hrow] at h
        cases h
        exact ⟨[], line, _, rfl, by simp, hrow⟩
      | ok r =>
        rw [hrow] at h
        obtain ⟨pre, l, post, h1, h2, h3⟩ := ih _ h
        refine ⟨line :: pre, l, post, by rw [h1]; rfl, ?_, h3⟩
        intro x hx
        rcases List.mem_cons.mp hx with rfl | hx
        · exact ⟨r, hrow⟩
        · exact h2 x hx

/-- Pushing rows, all of the width of the columns, appends to each column its cells. -/
theorem foldl_pushRow {α : Type} (rows : List (List α)) (cols : List (List α)) (n : Nat) (hc : cols.length = n)
    (hr : ∀ r ∈ rows, r.length = n) :
    (rows.foldl pushRow cols).length = n ∧
    ∀ k, k < n → ∃ cells : List α, rows.map (fun r => r[k]?) = cells.map some ∧
      (rows.foldl pushRow cols)[k]? = (cols[k]?).map (· ++ cells) := by
  induction rows generalizing cols with
  | nil =>
    refine ⟨hc, fun k hk => ⟨[], rfl, ?_⟩⟩
    simp
  | cons r rows ih =>
    have hr1 := hr r (by simp)
    obtain ⟨h1, h2⟩ := ih (pushRow cols r) (by simp [pushRow, hc, hr1]) (fun x hx => hr x (by simp [hx]))
    refine ⟨h1, fun k hk => ?_⟩
    obtain ⟨cells, h3, h4⟩ := h2 k hk
    refine ⟨(r[k]'(by omega)) :: cells, by simp [h3, hr1, hk], ?_⟩
    simp only [List.foldl_cons, h4]
    have e1 : cols[k]? = some (cols[k]'(by omega)) := List.getElem?_eq_getElem _
    have e2 : (pushRow cols r)[k]? = some (cols[k]'(by omega) ++ [r[k]'(by omega)]) := by
      simp [pushRow, hr1, hc, hk]
    rw [e1, e2]
    simp

end Gbdt
