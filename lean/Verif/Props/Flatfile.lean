import Verif.Model.Flatfile
import Verif.Props.TsvBlock
import Verif.Props.StringColumn

/-!
# C19, C60: the rows of a flat file
-/

set_option linter.unusedSectionVars false

set_option autoImplicit false

namespace Gbdt

open Outcome

variable {A : Type} [LinearOrder A]

/-- The rows of a flat file: its lines, the last one not counting when empty, without those starting with `#`. -/
def flatRows (s : Text) : List Text :=
  let ls := fileLines s
  (if ls.getLast? = some [] then ls.dropLast else ls).filter (fun l => decide (l.head? ≠ some '#'))

theorem hasPrefix_hash (l : Text) : hasPrefix l ['#'] = ok (decide (l.head? = some '#')) := by
  cases l with
  | nil => rfl
  | cons c l =>
    simp only [hasPrefix, List.head?_cons, Option.some.injEq]
    by_cases h : c = '#' <;> simp [h]

theorem keptLines_eq (ls : List Text) : keptLines ls =
    ok ((if ls.getLast? = some [] then ls.dropLast else ls).filter (fun l => decide (l.head? ≠ some '#'))) := by
  induction ls with
  | nil => rfl
  | cons l ls ih =>
    simp only [keptLines, hasPrefix_hash, ih, ok_bind, pure_eq]
    by_cases h : l.head? = some '#'
    · have hne : l ≠ [] := by rintro rfl; simp at h
      cases ls with
      | nil =>
        cases l with
        | nil => exact absurd rfl hne
        | cons c l => simp [h]
      | cons l2 ls =>
        simp only [h, decide_true, Bool.true_or, if_true, List.getLast?_cons_cons, List.dropLast_cons_cons]
        split <;> simp [h]
    · cases ls with
      | nil =>
        by_cases hl : l = []
        · subst hl; simp
        · have : (l == []) = false := by simpa using hl
          simp [h, hl]
      | cons l2 ls =>
        simp only [h, decide_false, Bool.false_or, List.getLast?_cons_cons, List.dropLast_cons_cons]
        have : ((l2 :: ls : List Text) == []) = false := rfl
        simp only [this, Bool.and_false, Bool.false_eq_true, if_false]
        split
        · rw [List.filter_cons_of_pos (a := l) (by simpa using h)]
        · rw [List.filter_cons_of_pos (a := l) (by simpa using h)]

theorem keptLines_readLines (s : Text) : keptLines (readLines s) = ok (flatRows s) := by
  rw [keptLines_eq, readLines_eq]
  rfl

/-- **C19.** A flat file is loaded as the column of its type holding one row per line that does not start with `#`, in
order (the empty piece after the last line-feed is not a line). -/
theorem C19_flatfile_rows (fmax : A) (parse : Text → Option (Fl A)) (s : Text) :
    loadFile fmax parse s =
      if (fileLines s).head? = some "# dtype=strings".toList then
        ok (some (.str (StrCol.build [(flatRows s).map String.ofList])))
      else if (fileLines s).head? = some "# dtype=raw_floats".toList then
        ok (some (.raw ⟨.ok, (flatRows s).map (fun l => (parse l).getD .nan)⟩))
      else if (fileLines s).head? = some "# dtype=bucketized_floats".toList then
        (BktCol.build fmax 30000 [(flatRows s).map (fun l => (parse l).getD .nan)] >>= fun c => ok (some (.bkt c)))
      else ok none := by
  have hf : (fun l => floatLine parse l) = (fun l => (parse l).getD .nan) := by
    funext l
    unfold floatLine
    cases parse l <;> rfl
  have hk := keptLines_readLines s
  have hfl : fileLines s = readLines s := (readLines_eq s).symm
  unfold loadFile
  rw [hfl]
  cases hr : readLines s with
  | nil => simp
  | cons l ls =>
    rw [hr] at hk
    simp only [List.head?_cons, Option.some.injEq]
    split
    · simp only [hk, ok_bind, pure_eq]
      rfl
    · split
      · simp only [hk, ok_bind, pure_eq, ← hf]
        congr 3
      · split
        · simp only [hk, ok_bind, ← hf, Column.createBucketized, bind_assoc, pure_eq]
        · rfl

/-- A flat file with a comment and a blank line. -/
def sampleFlat : Text := "# dtype=strings\na\n\n#x\nb\n".toList

example : flatRows sampleFlat = ["a".toList, [], "b".toList] := by decide +kernel

example : (match loadFile (1000 : Nat) digitParse "# dtype=raw_floats\r\n4\r\nzz\r\n5".toList with
    | .ok (some (.raw c)) => c.raw
    | _ => []) = [.num 4, .nan, .num 5] := by decide +kernel

/-- The lines of a flat file after the type line (the empty piece after the last line-feed is not a line). -/
def linesAfterType (s : Text) : List Text :=
  let ls := fileLines s
  (if ls.getLast? = some [] then ls.dropLast else ls).tail

/-- C60 in full: every line after the type line of a string file is a row. -/
def C60_full : Prop :=
  ∀ (A : Type) [LinearOrder A] (fmax : A) (parse : Text → Option (Fl A)) (s : Text),
    (fileLines s).head? = some "# dtype=strings".toList →
    loadFile fmax parse s = ok (some (.str (StrCol.build [(linesAfterType s).map String.ofList])))

/-- **C60 (partial).** It holds of files in which no line but the first starts with `#`.
Missing: files in which a value starts with `#`, for which it is false. -/
theorem C60_no_hash_partial (fmax : A) (parse : Text → Option (Fl A)) (s : Text)
    (h : (fileLines s).head? = some "# dtype=strings".toList)
    (hno : ∀ l ∈ linesAfterType s, l.head? ≠ some '#') :
    loadFile fmax parse s = ok (some (.str (StrCol.build [(linesAfterType s).map String.ofList]))) := by
  rw [C19_flatfile_rows, if_pos h]
  have : flatRows s = linesAfterType s := by
    unfold flatRows linesAfterType at *
    dsimp only at hno ⊢
    cases hl : fileLines s with
    | nil => rw [hl] at h; cases h
    | cons l ls =>
      rw [hl] at h hno
      simp only [List.head?_cons, Option.some.injEq] at h
      subst h
      cases ls with
      | nil => decide
      | cons l2 ls =>
        rw [List.getLast?_cons_cons, List.dropLast_cons_cons] at hno ⊢
        split
        · rename_i hc
          rw [if_pos hc] at hno
          rw [List.tail_cons] at hno ⊢
          rw [List.filter_cons_of_neg (by simp), List.filter_eq_self]
          intro x hx
          simpa using hno x hx
        · rename_i hc
          rw [if_neg hc] at hno
          rw [List.tail_cons] at hno ⊢
          rw [List.filter_cons_of_neg (by simp), List.filter_eq_self]
          intro x hx
          simpa using hno x hx
  rw [this]

example : linesAfterType "# dtype=strings\na\n\nb\n".toList = ["a".toList, [], "b".toList] := by decide +kernel

/-- **C60 is false**: the value `#x` is silently dropped. -/
theorem C60_refuted : ¬ C60_full := by
  intro h
  have h1 := h Nat 1000 digitParse sampleFlat (by decide +kernel)
  have : (match loadFile (1000 : Nat) digitParse sampleFlat with
      | .ok (some (.str c)) => decide (c.size = ok 3)
      | _ => false) = true := by decide +kernel
  rw [h1] at this
  revert this
  decide +kernel

end Gbdt
