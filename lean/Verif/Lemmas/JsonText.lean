import Mathlib.Data.List.Basic
import Verif.Model.JsonText
import Verif.Spec.JsonText

/-!
# Reading the text that is written
-/

set_option autoImplicit false

namespace Gbdt

theorem hexValue_digit : ∀ d < 16, hexValue (Nat.digitChar d) = some d := by decide

theorem readHex_four {n : Nat} (h : n < 65536) (r : Text) : readHex (hexFour n ++ r) = some (n, r) := by
  simp only [hexFour, List.cons_append, List.nil_append, readHex]
  rw [hexValue_digit _ (by omega), hexValue_digit _ (by omega), hexValue_digit _ (by omega), hexValue_digit _ (by omega)]
  simp only [Option.bind_eq_bind, Option.bind_some, Option.some.injEq, Prod.mk.injEq, and_true]
  omega

theorem char_range (c : Char) : c.toNat < 0xD800 ∨ (0xDFFF < c.toNat ∧ c.toNat < 0x110000) := by
  have h := c.valid
  unfold UInt32.isValidChar Nat.isValidChar at h
  rcases h with h | ⟨h1, h2⟩
  · exact Or.inl h
  · exact Or.inr ⟨h1, h2⟩

theorem readEscape_u (r : Text) : readEscape ('u' :: r) = readCode r := by
  simp only [readEscape, Char.reduceEq, or_self, if_false, if_true]

theorem readCode_plain {n : Nat} {r r1 : Text} (h : readHex r = some (n, r1)) (h1 : ¬ (0xD800 ≤ n ∧ n < 0xDC00)) (h2 : ¬ (0xDC00 ≤ n ∧ n < 0xE000)) :
    readCode r = some (Char.ofNat n, r1) := by
  unfold readCode
  rw [h]
  simp only
  rw [if_neg h1, if_neg h2]

theorem readCode_pair {m n : Nat} {r r1 r2 : Text} (h : readHex r = some (m, '\\' :: 'u' :: r1)) (h' : readHex r1 = some (n, r2))
    (h1 : 0xD800 ≤ m ∧ m < 0xDC00) (h2 : 0xDC00 ≤ n ∧ n < 0xE000) :
    readCode r = some (Char.ofNat (0x10000 + (m - 0xD800) * 0x400 + (n - 0xDC00)), r2) := by
  unfold readCode
  rw [h]
  simp only
  rw [if_pos h1]
  unfold readLowHalf
  simp only
  rw [h']
  simp only
  rw [if_pos h2]

theorem halves {k m n : Nat} (hk : 0x10000 ≤ k) (hk' : k < 0x110000) (hm : m = 0xD800 + (k - 0x10000) / 0x400) (hn : n = 0xDC00 + (k - 0x10000) % 0x400) :
    (0xD800 ≤ m ∧ m < 0xDC00) ∧ (0xDC00 ≤ n ∧ n < 0xE000) ∧ 0x10000 + (m - 0xD800) * 0x400 + (n - 0xDC00) = k := by
  omega

theorem readEscape_unicode (c : Char) (r : Text) : ∃ e, unicodeEscape c ++ r = '\\' :: e ∧ readEscape e = some (c, r) := by
  have hc := char_range c
  by_cases h : c.toNat < 0x10000
  · refine ⟨'u' :: (hexFour c.toNat ++ r), by unfold unicodeEscape; rw [if_pos h]; rfl, ?_⟩
    rw [readEscape_u, readCode_plain (readHex_four h r) (by omega) (by omega), Char.ofNat_toNat]
  · obtain ⟨m, hm⟩ : ∃ m, m = 0xD800 + (c.toNat - 0x10000) / 0x400 := ⟨_, rfl⟩
    obtain ⟨n, hn⟩ : ∃ n, n = 0xDC00 + (c.toNat - 0x10000) % 0x400 := ⟨_, rfl⟩
    obtain ⟨h1, h2, h3⟩ := halves (by omega) (by omega) hm hn
    refine ⟨'u' :: (hexFour m ++ ('\\' :: 'u' :: (hexFour n ++ r))), ?_, ?_⟩
    · unfold unicodeEscape
      rw [if_neg h, ← hm, ← hn, List.cons_append, List.cons_append, List.append_assoc, List.cons_append, List.cons_append]
    · rw [readEscape_u, readCode_pair (readHex_four (by omega) _) (readHex_four (by omega) _) h1 h2, h3, Char.ofNat_toNat]

theorem readStringBody_char (hidden : Char → Bool) (c : Char) (n : Nat) (r : Text) :
    readStringBody (n + 1) (jsonChar hidden c ++ r) = (readStringBody n r).map (fun p => (c :: p.1, p.2)) := by
  have esc : ∀ {e : Text}, readEscape e = some (c, r) → readStringBody (n + 1) ('\\' :: e) = (readStringBody n r).map (fun p => (c :: p.1, p.2)) := by
    intro e he
    simp only [readStringBody, Char.reduceEq, if_false, if_true, he, Option.bind_eq_bind, Option.bind_some]
    cases readStringBody n r <;> rfl
  unfold jsonChar
  split
  · next h => subst h; exact esc rfl
  split
  · next h => subst h; exact esc rfl
  split
  · next h => subst h; exact esc rfl
  split
  · next h => subst h; exact esc rfl
  split
  · next h => subst h; exact esc rfl
  split
  · next h => subst h; exact esc rfl
  split
  · next h => subst h; exact esc rfl
  split
  · obtain ⟨e, e1, e2⟩ := readEscape_unicode c r
    rw [e1]
    exact esc e2
  · next h1 h2 _ _ _ _ _ h3 =>
    simp only [not_or] at h3
    simp only [List.cons_append, List.nil_append, readStringBody, if_neg h1, if_neg h2, if_neg h3.1, Option.bind_eq_bind]
    cases readStringBody n r <;> rfl

theorem jsonChar_ne_nil (hidden : Char → Bool) (c : Char) : 1 ≤ (jsonChar hidden c).length := by
  unfold jsonChar unicodeEscape
  repeat' split
  all_goals simp

theorem flatMap_chars_length (hidden : Char → Bool) : ∀ s : Text, s.length ≤ (s.flatMap (jsonChar hidden)).length
  | [] => by simp
  | c :: s => by
    have := flatMap_chars_length hidden s
    have := jsonChar_ne_nil hidden c
    simp only [List.flatMap_cons, List.length_append, List.length_cons]
    omega

theorem readStringBody_text (hidden : Char → Bool) (r : Text) : ∀ (s : Text) (n : Nat), s.length < n →
    readStringBody n (s.flatMap (jsonChar hidden) ++ '"' :: r) = some (s, r)
  | [], n + 1, _ => by simp [readStringBody]
  | c :: s, n + 1, h => by
    rw [List.flatMap_cons, List.append_assoc, readStringBody_char, readStringBody_text hidden r s n (by simpa using h)]
    rfl

theorem readStringBody_string (hidden : Char → Bool) (s : String) (r : Text) :
    readStringBody ((s.toList.flatMap (jsonChar hidden) ++ '"' :: r).length + 1) (s.toList.flatMap (jsonChar hidden) ++ '"' :: r) = some (s.toList, r) := by
  refine readStringBody_text hidden r s.toList _ ?_
  have := flatMap_chars_length hidden s.toList
  simp only [List.length_append, List.length_cons]
  omega

/-- How numbers are written and read: with the characters of numbers, and without loss. -/
structure NumberText {N : Type} (showNum : N → Text) (readNum : Text → Option N) : Prop where
  chars : ∀ x, ∀ c ∈ showNum x, jsonNumChar c = true
  nonempty : ∀ x, showNum x ≠ []
  read : ∀ x, readNum (showNum x) = some x

/-- The number ends here. -/
def NumberEnds (rest : Text) : Prop := ∀ c ∈ rest.head?, jsonNumChar c = false

section
variable {N : Type} {hidden : Char → Bool} {showNum : N → Text} {readNum : Text → Option N}

theorem skipSpace_cons {c : Char} (h : jsonSpace c = false) (r : Text) : skipSpace (c :: r) = c :: r := by
  simp [skipSpace, h]

/-- The first character of a value. -/
theorem text_head (h : NumberText showNum readNum) (j : Json N) :
    ∃ c r, j.text hidden showNum = c :: r ∧ jsonSpace c = false ∧ c ≠ ']' ∧ c ≠ '}' := by
  cases j with
  | null => exact ⟨'n', _, by rw [Json.text], by decide⟩
  | bool b => cases b
              · exact ⟨'f', _, by rw [Json.text], by decide⟩
              · exact ⟨'t', _, by rw [Json.text], by decide⟩
  | num x =>
    rw [Json.text]
    cases hx : showNum x with
    | nil => exact absurd hx (h.nonempty x)
    | cons c r =>
      have hc := h.chars x c (by rw [hx]; simp)
      refine ⟨c, r, rfl, ?_, ?_, ?_⟩
      · by_contra hs
        simp only [jsonSpace, Bool.not_eq_false, Bool.or_eq_true, decide_eq_true_eq] at hs
        rcases hs with ((rfl | rfl) | rfl) | rfl <;> revert hc <;> decide
      · rintro rfl; revert hc; decide
      · rintro rfl; revert hc; decide
  | str s => exact ⟨'"', _, by rw [Json.text, jsonString], by decide⟩
  | arr l => exact ⟨'[', _, by rw [Json.text], by decide⟩
  | obj l => exact ⟨'{', _, by rw [Json.text], by decide⟩

theorem list_text_pos (first : Bool) : ∀ l : JsonList N, 1 ≤ (l.text hidden showNum first).length
  | .nil => by rw [JsonList.text]; simp
  | .cons x l => by
    have := list_text_pos false l
    rw [JsonList.text]
    simp only [List.length_append]
    omega

theorem fields_text_pos (first : Bool) : ∀ l : JsonFields N, 1 ≤ (l.text hidden showNum first).length
  | .nil => by rw [JsonFields.text]; simp
  | .cons k x l => by
    rw [JsonFields.text]
    simp only [List.length_append, List.length_cons]
    omega

theorem list_rest_ends (l : JsonList N) (rest : Text) : NumberEnds (l.text hidden showNum false ++ rest) := by
  intro c hc
  cases l <;> rw [JsonList.text] at hc <;> simp at hc <;> subst hc <;> decide

theorem fields_rest_ends (l : JsonFields N) (rest : Text) : NumberEnds (l.text hidden showNum false ++ rest) := by
  intro c hc
  cases l <;> rw [JsonFields.text] at hc <;> simp at hc <;> subst hc <;> decide

theorem numChar_others {c : Char} (h : jsonNumChar c = true) : c ≠ '[' ∧ c ≠ '{' ∧ c ≠ '"' ∧ c ≠ 'n' ∧ c ≠ 't' ∧ c ≠ 'f' := by
  refine ⟨?_, ?_, ?_, ?_, ?_, ?_⟩ <;> (rintro rfl; revert h; decide)

theorem takeWhile_number {tok rest : Text} (h : ∀ c ∈ tok, jsonNumChar c = true) (hr : NumberEnds rest) :
    (tok ++ rest).takeWhile jsonNumChar = tok ∧ (tok ++ rest).dropWhile jsonNumChar = rest := by
  rw [List.takeWhile_append_of_pos h, List.dropWhile_append_of_pos h]
  cases rest with
  | nil => simp
  | cons c r =>
    have := hr c (by simp)
    simp [this]

mutual
theorem readValue_text (h : NumberText showNum readNum) : ∀ (j : Json N) (n : Nat) (rest : Text), (j.text hidden showNum).length ≤ n → NumberEnds rest →
    readValue readNum n (j.text hidden showNum ++ rest) = some (j, rest)
  | .null, 0, _, hn, _ => by rw [Json.text] at hn; simp at hn
  | .null, n + 1, rest, _, _ => by
    rw [Json.text, List.cons_append, readValue, skipSpace_cons (by decide)]
    simp
  | .bool true, 0, _, hn, _ => by rw [Json.text] at hn; simp at hn
  | .bool true, n + 1, rest, _, _ => by
    rw [Json.text, List.cons_append, readValue, skipSpace_cons (by decide)]
    simp
  | .bool false, 0, _, hn, _ => by rw [Json.text] at hn; simp at hn
  | .bool false, n + 1, rest, _, _ => by
    rw [Json.text, List.cons_append, readValue, skipSpace_cons (by decide)]
    simp
  | .num x, 0, _, hn, _ => by
    rw [Json.text] at hn
    exact absurd (List.length_eq_zero_iff.mp (Nat.le_zero.mp hn)) (h.nonempty x)
  | .num x, n + 1, rest, _, hr => by
    obtain ⟨c, r, e1, e2, _, _⟩ := text_head (hidden := hidden) h (.num x)
    rw [e1, List.cons_append, readValue, skipSpace_cons e2]
    rw [Json.text] at e1
    have hc : jsonNumChar c = true := h.chars x c (by rw [e1]; simp)
    obtain ⟨h1, h2, h3, h4, h5, h6⟩ := numChar_others hc
    simp only [if_neg h1, if_neg h2, if_neg h3, if_neg h4, if_neg h5, if_neg h6, if_pos hc]
    obtain ⟨t1, t2⟩ := takeWhile_number (h.chars x) hr
    rw [← List.cons_append, ← e1, t1, t2, h.read]
    rfl
  | .str s, 0, _, hn, _ => by rw [Json.text, jsonString] at hn; simp at hn
  | .str s, n + 1, rest, _, _ => by
    rw [Json.text, jsonString, List.cons_append, readValue, skipSpace_cons (by decide), List.append_assoc, List.cons_append, List.nil_append]
    simp only [Char.reduceEq, if_false, if_true]
    rw [readStringBody_string]
    simp
  | .arr l, 0, _, hn, _ => by rw [Json.text] at hn; simp at hn
  | .arr l, n + 1, rest, hn, _ => by
    rw [Json.text] at hn
    rw [Json.text, List.cons_append, readValue, skipSpace_cons (by decide)]
    simp only [if_true]
    rw [readElements_text h l n true rest (by simpa using hn)]
    rfl
  | .obj l, 0, _, hn, _ => by rw [Json.text] at hn; simp at hn
  | .obj l, n + 1, rest, hn, _ => by
    rw [Json.text] at hn
    rw [Json.text, List.cons_append, readValue, skipSpace_cons (by decide)]
    simp only [Char.reduceEq, if_false, if_true]
    rw [readEntries_text h l n true rest (by simpa using hn)]
    rfl
theorem readElements_text (h : NumberText showNum readNum) : ∀ (l : JsonList N) (n : Nat) (first : Bool) (rest : Text),
    (l.text hidden showNum first).length ≤ n → readElements readNum n first (l.text hidden showNum first ++ rest) = some (l, rest)
  | .nil, 0, _, _, hn => by rw [JsonList.text] at hn; simp at hn
  | .nil, n + 1, first, rest, _ => by
    rw [JsonList.text, List.cons_append, readElements, skipSpace_cons (by decide)]
    simp
  | .cons x l, 0, first, _, hn => by
    have := list_text_pos (hidden := hidden) (showNum := showNum) first (.cons x l)
    omega
  | .cons x l, n + 1, first, rest, hn => by
    obtain ⟨c, r, e1, e2, e3, _⟩ := text_head (hidden := hidden) h x
    have hl := list_text_pos (hidden := hidden) (showNum := showNum) false l
    have hx : 1 ≤ (x.text hidden showNum).length := by rw [e1]; simp
    rw [JsonList.text] at hn
    simp only [List.length_append] at hn
    have r1 := readValue_text h x n (l.text hidden showNum false ++ rest) (by omega) (list_rest_ends l rest)
    have r2 := readElements_text h l n false rest (by omega)
    cases first with
    | true =>
      rw [JsonList.text, if_pos rfl, List.nil_append, List.append_assoc, e1, List.cons_append, readElements, skipSpace_cons e2]
      simp only [if_neg e3, if_true, Option.bind_eq_bind, Option.bind_some]
      rw [← List.cons_append, ← e1, r1]
      simp only [Option.bind_some]
      rw [r2]
      rfl
    | false =>
      rw [JsonList.text, if_neg (by decide), List.cons_append, List.nil_append, List.cons_append, List.append_assoc, readElements, skipSpace_cons (by decide)]
      simp only [Char.reduceEq, Bool.false_eq_true, if_false, if_true, Option.bind_eq_bind, Option.bind_some]
      rw [r1]
      simp only [Option.bind_some]
      rw [r2]
      rfl
theorem readEntries_text (h : NumberText showNum readNum) : ∀ (l : JsonFields N) (n : Nat) (first : Bool) (rest : Text),
    (l.text hidden showNum first).length ≤ n → readEntries readNum n first (l.text hidden showNum first ++ rest) = some (l, rest)
  | .nil, 0, _, _, hn => by rw [JsonFields.text] at hn; simp at hn
  | .nil, n + 1, first, rest, _ => by
    rw [JsonFields.text, List.cons_append, readEntries, skipSpace_cons (by decide)]
    simp
  | .cons k x l, 0, first, _, hn => by
    have := fields_text_pos (hidden := hidden) (showNum := showNum) first (.cons k x l)
    omega
  | .cons k x l, n + 1, first, rest, hn => by
    have hl := fields_text_pos (hidden := hidden) (showNum := showNum) false l
    rw [JsonFields.text] at hn
    simp only [List.length_append, List.length_cons, jsonString] at hn
    have r1 := readValue_text h x n (l.text hidden showNum false ++ rest) (by omega) (fields_rest_ends l rest)
    have r2 := readEntries_text h l n false rest (by omega)
    have hs := readStringBody_string hidden k (':' :: (x.text hidden showNum ++ (l.text hidden showNum false ++ rest)))
    have hcolon := skipSpace_cons (c := ':') (by decide) (x.text hidden showNum ++ (l.text hidden showNum false ++ rest))
    have hquote := skipSpace_cons (c := '"') (by decide)
      (k.toList.flatMap (jsonChar hidden) ++ '"' :: ':' :: (x.text hidden showNum ++ (l.text hidden showNum false ++ rest)))
    have e : JsonFields.text hidden showNum (.cons k x l) first ++ rest = (if first then [] else [',']) ++
        '"' :: (k.toList.flatMap (jsonChar hidden) ++ '"' :: ':' :: (x.text hidden showNum ++ (l.text hidden showNum false ++ rest))) := by
      rw [JsonFields.text, jsonString]
      simp
    rw [e]
    cases first with
    | true =>
      rw [if_pos rfl, List.nil_append, readEntries, hquote]
      simp only [Char.reduceEq, if_false, if_true, Option.bind_eq_bind, Option.bind_some]
      rw [hquote]
      simp only
      rw [hs]
      simp only [Option.bind_some]
      rw [hcolon]
      simp only
      rw [r1]
      simp only [Option.bind_some]
      rw [r2]
      simp
    | false =>
      rw [if_neg (by decide), List.cons_append, List.nil_append, readEntries, skipSpace_cons (by decide)]
      simp only [Char.reduceEq, Bool.false_eq_true, if_false, if_true, Option.bind_eq_bind, Option.bind_some]
      rw [hquote]
      simp only
      rw [hs]
      simp only [Option.bind_some]
      rw [hcolon]
      simp only
      rw [r1]
      simp only [Option.bind_some]
      rw [r2]
      simp
end

theorem readJson_text (h : NumberText showNum readNum) (j : Json N) : readJson readNum (j.text hidden showNum) = some j := by
  have := readValue_text (hidden := hidden) h j ((j.text hidden showNum).length + 1) [] (by omega) (by intro c hc; cases hc)
  rw [List.append_nil] at this
  unfold readJson
  rw [this]
  rfl

end

end Gbdt
