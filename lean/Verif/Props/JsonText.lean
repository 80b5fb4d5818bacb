import Mathlib.Data.Rat.Encodable
import Mathlib.Logic.Encodable.Basic
import Verif.Lemmas.JsonText
import Verif.Props.PyForest

/-!
# C197: the text of a saved forest

Specification: `readJson` (`Spec/JsonText.lean`), a reader of JSON text after RFC 8259, and `NumberText` (`Lemmas/JsonText.lean`): numbers are written with the
characters of numbers, and read back.
-/

set_option autoImplicit false

namespace Gbdt

section
variable {N : Type} {hidden : Char → Bool} {showNum : N → Text} {readNum : Text → Option N}

/-- **C197.** The text that is written for a JSON value is read as this value, whatever its strings and keys contain. -/
theorem C197_text (h : NumberText showNum readNum) (j : Json N) : readJson readNum (j.text hidden showNum) = some j := readJson_text h j

/-- A character that can stand in one line of HTML: neither a control character nor an angle bracket. -/
def TameChar (c : Char) : Prop := 32 ≤ c.toNat ∧ c.toNat ≠ 127 ∧ c ≠ '<' ∧ c ≠ '>'

theorem digitChar_tame : ∀ d < 16, TameChar (Nat.digitChar d) := by unfold TameChar; decide

theorem hexFour_tame {n : Nat} (h : n < 65536) : ∀ c ∈ hexFour n, TameChar c := by
  intro c hc
  simp only [hexFour, List.mem_cons, List.not_mem_nil, or_false] at hc
  rcases hc with rfl | rfl | rfl | rfl <;> exact digitChar_tame _ (by omega)

theorem unicodeEscape_tame (x : Char) : ∀ c ∈ unicodeEscape x, TameChar c := by
  have hx := char_range x
  have hb : TameChar '\\' := by unfold TameChar; decide
  have hu : TameChar 'u' := by unfold TameChar; decide
  intro c hc
  unfold unicodeEscape at hc
  split at hc
  · next hlt =>
    rcases List.mem_cons.mp hc with rfl | hc
    · exact hb
    rcases List.mem_cons.mp hc with rfl | hc
    · exact hu
    exact hexFour_tame hlt c hc
  · rcases List.mem_cons.mp hc with rfl | hc
    · exact hb
    rcases List.mem_cons.mp hc with rfl | hc
    · exact hu
    rcases List.mem_append.mp hc with hc | hc
    · exact hexFour_tame (by omega) c hc
    rcases List.mem_cons.mp hc with rfl | hc
    · exact hb
    rcases List.mem_cons.mp hc with rfl | hc
    · exact hu
    exact hexFour_tame (by omega) c hc

theorem jsonChar_tame (hidden : Char → Bool) (x : Char) : ∀ c ∈ jsonChar hidden x, TameChar c := by
  intro c hc
  unfold jsonChar at hc
  have two : ∀ {a b : Char}, TameChar a → TameChar b → c ∈ [a, b] → TameChar c := by
    intro a b ha hb h
    simp only [List.mem_cons, List.not_mem_nil, or_false] at h
    rcases h with rfl | rfl
    · exact ha
    · exact hb
  split at hc
  · exact two (by unfold TameChar; decide) (by unfold TameChar; decide) hc
  split at hc
  · exact two (by unfold TameChar; decide) (by unfold TameChar; decide) hc
  split at hc
  · exact two (by unfold TameChar; decide) (by unfold TameChar; decide) hc
  split at hc
  · exact two (by unfold TameChar; decide) (by unfold TameChar; decide) hc
  split at hc
  · exact two (by unfold TameChar; decide) (by unfold TameChar; decide) hc
  split at hc
  · exact two (by unfold TameChar; decide) (by unfold TameChar; decide) hc
  split at hc
  · exact two (by unfold TameChar; decide) (by unfold TameChar; decide) hc
  split at hc
  · exact unicodeEscape_tame x c hc
  · next h =>
    rw [List.mem_singleton.mp hc]
    simp only [not_or] at h
    exact ⟨by omega, h.2.2.2.1, h.2.1, h.2.2.1⟩

theorem jsonString_tame (hidden : Char → Bool) (s : String) : ∀ c ∈ jsonString hidden s, TameChar c := by
  have hq : TameChar '"' := by unfold TameChar; decide
  intro c hc
  unfold jsonString at hc
  rcases List.mem_cons.mp hc with rfl | hc
  · exact hq
  rcases List.mem_append.mp hc with hc | hc
  · obtain ⟨x, _, hx⟩ := List.mem_flatMap.mp hc
    exact jsonChar_tame hidden x c hx
  · rw [List.mem_singleton.mp hc]
    exact hq

theorem numChar_tame {c : Char} (h : jsonNumChar c = true) : TameChar c := by
  unfold jsonNumChar at h
  simp only [Bool.or_eq_true, decide_eq_true_eq] at h
  rcases h with ((((h | rfl) | rfl) | rfl) | rfl) | rfl
  · have h1 : 48 ≤ c.toNat ∧ c.toNat ≤ 57 := by
      simp only [Char.isDigit, Bool.and_eq_true, decide_eq_true_eq] at h
      exact ⟨h.1, h.2⟩
    refine ⟨by omega, by omega, ?_, ?_⟩
    · rintro rfl; revert h1; decide
    · rintro rfl; revert h1; decide
  all_goals (unfold TameChar; decide)

mutual
theorem json_tame (h : NumberText showNum readNum) : ∀ (j : Json N), ∀ c ∈ j.text hidden showNum, TameChar c
  | .null => by rw [Json.text]; unfold TameChar; decide
  | .bool true => by rw [Json.text]; unfold TameChar; decide
  | .bool false => by rw [Json.text]; unfold TameChar; decide
  | .num x => by rw [Json.text]; exact fun c hc => numChar_tame (h.chars x c hc)
  | .str s => by rw [Json.text]; exact jsonString_tame hidden s
  | .arr l => by
    rw [Json.text]
    intro c hc
    rcases List.mem_cons.mp hc with rfl | hc
    · unfold TameChar; decide
    · exact jsonList_tame h l true c hc
  | .obj l => by
    rw [Json.text]
    intro c hc
    rcases List.mem_cons.mp hc with rfl | hc
    · unfold TameChar; decide
    · exact jsonFields_tame h l true c hc
theorem jsonList_tame (h : NumberText showNum readNum) : ∀ (l : JsonList N) (first : Bool), ∀ c ∈ l.text hidden showNum first, TameChar c
  | .nil, _ => by rw [JsonList.text]; unfold TameChar; decide
  | .cons x l, first => by
    rw [JsonList.text]
    intro c hc
    rcases List.mem_append.mp hc with hc | hc
    · split at hc
      · cases hc
      · rw [List.mem_singleton.mp hc]; unfold TameChar; decide
    rcases List.mem_append.mp hc with hc | hc
    · exact json_tame h x c hc
    · exact jsonList_tame h l false c hc
theorem jsonFields_tame (h : NumberText showNum readNum) : ∀ (l : JsonFields N) (first : Bool), ∀ c ∈ l.text hidden showNum first, TameChar c
  | .nil, _ => by rw [JsonFields.text]; unfold TameChar; decide
  | .cons k x l, first => by
    rw [JsonFields.text]
    intro c hc
    rcases List.mem_append.mp hc with hc | hc
    · split at hc
      · cases hc
      · rw [List.mem_singleton.mp hc]; unfold TameChar; decide
    rcases List.mem_append.mp hc with hc | hc
    · exact jsonString_tame hidden k c hc
    rcases List.mem_cons.mp hc with rfl | hc
    · unfold TameChar; decide
    rcases List.mem_append.mp hc with hc | hc
    · exact json_tame h x c hc
    · exact jsonFields_tame h l false c hc
end

/-- **C197 (one line).** The text has no newlines or other control characters and no angle brackets, whatever the names contain. -/
theorem C197_one_line (h : NumberText showNum readNum) (j : Json N) : ∀ c ∈ j.text hidden showNum, TameChar c := json_tame h j

/-- **C197 (text is not empty).** What the theorems about whole runs assume of the text of model files (C156, C162), for this writer and this reader. -/
theorem C197_model_file (h : NumberText showNum readNum) (j : Json N) :
    readJson readNum (j.text hidden showNum) = some j ∧ j.text hidden showNum ≠ [] := by
  refine ⟨C197_text h j, fun he => ?_⟩
  have := C197_text (hidden := hidden) h j
  rw [he] at this
  cases this

variable {D A : Type} [Dbl D] [LinearOrder A] {nc : NumCodec D A N}

/-- **C197 (forests).** A forest that is nested at most 64 deep has a text, in one line, that is read as this forest; names and meta info may contain
anything. -/
theorem C197_forest (h : NumberText showNum readNum) (hc : nc.Exact) (zero : A) {f : ForestMsg D A} (hset : ∀ t ∈ f.trees, t ≠ .absent)
    (hdepth : ∀ t ∈ f.trees, treeNesting t ≤ 64) :
    ∃ t, asJson nc (Json.text hidden showNum) f = .ok t ∧ (∀ c ∈ t, TameChar c) ∧ newForest nc zero (readJson readNum) (.string (.text t)) = .ok f := by
  obtain ⟨j, hj⟩ := (C99_saving nc 64 f).mpr hdepth
  refine ⟨j.text hidden showNum, by simp only [asJson, hj], C197_one_line h j, ?_⟩
  exact newForest_text zero (printJson := Json.text hidden showNum) ⟨hc, hset, hdepth, fun j _ => C197_text h j⟩ hj

/-- **C197 (different forests).** Forests with the same text are the same. -/
theorem C197_different (h : NumberText showNum readNum) (hc : nc.Exact) (zero : A) {f f' : ForestMsg D A} (hset : ∀ t ∈ f.trees, t ≠ .absent)
    (hset' : ∀ t ∈ f'.trees, t ≠ .absent) (hdepth : ∀ t ∈ f.trees, treeNesting t ≤ 64) (hdepth' : ∀ t ∈ f'.trees, treeNesting t ≤ 64)
    (he : asJson nc (Json.text hidden showNum) f = asJson nc (Json.text hidden showNum) f') : f = f' := by
  obtain ⟨t, h1, _, h2⟩ := C197_forest (hidden := hidden) h hc zero hset hdepth
  obtain ⟨t', h1', _, h2'⟩ := C197_forest (hidden := hidden) h hc zero hset' hdepth'
  rw [h1, h1'] at he
  cases he
  rw [h2] at h2'
  cases h2'
  rfl

end

/-! ## Examples -/

/-- Numbers of the example, numbered. -/
def codeText (x : ℚ ⊕ Nat) : Text := Nat.toDigits 10 (Encodable.encode x)

/-- The number with that number. -/
def readCodeText (t : Text) : Option (ℚ ⊕ Nat) := Encodable.decode (Nat.ofDigitChars 10 t 0)

theorem codeText_fine : NumberText codeText readCodeText where
  chars x c hc := by
    have := Nat.isDigit_of_mem_toDigits (b := 10) (by decide) (by decide) hc
    simp [jsonNumChar, this]
  nonempty x := Nat.toDigits_ne_nil
  read x := by
    unfold readCodeText codeText
    rw [Nat.ofDigitChars_toDigits (by decide) (by decide)]
    exact Encodable.encodek x

/-- Names with a quotation mark, a newline, an angle bracket, a control character, and characters in and outside the basic plane. -/
def oddForest : ForestMsg ℚ ℚ :=
  ⟨[jsonTree, .node 0 (some { feature := "\"a\\b\"\n<\x07é😀", catSplit := some ⟨["", "\t", "don't"], []⟩, gain := 3 })
    (.node 1 none .absent .absent) (.node 2 none .absent .absent)], "for 3s"⟩

example : ∃ t, asJson plainCodec (Json.text (fun c => c = 'é' || c = '😀') codeText) oddForest = .ok t ∧ (∀ c ∈ t, TameChar c) ∧
    newForest plainCodec 0 (readJson readCodeText) (.string (.text t)) = .ok oddForest :=
  C197_forest codeText_fine plainCodec_exact 0 (by decide) (by decide)

/-- The text of a string. -/
example : jsonString (fun c => c = '😀') "\"a\\b\"\n<\x07é😀" = "\"\\\"a\\\\b\\\"\\n\\u003c\\u0007é\\ud83d\\ude00\"".toList := by decide +kernel

/-- Reading with white space and other escapes; written again, without them. -/
example : (readJson (fun t => some t) " { \"a\\/\\u00e9\" : [ 1.5e3 ,null,\n true ] } ".toList).map (Json.text (fun _ => false) id) =
    some "{\"a/é\":[1.5e3,null,true]}".toList := by decide +kernel

/-- What is not JSON is not read. -/
example : ∀ t ∈ ["[1,]", "{\"a\":1", "\"\\ud83d\"", "[1] 2", "{a:1}", "\"a\nb\""], (match readJson (fun t => some t) t.toList with
    | none => true
    | some _ => false) = true := by decide +kernel

end Gbdt
