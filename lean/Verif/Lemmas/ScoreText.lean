import Verif.Lemmas.SixDigits

/-! # Reading what was printed -/

set_option autoImplicit false

namespace Gbdt

/-- Decimal digits only. -/
def Digits (t : Text) : Prop := ∀ c ∈ t, c.isDigit = true

theorem Digits.append {t u : Text} (ht : Digits t) (hu : Digits u) : Digits (t ++ u) := by
  intro c hc
  rcases List.mem_append.mp hc with h | h
  · exact ht c h
  · exact hu c h

theorem digitChar_isDigit {n : ℕ} (h : n < 10) : (Nat.digitChar n).isDigit = true := by
  have : ∀ n < 10, (Nat.digitChar n).isDigit = true := by decide
  exact this n h

theorem digitChar_val {n : ℕ} (h : n < 10) : (Nat.digitChar n).toNat - 48 = n := by
  have : ∀ n < 10, (Nat.digitChar n).toNat - 48 = n := by decide
  exact this n h

theorem decimal_from (t : Text) (k : ℕ) :
    t.foldl (fun n c => 10 * n + (c.toNat - 48)) k = k * 10 ^ t.length + decimal t := by
  unfold decimal
  induction t generalizing k with
  | nil => simp
  | cons c t ih =>
    simp only [List.foldl_cons, List.length_cons]
    rw [ih, ih (10 * 0 + (c.toNat - 48))]
    ring

theorem decimal_append (t u : Text) : decimal (t ++ u) = decimal t * 10 ^ u.length + decimal u := by
  conv_lhs => unfold decimal
  rw [List.foldl_append, decimal_from u]
  rfl

theorem decimal_zeros (k : ℕ) : decimal (List.replicate k '0') = 0 := by
  induction k with
  | zero => rfl
  | succ k ih =>
    rw [List.replicate_succ', decimal_append, ih]
    rfl

theorem decimal_toDigits (n : ℕ) : decimal (Nat.toDigits 10 n) = n := by
  have := Nat.ofDigitChars_toDigits (b := 10) (n := n) (by decide) (by decide)
  exact this

theorem sixChars_digits (m : ℕ) : Digits (sixChars m) := by
  intro c hc
  simp only [sixChars, List.mem_map] at hc
  obtain ⟨n, hn, rfl⟩ := hc
  refine digitChar_isDigit ?_
  simp only [List.mem_cons, List.not_mem_nil, or_false] at hn
  omega

theorem decimal_sixChars {m : ℕ} (h : m < 1000000) : decimal (sixChars m) = m := by
  unfold decimal sixChars
  simp only [List.map_cons, List.map_nil, List.foldl_cons, List.foldl_nil]
  rw [digitChar_val (by omega), digitChar_val (by omega), digitChar_val (by omega), digitChar_val (by omega), digitChar_val (by omega),
    digitChar_val (by omega)]
  omega

theorem dropZeros_spec (t : Text) : ∃ k, t = dropZeros t ++ List.replicate k '0' := by
  refine ⟨(t.reverse.takeWhile (· == '0')).length, ?_⟩
  have h1 : t.reverse.takeWhile (· == '0') = List.replicate (t.reverse.takeWhile (· == '0')).length '0' := by
    rw [List.eq_replicate_iff]
    refine ⟨rfl, fun c hc => ?_⟩
    exact beq_iff_eq.mp (List.all_eq_true.mp (List.all_takeWhile (l := t.reverse) (p := (· == (Char.ofNat 48)))) c hc)
  have h2 := List.takeWhile_append_dropWhile (p := (· == '0')) (l := t.reverse)
  have h3 : t = (t.reverse.dropWhile (· == '0')).reverse ++ (t.reverse.takeWhile (· == '0')).reverse := by
    rw [← List.reverse_append, h2, List.reverse_reverse]
  unfold dropZeros
  conv_lhs => rw [h3]
  congr 1
  conv_lhs => rw [h1]
  exact List.reverse_replicate

theorem dropZeros_digits {t : Text} (h : Digits t) : Digits (dropZeros t) := by
  intro c hc
  refine h c ?_
  obtain ⟨k, hk⟩ := dropZeros_spec t
  rw [hk]
  exact List.mem_append_left _ hc

theorem dropZeros_value (w t : Text) (x : ℤ) :
    (decimal (w ++ dropZeros t) : ℚ) * 10 ^ (x - ((dropZeros t).length : ℤ)) = (decimal (w ++ t) : ℚ) * 10 ^ (x - (t.length : ℤ)) := by
  obtain ⟨k, hk⟩ := dropZeros_spec t
  have hlen : t.length = (dropZeros t).length + k := by
    conv_lhs => rw [hk]
    simp
  have hdec : decimal (w ++ t) = decimal (w ++ dropZeros t) * 10 ^ k := by
    conv_lhs => rw [hk, ← List.append_assoc, decimal_append, decimal_zeros, List.length_replicate]
    rfl
  rw [hdec, hlen]
  push_cast
  rw [show x - ((dropZeros t).length : ℤ) = (k : ℤ) + (x - ((dropZeros t).length + k)) by ring, zpow_add₀ (by norm_num), zpow_natCast]
  ring

theorem takeWhile_digits {t u : Text} (ht : Digits t) (hu : ∀ c ∈ u.head?, c.isDigit = false) :
    (t ++ u).takeWhile Char.isDigit = t ∧ (t ++ u).dropWhile Char.isDigit = u := by
  have h1 : u.takeWhile Char.isDigit = [] ∧ u.dropWhile Char.isDigit = u := by
    cases u with
    | nil => exact ⟨rfl, rfl⟩
    | cons c u =>
      have := hu c (by simp)
      simp [this]
  constructor
  · rw [List.takeWhile_append_of_pos ht, h1.1, List.append_nil]
  · rw [List.dropWhile_append_of_pos ht, h1.2]

/-- A number read back: digits, perhaps a fraction, and a suffix that is an exponent. -/
theorem readUnsigned_text {w f suffix : Text} (hw : Digits w) (hw0 : w ≠ []) (hf : Digits f) {x : ℤ}
    (hs : readExponent suffix = some x) (hs1 : ∀ c ∈ suffix.head?, c.isDigit = false ∧ c ≠ '.') :
    readUnsigned (withFraction w f ++ suffix) = some ((decimal (w ++ f) : ℚ) * 10 ^ (x - (f.length : ℤ))) := by
  rw [← dropZeros_value w f x]
  unfold withFraction
  split
  · rename_i h
    obtain ⟨h1, h2⟩ := takeWhile_digits (u := suffix) hw (fun c hc => (hs1 c hc).1)
    have h3 : readFraction suffix = ([], suffix) := by
      cases suffix with
      | nil => rfl
      | cons c s =>
        simp [readFraction, (hs1 c (by simp)).2]
    unfold readUnsigned
    simp only [h1, h2, h3, List.append_nil, hs, h]
    rw [if_neg hw0]
    rfl
  · rename_i h
    obtain ⟨h1, h2⟩ := takeWhile_digits (u := '.' :: dropZeros f ++ suffix) hw (fun c hc => by
      simp only [List.cons_append, List.head?_cons, Option.mem_def, Option.some.injEq] at hc
      subst hc
      decide)
    obtain ⟨h3, h4⟩ := takeWhile_digits (u := suffix) (dropZeros_digits hf) (fun c hc => (hs1 c hc).1)
    have h5 : readFraction ('.' :: dropZeros f ++ suffix) = (dropZeros f, suffix) := by
      rw [List.cons_append, readFraction, if_pos rfl, h3, h4]
    unfold readUnsigned
    rw [show (w ++ '.' :: dropZeros f) ++ suffix = w ++ ('.' :: dropZeros f ++ suffix) by simp]
    simp only [h1, h2, h5, hs]
    rw [if_neg (by simp [hw0])]
    rfl

theorem exponentDigits_spec (n : ℕ) : Digits (exponentDigits n) ∧ exponentDigits n ≠ [] ∧ decimal (exponentDigits n) = n := by
  unfold exponentDigits
  split
  · rename_i h
    refine ⟨?_, by simp, ?_⟩
    · intro c hc
      simp only [List.mem_cons, List.not_mem_nil, or_false] at hc
      rcases hc with rfl | rfl
      · decide
      · exact digitChar_isDigit h
    · simp only [decimal, List.foldl_cons, List.foldl_nil]
      rw [digitChar_val h]
      simp
  · exact ⟨fun c hc => Nat.isDigit_of_mem_toDigits (by decide) (by decide) hc, by simp, decimal_toDigits n⟩

theorem readExponent_show (x : ℤ) :
    readExponent ('e' :: (if x < 0 then '-' else '+') :: exponentDigits x.natAbs) = some x := by
  obtain ⟨h1, h2, h3⟩ := exponentDigits_spec x.natAbs
  have h4 : readNatural (exponentDigits x.natAbs) = some x.natAbs := by
    rw [readNatural, if_pos ⟨h2, List.all_eq_true.mpr h1⟩, h3]
  rw [readExponent, if_pos (Or.inl rfl)]
  by_cases hx : x < 0
  · simp only [if_pos hx, if_true, h4, Option.map_some, Option.some.injEq]
    omega
  · simp only [if_neg hx, if_neg (show ¬ ('+' : Char) = '-' by decide), if_true, h4, Option.map_some, Option.some.injEq]
    omega

/-- The text of a positive number starts with a digit and holds its value. -/
theorem readUnsigned_show {q : ℚ} (hq : 0 < q) : readUnsigned (showPositive q) = some (shownPositive q) := by
  obtain ⟨hm1, hm2, _⟩ := sixDigits_spec hq
  set m := (sixDigits q).1 with hm
  set x := (sixDigits q).2 with hx
  have hd := sixChars_digits m
  have hlen : (sixChars m).length = 6 := rfl
  have hv : decimal (sixChars m) = m := decimal_sixChars hm2
  have htake : ∀ k, Digits ((sixChars m).take k) := fun k c hc => hd c (List.mem_of_mem_take hc)
  have hdrop : ∀ k, Digits ((sixChars m).drop k) := fun k c hc => hd c (List.mem_of_mem_drop hc)
  unfold showPositive
  simp only [← hm, ← hx]
  have goal : shownPositive q = (m : ℚ) * 10 ^ (x - 5) := rfl
  rw [goal]
  split
  · rename_i hr
    split
    · rename_i h0
      have := readUnsigned_text (w := (sixChars m).take (x.toNat + 1)) (f := (sixChars m).drop (x.toNat + 1)) (suffix := []) (x := 0)
        (htake _) (by
          intro h
          have := congrArg List.length h
          simp only [List.length_take, hlen, List.length_nil] at this
          omega) (hdrop _) rfl (by simp)
      rw [List.append_nil] at this
      rw [this, List.take_append_drop, hv]
      congr 3
      rw [List.length_drop, hlen]
      omega
    · rename_i h0
      have := readUnsigned_text (w := ['0']) (f := List.replicate (-x - 1).toNat '0' ++ sixChars m) (suffix := []) (x := 0)
        (by
          intro c hc
          rw [List.mem_singleton.mp hc]
          decide) (by simp)
        (Digits.append (fun c hc => by
          rw [List.eq_of_mem_replicate hc]
          decide) hd) rfl (by simp)
      rw [List.append_nil] at this
      rw [this]
      have h2 : decimal (['0'] ++ (List.replicate (-x - 1).toNat '0' ++ sixChars m)) = m := by
        rw [decimal_append, decimal_append, decimal_zeros, hv]
        simp [decimal]
      rw [h2, List.length_append, List.length_replicate, hlen]
      congr 3
      push_cast
      omega
  · rename_i hr
    have := readUnsigned_text (w := (sixChars m).take 1) (f := (sixChars m).drop 1)
      (suffix := 'e' :: (if x < 0 then '-' else '+') :: exponentDigits x.natAbs) (x := x) (htake _)
      (by
          intro h
          have := congrArg List.length h
          simp only [List.length_take, hlen, List.length_nil] at this
          omega) (hdrop _) (readExponent_show x) (by
        intro c hc
        simp only [List.head?_cons, Option.mem_def, Option.some.injEq] at hc
        subst hc
        decide)
    rw [this, List.take_append_drop, hv]
    congr 3

/-- The characters that printed numbers are made of. -/
def NumberChar (c : Char) : Prop := c.isDigit = true ∨ c = '.' ∨ c = 'e' ∨ c = '-' ∨ c = '+'

theorem withFraction_chars {w f : Text} (hw : Digits w) (hf : Digits f) : ∀ c ∈ withFraction w f, NumberChar c := by
  intro c hc
  unfold withFraction at hc
  split at hc
  · exact Or.inl (hw c hc)
  · rcases List.mem_append.mp hc with h | h
    · exact Or.inl (hw c h)
    · rcases List.mem_cons.mp h with rfl | h
      · exact Or.inr (Or.inl rfl)
      · exact Or.inl (dropZeros_digits hf c h)

theorem withFraction_head {w f : Text} (hw : Digits w) (hw0 : w ≠ []) : ∃ c s, withFraction w f = c :: s ∧ c.isDigit = true := by
  cases w with
  | nil => exact absurd rfl hw0
  | cons c w =>
    refine ⟨c, ?_⟩
    unfold withFraction
    split
    · exact ⟨w, rfl, hw c (by simp)⟩
    · exact ⟨_, rfl, hw c (by simp)⟩

theorem showPositive_text {q : ℚ} :
    (∃ c s, showPositive q = c :: s ∧ c.isDigit = true) ∧ ∀ c ∈ showPositive q, NumberChar c := by
  have hd := sixChars_digits (sixDigits q).1
  have hlen : (sixChars (sixDigits q).1).length = 6 := rfl
  have htake : ∀ k, Digits ((sixChars (sixDigits q).1).take k) := fun k c hc => hd c (List.mem_of_mem_take hc)
  have htake0 : ∀ k, (sixChars (sixDigits q).1).take (k + 1) ≠ [] := by
    intro k h
    have := congrArg List.length h
    simp only [List.length_take, hlen, List.length_nil] at this
    omega
  have hdrop : ∀ k, Digits ((sixChars (sixDigits q).1).drop k) := fun k c hc => hd c (List.mem_of_mem_drop hc)
  have h0 : Digits ['0'] := by
    intro c hc
    rw [List.mem_singleton.mp hc]
    decide
  have hz : Digits (List.replicate (-(sixDigits q).2 - 1).toNat '0' ++ sixChars (sixDigits q).1) :=
    Digits.append (fun c hc => by
      rw [List.eq_of_mem_replicate hc]
      decide) hd
  unfold showPositive
  simp only []
  split
  · split
    · exact ⟨withFraction_head (htake _) (htake0 _), withFraction_chars (htake _) (hdrop _)⟩
    · exact ⟨withFraction_head h0 (by simp), withFraction_chars h0 hz⟩
  · constructor
    · obtain ⟨c, s, h1, h2⟩ := withFraction_head (f := (sixChars (sixDigits q).1).drop 1) (htake 1) (htake0 0)
      rw [h1]
      exact ⟨c, _, rfl, h2⟩
    · intro c hc
      rcases List.mem_append.mp hc with h | h
      · exact withFraction_chars (htake _) (hdrop _) c h
      · rcases List.mem_cons.mp h with rfl | h
        · exact Or.inr (Or.inr (Or.inl rfl))
        · rcases List.mem_cons.mp h with rfl | h
          · split
            · exact Or.inr (Or.inr (Or.inr (Or.inl rfl)))
            · exact Or.inr (Or.inr (Or.inr (Or.inr rfl)))
          · exact Or.inl ((exponentDigits_spec _).1 c h)

theorem numberChar_notSpace {c : Char} (h : NumberChar c) : isSpace c = false := by
  rcases h with h | rfl | rfl | rfl | rfl
  · have h1 : 48 ≤ c.toNat := by
      simp only [Char.isDigit, Bool.and_eq_true, decide_eq_true_eq] at h
      exact h.1
    simp only [isSpace, Bool.or_eq_false_iff, beq_eq_false_iff_ne]
    refine ⟨⟨⟨⟨⟨?_, ?_⟩, ?_⟩, ?_⟩, ?_⟩, ?_⟩ <;>
      · rintro rfl
        revert h1
        decide
  all_goals decide

/-- Not empty, no blank. -/
def Plain (t : Text) : Prop := t ≠ [] ∧ ∀ c ∈ t, isSpace c = false

theorem showScore_plain (s : F64) : Plain (showScore s) := by
  rcases s with _ | b | q
  · constructor <;> decide
  · cases b <;> constructor <;> decide
  · obtain ⟨⟨c, t, h1, _⟩, h2⟩ := showPositive_text (q := q)
    obtain ⟨⟨c', t', h1', _⟩, h2'⟩ := showPositive_text (q := -q)
    rw [showScore]
    split
    · constructor <;> decide
    · split
      · refine ⟨by simp, fun c hc => ?_⟩
        rcases List.mem_cons.mp hc with rfl | hc
        · decide
        · exact numberChar_notSpace (h2' c hc)
      · refine ⟨by rw [h1]; simp, fun c hc => numberChar_notSpace (h2 c hc)⟩

theorem trim_plain {t : Text} (h : ∀ c ∈ t, isSpace c = false) : trim t = t := by
  have drop : ∀ u : Text, (∀ c ∈ u, isSpace c = false) → u.dropWhile isSpace = u := by
    intro u hu
    cases u with
    | nil => rfl
    | cons c u => simp [hu c (by simp)]
  unfold trim
  rw [drop t h, drop t.reverse (fun c hc => h c (List.mem_reverse.mp hc)), List.reverse_reverse]

/-- What Python gets back for a score: the double nearest to the printed number. -/
def readBack (near : ℚ → F64) : F64 → F64
  | .nan => .nan
  | .inf s => .inf s
  | .num q => if q < 0 then (near (-shown q)).neg else near (shown q)

theorem digit_notSign {c : Char} (h : c.isDigit = true) : c ≠ '-' ∧ c ≠ '+' ∧ c ≠ 'n' ∧ c ≠ 'i' := by
  refine ⟨?_, ?_, ?_, ?_⟩ <;>
    · rintro rfl
      revert h
      decide

theorem readMagnitude_show (near : ℚ → F64) {q : ℚ} (hq : 0 < q) :
    readMagnitude near (showPositive q) = some (near (shownPositive q)) := by
  obtain ⟨⟨c, s, h1, h2⟩, _⟩ := showPositive_text (q := q)
  obtain ⟨_, _, h3, h4⟩ := digit_notSign h2
  unfold readMagnitude
  rw [if_neg (by rw [h1]; intro h; exact h3 (List.cons.inj h).1), if_neg (by rw [h1]; intro h; exact h4 (List.cons.inj h).1),
    readUnsigned_show hq]
  rfl

theorem readFloat_show (near : ℚ → F64) (s : F64) : readFloat near (showScore s) = some (readBack near s) := by
  unfold readFloat
  rw [trim_plain (showScore_plain s).2]
  rcases s with _ | b | q
  · rfl
  · cases b <;> rfl
  · rw [showScore, readBack, shown]
    split <;> rename_i hx
    · split at hx
      · cases hx
      · rename_i h0
        split at hx
        · cases hx
        · obtain ⟨⟨c, t, h1, _⟩, _⟩ := showPositive_text (q := q)
          rw [h1] at hx
          cases hx
    · rename_i c s
      by_cases h0 : q = 0
      · rw [if_pos h0] at hx
        obtain ⟨rfl, rfl⟩ := List.cons.inj hx
        subst h0
        rw [if_neg (by decide), if_neg (by decide), if_neg (by decide), if_pos rfl]
        have : readUnsigned ['0'] = some 0 := by decide +kernel
        unfold readMagnitude
        rw [if_neg (by decide), if_neg (by decide), this]
        rfl
      · rw [if_neg h0] at hx ⊢
        by_cases hneg : q < 0
        · rw [if_pos hneg] at hx ⊢
          obtain ⟨rfl, rfl⟩ := List.cons.inj hx
          rw [if_pos rfl, if_pos hneg, neg_neg, readMagnitude_show near (by linarith)]
          rfl
        · rw [if_neg hneg] at hx ⊢
          rw [if_neg hneg]
          obtain ⟨⟨c', s', h1, h2⟩, _⟩ := showPositive_text (q := q)
          rw [h1] at hx
          obtain ⟨rfl, rfl⟩ := List.cons.inj hx
          obtain ⟨h3, h4, _⟩ := digit_notSign h2
          rw [if_neg h3, if_neg h4, ← h1, readMagnitude_show near (lt_of_le_of_ne (not_lt.mp hneg) (Ne.symm h0))]

theorem getLines_plain {t : Text} (h : ∀ c ∈ t, isSpace c = false) : getLines t = [t] := by
  induction t with
  | nil => rfl
  | cons c t ih =>
    have hc : c ≠ '\n' := by
      rintro rfl
      exact absurd (h '\n' (by simp)) (by decide)
    rw [getLines, if_neg hc, ih (fun x hx => h x (by simp [hx]))]

theorem getLines_cut {t u : Text} (h : ∀ c ∈ t, isSpace c = false) : getLines (t ++ '\n' :: u) = t :: getLines u := by
  induction t with
  | nil => simp [getLines]
  | cons c t ih =>
    have hc : c ≠ '\n' := by
      rintro rfl
      exact absurd (h '\n' (by simp)) (by decide)
    rw [List.cons_append, getLines, if_neg hc, ih (fun x hx => h x (by simp [hx]))]

theorem getLines_scoreText (s : F64) (l : List F64) : getLines (scoreText (s :: l)) = (s :: l).map showScore := by
  induction l generalizing s with
  | nil => exact getLines_plain (showScore_plain s).2
  | cons s' l ih =>
    rw [scoreText, getLines_cut (showScore_plain s).2, ih]
    · rfl
    · simp

theorem readScores_scoreText (near : ℚ → F64) (l : List F64) : readScores near (scoreText l) = some (l.map (readBack near)) := by
  cases l with
  | nil => rfl
  | cons s l =>
    unfold readScores
    rw [getLines_scoreText]
    generalize s :: l = ss
    have h1 : (ss.map showScore).filter (fun t => !(trim t).isEmpty) = ss.map showScore := by
      rw [List.filter_eq_self]
      intro t ht
      obtain ⟨s, _, rfl⟩ := List.mem_map.mp ht
      obtain ⟨h1, h2⟩ := showScore_plain s
      rw [trim_plain h2]
      cases h : showScore s with
      | nil => exact absurd h h1
      | cons => rfl
    rw [h1]
    induction ss with
    | nil => rfl
    | cons s ss ih =>
      have ih' := ih (by
        rw [List.filter_eq_self]
        intro t ht
        exact (List.filter_eq_self.mp h1) t (List.mem_cons_of_mem _ ht))
      simp only [List.map_cons, List.mapM_cons, readFloat_show]
      rw [ih']
      rfl

end Gbdt
