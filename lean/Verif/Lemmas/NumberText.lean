import Verif.Model.NumberText
import Verif.Lemmas.ScoreText
import Verif.Lemmas.Ieee
import Verif.Lemmas.Binary32
import Verif.Lemmas.Accuracy

/-! # Numbers with enough digits are read back exactly -/

set_option autoImplicit false

namespace Gbdt

/-! ## Binary numbers are far apart -/

theorem binary_gap_le {p : ℕ} {n m k j : ℤ} (hm : |m| < 2 ^ p) (hkj : j ≤ k) (hne : (n : ℚ) * 2 ^ k ≠ m * 2 ^ j) :
    |(n : ℚ) * 2 ^ k| ≤ 2 ^ p * |(n : ℚ) * 2 ^ k - m * 2 ^ j| := by
  obtain ⟨i, hi⟩ := Int.eq_ofNat_of_zero_le (sub_nonneg.mpr hkj)
  have hx : (n : ℚ) * 2 ^ k = ((n * 2 ^ i : ℤ) : ℚ) * 2 ^ j := by
    rw [show k = (i : ℤ) + j by omega, zpow_add₀ (by norm_num), zpow_natCast]
    push_cast
    ring
  rw [hx] at hne ⊢
  rw [← sub_mul, abs_mul, abs_mul, abs_of_pos (twos j), ← mul_assoc]
  refine mul_le_mul_of_nonneg_right ?_ (twos j).le
  set X : ℤ := n * 2 ^ i with hX
  have hXm : X ≠ m := fun h => hne (by rw [h])
  have h1 : 1 ≤ |X - m| := Int.one_le_abs (sub_ne_zero.mpr hXm)
  have h2 : |X| ≤ |X - m| + |m| := by
    calc |X| = |(X - m) + m| := by rw [sub_add_cancel]
      _ ≤ _ := abs_add_le _ _
  have hp1 : (1 : ℤ) ≤ 2 ^ p := one_le_pow₀ (by norm_num)
  have h3 : |X| ≤ 2 ^ p * |X - m| := by nlinarith
  have : ((|X| : ℤ) : ℚ) ≤ ((2 ^ p * |X - m| : ℤ) : ℚ) := by exact_mod_cast h3
  push_cast at this
  exact this

/-- Two different numbers with `p` bits differ by at least the `2 ^ p`-th part of each. -/
theorem Binary.gap {p sub : ℕ} {x y : ℚ} (hx : Binary p sub x) (hy : Binary p sub y) (hne : x ≠ y) : |x| ≤ 2 ^ p * |x - y| := by
  obtain ⟨n, k, hn, _, rfl⟩ := hx
  obtain ⟨m, j, hm, _, rfl⟩ := hy
  rcases le_or_gt j k with h | h
  · exact binary_gap_le hm h hne
  · obtain ⟨i, hi⟩ := Int.eq_ofNat_of_zero_le (sub_nonneg.mpr h.le)
    have hy : (m : ℚ) * 2 ^ j = ((m * 2 ^ i : ℤ) : ℚ) * 2 ^ k := by
      rw [show j = (i : ℤ) + k by omega, zpow_add₀ (by norm_num), zpow_natCast]
      push_cast
      ring
    rw [hy] at hne ⊢
    rw [← sub_mul, abs_mul, abs_mul, abs_of_pos (twos k), ← mul_assoc]
    refine mul_le_mul_of_nonneg_right ?_ (twos k).le
    have h1 : 1 ≤ |n - m * 2 ^ i| := Int.one_le_abs (sub_ne_zero.mpr (fun h => hne (by rw [h])))
    have h3 : |n| ≤ 2 ^ p * |n - m * 2 ^ i| := by
      have : (0 : ℤ) < 2 ^ p := by positivity
      nlinarith
    have : ((|n| : ℤ) : ℚ) ≤ ((2 ^ p * |n - m * 2 ^ i| : ℤ) : ℚ) := by exact_mod_cast h3
    push_cast at this ⊢
    exact this

/-- What is close to a binary number is rounded to it. -/
theorem roundRat_close {p sub : ℕ} (hp : 1 ≤ p) {x d : ℚ} (hx : Binary p sub x) (h : 2 ^ p * (2 * |d - x|) < |x|) : roundRat p sub d = x := by
  by_contra hne
  obtain ⟨hr, hn⟩ := (roundRat_nearest (sub := sub) hp d).1
  have h1 := hn x hx
  have h2 := hx.gap hr (Ne.symm hne)
  have h3 : |x - roundRat p sub d| ≤ |d - x| + |d - roundRat p sub d| := by
    rw [abs_sub_comm d x]
    calc |x - roundRat p sub d| = |(x - d) + (d - roundRat p sub d)| := by ring_nf
      _ ≤ _ := abs_add_le _ _
  have hp0 : (0 : ℚ) < 2 ^ p := by positivity
  have h4 : (2 : ℚ) ^ p * |x - roundRat p sub d| ≤ 2 ^ p * (2 * |d - x|) := mul_le_mul_of_nonneg_left (by linarith) hp0.le
  linarith

/-! ## Digits -/

/-- The value of the digits of a positive number. -/
def shownDigits (n : ℕ) (q : ℚ) : ℚ := (someDigits n q).1 * 10 ^ ((someDigits n q).2 - ((n : ℤ) - 1))

theorem someDigits_spec {n : ℕ} (hn : 1 ≤ n) {q : ℚ} (hq : 0 < q) :
    10 ^ (n - 1) ≤ (someDigits n q).1 ∧ (someDigits n q).1 < 10 ^ n ∧ 10 ^ (n - 1) * (2 * |shownDigits n q - q|) ≤ q := by
  set e := Int.log 10 q with he
  have hlo : (10 : ℚ) ^ e ≤ q := by
    have := Int.zpow_log_le_self (b := 10) (by norm_num) hq
    simpa using this
  have hhi : q < (10 : ℚ) ^ (e + 1) := by
    have := Int.lt_zpow_succ_log_self (b := 10) (by norm_num) q
    simpa using this
  set s : ℚ := 10 ^ ((n : ℤ) - 1 - e) with hs
  have hs0 : 0 < s := tens _
  have hn1 : ((n - 1 : ℕ) : ℤ) = (n : ℤ) - 1 := by omega
  have hse : (10 : ℚ) ^ e * s = 10 ^ (n - 1) := by
    rw [hs, ← zpow_add₀ (by norm_num), ← zpow_natCast, hn1]
    congr 1
    ring
  have hten : (10 : ℚ) ^ n = 10 * 10 ^ (n - 1) := by
    rw [← pow_succ']
    congr 1
    omega
  have htenN : 10 ^ n = 10 * 10 ^ (n - 1) := by
    rw [← pow_succ']
    congr 1
    omega
  have hse1 : (10 : ℚ) ^ (e + 1) * s = 10 ^ n := by
    rw [zpow_add₀ (by norm_num), zpow_one, hten]
    linarith
  set x : ℚ := q * s with hx
  have hx0 : 0 < x := mul_pos hq hs0
  have hx1 : 10 ^ (n - 1) ≤ x := by
    rw [← hse]
    exact mul_le_mul_of_nonneg_right hlo hs0.le
  have hx2 : x < 10 ^ n := by
    rw [← hse1]
    exact mul_lt_mul_of_pos_right hhi hs0
  have hnum : ((x.num.natAbs : ℕ) : ℚ) / x.den = x := by
    have h1 : ((x.num.natAbs : ℕ) : ℚ) = (x.num : ℚ) := by
      have : ((x.num.natAbs : ℕ) : ℤ) = x.num := Int.natAbs_of_nonneg (Rat.num_nonneg.mpr hx0.le)
      rw [← Int.cast_natCast (R := ℚ), this]
    rw [h1]
    exact Rat.num_div_den x
  set m := roundDiv x.num.natAbs x.den with hm
  have hnear : ∀ z : ℤ, |x - m| ≤ |x - z| := by
    intro z
    have := roundDiv_nearest (a := x.num.natAbs) x.den_pos z
    rwa [hnum] at this
  have hhalf : 2 * |x - m| ≤ 1 := by
    have h1 := hnear ⌊x⌋
    have h2 := hnear (⌊x⌋ + 1)
    have f1 := Int.floor_le x
    have f2 := Int.lt_floor_add_one x
    push_cast at h2
    rw [abs_of_nonneg (a := x - ⌊x⌋) (by linarith)] at h1
    rw [abs_of_nonpos (a := x - (⌊x⌋ + 1)) (by linarith)] at h2
    linarith
  have hm1 : 10 ^ (n - 1) ≤ m := by
    by_contra hlt
    have h1 : (m : ℚ) + 1 ≤ 10 ^ (n - 1) := by exact_mod_cast (by omega : m + 1 ≤ 10 ^ (n - 1))
    have h2 := hnear (10 ^ (n - 1))
    rw [abs_of_nonneg (by linarith), abs_of_nonneg (by push_cast; linarith)] at h2
    push_cast at h2
    linarith
  have hm2 : m ≤ 10 ^ n := by
    by_contra hlt
    have h1 : (10 : ℚ) ^ n + 1 ≤ m := by exact_mod_cast (by omega : 10 ^ n + 1 ≤ m)
    have h2 := hnear (10 ^ n)
    rw [abs_of_nonpos (by linarith), abs_of_nonpos (by push_cast; linarith)] at h2
    push_cast at h2
    linarith
  have hval : shownDigits n q = m * 10 ^ (e - ((n : ℤ) - 1)) := by
    unfold shownDigits someDigits
    simp only [← he, ← hs, ← hx, ← hm]
    split
    · rename_i h
      rw [h, show e + 1 - ((n : ℤ) - 1) = (e - ((n : ℤ) - 1)) + 1 by ring, zpow_add₀ (by norm_num), zpow_one]
      push_cast
      rw [hten]
      ring
    · rfl
  have hinv : s * 10 ^ (e - ((n : ℤ) - 1)) = 1 := by
    rw [hs, ← zpow_add₀ (by norm_num), show (n : ℤ) - 1 - e + (e - ((n : ℤ) - 1)) = 0 by ring, zpow_zero]
  have h10 : (0 : ℕ) < 10 ^ (n - 1) := by positivity
  refine ⟨?_, ?_, ?_⟩
  · unfold someDigits
    simp only [← he, ← hs, ← hx, ← hm]
    split
    · exact le_rfl
    · exact hm1
  · unfold someDigits
    simp only [← he, ← hs, ← hx, ← hm]
    split
    · simp only
      omega
    · simp only
      omega
  · have h1 : shownDigits n q - q = -(x - m) * 10 ^ (e - ((n : ℤ) - 1)) := by
      have : q = x * 10 ^ (e - ((n : ℤ) - 1)) := by rw [hx, mul_assoc, hinv, mul_one]
      rw [hval]
      conv_lhs => rw [this]
      ring
    rw [h1, abs_mul, abs_neg, abs_of_pos (tens _)]
    have hu := tens (e - ((n : ℤ) - 1))
    calc (10 : ℚ) ^ (n - 1) * (2 * (|x - m| * 10 ^ (e - ((n : ℤ) - 1))))
        = (2 * |x - m|) * (10 ^ (n - 1) * 10 ^ (e - ((n : ℤ) - 1))) := by ring
      _ ≤ 1 * (10 ^ (n - 1) * 10 ^ (e - ((n : ℤ) - 1))) := mul_le_mul_of_nonneg_right hhalf (by positivity)
      _ = 10 ^ e := by
        rw [one_mul, ← zpow_natCast, hn1, ← zpow_add₀ (by norm_num)]
        congr 1
        ring
      _ ≤ q := hlo

/-! ## Text -/

theorem toDigits_digits (m : ℕ) : Digits (Nat.toDigits 10 m) := fun _ hc => Nat.isDigit_of_mem_toDigits (by decide) (by decide) hc

theorem toDigits_length {n m : ℕ} (hn : 2 ≤ n) (h1 : 10 ^ (n - 1) ≤ m) (h2 : m < 10 ^ n) : (Nat.toDigits 10 m).length = n := by
  have a := (Nat.length_toDigits_le_iff (b := 10) (n := m) (k := n) (by decide) (by omega)).mpr h2
  have b : ¬ (Nat.toDigits 10 m).length ≤ n - 1 := fun h =>
    absurd ((Nat.length_toDigits_le_iff (b := 10) (n := m) (k := n - 1) (by decide) (by omega)).mp h) (by omega)
  omega

/-- The text of a positive number holds the value of its digits. -/
theorem readUnsigned_digits {n : ℕ} (hn : 2 ≤ n) {q : ℚ} (hq : 0 < q) : readUnsigned (showDigits n q) = some (shownDigits n q) := by
  obtain ⟨hm1, hm2, _⟩ := someDigits_spec (by omega : 1 ≤ n) hq
  set m := (someDigits n q).1 with hm
  set x := (someDigits n q).2 with hx
  have hd := toDigits_digits m
  have hlen := toDigits_length hn hm1 hm2
  have hv : decimal (Nat.toDigits 10 m) = m := decimal_toDigits m
  have htake : ∀ k, Digits ((Nat.toDigits 10 m).take k) := fun k c hc => hd c (List.mem_of_mem_take hc)
  have hdrop : ∀ k, Digits ((Nat.toDigits 10 m).drop k) := fun k c hc => hd c (List.mem_of_mem_drop hc)
  unfold showDigits
  simp only [← hm, ← hx]
  have goal : shownDigits n q = (m : ℚ) * 10 ^ (x - ((n : ℤ) - 1)) := rfl
  rw [goal]
  split
  · rename_i hr
    split
    · rename_i h0
      have := readUnsigned_text (w := (Nat.toDigits 10 m).take (x.toNat + 1)) (f := (Nat.toDigits 10 m).drop (x.toNat + 1)) (suffix := []) (x := 0)
        (htake _) (by
          intro h
          have := congrArg List.length h
          simp only [List.length_take, hlen, List.length_nil] at this
          omega) (hdrop _) rfl (by simp)
      rw [List.append_nil] at this
      rw [this, List.take_append_drop, hv]
      congr 3
      rw [List.length_drop, hlen]
      omega
    · rename_i h0
      have := readUnsigned_text (w := ['0']) (f := List.replicate (-x - 1).toNat '0' ++ Nat.toDigits 10 m) (suffix := []) (x := 0)
        (by
          intro c hc
          rw [List.mem_singleton.mp hc]
          decide) (by simp)
        (Digits.append (fun c hc => by
          rw [List.eq_of_mem_replicate hc]
          decide) hd) rfl (by simp)
      rw [List.append_nil] at this
      rw [this]
      have h2 : decimal (['0'] ++ (List.replicate (-x - 1).toNat '0' ++ Nat.toDigits 10 m)) = m := by
        rw [decimal_append, decimal_append, decimal_zeros, hv]
        simp [decimal]
      rw [h2, List.length_append, List.length_replicate, hlen]
      congr 3
      push_cast
      omega
  · rename_i hr
    have := readUnsigned_text (w := (Nat.toDigits 10 m).take 1) (f := (Nat.toDigits 10 m).drop 1)
      (suffix := 'e' :: (if x < 0 then '-' else '+') :: exponentDigits x.natAbs) (x := x) (htake _)
      (by
          intro h
          have := congrArg List.length h
          simp only [List.length_take, hlen, List.length_nil] at this
          omega) (hdrop _) (readExponent_show x) (by
        intro c hc
        simp only [List.head?_cons, Option.mem_def, Option.some.injEq] at hc
        subst hc
        decide)
    rw [this, List.take_append_drop, hv, List.length_drop, hlen]
    congr 3
    omega

theorem showDigits_text (n : ℕ) (q : ℚ) :
    (∃ c s, showDigits n q = c :: s ∧ c.isDigit = true) ∧ ∀ c ∈ showDigits n q, NumberChar c := by
  have hd := toDigits_digits (someDigits n q).1
  have htake : ∀ k, Digits ((Nat.toDigits 10 (someDigits n q).1).take k) := fun k c hc => hd c (List.mem_of_mem_take hc)
  have htake0 : ∀ k, (Nat.toDigits 10 (someDigits n q).1).take (k + 1) ≠ [] := by
    intro k h
    rcases List.take_eq_nil_iff.mp h with h | h
    · omega
    · exact Nat.toDigits_ne_nil h
  have hdrop : ∀ k, Digits ((Nat.toDigits 10 (someDigits n q).1).drop k) := fun k c hc => hd c (List.mem_of_mem_drop hc)
  have h0 : Digits ['0'] := by
    intro c hc
    rw [List.mem_singleton.mp hc]
    decide
  have hz : Digits (List.replicate (-(someDigits n q).2 - 1).toNat '0' ++ Nat.toDigits 10 (someDigits n q).1) :=
    Digits.append (fun c hc => by
      rw [List.eq_of_mem_replicate hc]
      decide) hd
  unfold showDigits
  simp only []
  split
  · split
    · exact ⟨withFraction_head (htake _) (htake0 _), withFraction_chars (htake _) (hdrop _)⟩
    · exact ⟨withFraction_head h0 (by simp), withFraction_chars h0 hz⟩
  · constructor
    · obtain ⟨c, s, h1, h2⟩ := withFraction_head (f := (Nat.toDigits 10 (someDigits n q).1).drop 1) (htake 1) (htake0 0)
      rw [h1]
      exact ⟨c, _, rfl, h2⟩
    · intro c hc
      rcases List.mem_append.mp hc with h | h
      · exact withFraction_chars (htake _) (hdrop _) c h
      · rcases List.mem_cons.mp h with rfl | h
        · exact Or.inr (Or.inr (Or.inl rfl))
        · rcases List.mem_cons.mp h with rfl | h
          · split
            · exact Or.inr (Or.inr (Or.inr (Or.inl rfl)))
            · exact Or.inr (Or.inr (Or.inr (Or.inr rfl)))
          · exact Or.inl ((exponentDigits_spec _).1 c h)

theorem showNumber_text (n : ℕ) (q : ℚ) : showNumber n q ≠ [] ∧ ∀ c ∈ showNumber n q, NumberChar c := by
  unfold showNumber
  split
  · refine ⟨by simp, fun c hc => ?_⟩
    rw [List.mem_singleton.mp hc]
    exact Or.inl (by decide)
  split
  · refine ⟨by simp, fun c hc => ?_⟩
    rcases List.mem_cons.mp hc with rfl | hc
    · exact Or.inr (Or.inr (Or.inr (Or.inl rfl)))
    · exact (showDigits_text n (-q)).2 c hc
  · obtain ⟨⟨c, s, h, _⟩, h2⟩ := showDigits_text n q
    exact ⟨by rw [h]; simp, h2⟩

/-- The text of a number stands for a number that is close. -/
theorem readNumber_show {n : ℕ} (hn : 2 ≤ n) (q : ℚ) : ∃ d, readNumber (showNumber n q) = some d ∧ 10 ^ (n - 1) * (2 * |d - q|) ≤ |q| := by
  unfold showNumber
  split
  · rename_i h
    subst h
    refine ⟨0, ?_, by simp⟩
    decide +kernel
  split
  · rename_i _ hneg
    have hpos : 0 < -q := by linarith
    refine ⟨-shownDigits n (-q), ?_, ?_⟩
    · rw [readNumber, if_pos rfl, readUnsigned_digits hn hpos]
      rfl
    · have := (someDigits_spec (by omega : 1 ≤ n) hpos).2.2
      rw [abs_of_neg hneg, show -shownDigits n (-q) - q = -(shownDigits n (-q) - -q) by ring, abs_neg]
      exact this
  · rename_i h0 hneg
    have hpos : 0 < q := lt_of_le_of_ne (not_lt.mp hneg) (Ne.symm h0)
    obtain ⟨⟨c, s, hc, hd⟩, _⟩ := showDigits_text n q
    refine ⟨shownDigits n q, ?_, ?_⟩
    · have := readUnsigned_digits hn hpos
      rw [hc] at this ⊢
      rw [readNumber, if_neg (digit_notSign hd).1, this]
    · rw [abs_of_pos hpos]
      exact (someDigits_spec (by omega : 1 ≤ n) hpos).2.2

end Gbdt
