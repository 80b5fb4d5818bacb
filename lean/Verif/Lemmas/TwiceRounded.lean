import Verif.Lemmas.NumberText

/-! # Rounding a short decimal to a double first does not change the float it is rounded to -/

set_option autoImplicit false

namespace Gbdt

theorem closer_le {d q r : ℚ} (hlt : q < r) (h : |d - q| ≤ |d - r|) : d ≤ (q + r) / 2 := by
  by_contra hd
  have := sq_le_sq.mpr h
  nlinarith [not_le.mp hd]

theorem closer_ge {d q r : ℚ} (hlt : q < r) (h : |d - r| ≤ |d - q|) : (q + r) / 2 ≤ d := by
  by_contra hd
  have := sq_le_sq.mpr h
  nlinarith [not_le.mp hd]

/-- A binary number is a multiple of the unit of its last bit. -/
theorem Binary.multiple {p sub : ℕ} {x : ℚ} (h : Binary p sub x) {e : ℤ} (he : 2 ^ e ≤ x) : ∃ A : ℤ, x = A * 2 ^ (e - p + 1) := by
  obtain ⟨n, k, hn, _, rfl⟩ := h
  have hnq : (n : ℚ) < 2 ^ (p : ℤ) := by
    rw [zpow_natCast]
    exact_mod_cast lt_of_le_of_lt (le_abs_self n) hn
  have h1 : (2 : ℚ) ^ e < 2 ^ ((p : ℤ) + k) := by
    rw [zpow_add₀ (by norm_num)]
    exact lt_of_le_of_lt he (mul_lt_mul_of_pos_right hnq (twos k))
  have h2 : e < (p : ℤ) + k := (zpow_lt_zpow_iff_right₀ (by norm_num)).mp h1
  obtain ⟨i, hi⟩ := Int.eq_ofNat_of_zero_le (show 0 ≤ k - (e - p + 1) by omega)
  refine ⟨n * 2 ^ i, ?_⟩
  rw [show k = (i : ℤ) + (e - p + 1) by omega, zpow_add₀ (by norm_num), zpow_natCast]
  push_cast
  ring

theorem int_far {z : ℤ} (h : (z : ℚ) ≠ 0) : 1 ≤ |(z : ℚ)| := by
  have : z ≠ 0 := by exact_mod_cast h
  exact_mod_cast Int.one_le_abs this

/-- A decimal of at most `10 ^ 6` units of the twelfth place, or of a place before it. -/
theorem twice_rounded {m a : ℕ} (hm0 : 0 < m) (hm : m ≤ 10 ^ 6) (ha : a ≤ 12) :
    roundRat 24 149 (roundRat 53 1074 ((m : ℚ) / 10 ^ a)) = roundRat 24 149 ((m : ℚ) / 10 ^ a) := by
  set d : ℚ := (m : ℚ) / 10 ^ a with hd
  have hmq : (1 : ℚ) ≤ m := by exact_mod_cast hm0
  have hmq2 : (m : ℚ) ≤ 10 ^ 6 := by exact_mod_cast hm
  have hten0 : (0 : ℚ) < 10 ^ a := by positivity
  have hd0 : 0 < d := by positivity
  have hdm : d * 10 ^ a = m := by rw [hd]; field_simp
  have hdlo : (2 : ℚ) ^ (-40 : ℤ) ≤ d := by
    have h1 : (10 : ℚ) ^ a ≤ 10 ^ 12 := pow_le_pow_right₀ (by norm_num) ha
    rw [hd, le_div_iff₀ hten0]
    calc (2 : ℚ) ^ (-40 : ℤ) * 10 ^ a ≤ 2 ^ (-40 : ℤ) * 10 ^ 12 := mul_le_mul_of_nonneg_left h1 (by positivity)
      _ ≤ 1 := by norm_num
      _ ≤ m := hmq
  set e := Int.log 2 d with he
  have hlo : (2 : ℚ) ^ e ≤ d := by
    have := Int.zpow_log_le_self (b := 2) (by norm_num) hd0
    simpa using this
  have hhi : d < (2 : ℚ) ^ (e + 1) := by
    have := Int.lt_zpow_succ_log_self (b := 2) (by norm_num) d
    simpa using this
  have he40 : -41 < e := by
    have : (2 : ℚ) ^ (-40 : ℤ) < 2 ^ (e + 1) := lt_of_le_of_lt hdlo hhi
    have := (zpow_lt_zpow_iff_right₀ (by norm_num : (1 : ℚ) < 2)).mp this
    omega
  obtain ⟨N53, E53⟩ := roundRat_nearest (p := 53) (sub := 1074) (by norm_num) d
  set d' := roundRat 53 1074 d with hd'
  have N24 := (roundRat_nearest (p := 24) (sub := 149) (by norm_num) d).1
  have N24' := (roundRat_nearest (p := 24) (sub := 149) (by norm_num) d').1
  set q := roundRat 24 149 d with hq
  set q' := roundRat 24 149 d' with hq'
  have herr : |d - d'| ≤ d / 2 ^ 53 := by
    have h1 : (2 : ℚ) ^ (((53 : ℕ) : ℤ) - 1 - ((1074 : ℕ) : ℤ)) ≤ |d| := by
      rw [abs_of_pos hd0]
      refine le_trans (zpow_le_zpow_right₀ (by norm_num) ?_) hdlo
      norm_num
    have := E53 h1
    rwa [abs_of_pos hd0] at this
  have bin : ∀ {p sub : ℕ} (k : ℤ), 1 ≤ p → -(sub : ℤ) ≤ k → Binary p sub (2 ^ k) := fun {p sub} k hp hk =>
    ⟨1, k, by rw [abs_one]; exact one_lt_pow₀ (by norm_num) (by omega), hk, by push_cast; ring⟩
  have b24 : ∀ k : ℤ, -41 < k → Binary 24 149 ((2 : ℚ) ^ k) := fun k hk => bin k (by norm_num) (by push_cast; omega)
  have b53 : ∀ k : ℤ, -41 < k → Binary 53 1074 ((2 : ℚ) ^ k) := fun k hk => bin k (by norm_num) (by push_cast; omega)
  have l1 := N24.le_mono (b24 e he40) hlo
  have l2 := N53.le_mono (b53 e he40) hlo
  have l3 := N24'.le_mono (b24 e he40) l2
  have u1 := N24.mono_le (b24 (e + 1) (by omega)) hhi.le
  have u2 := N53.mono_le (b53 (e + 1) (by omega)) hhi.le
  have u3 := N24'.mono_le (b24 (e + 1) (by omega)) u2
  obtain ⟨A, hA⟩ := N24.1.multiple l1
  obtain ⟨B, hB⟩ := N24'.1.multiple l3
  by_contra hne
  set M := (q + q') / 2 with hM
  have hclose : |d - M| ≤ d / 2 ^ 53 := by
    refine le_trans ?_ herr
    rcases lt_or_gt_of_ne hne with h | h
    · -- `q' < q`
      have h1 := closer_ge h (N24.2 q' N24'.1)
      have h2 := closer_le h (N24'.2 q N24.1)
      rw [add_comm q' q, ← hM] at h1 h2
      rw [abs_of_nonneg (by linarith), abs_of_nonneg (by linarith)]
      linarith
    · have h1 := closer_le h (N24.2 q' N24'.1)
      have h2 := closer_ge h (N24'.2 q N24.1)
      rw [← hM] at h1 h2
      rw [abs_of_nonpos (by linarith), abs_of_nonpos (by linarith)]
      linarith
  have hMC : M = ((A + B : ℤ) : ℚ) * 2 ^ (e - 24) := by
    rw [hM, hA, hB, show e - 24 = (e - ((24 : ℕ) : ℤ) + 1) + (-1) by push_cast; ring, zpow_add₀ (by norm_num) _ (-1 : ℤ), zpow_neg_one]
    push_cast
    ring
  rcases eq_or_ne d M with hdM | hdM
  · -- exactly halfway: the decimal is a double
    have hb : Binary 53 1074 d := by
      refine ⟨A + B, e - 24, ?_, by push_cast; omega, by rw [hdM, hMC]⟩
      have h1 : ((A + B : ℤ) : ℚ) * 2 ^ (e - 24) < 2 ^ (25 : ℤ) * 2 ^ (e - 24) := by
        rw [← hMC, ← hdM, ← zpow_add₀ (by norm_num), show (25 : ℤ) + (e - 24) = e + 1 by ring]
        exact hhi
      have h2 := lt_of_mul_lt_mul_right h1 (twos _).le
      have h3 : 0 < ((A + B : ℤ) : ℚ) * 2 ^ (e - 24) := by
        rw [← hMC, ← hdM]
        exact hd0
      have h4 : 0 < ((A + B : ℤ) : ℚ) := by
        by_contra hneg
        have := mul_nonpos_of_nonpos_of_nonneg (not_lt.mp hneg) (twos (e - 24)).le
        linarith
      have h5 : A + B < 2 ^ 25 := by
        have : ((A + B : ℤ) : ℚ) < ((2 ^ 25 : ℤ) : ℚ) := by
          push_cast
          push_cast at h2
          exact h2
        exact_mod_cast this
      have h6 : 0 < A + B := by exact_mod_cast h4
      rw [abs_of_pos h6]
      omega
    have := N53.self hb
    exact hne (by rw [hq', this])
  · have hsub : d - M ≠ 0 := sub_ne_zero.mpr hdM
    have habs : 0 < |d - M| := abs_pos.mpr hsub
    rcases le_or_gt (24 - e) a with hc | hc
    · obtain ⟨i, hi⟩ := Int.eq_ofNat_of_zero_le (sub_nonneg.mpr hc)
      have hz : (d - M) * 10 ^ a = (((m : ℤ) - (A + B) * 5 ^ a * 2 ^ i : ℤ) : ℚ) := by
        have h10 : (10 : ℚ) ^ a = 5 ^ a * 2 ^ a := by rw [← mul_pow]; norm_num
        have h2 : (2 : ℚ) ^ (e - 24) * 2 ^ a = 2 ^ i := by
          rw [← zpow_natCast, ← zpow_natCast, ← zpow_add₀ (by norm_num)]
          congr 1
          omega
        rw [sub_mul, hdm, hMC, h10]
        push_cast
        rw [← h2]
        ring
      have h1 : 1 ≤ |d - M| * 10 ^ a := by
        have := int_far (z := (m : ℤ) - (A + B) * 5 ^ a * 2 ^ i) (by rw [← hz]; exact mul_ne_zero hsub hten0.ne')
        rwa [← hz, abs_mul, abs_of_pos hten0] at this
      have h2 : |d - M| * 10 ^ a ≤ d / 2 ^ 53 * 10 ^ a := mul_le_mul_of_nonneg_right hclose hten0.le
      have h3 : d / 2 ^ 53 * 10 ^ a = m / 2 ^ 53 := by rw [← hdm]; ring
      rw [h3] at h2
      have h4 : (m : ℚ) / 2 ^ 53 < 1 := by
        rw [div_lt_one (by positivity)]
        refine lt_of_le_of_lt hmq2 ?_
        norm_num
      linarith
    · obtain ⟨i, hi⟩ := Int.eq_ofNat_of_zero_le (show 0 ≤ 24 - e - a by omega)
      have h5 : (0 : ℚ) < 5 ^ a := by positivity
      set s : ℚ := 5 ^ a * 2 ^ (24 - e) with hs
      have hs0 : 0 < s := mul_pos h5 (twos _)
      have hz : (d - M) * s = (((m : ℤ) * 2 ^ i - (A + B) * 5 ^ a : ℤ) : ℚ) := by
        have h10 : (10 : ℚ) ^ a = 5 ^ a * 2 ^ a := by rw [← mul_pow]; norm_num
        have h2 : (2 : ℚ) ^ (24 - e) = 2 ^ a * 2 ^ i := by
          rw [← zpow_natCast, ← zpow_natCast, ← zpow_add₀ (by norm_num)]
          congr 1
          omega
        have h3 : (2 : ℚ) ^ (e - 24) * 2 ^ (24 - e) = 1 := by
          rw [← zpow_add₀ (by norm_num), show e - 24 + (24 - e) = 0 by ring, zpow_zero]
        have h4 : d * s = m * 2 ^ i := by
          rw [hs, h2, ← hdm, h10]
          ring
        have h6 : M * s = ((A + B : ℤ) : ℚ) * 5 ^ a := by
          rw [hMC, hs]
          calc ((A + B : ℤ) : ℚ) * 2 ^ (e - 24) * (5 ^ a * 2 ^ (24 - e)) = ((A + B : ℤ) : ℚ) * 5 ^ a * (2 ^ (e - 24) * 2 ^ (24 - e)) := by ring
            _ = _ := by rw [h3, mul_one]
        rw [sub_mul, h4, h6]
        push_cast
        ring
      have h1 : 1 ≤ |d - M| * s := by
        have := int_far (z := (m : ℤ) * 2 ^ i - (A + B) * 5 ^ a) (by rw [← hz]; exact mul_ne_zero hsub hs0.ne')
        rwa [← hz, abs_mul, abs_of_pos hs0] at this
      have h2 : |d - M| * s ≤ d / 2 ^ 53 * s := mul_le_mul_of_nonneg_right hclose hs0.le
      have h3 : d / 2 ^ 53 * s < 1 := by
        have h6 : d * 2 ^ (24 - e) < 2 ^ (25 : ℤ) := by
          calc d * 2 ^ (24 - e) < 2 ^ (e + 1) * 2 ^ (24 - e) := mul_lt_mul_of_pos_right hhi (twos _)
            _ = 2 ^ (25 : ℤ) := by
              rw [← zpow_add₀ (by norm_num)]
              congr 1
              ring
        have h7 : (5 : ℚ) ^ a ≤ 5 ^ 12 := pow_le_pow_right₀ (by norm_num) ha
        calc d / 2 ^ 53 * s = (d * 2 ^ (24 - e)) * 5 ^ a / 2 ^ 53 := by rw [hs]; ring
          _ ≤ 2 ^ (25 : ℤ) * 5 ^ 12 / 2 ^ 53 := by
            refine div_le_div_of_nonneg_right ?_ (by positivity)
            exact mul_le_mul h6.le h7 h5.le (by positivity)
          _ < 1 := by norm_num
      linarith

theorem someDigits_exponent (n : ℕ) (q : ℚ) : (someDigits n q).2 = Int.log 10 q ∨ (someDigits n q).2 = Int.log 10 q + 1 := by
  unfold someDigits
  simp only []
  split
  · exact Or.inr rfl
  · exact Or.inl rfl

/-- Six digits of a number that is neither very small nor very large. -/
theorem twice_short {q : ℚ} (h1 : 10 ^ (-7 : ℤ) ≤ q) (h2 : q < 10 ^ (19 : ℤ)) :
    roundRat 24 149 (roundRat 53 1074 (shownDigits 6 q)) = roundRat 24 149 (shownDigits 6 q) := by
  have hq : 0 < q := lt_of_lt_of_le (tens _) h1
  obtain ⟨hm1, hm2, _⟩ := someDigits_spec (n := 6) (by norm_num) hq
  have hlo : (10 : ℚ) ^ Int.log 10 q ≤ q := by
    have := Int.zpow_log_le_self (b := 10) (by norm_num) hq
    simpa using this
  have hhi : q < (10 : ℚ) ^ (Int.log 10 q + 1) := by
    have := Int.lt_zpow_succ_log_self (b := 10) (by norm_num) q
    simpa using this
  have he1 : -7 < Int.log 10 q + 1 := (zpow_lt_zpow_iff_right₀ (by norm_num : (1 : ℚ) < 10)).mp (lt_of_le_of_lt h1 hhi)
  have he2 : Int.log 10 q < 19 := (zpow_lt_zpow_iff_right₀ (by norm_num : (1 : ℚ) < 10)).mp (lt_of_le_of_lt hlo h2)
  have hx := someDigits_exponent 6 q
  have hval : shownDigits 6 q = ((someDigits 6 q).1 : ℚ) * 10 ^ ((someDigits 6 q).2 - 5) := by
    unfold shownDigits
    norm_num
  rw [hval]
  generalize (someDigits 6 q).1 = m at hm1 hm2
  generalize (someDigits 6 q).2 = x at hx
  rcases le_or_gt 5 x with h5 | h5
  · obtain ⟨i, hi⟩ := Int.eq_ofNat_of_zero_le (sub_nonneg.mpr h5)
    have hi14 : i ≤ 14 := by omega
    have hb : Binary 53 1074 ((m : ℚ) * 10 ^ (x - 5)) := by
      refine ⟨m * 5 ^ i, i, ?_, by push_cast; omega, ?_⟩
      · have h7 : 5 ^ i ≤ 5 ^ 14 := Nat.pow_le_pow_right (by norm_num) hi14
        have h8 : m * 5 ^ i ≤ 10 ^ 6 * 5 ^ 14 := Nat.mul_le_mul (by omega) h7
        have h9 : m * 5 ^ i < 2 ^ 53 := lt_of_le_of_lt h8 (by norm_num)
        rw [abs_of_nonneg (by positivity)]
        exact_mod_cast h9
      · rw [hi]
        simp only [zpow_natCast]
        push_cast
        rw [mul_assoc, ← mul_pow]
        norm_num
    rw [(roundRat_nearest (p := 53) (sub := 1074) (by norm_num) _).1.self hb]
  · obtain ⟨a, ha⟩ := Int.eq_ofNat_of_zero_le (show 0 ≤ 5 - x by omega)
    have : (m : ℚ) * 10 ^ (x - 5) = m / 10 ^ a := by
      rw [show x - 5 = -(a : ℤ) by omega, zpow_neg, zpow_natCast, div_eq_mul_inv]
    rw [this]
    exact twice_rounded (by norm_num at hm1; omega) (by omega) (by omega)

end Gbdt
