import Verif.Lemmas.SixDigits

/-! # Rounding to binary64 is rounding to nearest -/

set_option autoImplicit false

namespace Gbdt

/-- Rounding to nearest keeps the order. -/
theorem Nearest.mono {P : ℚ → Prop} {x x' y y' : ℚ} (h : Nearest P x y) (h' : Nearest P x' y') (hlt : x < x') : y ≤ y' := by
  by_contra hy
  have hy : y' < y := not_le.mp hy
  have h1 := h.2 y' h'.1
  have h2 := h'.2 y h.1
  have a1 : (y + y') / 2 ≤ x := by
    by_contra hx
    have hx : x < (y + y') / 2 := not_le.mp hx
    rw [abs_of_nonpos (a := x - y) (by linarith)] at h1
    rcases le_or_gt y' x with hc | hc
    · rw [abs_of_nonneg (by linarith)] at h1
      linarith
    · rw [abs_of_neg (by linarith)] at h1
      linarith
  have a2 : x' ≤ (y + y') / 2 := by
    by_contra hx
    have hx : (y + y') / 2 < x' := not_le.mp hx
    rw [abs_of_nonneg (a := x' - y') (by linarith)] at h2
    rcases le_or_gt y x' with hc | hc
    · rw [abs_of_nonneg (by linarith)] at h2
      linarith
    · rw [abs_of_neg (by linarith)] at h2
      linarith
  linarith

theorem Nearest.self {P : ℚ → Prop} {x y : ℚ} (h : Nearest P x y) (hx : P x) : y = x := by
  have := h.2 x hx
  rw [sub_self, abs_zero] at this
  have := abs_eq_zero.mp (le_antisymm this (abs_nonneg _))
  linarith

theorem twos (k : ℤ) : (0 : ℚ) < 2 ^ k := zpow_pos (by norm_num) k

/-- A product with a power of two as the model writes it. -/
theorem two_split (s : ℤ) : (2 : ℚ) ^ s = 2 ^ s.toNat / 2 ^ (-s).toNat := by
  rcases le_or_gt 0 s with h | h
  · have h1 : (-s).toNat = 0 := by omega
    rw [h1, pow_zero, div_one]
    conv_lhs => rw [← Int.toNat_of_nonneg h]
    rw [zpow_natCast]
  · have h1 : s.toNat = 0 := by omega
    have h2 : s = -((-s).toNat : ℤ) := by omega
    rw [h1, pow_zero]
    conv_lhs => rw [h2]
    rw [zpow_neg, zpow_natCast, one_div]

/-- `leadingExp` is the exponent of the leading bit. -/
theorem leadingExp_spec {a d : ℕ} (ha : 0 < a) (hd : 0 < d) :
    (2 : ℚ) ^ leadingExp a d ≤ (a : ℚ) / d ∧ (a : ℚ) / d < 2 ^ (leadingExp a d + 1) := by
  have hdq : (0 : ℚ) < d := by exact_mod_cast hd
  have haq : (0 : ℚ) < a := by exact_mod_cast ha
  have ha1 : (2 : ℚ) ^ (Nat.log2 a : ℤ) ≤ a := by
    rw [zpow_natCast]
    exact_mod_cast Nat.log2_self_le (by omega)
  have ha2 : (a : ℚ) < 2 ^ ((Nat.log2 a : ℤ) + 1) := by
    have : (a : ℚ) < 2 ^ (Nat.log2 a + 1) := by exact_mod_cast Nat.lt_log2_self
    exact_mod_cast this
  have hd1 : (2 : ℚ) ^ (Nat.log2 d : ℤ) ≤ d := by
    rw [zpow_natCast]
    exact_mod_cast Nat.log2_self_le (by omega)
  have hd2 : (d : ℚ) < 2 ^ ((Nat.log2 d : ℤ) + 1) := by
    have : (d : ℚ) < 2 ^ (Nat.log2 d + 1) := by exact_mod_cast Nat.lt_log2_self
    exact_mod_cast this
  set e : ℤ := (Nat.log2 a : ℤ) - Nat.log2 d with he
  have hup : (a : ℚ) / d < 2 ^ (e + 1) := by
    rw [div_lt_iff₀ hdq]
    calc (a : ℚ) < 2 ^ ((Nat.log2 a : ℤ) + 1) := ha2
      _ = 2 ^ (e + 1) * 2 ^ (Nat.log2 d : ℤ) := by
        rw [← zpow_add₀ (by norm_num)]
        congr 1
        omega
      _ ≤ 2 ^ (e + 1) * d := mul_le_mul_of_nonneg_left hd1 (twos _).le
  have hlow : (2 : ℚ) ^ (e - 1) ≤ a / d := by
    rw [le_div_iff₀ hdq]
    calc (2 : ℚ) ^ (e - 1) * d ≤ 2 ^ (e - 1) * 2 ^ ((Nat.log2 d : ℤ) + 1) := mul_le_mul_of_nonneg_left hd2.le (twos _).le
      _ = 2 ^ (Nat.log2 a : ℤ) := by
        rw [← zpow_add₀ (by norm_num)]
        congr 1
        omega
      _ ≤ a := ha1
  have hiff : d * 2 ^ e.toNat ≤ a * 2 ^ (-e).toNat ↔ (2 : ℚ) ^ e ≤ a / d := by
    rw [two_split e, div_le_div_iff₀ (by positivity) hdq]
    constructor
    · intro h
      have : ((d * 2 ^ e.toNat : ℕ) : ℚ) ≤ ((a * 2 ^ (-e).toNat : ℕ) : ℚ) := by exact_mod_cast h
      push_cast at this
      linarith
    · intro h
      have : ((d * 2 ^ e.toNat : ℕ) : ℚ) ≤ ((a * 2 ^ (-e).toNat : ℕ) : ℚ) := by
        push_cast
        linarith
      exact_mod_cast this
  unfold leadingExp
  simp only [← he]
  split
  · rename_i h
    exact ⟨hiff.mp h, hup⟩
  · rename_i h
    have := not_le.mp (fun h' => h (hiff.mpr h'))
    refine ⟨hlow, ?_⟩
    rwa [show e - 1 + 1 = e by ring]

theorem Binary.neg {p sub : ℕ} {x : ℚ} (h : Binary p sub x) : Binary p sub (-x) := by
  obtain ⟨n, k, hn, hk, rfl⟩ := h
  exact ⟨-n, k, by rwa [abs_neg], hk, by push_cast; ring⟩

theorem Nearest.neg {P : ℚ → Prop} (hP : ∀ x, P x → P (-x)) {x y : ℚ} (h : Nearest P x y) : Nearest P (-x) (-y) := by
  refine ⟨hP y h.1, fun z hz => ?_⟩
  have := h.2 (-z) (hP z hz)
  rw [show -x - -y = -(x - y) by ring, show -x - z = -(x - -z) by ring, abs_neg, abs_neg]
  exact this

theorem roundRat_pos {p sub : ℕ} (hp : 1 ≤ p) {q : ℚ} (hq : 0 < q) :
    Nearest (Binary p sub) q (roundRat p sub q) ∧
      (2 ^ ((p : ℤ) - 1 - sub) ≤ q → |q - roundRat p sub q| ≤ q / 2 ^ p) := by
  set a := q.num.natAbs with ha
  set d := q.den with hd
  have hnum0 : 0 < q.num := Rat.num_pos.mpr hq
  have ha0 : 0 < a := by omega
  have hd0 : 0 < d := q.den_pos
  have hdq : (0 : ℚ) < d := by exact_mod_cast hd0
  have hqad : (a : ℚ) / d = q := by
    have h1 : ((q.num.natAbs : ℕ) : ℚ) = (q.num : ℚ) := by
      have : ((q.num.natAbs : ℕ) : ℤ) = q.num := Int.natAbs_of_nonneg hnum0.le
      rw [← Int.cast_natCast (R := ℚ), this]
    rw [ha, h1]
    exact Rat.num_div_den q
  obtain ⟨hlo, hhi⟩ := leadingExp_spec ha0 hd0
  rw [hqad] at hlo hhi
  set e := leadingExp a d with he
  set s : ℤ := min (sub : ℤ) ((p : ℤ) - 1 - e) with hs
  have hs1 : s ≤ (sub : ℤ) := min_le_left _ _
  have hs2 : s ≤ (p : ℤ) - 1 - e := min_le_right _ _
  set k := roundDiv (a * 2 ^ s.toNat) (d * 2 ^ (-s).toNat) with hk
  have hx : ((a * 2 ^ s.toNat : ℕ) : ℚ) / ((d * 2 ^ (-s).toNat : ℕ) : ℚ) = q * 2 ^ s := by
    push_cast
    rw [two_split s, ← hqad]
    field_simp
  have hnear : ∀ z : ℤ, |q * 2 ^ s - k| ≤ |q * 2 ^ s - z| := by
    intro z
    have := roundDiv_nearest (a := a * 2 ^ s.toNat) (d := d * 2 ^ (-s).toNat) (by positivity) z
    rwa [hx] at this
  have hinv : (2 : ℚ) ^ s * 2 ^ (-s) = 1 := by
    rw [← zpow_add₀ (by norm_num)]
    norm_num
  have hval : roundRat p sub q = k * 2 ^ (-s) := by
    unfold roundRat
    simp only [← ha, ← hd, ← he, ← hs, ← hk]
    rw [if_neg (by omega), if_neg (by omega), two_split (-s), neg_neg]
    push_cast
    ring
  have hx2 : q * 2 ^ s < 2 ^ (p : ℤ) := by
    calc q * 2 ^ s < 2 ^ (e + 1) * 2 ^ s := mul_lt_mul_of_pos_right hhi (twos s)
      _ = 2 ^ (e + 1 + s) := (zpow_add₀ (by norm_num) _ _).symm
      _ ≤ 2 ^ (p : ℤ) := zpow_le_zpow_right₀ (by norm_num) (by omega)
  have hk2 : k ≤ 2 ^ p := by
    by_contra hlt
    have h1 : (2 : ℚ) ^ p + 1 ≤ k := by exact_mod_cast (by omega : 2 ^ p + 1 ≤ k)
    rw [zpow_natCast] at hx2
    have h2 := hnear (2 ^ p)
    push_cast at h2
    rw [abs_of_nonpos (by linarith), abs_of_nonpos (by linarith)] at h2
    linarith
  have hmult : ∀ z : ℤ, |q - roundRat p sub q| ≤ |q - z * 2 ^ (-s)| := by
    intro z
    have hq5 : q = (q * 2 ^ s) * 2 ^ (-s) := by rw [mul_assoc, hinv, mul_one]
    have h1 : q - roundRat p sub q = (q * 2 ^ s - k) * 2 ^ (-s) := by rw [hval, sub_mul, ← hq5]
    have h2 : q - z * 2 ^ (-s) = (q * 2 ^ s - z) * 2 ^ (-s) := by rw [sub_mul, ← hq5]
    rw [h1, h2, abs_mul, abs_mul]
    exact mul_le_mul_of_nonneg_right (hnear z) (abs_nonneg _)
  refine ⟨⟨?_, ?_⟩, ?_⟩
  · rcases Nat.lt_or_eq_of_le hk2 with h | h
    · refine ⟨k, -s, ?_, by omega, ?_⟩
      · rw [abs_of_nonneg (by positivity)]
        exact_mod_cast h
      · rw [hval]
        push_cast
        rfl
    · refine ⟨2 ^ (p - 1), -s + 1, ?_, by omega, ?_⟩
      · rw [abs_of_nonneg (by positivity)]
        exact pow_lt_pow_right₀ (by norm_num) (by omega)
      · rw [hval, h, zpow_add₀ (by norm_num), zpow_one]
        have : (2 : ℚ) ^ p = 2 ^ (p - 1) * 2 := by
          rw [← pow_succ]
          congr 1
          omega
        push_cast
        rw [this]
        ring
  · rintro z ⟨n, j, hn, hj, rfl⟩
    rcases le_or_gt (-s) j with hkj | hkj
    · obtain ⟨i, hi⟩ := Int.eq_ofNat_of_zero_le (sub_nonneg.mpr hkj)
      have := hmult (n * 2 ^ i)
      have h2 : ((n * 2 ^ i : ℤ) : ℚ) * 2 ^ (-s) = n * 2 ^ j := by
        push_cast
        rw [show j = (i : ℤ) + (-s) by omega, zpow_add₀ (by norm_num), zpow_natCast]
        ring
      rwa [h2] at this
    · have hse : s = (p : ℤ) - 1 - e := by
        rcases min_choice (sub : ℤ) ((p : ℤ) - 1 - e) with h | h
        · exfalso
          omega
        · exact h
      have h1 := hmult (2 ^ (p - 1))
      have h2 : ((2 ^ (p - 1) : ℤ) : ℚ) * 2 ^ (-s) = 2 ^ e := by
        push_cast
        rw [← zpow_natCast, ← zpow_add₀ (by norm_num)]
        congr 1
        omega
      rw [h2, abs_of_nonneg (a := q - 2 ^ e) (by linarith)] at h1
      have h3 : (n : ℚ) * 2 ^ j ≤ 2 ^ e := by
        have hn1 : (n : ℚ) ≤ 2 ^ p := by
          have : n ≤ 2 ^ p := le_of_lt (lt_of_le_of_lt (le_abs_self n) hn)
          exact_mod_cast this
        have hk1 : (2 : ℚ) ^ j ≤ 2 ^ (e - p) := zpow_le_zpow_right₀ (by norm_num) (by omega)
        calc (n : ℚ) * 2 ^ j ≤ 2 ^ p * 2 ^ j := mul_le_mul_of_nonneg_right hn1 (twos j).le
          _ ≤ 2 ^ p * 2 ^ (e - p) := mul_le_mul_of_nonneg_left hk1 (by positivity)
          _ = 2 ^ e := by
            rw [← zpow_natCast, ← zpow_add₀ (by norm_num)]
            congr 1
            ring
      calc |q - roundRat p sub q| ≤ q - 2 ^ e := h1
        _ ≤ q - n * 2 ^ j := by linarith
        _ ≤ |q - n * 2 ^ j| := le_abs_self _
  · intro hnormal
    have hse : s = (p : ℤ) - 1 - e := by
      have : (p : ℤ) - 1 - sub < e + 1 := by
        by_contra hle
        have : (2 : ℚ) ^ (e + 1) ≤ 2 ^ ((p : ℤ) - 1 - sub) := zpow_le_zpow_right₀ (by norm_num) (by omega)
        linarith
      exact min_eq_right (by omega)
    -- the distance to the nearest integer is at most one half
    have hhalf : |q * 2 ^ s - k| ≤ 1 / 2 := by
      have h1 := hnear ⌊q * 2 ^ s⌋
      have h2 := hnear (⌊q * 2 ^ s⌋ + 1)
      have f1 := Int.floor_le (q * 2 ^ s)
      have f2 := Int.lt_floor_add_one (q * 2 ^ s)
      push_cast at h2
      rw [abs_of_nonneg (a := q * 2 ^ s - ⌊q * 2 ^ s⌋) (by linarith)] at h1
      rw [abs_of_nonpos (a := q * 2 ^ s - (⌊q * 2 ^ s⌋ + 1)) (by linarith)] at h2
      linarith
    have hq5 : q = (q * 2 ^ s) * 2 ^ (-s) := by rw [mul_assoc, hinv, mul_one]
    have h1 : q - roundRat p sub q = (q * 2 ^ s - k) * 2 ^ (-s) := by rw [hval, sub_mul, ← hq5]
    rw [h1, abs_mul, abs_of_pos (twos _)]
    calc |q * 2 ^ s - k| * 2 ^ (-s) ≤ 1 / 2 * 2 ^ (-s) := mul_le_mul_of_nonneg_right hhalf (twos _).le
      _ = 2 ^ e / 2 ^ p := by
        rw [hse, ← zpow_natCast, ← zpow_sub₀ (by norm_num), show (1 : ℚ) / 2 = 2 ^ (-1 : ℤ) by norm_num, ← zpow_add₀ (by norm_num)]
        congr 1
        ring
      _ ≤ q / 2 ^ p := div_le_div_of_nonneg_right hlo (by positivity)

theorem roundRat_minus (p sub : ℕ) (q : ℚ) : roundRat p sub (-q) = -roundRat p sub q := by
  unfold roundRat
  simp only [Rat.neg_num, Int.natAbs_neg, Rat.neg_den]
  by_cases h0 : q.num.natAbs = 0
  · simp [h0]
  · simp only [h0, if_false]
    by_cases hneg : q.num < 0
    · rw [if_neg (by omega), if_pos hneg, neg_neg]
    · rw [if_pos (by omega), if_neg hneg]

/-- **Rounding to binary64 is rounding to nearest**, and for numbers that are not subnormal the relative error is at most `2 ^ -53`. -/
theorem roundRat_nearest {p sub : ℕ} (hp : 1 ≤ p) (q : ℚ) :
    Nearest (Binary p sub) q (roundRat p sub q) ∧
      (2 ^ ((p : ℤ) - 1 - sub) ≤ |q| → |q - roundRat p sub q| ≤ |q| / 2 ^ p) := by
  rcases lt_trichotomy q 0 with h | h | h
  · obtain ⟨h1, h2⟩ := roundRat_pos (sub := sub) hp (q := -q) (by linarith)
    rw [roundRat_minus] at h1 h2
    refine ⟨?_, ?_⟩
    · have := h1.neg (fun x hx => hx.neg)
      rwa [neg_neg, neg_neg] at this
    · rw [abs_of_neg h]
      intro hn
      have := h2 hn
      rwa [show -q - -roundRat p sub q = -(q - roundRat p sub q) by ring, abs_neg] at this
  · subst h
    have : roundRat p sub 0 = 0 := by simp [roundRat]
    rw [this]
    refine ⟨⟨⟨0, 0, by simp, by omega, by simp⟩, fun z _ => by simp⟩, fun _ => by simp⟩
  · have := roundRat_pos (sub := sub) hp h
    rwa [abs_of_pos h]

end Gbdt
