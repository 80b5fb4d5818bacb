import Verif.Lemmas.Binary32

/-! # Sums of doubles -/

set_option autoImplicit false

namespace Gbdt

/-- The relative error of one rounded sum is at most `2 ^ -p`; sums of subnormal numbers are exact. -/
theorem sum_error {p sub : ℕ} (hp : 1 ≤ p) {a b : ℚ} (ha : Binary p sub a) (hb : Binary p sub b) :
    |a + b - roundRat p sub (a + b)| ≤ |a + b| / 2 ^ p := by
  obtain ⟨h1, h2⟩ := roundRat_nearest (sub := sub) hp (a + b)
  by_cases hn : (2 : ℚ) ^ ((p : ℤ) - 1 - sub) ≤ |a + b|
  · exact h2 hn
  · have hn := not_le.mp hn
    obtain ⟨i, hi⟩ := ha.units
    obtain ⟨j, hj⟩ := hb.units
    have hsum : a + b = ((i + j : ℤ) : ℚ) * 2 ^ (-(sub : ℤ)) := by rw [hi, hj]; push_cast; ring
    have hlt : |i + j| < 2 ^ p := by
      rw [hsum, abs_mul, abs_of_pos (twos _)] at hn
      have h3 : (2 : ℚ) ^ ((p : ℤ) - 1 - sub) ≤ 2 ^ p * 2 ^ (-(sub : ℤ)) := by
        rw [← zpow_natCast, ← zpow_add₀ (by norm_num)]
        exact zpow_le_zpow_right₀ (by norm_num) (by omega)
      have h4 : |((i + j : ℤ) : ℚ)| < 2 ^ p := lt_of_mul_lt_mul_right (lt_of_lt_of_le hn h3) (twos _).le
      exact_mod_cast h4
    rw [h1.self ⟨i + j, _, hlt, le_rfl, hsum⟩, sub_self, abs_zero]
    positivity

theorem round_small {q : ℚ} (h : |roundRat 53 1074 q| < 2 ^ 1024) : F64.round q = .num (roundRat 53 1074 q) := by
  obtain ⟨h1, h2⟩ := abs_lt.mp h
  simp only [F64.round]
  rw [if_neg (not_le.mpr h2), if_neg (not_le.mpr h1)]

theorem round_self {q : ℚ} (hq : Binary 53 1074 q) (h : |q| < 2 ^ 1024) : F64.round q = .num q := by
  have := (roundRat_nearest (sub := 1074) (p := 53) (by norm_num) q).1.self hq
  rw [round_small (by rwa [this]), this]

/-- The running sum of doubles, from `y` on. -/
def doubleSum (y : F64) (qs : List ℚ) : F64 := (qs.map F64.num).foldl (fun a x => a + (x + 0)) y

theorem doubleSum_cons (y : F64) (q : ℚ) (qs : List ℚ) : doubleSum y (q :: qs) = doubleSum (y + (.num q + 0)) qs := rfl

theorem add_num (a b : ℚ) : (F64.num a : F64) + F64.num b = F64.round (a + b) := rfl

theorem zero_num : (0 : F64) = F64.num 0 := rfl

theorem doubleSum_error {B M : ℚ} (hM : ∀ x : ℚ, x < M → x < 2 ^ 1024) (hMpos : 0 < M) (hbig : B * 4 ≤ M) : ∀ (qs : List ℚ) (k : ℕ) (y s t : ℚ), Binary 53 1074 y → (∀ q ∈ qs, Binary 53 1074 q) →
    |s| ≤ t → |y - s| ≤ 2 * k / 2 ^ 53 * t → k + qs.length ≤ 2 ^ 52 → t + (qs.map (|·|)).sum ≤ B →
    ∃ z, doubleSum (.num y) qs = .num z ∧ |z - (s + qs.sum)| ≤ 2 * (k + qs.length : ℕ) / 2 ^ 53 * (t + (qs.map (|·|)).sum)
  | [], k, y, s, t, _, _, _, he, _, _ => ⟨y, rfl, by simpa using he⟩
  | q :: qs, k, y, s, t, hy, hq, hst, he, hk, ht => by
    have hq1 := hq q (by simp)
    have hnn : 0 ≤ (qs.map (|·|)).sum := List.sum_nonneg (by simp)
    rw [List.map_cons, List.sum_cons] at ht
    have ht0 : 0 ≤ t := (abs_nonneg s).trans hst
    have hqa := abs_nonneg q
    have hkq : (k : ℚ) + 1 ≤ 2 ^ 52 := by
      have : k + 1 ≤ 2 ^ 52 := by rw [List.length_cons] at hk; omega
      exact_mod_cast this
    have hk0 : (0 : ℚ) ≤ k := by positivity
    -- the term itself
    have e1 : (F64.num q : F64) + 0 = .num q := by
      rw [zero_num, add_num, add_zero]
      exact round_self hq1 (hM _ (by linarith))
    set T := t + |q| with hT
    have hST : |s + q| ≤ T := (abs_add_le s q).trans (by linarith)
    have hyq : |y + q - (s + q)| ≤ 2 * k / 2 ^ 53 * T := by
      rw [show y + q - (s + q) = y - s by ring]
      exact he.trans (mul_le_mul_of_nonneg_left (by linarith) (by positivity))
    have hkT : 2 * (k : ℚ) / 2 ^ 53 * T ≤ T := by
      have : 2 * (k : ℚ) / 2 ^ 53 ≤ 1 := by
        rw [div_le_one (by positivity)]
        calc 2 * (k : ℚ) ≤ 2 * 2 ^ 52 := by linarith
          _ = 2 ^ 53 := by norm_num
      calc 2 * (k : ℚ) / 2 ^ 53 * T ≤ 1 * T := mul_le_mul_of_nonneg_right this (by linarith)
        _ = T := one_mul T
    have habs : |y + q| ≤ 2 * T := by
      have := abs_add_le (y + q - (s + q)) (s + q)
      rw [sub_add_cancel] at this
      linarith
    have herr := sum_error (sub := 1074) (p := 53) (by norm_num) hy hq1
    set y' := roundRat 53 1074 (y + q) with hy'
    have hround : |y + q - y'| ≤ 2 / 2 ^ 53 * T := by
      refine herr.trans ?_
      rw [div_mul_eq_mul_div]
      exact div_le_div_of_nonneg_right habs (by positivity)
    have hy'B : |y'| < M := by
      have h1 := abs_add_le (y' - (y + q)) (y + q)
      rw [sub_add_cancel, abs_sub_comm] at h1
      have h2 : (2 : ℚ) / 2 ^ 53 * T ≤ 1 * T := mul_le_mul_of_nonneg_right (by norm_num) (by linarith)
      linarith
    have e2 : (F64.num y : F64) + F64.num q = .num y' := by
      rw [add_num]
      exact round_small (hM _ hy'B)
    have hnew : |y' - (s + q)| ≤ 2 * ((k + 1 : ℕ) : ℚ) / 2 ^ 53 * T := by
      have h1 := abs_add_le (y' - (y + q)) (y + q - (s + q))
      rw [sub_add_sub_cancel, abs_sub_comm y' (y + q)] at h1
      push_cast
      calc |y' - (s + q)| ≤ 2 / 2 ^ 53 * T + 2 * k / 2 ^ 53 * T := by linarith
        _ = 2 * ((k : ℚ) + 1) / 2 ^ 53 * T := by ring
    obtain ⟨z, hz1, hz2⟩ := doubleSum_error hM hMpos hbig qs (k + 1) y' (s + q) T (roundRat_nearest (by norm_num) _).1.1 (fun x hx => hq x (by simp [hx]))
      hST hnew (by rw [List.length_cons] at hk; omega) (by linarith)
    refine ⟨z, ?_, ?_⟩
    · rw [doubleSum_cons, e1, e2]
      exact hz1
    · rw [List.sum_cons, List.map_cons, List.sum_cons, ← add_assoc, ← add_assoc, List.length_cons]
      rw [show k + (qs.length + 1) = k + 1 + qs.length by ring]
      exact hz2

/-- Multiples of one power of two of which the sum of the magnitudes stays below `2 ^ 53` times it are added exactly. -/
theorem doubleSum_exact {e : ℤ} (he : -1074 ≤ e) (he2 : e ≤ 970) : ∀ (qs : List ℚ) (n : ℤ), (∀ q ∈ qs, ∃ m : ℤ, q = m * 2 ^ e) →
    |(n : ℚ) * 2 ^ e| + (qs.map (|·|)).sum < 2 ^ (53 + e) → doubleSum (.num (n * 2 ^ e)) qs = .num (n * 2 ^ e + qs.sum)
  | [], n, _, _ => by simp [doubleSum]
  | q :: qs, n, hq, hlt => by
    obtain ⟨m, rfl⟩ := hq q (by simp)
    have hnn : 0 ≤ (qs.map (|·|)).sum := List.sum_nonneg (by simp)
    rw [List.map_cons, List.sum_cons] at hlt
    have hbin : ∀ j : ℤ, |(j : ℚ) * 2 ^ e| < 2 ^ (53 + e) → F64.round (j * 2 ^ e) = .num (j * 2 ^ e) := by
      intro j hj
      refine round_self ⟨j, e, ?_, by simpa using he, rfl⟩ (lt_of_lt_of_le hj ?_)
      · rw [abs_mul, abs_of_pos (twos e), zpow_add₀ (by norm_num)] at hj
        have := lt_of_mul_lt_mul_right hj (twos e).le
        exact_mod_cast this
      · rw [← zpow_natCast]
        exact zpow_le_zpow_right₀ (by norm_num) (by push_cast; omega)
    have hsum : ((n : ℚ) * 2 ^ e) + m * 2 ^ e = ((n + m : ℤ) : ℚ) * 2 ^ e := by push_cast; ring
    have htri := abs_add_le ((n : ℚ) * 2 ^ e) (m * 2 ^ e)
    have h1 := abs_nonneg ((n : ℚ) * 2 ^ e)
    have e1 : (F64.num ((m : ℚ) * 2 ^ e) : F64) + 0 = .num (m * 2 ^ e) := by
      rw [zero_num, add_num, add_zero]
      exact hbin m (by linarith)
    have e2 : (F64.num ((n : ℚ) * 2 ^ e) : F64) + F64.num (m * 2 ^ e) = .num (((n + m : ℤ) : ℚ) * 2 ^ e) := by
      rw [add_num, hsum]
      rw [hsum] at htri
      exact hbin _ (by linarith)
    rw [hsum] at htri
    rw [doubleSum_cons, e1, e2, doubleSum_exact he he2 qs (n + m) (fun x hx => hq x (by simp [hx])) (by linarith), ← hsum, List.sum_cons]
    congr 1
    ring

end Gbdt
