import Verif.Lemmas.Binary32
import Mathlib.Tactic.Linarith
import Mathlib.Tactic.Ring
import Mathlib.Tactic.FieldSimp

/-!
# Rounding and powers of two
-/

set_option autoImplicit false

namespace Gbdt

theorem roundDiv_mul (a d : ℕ) {c : ℕ} (hc : 0 < c) : roundDiv (c * a) (c * d) = roundDiv a d := by
  unfold roundDiv
  simp only [Nat.mul_div_mul_left _ _ hc, Nat.mul_mod_mul_left]
  have h1 : decide (c * d < 2 * (c * (a % d))) = decide (d < 2 * (a % d)) := by
    refine decide_eq_decide.mpr ?_
    rw [show 2 * (c * (a % d)) = c * (2 * (a % d)) by ring]
    exact Nat.mul_lt_mul_left hc
  have h2 : (2 * (c * (a % d)) == c * d) = (2 * (a % d) == d) := by
    rw [show 2 * (c * (a % d)) = c * (2 * (a % d)) by ring, Bool.eq_iff_iff, beq_iff_eq, beq_iff_eq]
    exact Nat.mul_right_inj (by omega)
  rw [h1, h2]

theorem roundDiv_ratio {a d a' d' : ℕ} (hd : 0 < d) (hd' : 0 < d') (h : a * d' = a' * d) : roundDiv a d = roundDiv a' d' := by
  rw [← roundDiv_mul a d hd', ← roundDiv_mul a' d' hd, show d' * a = d * a' by rw [mul_comm, h, mul_comm], mul_comm d' d]

theorem leadingExp_unique {x : ℚ} {e e' : ℤ} (h1 : (2 : ℚ) ^ e ≤ x) (h2 : x < 2 ^ (e + 1)) (h1' : (2 : ℚ) ^ e' ≤ x) (h2' : x < 2 ^ (e' + 1)) : e = e' := by
  have a := (zpow_lt_zpow_iff_right₀ (by norm_num : (1 : ℚ) < 2)).mp (lt_of_le_of_lt h1 h2')
  have b := (zpow_lt_zpow_iff_right₀ (by norm_num : (1 : ℚ) < 2)).mp (lt_of_le_of_lt h1' h2)
  omega

/-- What is rounded, for a positive number. -/
theorem roundRat_eq {p sub : ℕ} {q : ℚ} (hq : 0 < q) : ∃ e : ℤ, (2 : ℚ) ^ e ≤ q ∧ q < 2 ^ (e + 1) ∧
    ∃ k : ℕ, roundRat p sub q = k * 2 ^ (-(min (sub : ℤ) ((p : ℤ) - 1 - e))) ∧
      ∀ a d : ℕ, 0 < d → (a : ℚ) / d = q * 2 ^ (min (sub : ℤ) ((p : ℤ) - 1 - e)) → k = roundDiv a d := by
  have hnum0 : 0 < q.num := Rat.num_pos.mpr hq
  have ha0 : 0 < q.num.natAbs := by omega
  have hd0 : 0 < q.den := q.den_pos
  have hqad : (q.num.natAbs : ℚ) / q.den = q := by
    have h1 : ((q.num.natAbs : ℕ) : ℚ) = (q.num : ℚ) := by
      have : ((q.num.natAbs : ℕ) : ℤ) = q.num := Int.natAbs_of_nonneg hnum0.le
      rw [← Int.cast_natCast (R := ℚ), this]
    rw [h1]
    exact Rat.num_div_den q
  obtain ⟨hlo, hhi⟩ := leadingExp_spec ha0 hd0
  rw [hqad] at hlo hhi
  refine ⟨leadingExp q.num.natAbs q.den, hlo, hhi, ?_⟩
  set s : ℤ := min (sub : ℤ) ((p : ℤ) - 1 - leadingExp q.num.natAbs q.den) with hs
  refine ⟨roundDiv (q.num.natAbs * 2 ^ s.toNat) (q.den * 2 ^ (-s).toNat), ?_, ?_⟩
  · unfold roundRat
    simp only
    rw [if_neg (by omega), if_neg (by omega), ← hs, two_split (-s)]
    push_cast
    rw [neg_neg]
    ring
  · intro a d hd h
    have hdp : 0 < q.den * 2 ^ (-s).toNat := Nat.mul_pos hd0 (Nat.pos_of_ne_zero (by positivity))
    refine roundDiv_ratio hdp hd ?_
    have hx : ((q.num.natAbs * 2 ^ s.toNat : ℕ) : ℚ) / ((q.den * 2 ^ (-s).toNat : ℕ) : ℚ) = (a : ℚ) / d := by
      rw [h, two_split s]
      push_cast
      rw [mul_div_mul_comm, hqad]
    have h1 : ((q.den * 2 ^ (-s).toNat : ℕ) : ℚ) ≠ 0 := by exact_mod_cast hdp.ne'
    have h2 : (d : ℚ) ≠ 0 := by exact_mod_cast hd.ne'
    rw [div_eq_div_iff h1 h2] at hx
    exact_mod_cast hx

theorem Binary.scale {p sub : ℕ} {x : ℚ} (h : Binary p sub x) (k : ℕ) : Binary p sub (2 ^ k * x) := by
  obtain ⟨n, j, hn, hj, rfl⟩ := h
  refine ⟨n, j + k, hn, by omega, ?_⟩
  rw [zpow_add₀ (by norm_num), zpow_natCast]
  ring

/-- Rounding commutes with powers of two, for multiples of the smallest number. -/
theorem roundRat_scale_pos {p sub : ℕ} (hp : 1 ≤ p) {q : ℚ} (hq : 0 < q) {m : ℤ} (hm : q = m * 2 ^ (-(sub : ℤ))) (k : ℕ) :
    roundRat p sub (2 ^ k * q) = 2 ^ k * roundRat p sub q := by
  have hk : (0 : ℚ) < 2 ^ k := by positivity
  obtain ⟨e, e1, e2, n, hn, hn'⟩ := roundRat_eq (p := p) (sub := sub) hq
  by_cases hsub : (sub : ℤ) ≤ (p : ℤ) - 1 - e
  · have hb : Binary p sub q := by
      refine ⟨m, -(sub : ℤ), ?_, le_refl _, hm⟩
      have h1 : (m : ℚ) = q * 2 ^ (sub : ℤ) := by
        rw [hm, mul_assoc, ← zpow_add₀ (by norm_num)]
        simp
      have h2 : (m : ℚ) < 2 ^ p := by
        rw [h1]
        calc q * 2 ^ (sub : ℤ) < 2 ^ (e + 1) * 2 ^ (sub : ℤ) := mul_lt_mul_of_pos_right e2 (twos _)
          _ = 2 ^ (e + 1 + sub) := (zpow_add₀ (by norm_num) _ _).symm
          _ ≤ 2 ^ (p : ℤ) := zpow_le_zpow_right₀ (by norm_num) (by omega)
          _ = 2 ^ p := zpow_natCast _ _
      have h3 : (0 : ℚ) < m := by rw [h1]; exact mul_pos hq (twos _)
      have h4 : 0 < m := by exact_mod_cast h3
      rw [abs_of_pos h4]
      exact_mod_cast h2
    rw [(roundRat_nearest (sub := sub) hp q).1.self hb, (roundRat_nearest (sub := sub) hp (2 ^ k * q)).1.self (hb.scale k)]
  · obtain ⟨f, f1, f2, n', hn1, hn2⟩ := roundRat_eq (p := p) (sub := sub) (mul_pos hk hq)
    have hf : f = e + k := by
      refine leadingExp_unique f1 f2 ?_ ?_
      · rw [zpow_add₀ (by norm_num), zpow_natCast, mul_comm]
        exact mul_le_mul_of_nonneg_left e1 hk.le
      · rw [show e + k + 1 = (e + 1) + k by ring, zpow_add₀ (by norm_num), zpow_natCast, mul_comm]
        exact mul_lt_mul_of_pos_right e2 hk
    subst hf
    have hs : min (sub : ℤ) ((p : ℤ) - 1 - e) = (p : ℤ) - 1 - e := min_eq_right (by omega)
    have hs' : min (sub : ℤ) ((p : ℤ) - 1 - (e + k)) = (p : ℤ) - 1 - e - k := by rw [min_eq_right (by omega)]; ring
    rw [hs] at hn hn'
    rw [hs'] at hn1 hn2
    have hx : 2 ^ k * q * 2 ^ ((p : ℤ) - 1 - e - k) = q * 2 ^ ((p : ℤ) - 1 - e) := by
      rw [zpow_sub₀ (by norm_num) _ (k : ℤ), zpow_natCast]
      field_simp
    have hpos : 0 < q * 2 ^ ((p : ℤ) - 1 - e) := mul_pos hq (twos _)
    have hfrac : (((q * 2 ^ ((p : ℤ) - 1 - e)).num.natAbs : ℕ) : ℚ) / ((q * 2 ^ ((p : ℤ) - 1 - e)).den : ℚ) = q * 2 ^ ((p : ℤ) - 1 - e) := by
      have h1 : (((q * 2 ^ ((p : ℤ) - 1 - e)).num.natAbs : ℕ) : ℚ) = ((q * 2 ^ ((p : ℤ) - 1 - e)).num : ℚ) := by
        have : (((q * 2 ^ ((p : ℤ) - 1 - e)).num.natAbs : ℕ) : ℤ) = (q * 2 ^ ((p : ℤ) - 1 - e)).num :=
          Int.natAbs_of_nonneg (Rat.num_pos.mpr hpos).le
        rw [← Int.cast_natCast (R := ℚ), this]
      rw [h1]
      exact Rat.num_div_den _
    have hnn : n' = n := by
      rw [hn' _ _ (Rat.den_pos _) hfrac]
      exact hn2 _ _ (Rat.den_pos _) (by rw [hx]; exact hfrac)
    rw [hn1, hn, hnn, show -((p : ℤ) - 1 - e - k) = -((p : ℤ) - 1 - e) + k by ring, zpow_add₀ (by norm_num), zpow_natCast]
    ring

theorem roundRat_scale {p sub : ℕ} (hp : 1 ≤ p) {q : ℚ} {m : ℤ} (hm : q = m * 2 ^ (-(sub : ℤ))) (k : ℕ) :
    roundRat p sub (2 ^ k * q) = 2 ^ k * roundRat p sub q := by
  rcases lt_trichotomy q 0 with h | h | h
  · have := roundRat_scale_pos (sub := sub) hp (q := -q) (by linarith) (m := -m) (by rw [hm]; push_cast; ring) k
    rw [show 2 ^ k * -q = -(2 ^ k * q) by ring, roundRat_minus, roundRat_minus] at this
    linarith
  · subst h
    simp [roundRat]
  · exact roundRat_scale_pos hp h hm k

/-- Floats of which half is a float too, and which can be added without overflow: 0, and all of magnitude from `2 ^ -125` to below `2 ^ 127`. -/
def EasyFloat (q : ℚ) : Prop := Binary 24 148 q ∧ |q| < 2 ^ 127

theorem EasyFloat.binary {q : ℚ} (h : EasyFloat q) : Binary 24 149 q := by
  obtain ⟨⟨n, k, h1, h2, h3⟩, _⟩ := h
  exact ⟨n, k, h1, by push_cast at h2 ⊢; omega, h3⟩

theorem EasyFloat.units {q : ℚ} (h : EasyFloat q) : ∃ m : ℤ, q = m * 2 ^ (-(148 : ℤ)) := by
  simpa using h.1.units

/-- The threshold between two such floats is their mean, rounded once. -/
theorem mid_easy {a b : ℚ} (ha : EasyFloat a) (hb : EasyFloat b) :
    binary32Thr.mid (F32.fin a) (F32.fin b) = .num (F32.fin (roundRat 24 149 ((a + b) / 2))) := by
  obtain ⟨m, hm⟩ := ha.units
  obtain ⟨n, hn⟩ := hb.units
  have hhalf : (a + b) / 2 = ((m + n : ℤ) : ℚ) * 2 ^ (-((149 : ℕ) : ℤ)) := by
    rw [hm, hn, show (-((149 : ℕ) : ℤ)) = -148 - 1 by norm_num, zpow_sub₀ (by norm_num) (-148 : ℤ), zpow_one]
    push_cast
    ring
  have hr2 : roundRat 24 149 (a + b) = 2 * roundRat 24 149 ((a + b) / 2) := by
    have := roundRat_scale (p := 24) (sub := 149) (by norm_num) hhalf 1
    rw [pow_one, show 2 * ((a + b) / 2) = a + b by ring] at this
    exact this
  have hr := (roundRat_nearest (sub := 149) (p := 24) (by norm_num) (a + b)).1
  have hh := (roundRat_nearest (sub := 149) (p := 24) (by norm_num) ((a + b) / 2)).1
  have a' := abs_lt.mp ha.2
  have b' := abs_lt.mp hb.2
  have r1 : roundRat 24 149 (a + b) ≤ 2 ^ 128 - 2 ^ 104 :=
    hr.mono_le binary_max (by have := hb.binary.below_half b'.2; have := ha.binary.below_half a'.2; linarith)
  have r2 : -(2 ^ 128 - 2 ^ 104) ≤ roundRat 24 149 (a + b) :=
    hr.le_mono binary_max.neg (by have := ha.binary.neg.below_half (by linarith); have := hb.binary.neg.below_half (by linarith); linarith)
  have e1 : F32.sum (F32.fin a) (F32.fin b) = .num (roundRat 24 149 (a + b)) := round32_num (by linarith) (by linarith)
  have e2 : F64.div (.num (roundRat 24 149 (a + b))) (.num 2) = .num (roundRat 24 149 (a + b) / 2) :=
    half_exact hr.1 (abs_le.mpr ⟨by linarith, by linarith⟩)
  have e3 : roundRat 24 149 (a + b) / 2 = roundRat 24 149 ((a + b) / 2) := by rw [hr2]; ring
  have e4 : roundRat 24 149 (roundRat 24 149 ((a + b) / 2)) = roundRat 24 149 ((a + b) / 2) :=
    (roundRat_nearest (sub := 149) (p := 24) (by norm_num) _).1.self hh.1
  have e5 : F64.round32 (.num (roundRat 24 149 ((a + b) / 2))) = .num (roundRat 24 149 ((a + b) / 2)) := by
    have := round32_num (q := roundRat 24 149 ((a + b) / 2)) (by rw [e4]; linarith) (by rw [e4]; linarith)
    rwa [e4] at this
  change F32.ofDouble (F64.round32 (F64.div (F32.sum (F32.fin a) (F32.fin b)) (.num 2))) = _
  rw [e1, e2, e3, e5]
  rfl

/-- Multiplying both by a power of two multiplies the threshold. -/
theorem mid_scaled {a b : ℚ} (ha : EasyFloat a) (hb : EasyFloat b) {k : ℤ} (ha' : EasyFloat (2 ^ k * a)) (hb' : EasyFloat (2 ^ k * b)) :
    ∃ t, binary32Thr.mid (F32.fin a) (F32.fin b) = .num (F32.fin t) ∧
      binary32Thr.mid (F32.fin (2 ^ k * a)) (F32.fin (2 ^ k * b)) = .num (F32.fin (2 ^ k * t)) := by
  have half : ∀ {a b : ℚ}, EasyFloat a → EasyFloat b → ∃ m : ℤ, (a + b) / 2 = (m : ℚ) * 2 ^ (-((149 : ℕ) : ℤ)) := by
    intro a b ha hb
    obtain ⟨m, hm⟩ := ha.units
    obtain ⟨n, hn⟩ := hb.units
    refine ⟨m + n, ?_⟩
    rw [hm, hn, show (-((149 : ℕ) : ℤ)) = -148 - 1 by norm_num, zpow_sub₀ (by norm_num) (-148 : ℤ), zpow_one]
    push_cast
    ring
  refine ⟨_, mid_easy ha hb, ?_⟩
  rw [mid_easy ha' hb']
  congr 2
  obtain ⟨j, rfl | rfl⟩ := Int.eq_nat_or_neg k
  · obtain ⟨m, hm⟩ := half ha hb
    rw [zpow_natCast, ← roundRat_scale (by norm_num) hm j]
    congr 1
    ring
  · obtain ⟨m, hm⟩ := half ha' hb'
    have h := roundRat_scale (p := 24) (by norm_num) hm j
    have h2 : (2 : ℚ) ^ j * ((2 ^ (-(j : ℤ)) * a + 2 ^ (-(j : ℤ)) * b) / 2) = (a + b) / 2 := by
      rw [zpow_neg, zpow_natCast]
      field_simp
    rw [h2] at h
    rw [h, ← mul_assoc, zpow_neg, zpow_natCast, inv_mul_cancel₀ (by positivity), one_mul]

end Gbdt
