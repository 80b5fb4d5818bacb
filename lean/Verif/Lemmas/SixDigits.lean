import Verif.Model.ScoreText
import Verif.Spec.SixDigits
import Mathlib.Tactic.Linarith
import Mathlib.Tactic.FieldSimp
import Mathlib.Tactic.Ring
import Mathlib.Tactic.NormNum
import Mathlib.Tactic.Positivity

/-! # Rounding to six digits and the text of scores -/

set_option autoImplicit false

namespace Gbdt

/-! ## Rounding -/

/-- `roundDiv` is a nearest integer. -/
theorem roundDiv_nearest {a d : ℕ} (hd : 0 < d) (z : ℤ) : |(a : ℚ) / d - roundDiv a d| ≤ |(a : ℚ) / d - z| := by
  have hdq : (0 : ℚ) < d := by exact_mod_cast hd
  have hdiv : (a : ℚ) = d * (a / d : ℕ) + (a % d : ℕ) := by exact_mod_cast (Nat.div_add_mod a d).symm
  have hr : a % d < d := Nat.mod_lt _ hd
  have hrq : ((a % d : ℕ) : ℚ) < d := by exact_mod_cast hr
  have hr0 : (0 : ℚ) ≤ (a % d : ℕ) := by positivity
  have hx : (a : ℚ) / d = (a / d : ℕ) + ((a % d : ℕ) : ℚ) / d := by
    rw [hdiv]
    field_simp
  set f : ℚ := ((a % d : ℕ) : ℚ) / d with hf
  have hf0 : 0 ≤ f := by positivity
  have hf1 : f < 1 := by rw [hf, div_lt_one hdq]; exact hrq
  rw [hx]
  have hz : z ≤ ((a / d : ℕ) : ℤ) ∨ ((a / d : ℕ) : ℤ) + 1 ≤ z := by omega
  have hzq : (z : ℚ) ≤ (a / d : ℕ) ∨ ((a / d : ℕ) : ℚ) + 1 ≤ z := by
    rcases hz with h | h
    · left
      have : (z : ℚ) ≤ (((a / d : ℕ) : ℤ) : ℚ) := by exact_mod_cast h
      rwa [Int.cast_natCast] at this
    · right
      have : ((((a / d : ℕ) : ℤ) + 1 : ℤ) : ℚ) ≤ z := by exact_mod_cast h
      push_cast at this ⊢
      exact this
  have habs1 := le_abs_self (((a / d : ℕ) : ℚ) + f - z)
  have habs2 := neg_abs_le (((a / d : ℕ) : ℚ) + f - z)
  unfold roundDiv
  simp only []
  split
  · rename_i hup
    have h2 : (1 : ℚ) / 2 ≤ f := by
      rw [hf, div_le_div_iff₀ (by norm_num) hdq]
      have : d ≤ 2 * (a % d) := by
        rcases Bool.or_eq_true _ _ |>.mp hup with h | h
        · exact le_of_lt (of_decide_eq_true h)
        · have := (Bool.and_eq_true _ _ |>.mp h).1
          exact le_of_eq (beq_iff_eq.mp this).symm
      have : (d : ℚ) ≤ 2 * (a % d : ℕ) := by exact_mod_cast this
      linarith
    push_cast
    rw [abs_le]
    constructor <;> rcases hzq with h | h <;> linarith
  · rename_i hup
    have h2 : f ≤ 1 / 2 := by
      rw [hf, div_le_div_iff₀ hdq (by norm_num)]
      have : 2 * (a % d) ≤ d := by
        by_contra hlt
        exact hup (Bool.or_eq_true _ _ |>.mpr (Or.inl (decide_eq_true (by omega))))
      have : 2 * ((a % d : ℕ) : ℚ) ≤ d := by exact_mod_cast this
      linarith
    rw [abs_le]
    constructor <;> rcases hzq with h | h <;> linarith

/-- The value that the digits of a positive number stand for. -/
def shownPositive (q : ℚ) : ℚ := (sixDigits q).1 * 10 ^ ((sixDigits q).2 - 5)

/-- The value that the printed text of a number stands for. -/
def shown (q : ℚ) : ℚ := if q = 0 then 0 else if q < 0 then -shownPositive (-q) else shownPositive q

theorem tens (k : ℤ) : (0 : ℚ) < 10 ^ k := zpow_pos (by norm_num) k

theorem sixDigits_spec {q : ℚ} (hq : 0 < q) :
    100000 ≤ (sixDigits q).1 ∧ (sixDigits q).1 < 1000000 ∧ RoundsTo q (shownPositive q) := by
  set e := Int.log 10 q with he
  have hlo : (10 : ℚ) ^ e ≤ q := by
    have := Int.zpow_log_le_self (b := 10) (by norm_num) hq
    simpa using this
  have hhi : q < (10 : ℚ) ^ (e + 1) := by
    have := Int.lt_zpow_succ_log_self (b := 10) (by norm_num) q
    simpa using this
  set s : ℚ := 10 ^ (5 - e) with hs
  have hs0 : 0 < s := tens _
  have hse : (10 : ℚ) ^ e * s = 100000 := by
    rw [hs, ← zpow_add₀ (by norm_num)]
    norm_num
  have hse1 : (10 : ℚ) ^ (e + 1) * s = 1000000 := by
    rw [zpow_add₀ (by norm_num), zpow_one]
    linarith
  have hs5 : s * 10 ^ (e - 5) = 1 := by
    rw [hs, ← zpow_add₀ (by norm_num)]
    norm_num
  set x : ℚ := q * s with hx
  have hx0 : 0 < x := mul_pos hq hs0
  have hx1 : 100000 ≤ x := by
    rw [← hse]
    exact mul_le_mul_of_nonneg_right hlo hs0.le
  have hx2 : x < 1000000 := by
    rw [← hse1]
    exact mul_lt_mul_of_pos_right hhi hs0
  have hnum : ((x.num.natAbs : ℕ) : ℚ) / x.den = x := by
    have h1 : ((x.num.natAbs : ℕ) : ℚ) = (x.num : ℚ) := by
      have : ((x.num.natAbs : ℕ) : ℤ) = x.num := Int.natAbs_of_nonneg (Rat.num_nonneg.mpr hx0.le)
      rw [← Int.cast_natCast (R := ℚ), this]
    rw [h1]
    exact Rat.num_div_den x
  set m := roundDiv x.num.natAbs x.den with hm
  have hnear : ∀ z : ℤ, |x - m| ≤ |x - z| := by
    intro z
    have := roundDiv_nearest (a := x.num.natAbs) x.den_pos z
    rwa [hnum] at this
  have hm1 : 100000 ≤ m := by
    by_contra hlt
    have h1 : (m : ℚ) + 1 ≤ 100000 := by exact_mod_cast (by omega : m + 1 ≤ 100000)
    have h2 := hnear 100000
    rw [abs_of_nonneg (by linarith), abs_of_nonneg (by push_cast; linarith)] at h2
    push_cast at h2
    linarith
  have hm2 : m ≤ 1000000 := by
    by_contra hlt
    have h1 : (1000000 : ℚ) + 1 ≤ m := by exact_mod_cast (by omega : 1000000 + 1 ≤ m)
    have h2 := hnear 1000000
    rw [abs_of_nonpos (by linarith), abs_of_nonpos (by push_cast; linarith)] at h2
    push_cast at h2
    linarith
  have hval : shownPositive q = m * 10 ^ (e - 5) := by
    unfold shownPositive sixDigits
    simp only [← he, ← hs, ← hx, ← hm]
    split
    · rename_i h
      rw [h, show e + 1 - 5 = (e - 5) + 1 by ring, zpow_add₀ (by norm_num), zpow_one]
      push_cast
      ring
    · rfl
  have hdig : 100000 ≤ (sixDigits q).1 ∧ (sixDigits q).1 < 1000000 := by
    unfold sixDigits
    simp only [← he, ← hs, ← hx, ← hm]
    split
    · norm_num
    · exact ⟨hm1, by omega⟩
  refine ⟨hdig.1, hdig.2, ⟨(sixDigits q).1, (sixDigits q).2 - 5, ?_, ?_⟩, ?_⟩
  · rw [abs_of_nonneg (by positivity)]
    exact_mod_cast hdig.2
  · simp [shownPositive]
  · -- multiples of the unit of the last digit
    have hmult : ∀ z : ℤ, |q - shownPositive q| ≤ |q - z * 10 ^ (e - 5)| := by
      intro z
      have hq5 : q = x * 10 ^ (e - 5) := by rw [hx, mul_assoc, hs5, mul_one]
      have h1 : q - shownPositive q = (x - m) * 10 ^ (e - 5) := by rw [hval, sub_mul, ← hq5]
      have h2 : q - z * 10 ^ (e - 5) = (x - z) * 10 ^ (e - 5) := by rw [sub_mul, ← hq5]
      rw [h1, h2, abs_mul, abs_mul]
      exact mul_le_mul_of_nonneg_right (hnear z) (abs_nonneg _)
    rintro z ⟨n, k, hn, rfl⟩
    rcases le_or_gt (e - 5) k with hk | hk
    · obtain ⟨j, hj⟩ := Int.eq_ofNat_of_zero_le (sub_nonneg.mpr hk)
      have := hmult (n * 10 ^ j)
      have h2 : ((n * 10 ^ j : ℤ) : ℚ) * 10 ^ (e - 5) = n * 10 ^ k := by
        push_cast
        rw [show k = (j : ℤ) + (e - 5) by omega, zpow_add₀ (by norm_num), zpow_natCast]
        ring
      rwa [h2] at this
    · have h1 := hmult 100000
      have h2 : ((100000 : ℤ) : ℚ) * 10 ^ (e - 5) = 10 ^ e := by
        have : ((100000 : ℤ) : ℚ) = (10 : ℚ) ^ (5 : ℤ) := by norm_num
        rw [this, ← zpow_add₀ (by norm_num)]
        congr 1
        ring
      rw [h2, abs_of_nonneg (a := q - 10 ^ e) (by linarith)] at h1
      have h3 : (n : ℚ) * 10 ^ k ≤ 10 ^ e := by
        have hn1 : (n : ℚ) ≤ 1000000 := by
          have : n ≤ 1000000 := le_of_lt (lt_of_le_of_lt (le_abs_self n) hn)
          exact_mod_cast this
        have hk1 : (10 : ℚ) ^ k ≤ 10 ^ (e - 6) := zpow_le_zpow_right₀ (by norm_num) (by omega)
        calc (n : ℚ) * 10 ^ k ≤ 1000000 * 10 ^ k := mul_le_mul_of_nonneg_right hn1 (tens k).le
          _ ≤ 1000000 * 10 ^ (e - 6) := mul_le_mul_of_nonneg_left hk1 (by norm_num)
          _ = 10 ^ e := by
            have : (1000000 : ℚ) = (10 : ℚ) ^ (6 : ℤ) := by norm_num
            rw [this, ← zpow_add₀ (by norm_num)]
            congr 1
            ring
      calc |q - shownPositive q| ≤ q - 10 ^ e := h1
        _ ≤ q - n * 10 ^ k := by linarith
        _ ≤ |q - n * 10 ^ k| := le_abs_self _

theorem SixDigit.neg {x : ℚ} (h : SixDigit x) : SixDigit (-x) := by
  obtain ⟨n, k, hn, rfl⟩ := h
  exact ⟨-n, k, by rwa [abs_neg], by push_cast; ring⟩

theorem sixDigit_zero : SixDigit 0 := ⟨0, 0, by norm_num, by norm_num⟩

theorem shown_roundsTo (q : ℚ) : RoundsTo q (shown q) := by
  unfold shown
  split
  · rename_i h
    subst h
    exact ⟨sixDigit_zero, fun z _ => by simp⟩
  · rename_i h
    split
    · rename_i hneg
      have := (sixDigits_spec (q := -q) (by linarith)).2.2
      refine ⟨this.1.neg, fun z hz => ?_⟩
      have h1 := this.2 (-z) hz.neg
      rw [show q - -shownPositive (-q) = -(-q - shownPositive (-q)) by ring, show q - z = -(-q - -z) by ring, abs_neg, abs_neg]
      exact h1
    · rename_i hneg
      exact (sixDigits_spec (lt_of_le_of_ne (not_lt.mp hneg) (Ne.symm h))).2.2

end Gbdt
