import Verif.Props.ScoreMetrics
import Verif.Lemmas.Accuracy
import Mathlib.Algebra.Order.Chebyshev
import Mathlib.Analysis.SpecialFunctions.Pow.Real

/-!
# C189: the error of score files in `compute_rmse.py`
-/

set_option autoImplicit false

namespace Gbdt

/-- `float(line)` in `compute_rmse.py:10-11` for a finite number, as a real number: the arithmetic of the script is exact here. -/
noncomputable def realNumber (line : Text) : Option ℝ := (finiteNumber line).map (fun q : ℚ => (q : ℝ))

/-- The reader in two steps. -/
theorem realNumber_eq : realNumber = Option.map (fun q : ℚ => (q : ℝ)) ∘ finiteNumber := by
  funext line
  rfl

/-- The root of the mean squared difference. -/
noncomputable def rootMeanSquare (n : Nat) (s r : Nat → ℝ) : ℝ := Real.sqrt ((∑ i ∈ Finset.range n, (s i - r i) ^ 2) / n)

/-- Moving every score by at most `δ` moves the root of the mean squared difference by at most `δ`. -/
theorem rootMeanSquare_le {n : Nat} {s s' r : Nat → ℝ} {δ : ℝ} (hδ : 0 ≤ δ) (h : ∀ i < n, |s' i - s i| ≤ δ) :
    rootMeanSquare n s' r ≤ rootMeanSquare n s r + δ := by
  unfold rootMeanSquare
  rcases Nat.eq_zero_or_pos n with rfl | hn
  · simpa using hδ
  have hn0 : (0 : ℝ) < n := by exact_mod_cast hn
  set B := (∑ i ∈ Finset.range n, (s i - r i) ^ 2) / (n : ℝ) with hB
  have hB0 : 0 ≤ B := div_nonneg (Finset.sum_nonneg (fun i _ => sq_nonneg _)) hn0.le
  have hcs : (∑ i ∈ Finset.range n, |s i - r i|) / n ≤ Real.sqrt B := by
    apply Real.le_sqrt_of_sq_le
    have := sq_sum_le_card_mul_sum_sq (s := Finset.range n) (f := fun i => |s i - r i|)
    simp only [sq_abs, Finset.card_range] at this
    rw [div_pow, hB, div_le_div_iff₀ (by positivity) hn0]
    calc (∑ i ∈ Finset.range n, |s i - r i|) ^ 2 * n ≤ (n * ∑ i ∈ Finset.range n, (s i - r i) ^ 2) * n :=
          mul_le_mul_of_nonneg_right this hn0.le
      _ = (∑ i ∈ Finset.range n, (s i - r i) ^ 2) * (n : ℝ) ^ 2 := by ring
  have hterm : ∀ i ∈ Finset.range n, (s' i - r i) ^ 2 ≤ (s i - r i) ^ 2 + 2 * δ * |s i - r i| + δ ^ 2 := by
    intro i hi
    have h1 := h i (Finset.mem_range.mp hi)
    have h2 : |s' i - r i| ≤ |s i - r i| + δ := by
      have := abs_add_le (s' i - s i) (s i - r i)
      rw [sub_add_sub_cancel] at this
      linarith
    calc (s' i - r i) ^ 2 = |s' i - r i| ^ 2 := (sq_abs _).symm
      _ ≤ (|s i - r i| + δ) ^ 2 := pow_le_pow_left₀ (abs_nonneg _) h2 2
      _ = |s i - r i| ^ 2 + 2 * δ * |s i - r i| + δ ^ 2 := by ring
      _ = (s i - r i) ^ 2 + 2 * δ * |s i - r i| + δ ^ 2 := by rw [sq_abs]
  have hsum : (∑ i ∈ Finset.range n, (s' i - r i) ^ 2) / n ≤ (Real.sqrt B + δ) ^ 2 := by
    have h1 := Finset.sum_le_sum hterm
    rw [Finset.sum_add_distrib, Finset.sum_add_distrib, ← Finset.mul_sum, Finset.sum_const, Finset.card_range, nsmul_eq_mul] at h1
    have h2 : (∑ i ∈ Finset.range n, (s' i - r i) ^ 2) / n ≤ B + 2 * δ * ((∑ i ∈ Finset.range n, |s i - r i|) / n) + δ ^ 2 := by
      calc (∑ i ∈ Finset.range n, (s' i - r i) ^ 2) / n
          ≤ (∑ i ∈ Finset.range n, (s i - r i) ^ 2 + 2 * δ * ∑ i ∈ Finset.range n, |s i - r i| + n * δ ^ 2) / n :=
            div_le_div_of_nonneg_right h1 hn0.le
        _ = B + 2 * δ * ((∑ i ∈ Finset.range n, |s i - r i|) / n) + δ ^ 2 := by
            rw [hB]
            field_simp
    have h3 : 2 * δ * ((∑ i ∈ Finset.range n, |s i - r i|) / n) ≤ 2 * δ * Real.sqrt B := mul_le_mul_of_nonneg_left hcs (by linarith)
    have h4 := Real.sq_sqrt hB0
    calc _ ≤ B + 2 * δ * ((∑ i ∈ Finset.range n, |s i - r i|) / n) + δ ^ 2 := h2
      _ ≤ Real.sqrt B ^ 2 + 2 * δ * Real.sqrt B + δ ^ 2 := by linarith
      _ = (Real.sqrt B + δ) ^ 2 := by ring
  exact Real.sqrt_le_iff.mpr ⟨add_nonneg (Real.sqrt_nonneg _) hδ, hsum⟩

/-- A score in the normal range, or 0. -/
def Ordinary (q : ℚ) : Prop := q = 0 ∨ (1 / 2 ^ 1000 ≤ |q| ∧ |q| ≤ 2 ^ 1000)

/-- What is read for a score is within six millionths of it. -/
theorem printed_close {q : ℚ} (h : Ordinary q) : ∃ t, printedDouble (.num q) = .num t ∧ |t - q| ≤ 6 / 1000000 * |q| := by
  rcases h with rfl | ⟨hlo, hhi⟩
  · exact ⟨0, by decide +kernel, by simp⟩
  · have hread := readBack_readsAs (.num q)
    rw [← printedDouble_eq] at hread
    obtain ⟨y, hy, hyt⟩ := hread
    have h1 := C184_close_partial hy
    have hya : |y| ≤ 2 * |q| := by
      have := abs_add_le (y - q) q
      rw [sub_add_cancel, abs_sub_comm] at this
      have := abs_nonneg q
      linarith
    have hyb : |q| / 2 ≤ |y| := by
      have := abs_add_le (q - y) y
      rw [sub_add_cancel] at this
      have := abs_nonneg q
      linarith
    obtain ⟨_, hrel⟩ := roundRat_nearest (sub := 1074) (p := 53) (by norm_num) y
    have hmin : (2 : ℚ) ^ ((53 : ℕ) - 1 - (1074 : ℕ) : ℤ) ≤ |y| := by
      refine le_trans ?_ hyb
      refine le_trans ?_ (div_le_div_of_nonneg_right hlo (by norm_num))
      rw [one_div, ← zpow_natCast, ← zpow_neg, div_eq_mul_inv, show (2 : ℚ)⁻¹ = 2 ^ (-1 : ℤ) by norm_num, ← zpow_add₀ (by norm_num)]
      exact zpow_le_zpow_right₀ (by norm_num) (by norm_num)
    have h2 := hrel hmin
    set t := roundRat 53 1074 y with ht
    have h3 : |t - q| ≤ 6 / 1000000 * |q| := by
      have h4 := abs_add_le (t - y) (y - q)
      rw [sub_add_sub_cancel, abs_sub_comm t y, abs_sub_comm y q] at h4
      have h5 : |y| / 2 ^ 53 ≤ 2 * |q| / 2 ^ 53 := div_le_div_of_nonneg_right hya (by positivity)
      have h6 : 2 * |q| / 2 ^ 53 ≤ 1 / 1000000 * |q| := by
        rw [div_le_iff₀ (by positivity)]
        have := abs_nonneg q
        nlinarith
      linarith
    refine ⟨t, ?_, h3⟩
    rw [hyt, round_small]
    have h4 := abs_add_le (t - q) q
    rw [sub_add_cancel] at h4
    have h7 : |t| ≤ 4 * 2 ^ 1000 := by
      generalize (2 : ℚ) ^ 1000 = B at hhi ⊢
      have := abs_nonneg q
      linarith
    refine lt_of_le_of_lt h7 ?_
    rw [show (4 : ℚ) = 2 ^ 2 by norm_num, ← pow_add]
    exact pow_lt_pow_right₀ (by norm_num) (by norm_num)

/-- **C189.** The number that `compute_rmse.py` prints for the score file of a model differs from the root mean squared error of the predictions by
at most six millionths of the largest prediction. -/
theorem C189_rmse {responseFile : Text} {n : Nat} (hn : 0 < n) {s : Nat → ℚ} {r : Nat → ℝ} {M : ℝ} (hs : ∀ i < n, Ordinary (s i))
    (hM : ∀ i < n, |(s i : ℝ)| ≤ M) (hr : (scriptRows responseFile).map realNumber = (List.range n).map (fun i => some (r i))) :
    ∃ x, rmseMain Real.sqrt realNumber (scoreText ((List.range n).map (fun i => F64.num (s i)))) responseFile = some (x, true) ∧
      |x - rootMeanSquare n (fun i => (s i : ℝ)) r| ≤ 6 / 1000000 * M := by
  have hread : ∀ i, ∃ t : ℚ, i < n → printedDouble (.num (s i)) = .num t ∧ |t - s i| ≤ 6 / 1000000 * |s i| := by
    intro i
    by_cases hi : i < n
    · obtain ⟨t, h1, h2⟩ := printed_close (hs i hi)
      exact ⟨t, fun _ => ⟨h1, h2⟩⟩
    · exact ⟨0, fun h => absurd h hi⟩
  choose s' hs' using hread
  have hrows : (scriptRows (scoreText ((List.range n).map (fun i => F64.num (s i))))).map realNumber =
      (List.range n).map (fun i => some ((s' i : ℚ) : ℝ)) := by
    have h1 := congrArg (List.map (Option.map (fun q : ℚ => (q : ℝ)))) (scriptRows_scoreText ((List.range n).map (fun i => F64.num (s i))))
    rw [List.map_map, ← realNumber_eq] at h1
    refine h1.trans ?_
    rw [List.map_map, List.map_map]
    refine List.map_congr_left (fun i hi => ?_)
    have := (hs' i (List.mem_range.mp hi)).1
    rw [printedDouble, readFloat_show, Option.getD_some] at this
    simp only [Function.comp_apply, finiteNumber, readFloat_show, this]
    rfl
  obtain ⟨_, hmain⟩ := C148_rmse Real.sqrt hrows hr
  refine ⟨_, hmain rfl hn, ?_⟩
  have hM0 : 0 ≤ M := (abs_nonneg _).trans (hM 0 hn)
  have hclose : ∀ i < n, |((s' i : ℚ) : ℝ) - (s i : ℝ)| ≤ 6 / 1000000 * M := by
    intro i hi
    have h1 := (hs' i hi).2
    have h2 : |((s' i : ℚ) : ℝ) - (s i : ℝ)| ≤ 6 / 1000000 * |(s i : ℝ)| := by
      have h3 : ((|s' i - s i| : ℚ) : ℝ) ≤ ((6 / 1000000 * |s i| : ℚ) : ℝ) := Rat.cast_le.mpr h1
      push_cast at h3
      exact h3
    have := hM i hi
    linarith
  have a := rootMeanSquare_le (r := r) (by positivity) hclose
  have b := rootMeanSquare_le (r := r) (s := fun i => ((s' i : ℚ) : ℝ)) (s' := fun i => (s i : ℝ)) (δ := 6 / 1000000 * M) (by positivity)
    (fun i hi => by rw [abs_sub_comm]; exact hclose i hi)
  change |rootMeanSquare n (fun i => ((s' i : ℚ) : ℝ)) r - _| ≤ _
  exact abs_le.mpr ⟨by linarith, by linarith⟩

/-- A case: two predictions and two responses. -/
example : (∀ i < 2, Ordinary (apartS i)) ∧ (∀ i < 2, |(apartS i : ℝ)| ≤ 2) ∧
    (scriptRows (printLines ["#float".toList, "1".toList, "0.5".toList])).map realNumber =
      (List.range 2).map (fun i => some (([1, (1 : ℚ) / 2].getD i 0 : ℚ) : ℝ)) := by
  refine ⟨?_, ?_, ?_⟩
  · have h1 : (1 : ℚ) / 2 ^ 1000 ≤ 1 / 2 ^ 3 := one_div_le_one_div_of_le (by norm_num) (pow_le_pow_right₀ (by norm_num) (by norm_num))
    have h2 : (2 : ℚ) ^ 3 ≤ 2 ^ 1000 := pow_le_pow_right₀ (by norm_num) (by norm_num)
    intro i hi
    have : ∀ i < 2, (1 : ℚ) / 2 ^ 3 ≤ |apartS i| ∧ |apartS i| ≤ 2 ^ 3 := by decide +kernel
    exact Or.inr ⟨h1.trans (this i hi).1, (this i hi).2.trans h2⟩
  · have : ∀ i < 2, |apartS i| ≤ 2 := by decide +kernel
    intro i hi
    exact_mod_cast this i hi
  · have h1 : (scriptRows (printLines ["#float".toList, "1".toList, "0.5".toList])).map finiteNumber =
        (List.range 2).map (fun i => some ([1, (1 : ℚ) / 2].getD i 0)) := by decide +kernel
    have := congrArg (List.map (Option.map (fun q : ℚ => (q : ℝ)))) h1
    rw [List.map_map, ← realNumber_eq, List.map_map] at this
    exact this

end Gbdt
