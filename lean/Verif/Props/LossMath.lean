import Verif.Model.Pointwise
import Mathlib.Analysis.SpecialFunctions.ExpDeriv
import Mathlib.Analysis.SpecialFunctions.Log.Deriv
import Mathlib.Analysis.Calculus.Deriv.Add
import Mathlib.Analysis.Calculus.Deriv.Mul
import Mathlib.Analysis.Calculus.Deriv.Pow
import Mathlib.Analysis.Calculus.Deriv.Inv

/-!
# C47: gradients and hessians are the derivatives of the loss

Over the real numbers, with the real exponential and logarithm.
-/

set_option autoImplicit false
set_option linter.unusedSectionVars false

namespace Gbdt

/-- `<cmath>` without rounding. -/
noncomputable def realMath : MathFns ℝ where
  exp := Real.exp
  log := Real.log
  neg := fun x => -x
  one := 1
  half := 1 / 2

/-! ## Squared error -/

/-- **C47 (mse).** The gradient is half of the negative derivative of the loss, the hessian half of the second derivative,
for every target and score. -/
theorem C47_mse (y f : ℝ) :
    HasDerivAt (fun x => (mseLoss realMath y x).1) (-(2 * (mseLoss realMath y f).2.1)) f ∧
      HasDerivAt (fun x => -(2 * (mseLoss realMath y x).2.1)) (2 * (mseLoss realMath y f).2.2) f ∧
      0 ≤ (mseLoss realMath y f).2.2 := by
  simp only [mseLoss, realMath]
  have h : HasDerivAt (fun x : ℝ => y - x) (-1) f := by simpa using (hasDerivAt_id f).const_sub y
  refine ⟨?_, ?_, by norm_num⟩
  · exact (h.mul h).congr_deriv (show -1 * (y - f) + (y - f) * -1 = -(2 * (y - f)) by ring)
  · exact (h.const_mul 2).neg.congr_deriv (show -(2 * -1) = 2 * (1 : ℝ) by ring)

/-! ## Logistic loss -/

/-- **C47 (logloss).** For targets 1 and -1 the gradient is the negative derivative of the loss and the hessian the second
derivative, at every score. -/
theorem C47_logloss (y f : ℝ) (hy : y = 1 ∨ y = -1) :
    HasDerivAt (fun x => (logLoss realMath y x).1) (-(logLoss realMath y f).2.1) f ∧
      HasDerivAt (fun x => -(logLoss realMath y x).2.1) ((logLoss realMath y f).2.2) f ∧
      0 ≤ (logLoss realMath y f).2.2 := by
  simp only [logLoss, realMath]
  have hE : 0 < Real.exp (-y * f) := Real.exp_pos _
  have h1 : 1 + Real.exp (-y * f) ≠ 0 := by positivity
  have hlin : HasDerivAt (fun x : ℝ => -y * x) (-y) f := by simpa using (hasDerivAt_id f).const_mul (-y)
  have hexp : HasDerivAt (fun x : ℝ => Real.exp (-y * x)) (Real.exp (-y * f) * -y) f := hlin.exp
  have hden : HasDerivAt (fun x : ℝ => 1 + Real.exp (-y * x)) (Real.exp (-y * f) * -y) f := hexp.const_add 1
  have hyy : y * y = 1 := by rcases hy with rfl | rfl <;> norm_num
  refine ⟨?_, ?_, by positivity⟩
  · refine (hden.log h1).congr_deriv ?_
    show Real.exp (-y * f) * -y / (1 + Real.exp (-y * f)) = -(y * Real.exp (-y * f) / (1 + Real.exp (-y * f)))
    ring
  · refine ((hexp.const_mul y).div hden h1).neg.congr_deriv ?_
    show -((y * (Real.exp (-y * f) * -y) * (1 + Real.exp (-y * f)) - y * Real.exp (-y * f) * (Real.exp (-y * f) * -y)) /
      (1 + Real.exp (-y * f)) ^ 2) = Real.exp (-y * f) / ((1 + Real.exp (-y * f)) * (1 + Real.exp (-y * f)))
    generalize Real.exp (-y * f) = E at h1
    field_simp
    linear_combination E * hyy

/-! ## Hinges -/

/-- The square of the positive part. -/
theorem sq_pos_part_deriv (x : ℝ) : HasDerivAt (fun x : ℝ => max 0 x * max 0 x) (2 * max 0 x) x := by
  rcases lt_trichotomy x 0 with h | h | h
  · rw [max_eq_left h.le]
    have : (fun x : ℝ => max 0 x * max 0 x) =ᶠ[nhds x] fun _ => 0 := by
      filter_upwards [gt_mem_nhds h] with z hz
      rw [max_eq_left hz.le, mul_zero]
    rw [mul_zero]
    exact (hasDerivAt_const x (0 : ℝ)).congr_of_eventuallyEq this
  · subst h
    rw [max_self, mul_zero, ← hasDerivWithinAt_univ, ← Set.Iic_union_Ici (a := (0 : ℝ))]
    refine HasDerivWithinAt.union ?_ ?_
    · refine (hasDerivWithinAt_const (0 : ℝ) (Set.Iic 0) (0 : ℝ)).congr ?_ (by simp)
      intro z hz
      rw [max_eq_left hz, mul_zero]
    · have := ((hasDerivAt_id (0 : ℝ)).mul (hasDerivAt_id (0 : ℝ))).hasDerivWithinAt (s := Set.Ici 0)
      have h0 : HasDerivWithinAt (fun z : ℝ => z * z) 0 (Set.Ici 0) 0 := this.congr_deriv (by simp)
      refine h0.congr ?_ (by simp)
      intro z hz
      simp only [max_eq_right (show (0 : ℝ) ≤ z from hz)]
  · rw [max_eq_right h.le]
    have : (fun x : ℝ => max 0 x * max 0 x) =ᶠ[nhds x] fun z => z * z := by
      filter_upwards [lt_mem_nhds h] with z hz
      rw [max_eq_right hz.le]
    have h2 := (hasDerivAt_id x).mul (hasDerivAt_id x)
    simp only [id, one_mul, mul_one] at h2
    rw [two_mul]
    exact h2.congr_of_eventuallyEq this

theorem pos_part_deriv {x : ℝ} (hx : x ≠ 0) : HasDerivAt (fun x : ℝ => max 0 x) (if 0 < x then 1 else 0) x := by
  rcases lt_or_gt_of_ne hx with h | h
  · rw [if_neg (not_lt.mpr h.le)]
    refine (hasDerivAt_const x (0 : ℝ)).congr_of_eventuallyEq ?_
    filter_upwards [gt_mem_nhds h] with z hz
    exact max_eq_left hz.le
  · rw [if_pos h]
    refine (hasDerivAt_id x).congr_of_eventuallyEq ?_
    filter_upwards [lt_mem_nhds h] with z hz
    exact max_eq_right hz.le

theorem huberized_eq (y x : ℝ) :
    (huberizedHinge realMath y x).1 =
      1 / 2 * (max 0 (1 - y * x) * max 0 (1 - y * x)) - 1 / 2 * (max 0 (-(y * x)) * max 0 (-(y * x))) ∧
    (huberizedHinge realMath y x).2.1 = (max 0 (1 - y * x) - max 0 (-(y * x))) * y ∧
    (huberizedHinge realMath y x).2.2 = if 0 ≤ y * x ∧ y * x < 1 then 1 else 0 := by
  simp only [huberizedHinge, realMath, Dbl.leb, exact_ltb, exact_eqb, Bool.or_eq_true, decide_eq_true_eq, ← le_iff_lt_or_eq]
  by_cases h1 : 1 ≤ y * x
  · rw [if_pos h1, max_eq_left (by linarith), max_eq_left (by linarith), if_neg (by intro h; linarith [h.2])]
    norm_num
  · rw [if_neg h1]
    push Not at h1
    by_cases h0 : 0 ≤ y * x
    · rw [if_pos h0, max_eq_right (by linarith), max_eq_left (by linarith), if_pos ⟨h0, h1⟩]
      refine ⟨by ring, by ring, rfl⟩
    · rw [if_neg h0]
      push Not at h0
      rw [max_eq_right (by linarith), max_eq_right (by linarith), if_neg (by intro h; linarith [h.1])]
      refine ⟨by ring, by ring, rfl⟩

/-- **C47 (huberized hinge).** The gradient is the negative derivative of the loss, at every score; for targets 1 and -1 the
hessian is the second derivative, except at margins 0 and 1, where there is none. -/
theorem C47_huberized (y f : ℝ) :
    HasDerivAt (fun x => (huberizedHinge realMath y x).1) (-(huberizedHinge realMath y f).2.1) f ∧
      ((y = 1 ∨ y = -1) → y * f ≠ 0 → y * f ≠ 1 →
        HasDerivAt (fun x => -(huberizedHinge realMath y x).2.1) ((huberizedHinge realMath y f).2.2) f) ∧
      0 ≤ (huberizedHinge realMath y f).2.2 := by
  have hlin : HasDerivAt (fun x : ℝ => y * x) y f := by simpa using (hasDerivAt_id f).const_mul y
  have ha : HasDerivAt (fun x : ℝ => 1 - y * x) (-y) f := hlin.const_sub 1
  have hb : HasDerivAt (fun x : ℝ => -(y * x)) (-y) f := hlin.neg
  obtain ⟨_, e2, e3⟩ := huberized_eq y f
  refine ⟨?_, ?_, by rw [e3]; split <;> norm_num⟩
  · have e1 : (fun x => (huberizedHinge realMath y x).1) = _ := funext (fun x => (huberized_eq y x).1)
    rw [e1, e2]
    have d1 := ((sq_pos_part_deriv (1 - y * f)).comp f ha).const_mul (1 / 2)
    have d2 := ((sq_pos_part_deriv (-(y * f))).comp f hb).const_mul (1 / 2)
    refine (d1.sub d2).congr_deriv ?_
    ring
  · intro hy h0 h1
    have e1 : (fun x => -(huberizedHinge realMath y x).2.1) = _ := funext (fun x => by rw [(huberized_eq y x).2.1])
    rw [e1, e3]
    have d1 := (pos_part_deriv (show 1 - y * f ≠ 0 from fun h => h1 (by linarith))).comp f ha
    have d2 := (pos_part_deriv (show -(y * f) ≠ 0 from fun h => h0 (by linarith))).comp f hb
    have hyy : y * y = 1 := by rcases hy with rfl | rfl <;> norm_num
    refine ((d1.sub d2).mul_const y).neg.congr_deriv ?_
    by_cases c1 : y * f < 1
    · have p1 : 0 < 1 - y * f := by linarith
      by_cases c0 : 0 ≤ y * f
      · have p2 : ¬ 0 < -(y * f) := by linarith
        simp only [if_pos p1, if_neg p2, if_pos (And.intro c0 c1)]
        linear_combination hyy
      · have p2 : 0 < -(y * f) := by push Not at c0; linarith
        have p3 : ¬ (0 ≤ y * f ∧ y * f < 1) := fun h => c0 h.1
        simp only [if_pos p1, if_pos p2, if_neg p3]
        ring
    · push Not at c1
      have p1 : ¬ 0 < 1 - y * f := by linarith
      have p2 : ¬ 0 < -(y * f) := by linarith
      have p3 : ¬ (0 ≤ y * f ∧ y * f < 1) := fun h => by linarith [h.2]
      simp only [if_neg p1, if_neg p2, if_neg p3]
      ring

theorem squaredHinge_eq {y : ℝ} (hy : 0 < y) (x : ℝ) :
    (squaredHinge realMath y x).1 = max 0 (y - x) * max 0 (y - x) ∧ (squaredHinge realMath y x).2.1 = max 0 (y - x) ∧
    (squaredHinge realMath y x).2.2 = if 0 < y - x then 1 else 0 := by
  simp only [squaredHinge, realMath, exact_ltb, decide_eq_true_eq, mul_pos_iff_of_pos_right hy]
  by_cases h : 0 < y - x
  · rw [if_pos h, max_eq_right h.le, if_pos h]
    exact ⟨rfl, rfl, rfl⟩
  · rw [if_neg h, max_eq_left (not_lt.mp h), if_neg h]
    simp

/-- **C47 (squared hinge, used by gbrank).** For a positive difference of targets the gradient is half of the negative
derivative of the loss, at every difference of scores, and the hessian half of the second derivative where there is one. -/
theorem C47_squared_hinge {y : ℝ} (hy : 0 < y) (f : ℝ) :
    HasDerivAt (fun x => (squaredHinge realMath y x).1) (-(2 * (squaredHinge realMath y f).2.1)) f ∧
      (f ≠ y → HasDerivAt (fun x => -(2 * (squaredHinge realMath y x).2.1)) (2 * (squaredHinge realMath y f).2.2) f) ∧
      0 ≤ (squaredHinge realMath y f).2.2 := by
  have h : HasDerivAt (fun x : ℝ => y - x) (-1) f := by simpa using (hasDerivAt_id f).const_sub y
  obtain ⟨_, e2, e3⟩ := squaredHinge_eq hy f
  refine ⟨?_, ?_, by rw [e3]; split <;> norm_num⟩
  · have e1 : (fun x => (squaredHinge realMath y x).1) = _ := funext (fun x => (squaredHinge_eq hy x).1)
    rw [e1, e2]
    refine ((sq_pos_part_deriv (y - f)).comp f h).congr_deriv ?_
    ring
  · intro hne
    have e1 : (fun x => -(2 * (squaredHinge realMath y x).2.1)) = _ :=
      funext (fun x => by rw [(squaredHinge_eq hy x).2.1])
    rw [e1, e3]
    refine (((pos_part_deriv (show y - f ≠ 0 from fun h => hne (by linarith))).comp f h).const_mul 2).neg.congr_deriv ?_
    ring

/-- Margins on all three pieces of the huberized hinge. -/
example : (huberizedHinge realMath 1 2).1 = 0 ∧ (huberizedHinge realMath (-1) (-1/2)).2 = (-1/2, 1) ∧
    (huberizedHinge realMath 1 (-1)) = (3/2, 1, 0) := by
  simp only [huberizedHinge, realMath, Dbl.leb, exact_ltb, exact_eqb]
  norm_num

end Gbdt
