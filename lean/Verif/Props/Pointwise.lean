import Verif.Model.Pointwise
import Verif.Props.SplitWitness
import Verif.Props.Subsampling
import Mathlib.Algebra.BigOperators.Group.List.Basic
import Mathlib.Algebra.BigOperators.Ring.List
import Mathlib.Tactic.FieldSimp
import Mathlib.Tactic.Linarith

/-!
# C48: the constant of a pointwise loss

Specification: `rowGrad` is the gradient and hessian of one row when `c` is added to its function value; `newton` is the
Newton step at `c`.
-/

set_option autoImplicit false
set_option linter.unusedSectionVars false

namespace Gbdt

open Outcome

section general
variable {D : Type} [Dbl D]

/-- Gradient and hessian of row `k` if `c` is added to its function value. -/
def rowGrad (e : PointLoss D) (f : List D) (c : D) (k : Nat) : GD D :=
  match f[k]? with
  | some v => ⟨(e.lossFn (e.y k) (v + c)).2.1, (e.lossFn (e.y k) (v + c)).2.2⟩
  | none => ⟨0, 0⟩

theorem pointSlice_spec (e : PointLoss D) (f : List D) (c : D) : ∀ (left i : Nat) (grads : List (GD D)) (total : GD D),
    i + left ≤ f.length → grads.length = f.length →
    ∃ out, pointSlice e f c left i grads total =
        ok (out, (List.range' i left).foldl (fun t k => t.add ((rowGrad e f c k).scale (e.w k))) total) ∧
      out.length = f.length ∧ ∀ k, out[k]? = if i ≤ k ∧ k < i + left then some (rowGrad e f c k) else grads[k]?
  | 0, i, grads, total, h1, h2 => by
    refine ⟨grads, rfl, h2, fun k => ?_⟩
    rw [if_neg (by omega)]
  | left + 1, i, grads, total, h1, h2 => by
    have hi : i < f.length := by omega
    have hr : rowGrad e f c i = ⟨(e.lossFn (e.y i) (f[i] + c)).2.1, (e.lossFn (e.y i) (f[i] + c)).2.2⟩ := by
      rw [rowGrad, List.getElem?_eq_getElem hi]
    obtain ⟨out, o1, o2, o3⟩ := pointSlice_spec e f c left (i + 1) (grads.set i (rowGrad e f c i))
      (total.add ((rowGrad e f c i).scale (e.w i))) (by omega) (by rw [List.length_set, h2])
    refine ⟨out, ?_, o2, fun k => ?_⟩
    · rw [pointSlice, vecGet_eq_ok.mpr (List.getElem?_eq_getElem hi), ok_bind]
      simp only [if_pos (show i < grads.length by omega)]
      rw [← hr, o1, List.range'_succ, List.foldl_cons]
    · rw [o3 k]
      by_cases hk : k = i
      · subst hk
        rw [if_neg (by omega), if_pos (by omega), List.getElem?_set_self (by omega)]
      · rw [List.getElem?_set_ne (fun h => hk h.symm)]
        by_cases hk2 : i + 1 ≤ k ∧ k < i + 1 + left
        · rw [if_pos hk2, if_pos (by omega)]
        · rw [if_neg hk2, if_neg (by omega)]

/-- One pass: gradients of all rows of the slices, and the weighted sums of the slices. -/
theorem pointSlices_spec (e : PointLoss D) (f : List D) (c : D) : ∀ (slices : List (Nat × Nat)) (a b : Nat)
    (grads : List (GD D)), Consecutive a b slices → b ≤ f.length → grads.length = f.length →
    ∃ out, pointSlices e f c slices grads = ok (out, slices.map (fun sl =>
        (List.range' sl.1 (sl.2 - sl.1)).foldl (fun t k => t.add ((rowGrad e f c k).scale (e.w k))) GD.zero)) ∧
      a ≤ b ∧ out.length = f.length ∧ ∀ k, out[k]? = if a ≤ k ∧ k < b then some (rowGrad e f c k) else grads[k]?
  | [], a, b, grads, hc, hb, hl => by
    rw [Consecutive] at hc
    subst hc
    refine ⟨grads, rfl, le_refl _, hl, fun k => ?_⟩
    rw [if_neg (by omega)]
  | (x, y) :: slices, a, b, grads, hc, hb, hl => by
    obtain ⟨rfl, hxy, hc⟩ := hc
    have hyb : ∀ (l : List (Nat × Nat)) (u v : Nat), Consecutive u v l → u ≤ v := by
      intro l
      induction l with
      | nil => intro u v h; exact le_of_eq h
      | cons p l ih =>
        intro u v h
        obtain ⟨rfl, h1, h2⟩ := h
        exact h1.trans (ih _ _ h2)
    have hle := hyb _ _ _ hc
    obtain ⟨g1, o1, o2, o3⟩ := pointSlice_spec e f c (y - x) x grads GD.zero (by omega) hl
    obtain ⟨out, p1, _, p2, p3⟩ := pointSlices_spec e f c slices y b g1 hc hb o2
    refine ⟨out, ?_, by omega, p2, fun k => ?_⟩
    · rw [pointSlices, o1, ok_bind]
      simp only [p1, ok_bind, pure_eq, List.map_cons]
    · rw [p3 k, o3 k]
      by_cases h1 : y ≤ k ∧ k < b
      · rw [if_pos h1, if_pos (by omega)]
      · rw [if_neg h1]
        by_cases h2 : x ≤ k ∧ k < x + (y - x)
        · rw [if_pos h2, if_pos (by omega)]
        · rw [if_neg h2, if_neg (by omega)]

/-- The step that a pass leads to, with the sums taken slice by slice. -/
def sliceStep (e : PointLoss D) (f : List D) (slices : List (Nat × Nat)) (c : D) : D :=
  ((slices.map (fun sl => (List.range' sl.1 (sl.2 - sl.1)).foldl
    (fun t k => t.add ((rowGrad e f c k).scale (e.w k))) GD.zero)).foldl GD.add GD.zero).score 0

/-- The loop: iterate until a step is small or `left` passes are made. -/
theorem pointLoop_spec (e : PointLoss D) (f : List D) (slices : List (Nat × Nat)) (hc : Consecutive 0 f.length slices) :
    ∀ (left : Nat) (c : D) (grads : List (GD D)), grads.length = f.length →
    ∃ k out, k ≤ left + 1 ∧ pointLoop e slices f (left + 1) c grads =
        ok ((fun x => x + sliceStep e f slices x)^[k] c, out) ∧ 0 < k ∧
      out = (List.range f.length).map (rowGrad e f ((fun x => x + sliceStep e f slices x)^[k - 1] c)) ∧
      (∀ j, j + 1 < k → Dbl.ltb e.threshold (e.fabs (sliceStep e f slices ((fun x => x + sliceStep e f slices x)^[j] c))) = true) ∧
      (k = left + 1 ∨
        Dbl.ltb e.threshold (e.fabs (sliceStep e f slices ((fun x => x + sliceStep e f slices x)^[k - 1] c))) = false)
  | left, c, grads, hl => by
    obtain ⟨g1, p1, _, p2, p3⟩ := pointSlices_spec e f c slices 0 f.length grads hc (le_refl _) hl
    have hg1 : g1 = (List.range f.length).map (rowGrad e f c) := by
      apply List.ext_getElem?
      intro k
      rw [p3 k]
      by_cases hk : k < f.length
      · rw [if_pos (by omega)]
        simp [hk]
      · rw [if_neg (by omega), List.getElem?_eq_none (by omega), List.getElem?_eq_none (by simp; omega)]
    have hstep : ∀ n, pointLoop e slices f (n + 1) c grads =
        if Dbl.ltb e.threshold (e.fabs (sliceStep e f slices c)) then
          pointLoop e slices f n (c + sliceStep e f slices c) g1
        else ok (c + sliceStep e f slices c, g1) := by
      intro n
      rw [pointLoop, p1, ok_bind]
      rfl
    rw [hstep left]
    by_cases hlt : Dbl.ltb e.threshold (e.fabs (sliceStep e f slices c)) = true
    · rw [if_pos hlt]
      cases left with
      | zero =>
        refine ⟨1, g1, le_refl _, rfl, by omega, hg1, fun j hj => by omega, Or.inl rfl⟩
      | succ left =>
        obtain ⟨k, out, k1, k2, k3, k4, k5, k6⟩ := pointLoop_spec e f slices hc left (c + sliceStep e f slices c) g1 p2
        refine ⟨k + 1, out, by omega, k2, by omega, ?_, ?_, ?_⟩
        · obtain ⟨k, rfl⟩ : ∃ k', k = k' + 1 := ⟨k - 1, by omega⟩
          exact k4
        · intro j hj
          cases j with
          | zero => exact hlt
          | succ j => exact k5 j (by omega)
        · obtain ⟨k, rfl⟩ : ∃ k', k = k' + 1 := ⟨k - 1, by omega⟩
          rcases k6 with h | h
          · exact Or.inl (by omega)
          · exact Or.inr h
    · rw [if_neg hlt]
      refine ⟨1, g1, by omega, rfl, by omega, hg1, fun j hj => by omega, Or.inr ?_⟩
      simpa using hlt

/-- What `Init` leaves behind. -/
theorem pointInit_ok {e : PointLoss D} {n : Nat} {col : Option StrCol} {slices : List (Nat × Nat)}
    (h : pointInit e n col = ok (.ok slices)) : Consecutive 0 n slices := by
  unfold pointInit at h
  split at h
  · simp at h
  · rw [bind_eq_ok] at h
    obtain ⟨sl, h1, h2⟩ := h
    simp only [pure_eq, Outcome.ok.injEq, Except.ok.injEq] at h2
    subst h2
    have hpos : 0 < e.numThreads * 5 := by
      by_contra hc
      rw [(C21_no_groups ([] : List Nat) _ _ (by omega)).2] at h1
      cases h1
    obtain ⟨k, hk⟩ : ∃ k : Nat, e.numThreads * 5 = k := ⟨_, (Int.toNat_of_nonneg hpos.le).symm⟩
    rw [hk] at h1 hpos
    obtain ⟨slices, e1, _, e3, _⟩ := C21_divide_range n k (by omega)
    rw [h1, Outcome.ok.injEq] at e1
    subst e1
    exact e3

/-- **C76.** A pointwise loss can always be set up (with at least one thread), and then gradients can be computed for any
function values: nothing is read out of bounds, there is one gradient per row, and the state stays. -/
theorem C76_pointwise_defined (e : PointLoss D) (hthreads : 0 < e.numThreads) (n : Nat) (col : Option StrCol) :
    ∃ r, pointInit e n col = ok r ∧ ∀ slices, r = .ok slices → ∀ f : List D, f.length = n →
      ∃ c grads, pointCompute e slices f = ok (slices, c, grads) ∧ grads.length = n := by
  have h : ∃ r, pointInit e n col = ok r := by
    unfold pointInit
    split
    · exact ⟨_, rfl⟩
    · obtain ⟨k, hk⟩ : ∃ k : Nat, e.numThreads * 5 = k := ⟨_, (Int.toNat_of_nonneg (by omega)).symm⟩
      obtain ⟨slices, hsl, _⟩ := C21_divide_range n k (by omega)
      rw [hk, hsl, ok_bind]
      exact ⟨_, rfl⟩
  obtain ⟨r, hr⟩ := h
  refine ⟨r, hr, ?_⟩
  rintro slices rfl f rfl
  obtain ⟨k, out, _, h2, _, h4, _⟩ := pointLoop_spec e f slices (pointInit_ok hr) 9 0 (List.replicate f.length ⟨0, 0⟩) (by simp)
  refine ⟨_, out, by rw [pointCompute, h2, ok_bind]; rfl, by rw [h4]; simp⟩

/-- **C76.** The losses for binary targets reject every other target, and only those. -/
theorem C76_binary_targets (e : PointLoss D) (n : Nat) (col : Option StrCol) :
    pointInit e n col = ok (.error .invalidArgument) ↔
      e.binary = true ∧ ∃ i, i < n ∧ Dbl.eqb (e.y i) e.one = false ∧ Dbl.eqb (e.y i) e.minusOne = false := by
  have hiff : (e.binary && (List.range n).any (fun i => !Dbl.eqb (e.y i) e.one && !Dbl.eqb (e.y i) e.minusOne)) = true ↔
      e.binary = true ∧ ∃ i, i < n ∧ Dbl.eqb (e.y i) e.one = false ∧ Dbl.eqb (e.y i) e.minusOne = false := by
    simp only [Bool.and_eq_true, List.any_eq_true, List.mem_range, Bool.not_eq_true']
  rw [← hiff]
  unfold pointInit
  constructor
  · intro h
    by_contra hc
    rw [if_neg hc, bind_eq_ok] at h
    obtain ⟨_, _, h2⟩ := h
    simp [pure_eq] at h2
  · intro h
    rw [if_pos h]

end general

section exact
variable {K : Type} [Field K] [LinearOrder K]

/-- The Newton step for a constant added to all function values, at `c`: the weighted sum of the gradients over that of
the hessians; no step if the latter is 0. -/
def newton (e : PointLoss K) (f : List K) (c : K) : K :=
  if ((List.range f.length).map (fun k => e.w k * (rowGrad e f c k).h)).sum = 0 then 0
  else ((List.range f.length).map (fun k => e.w k * (rowGrad e f c k).g)).sum /
    ((List.range f.length).map (fun k => e.w k * (rowGrad e f c k).h)).sum

theorem foldl_gd_sum (d : Nat → GD K) (w : Nat → K) (l : List Nat) (t : GD K) :
    l.foldl (fun t k => t.add ((d k).scale (w k))) t =
      ⟨t.g + (l.map (fun k => w k * (d k).g)).sum, t.h + (l.map (fun k => w k * (d k).h)).sum⟩ := by
  induction l generalizing t with
  | nil => simp
  | cons a l ih =>
    rw [List.foldl_cons, ih]
    simp only [GD.add, GD.scale, List.map_cons, List.sum_cons, GD.mk.injEq]
    constructor <;> ring

theorem slices_sum (d : Nat → GD K) (w : Nat → K) : ∀ (slices : List (Nat × Nat)) (a b : Nat) (t : GD K),
    Consecutive a b slices → a ≤ b →
    (slices.map (fun sl => (List.range' sl.1 (sl.2 - sl.1)).foldl (fun t k => t.add ((d k).scale (w k))) GD.zero)).foldl
      GD.add t = ⟨t.g + ((List.range' a (b - a)).map (fun k => w k * (d k).g)).sum,
        t.h + ((List.range' a (b - a)).map (fun k => w k * (d k).h)).sum⟩
  | [], a, b, t, h, _ => by
    rw [Consecutive] at h
    subst h
    simp
  | (x, y) :: slices, a, b, t, h, hab => by
    obtain ⟨rfl, hxy, hc⟩ := h
    have hle : ∀ (l : List (Nat × Nat)) (u v : Nat), Consecutive u v l → u ≤ v := by
      intro l
      induction l with
      | nil => intro u v h; exact le_of_eq h
      | cons p l ih =>
        intro u v h
        obtain ⟨rfl, h1, h2⟩ := h
        exact h1.trans (ih _ _ h2)
    have hyb := hle _ _ _ hc
    rw [List.map_cons, List.foldl_cons, slices_sum d w slices y b _ hc hyb, foldl_gd_sum]
    have hsplit : List.range' x (b - x) = List.range' x (y - x) ++ List.range' y (b - y) := by
      have h1 : b - x = (y - x) + (b - y) := by omega
      rw [h1, ← List.range'_append, one_mul]
      congr 2
      omega
    simp only [hsplit, List.map_append, List.sum_append, GD.add, GD.zero, GD.mk.injEq]
    constructor <;> ring

theorem sliceStep_newton (e : PointLoss K) (f : List K) {slices : List (Nat × Nat)} (hc : Consecutive 0 f.length slices)
    (c : K) : sliceStep e f slices c = newton e f c := by
  rw [sliceStep, slices_sum (rowGrad e f c) e.w slices 0 f.length GD.zero hc (Nat.zero_le _)]
  rw [GD.score, newton, Nat.sub_zero, ← List.range_eq_range']
  simp only [GD.zero, zero_add, add_zero, exact_eqb, decide_eq_true_eq]

/-- **C48.** Computing the gradients makes `k` Newton steps from 0, between 1 and 10: all but the last are larger than the
threshold, and the last one is not, unless `k` is 10.  The constant is where the steps lead; the gradients are those where
the last step started. -/
theorem C48_newton {e : PointLoss K} {col : Option StrCol} {f : List K} {slices slices' : List (Nat × Nat)} {c : K}
    {grads : List (GD K)} (hinit : pointInit e f.length col = ok (.ok slices))
    (h : pointCompute e slices f = ok (slices', c, grads)) :
    ∃ k, 1 ≤ k ∧ k ≤ 10 ∧ c = (fun x => x + newton e f x)^[k] 0 ∧
      grads = (List.range f.length).map (rowGrad e f ((fun x => x + newton e f x)^[k - 1] 0)) ∧
      (∀ j, j + 1 < k → e.threshold < e.fabs (newton e f ((fun x => x + newton e f x)^[j] 0))) ∧
      (k = 10 ∨ e.fabs (newton e f ((fun x => x + newton e f x)^[k - 1] 0)) ≤ e.threshold) := by
  have hc := pointInit_ok hinit
  have hfun : (fun x => x + sliceStep e f slices x) = fun x => x + newton e f x :=
    funext (fun x => by rw [sliceStep_newton e f hc])
  obtain ⟨k, out, k1, k2, k3, k4, k5, k6⟩ := pointLoop_spec e f slices hc 9 0 (List.replicate f.length ⟨0, 0⟩) (by simp)
  rw [pointCompute, k2, ok_bind] at h
  simp only [pure_eq, Outcome.ok.injEq, Prod.mk.injEq] at h
  obtain ⟨_, rfl, rfl⟩ := h
  rw [hfun] at k4 k5 k6 ⊢
  simp only [sliceStep_newton e f hc, exact_ltb, decide_eq_true_eq, decide_eq_false_iff_not, not_lt] at k5 k6
  exact ⟨k, k3, by omega, rfl, k4, k5, k6⟩

/-- **C48 (mse).** For squared error the constant is the weighted mean of the residuals, and the
gradients are the residuals, less the constant unless it is no larger than the threshold. -/
theorem C48_mse {e : PointLoss K} {m : MathFns K} (hone : m.one = 1) (hl : e.lossFn = mseLoss m) {col : Option StrCol}
    {f : List K} {slices slices' : List (Nat × Nat)} {c : K} {grads : List (GD K)}
    (hw : ((List.range f.length).map e.w).sum ≠ 0)
    (hinit : pointInit e f.length col = ok (.ok slices)) (h : pointCompute e slices f = ok (slices', c, grads)) :
    c = ((List.range f.length).map (fun k => e.w k * (e.y k - f.getD k 0))).sum / ((List.range f.length).map e.w).sum ∧
      ∃ c', (c' = c ∨ c' = 0 ∧ e.fabs c ≤ e.threshold) ∧
        grads = (List.range f.length).map (fun k => ⟨e.y k - f.getD k 0 - c', 1⟩) := by
  set M := ((List.range f.length).map (fun k => e.w k * (e.y k - f.getD k 0))).sum / ((List.range f.length).map e.w).sum
    with hM
  have hrow : ∀ x, ∀ k ∈ List.range f.length, rowGrad e f x k = ⟨e.y k - f.getD k 0 - x, 1⟩ := by
    intro x k hk
    have hk := List.mem_range.mp hk
    rw [rowGrad, List.getElem?_eq_getElem hk, hl]
    simp only [mseLoss, hone, List.getD_eq_getElem?_getD, List.getElem?_eq_getElem hk, Option.getD_some, GD.mk.injEq,
      and_true]
    ring
  have hnew : ∀ x, newton e f x = M - x := by
    intro x
    have h1 : (List.range f.length).map (fun k => e.w k * (rowGrad e f x k).h) = (List.range f.length).map e.w :=
      List.map_congr_left (fun k hk => by rw [hrow x k hk]; simp)
    have h2 : ((List.range f.length).map (fun k => e.w k * (rowGrad e f x k).g)).sum =
        ((List.range f.length).map (fun k => e.w k * (e.y k - f.getD k 0))).sum - ((List.range f.length).map e.w).sum * x := by
      have : (List.range f.length).map (fun k => e.w k * (rowGrad e f x k).g) =
          (List.range f.length).map (fun k => e.w k * (e.y k - f.getD k 0) + e.w k * (-x)) :=
        List.map_congr_left (fun k hk => by rw [hrow x k hk]; ring)
      rw [this, List.sum_map_add, List.sum_map_mul_right]
      ring
    rw [newton, h1, h2, if_neg hw, hM]
    field_simp
  have hit : ∀ j, (fun x => x + newton e f x)^[j + 1] 0 = M := by
    intro j
    have hfn : (fun x => x + newton e f x) = fun _ => M := funext (fun x => by rw [hnew]; ring)
    rw [hfn, Function.iterate_succ_apply']
  obtain ⟨k, k1, k2, k3, k4, k5, k6⟩ := C48_newton hinit h
  obtain ⟨k, rfl⟩ : ∃ k', k = k' + 1 := ⟨k - 1, by omega⟩
  rw [hit] at k3
  refine ⟨k3, ?_⟩
  cases k with
  | zero =>
    refine ⟨0, Or.inr ⟨rfl, ?_⟩, ?_⟩
    · rcases k6 with h | h
      · omega
      · simp only [Nat.zero_add, Nat.sub_self, Function.iterate_zero, id] at h
        rw [hnew, sub_zero] at h
        rw [k3]
        exact h
    · rw [k4]
      exact List.map_congr_left (fun k hk => hrow _ k hk)
  | succ k =>
    refine ⟨c, Or.inl rfl, ?_⟩
    rw [k4, Nat.add_sub_cancel, hit, k3]
    exact List.map_congr_left (fun k hk => hrow _ k hk)

/-- **C48 (mse).** From the first step on there is nothing left to correct, so with a threshold of at least 0 a second
step is the last. -/
theorem C48_mse_two_steps {e : PointLoss K} {m : MathFns K} (hone : m.one = 1) (hl : e.lossFn = mseLoss m)
    {f : List K} (hw : ((List.range f.length).map e.w).sum ≠ 0) (c : K) : newton e f (c + newton e f c) = 0 := by
  have hs := hw
  have h1 : ∀ x, (List.range f.length).map (fun k => e.w k * (rowGrad e f x k).h) = (List.range f.length).map e.w :=
    fun x => List.map_congr_left (fun k hk => by
      rw [rowGrad, List.getElem?_eq_getElem (List.mem_range.mp hk), hl]
      simp [mseLoss, hone])
  have h2 : ∀ x, ((List.range f.length).map (fun k => e.w k * (rowGrad e f x k).g)).sum =
      ((List.range f.length).map (fun k => e.w k * (e.y k - f.getD k 0))).sum - ((List.range f.length).map e.w).sum * x := by
    intro x
    have : (List.range f.length).map (fun k => e.w k * (rowGrad e f x k).g) =
        (List.range f.length).map (fun k => e.w k * (e.y k - f.getD k 0) + e.w k * (-x)) :=
      List.map_congr_left (fun k hk => by
        rw [rowGrad, List.getElem?_eq_getElem (List.mem_range.mp hk), hl]
        simp only [mseLoss, List.getD_eq_getElem?_getD, List.getElem?_eq_getElem (List.mem_range.mp hk),
          Option.getD_some]
        ring)
    rw [this, List.sum_map_add, List.sum_map_mul_right]
    ring
  simp only [newton, h1, h2, if_neg hw]
  field_simp
  ring

/-- **C48 (mse).** With weights that sum to 0 no step is made. -/
theorem C48_mse_no_weight {e : PointLoss K} {m : MathFns K} (hone : m.one = 1) (hl : e.lossFn = mseLoss m)
    {col : Option StrCol} {f : List K} {slices slices' : List (Nat × Nat)} {c : K} {grads : List (GD K)}
    (hw : ((List.range f.length).map e.w).sum = 0)
    (hinit : pointInit e f.length col = ok (.ok slices)) (h : pointCompute e slices f = ok (slices', c, grads)) : c = 0 := by
  have hnew : ∀ x, newton e f x = 0 := by
    intro x
    have h1 : (List.range f.length).map (fun k => e.w k * (rowGrad e f x k).h) = (List.range f.length).map e.w :=
      List.map_congr_left (fun k hk => by
        rw [rowGrad, List.getElem?_eq_getElem (List.mem_range.mp hk), hl]
        simp [mseLoss, hone])
    rw [newton, h1, if_pos hw]
  obtain ⟨k, _, _, k3, _⟩ := C48_newton hinit h
  have hfn : (fun x => x + newton e f x) = id := funext (fun x => by rw [hnew]; simp)
  rw [k3, hfn]
  simp

end exact

/-- Rational arithmetic (no `exp` and `log`). -/
def ratMath : MathFns ℚ := { exp := id, log := id, neg := fun x => -x, one := 1, half := 1 / 2 }

/-- Squared error for three rows with weights 1, 2, 1 and targets 1, 2, 7. -/
def ratMse : PointLoss ℚ where
  lossFn := mseLoss ratMath
  binary := false
  one := 1
  minusOne := -1
  w := fun i => if i = 1 then 2 else 1
  y := fun i => if i = 0 then 1 else if i = 1 then 2 else 7
  fabs := fun x => if x < 0 then -x else x
  threshold := 1 / 10000
  numThreads := 2

/-- Squared hinge for the same rows, where one step is not enough. -/
def ratHinge : PointLoss ℚ := { ratMse with lossFn := squaredHinge ratMath }

/-- C48_mse: the constant is 3. -/
example : (pointInit ratMse 3 none >>= fun r => match r with
      | .ok s => (pointCompute ratMse s [0, 0, 0] >>= fun r => pure (r.2.1, r.2.2.map (fun d => (d.g, d.h))))
      | .error _ => .ub) = ok (3, [(-2, 1), (-1, 1), (4, 1)]) ∧
    ((List.range 3).map ratMse.w).sum ≠ 0 := by
  decide +kernel

/-- C48_newton: another loss, where the steps differ: the constant is not that of the first step. -/
example : (pointInit ratHinge 3 none >>= fun r => match r with
      | .ok s => (pointCompute ratHinge s [0, 3 / 2, 9] >>= fun r => pure r.2.1)
      | .error _ => .ub) = ok 1 ∧ newton ratHinge [0, 3 / 2, 9] 0 = 2 / 3 := by
  decide +kernel

/-- C48_mse_no_weight: weights 1, -1. -/
example : ((List.range 2).map (fun i => if i = 0 then (1 : ℚ) else -1)).sum = 0 := by decide +kernel

/-- C76_binary_targets: 2 and 7 are no binary targets; without them the loss is set up. -/
example : pointInit { ratMse with binary := true } 3 none = ok (.error .invalidArgument) ∧
    pointInit { ratMse with binary := true } 1 none = ok (.ok [(0, 1), (1, 1), (1, 1), (1, 1), (1, 1), (1, 1), (1, 1), (1, 1), (1, 1), (1, 1)]) := by
  decide +kernel

end Gbdt
