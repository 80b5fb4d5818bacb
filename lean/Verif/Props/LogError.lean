import Verif.Props.HingeError
import Verif.Props.LossMath
import Mathlib.Analysis.Calculus.Deriv.MeanValue

/-!
# C178: more trees and the logistic loss

Specification: `logistic`, the loss as a function of the margin.
-/

set_option autoImplicit false
set_option linter.unusedSectionVars false

namespace Gbdt
open Outcome

/-- The logistic loss of a margin (`docs/ALGORITHMS.md`). -/
noncomputable def logistic (m : ℝ) : ℝ := Real.log (1 + Real.exp (-m))

/-- Less the larger the margin, and never faster than the margin. -/
theorem logistic_lipschitz (a b : ℝ) : logistic (a + b) ≤ logistic a + |b| := by
  unfold logistic
  have h1 : 1 + Real.exp (-(a + b)) ≤ (1 + Real.exp (-a)) * Real.exp |b| := by
    have e1 : Real.exp (-(a + b)) = Real.exp (-a) * Real.exp (-b) := by rw [← Real.exp_add]; congr 1; ring
    have e2 : Real.exp (-b) ≤ Real.exp |b| := Real.exp_le_exp.mpr (neg_le_abs b)
    have e3 : 1 ≤ Real.exp |b| := Real.one_le_exp (abs_nonneg b)
    rw [e1, add_mul, one_mul]
    exact add_le_add e3 (mul_le_mul_of_nonneg_left e2 (Real.exp_pos _).le)
  calc Real.log (1 + Real.exp (-(a + b))) ≤ Real.log ((1 + Real.exp (-a)) * Real.exp |b|) :=
        Real.log_le_log (by positivity) h1
    _ = _ := by rw [Real.log_mul (by positivity) (by positivity), Real.log_exp]

/-- A function whose second derivative is at most `1 / 4` lies below a parabola through each of its points. -/
theorem below_parabola {F g h : ℝ → ℝ} (hF : ∀ x, HasDerivAt F (-(g x)) x) (hg : ∀ x, HasDerivAt (fun z => -(g z)) (h x) x) (hh : ∀ x, h x ≤ 1 / 4)
    (f d : ℝ) : F (f + d) ≤ F f - g f * d + d * d / 8 := by
  -- `-g` grows no faster than a line
  have hgn : ∀ z, HasDerivAt g (-(h z)) z := by
    intro z
    have := (hg z).fun_neg
    simpa only [neg_neg] using this
  have hline : ∀ z, HasDerivAt (fun z => z / 4 + g z) (1 / 4 + -(h z)) z := fun z => ((hasDerivAt_id z).div_const 4).add (hgn z)
  have line : Monotone (fun z => z / 4 + g z) := by
    refine monotone_of_deriv_nonneg (fun z => (hline z).differentiableAt) (fun z => ?_)
    rw [(hline z).deriv]
    linarith [hh z]
  have hP : ∀ z, HasDerivAt (fun z => F f - g f * (z - f) + (z - f) * (z - f) / 8 - F z) (-(g f) + (z - f) / 4 + g z) z := by
    intro z
    have h1 : HasDerivAt (fun z => z - f) 1 z := by simpa using (hasDerivAt_id z).sub_const f
    have h2 := (((h1.const_mul (g f)).const_sub (F f)).add ((h1.mul h1).div_const 8)).sub (hF z)
    exact h2.congr_deriv (by ring)
  have hkey : 0 ≤ F f - g f * (f + d - f) + (f + d - f) * (f + d - f) / 8 - F (f + d) := by
    have h0 : F f - g f * (f - f) + (f - f) * (f - f) / 8 - F f = 0 := by ring
    rw [← h0]
    rcases le_total 0 d with hd | hd
    · refine monotoneOn_of_deriv_nonneg (D := Set.Ici f) (convex_Ici f) (fun z _ => (hP z).continuousAt.continuousWithinAt)
        (fun z _ => (hP z).differentiableAt.differentiableWithinAt) (fun z hz => ?_) (Set.mem_Ici.mpr le_rfl) (Set.mem_Ici.mpr (by linarith)) (by linarith)
      rw [(hP z).deriv]
      have hz' : f ≤ z := Set.mem_Ici.mp (interior_subset hz)
      have := line hz'
      simp only at this
      linarith
    · refine antitoneOn_of_deriv_nonpos (D := Set.Iic f) (convex_Iic f) (fun z _ => (hP z).continuousAt.continuousWithinAt)
        (fun z _ => (hP z).differentiableAt.differentiableWithinAt) (fun z hz => ?_) (Set.mem_Iic.mpr (by linarith)) (Set.mem_Iic.mpr le_rfl) (by linarith)
      rw [(hP z).deriv]
      have hz' : z ≤ f := Set.mem_Iic.mp (interior_subset hz)
      have := line hz'
      simp only at this
      linarith
  have : f + d - f = d := by ring
  rw [this] at hkey
  linarith

/-- The loss lies below a parabola of curvature 1/4 through each of its points. -/
theorem logistic_step {y : ℝ} (hy : y = 1 ∨ y = -1) (f d : ℝ) :
    logistic (y * (f + d)) ≤ logistic (y * f) - (logLoss realMath y f).2.1 * d + d * d / 8 := by
  have e : ∀ x, (logLoss realMath y x).1 = logistic (y * x) := fun x => by simp [logLoss, realMath, logistic]
  have := below_parabola (F := fun x => (logLoss realMath y x).1) (g := fun x => (logLoss realMath y x).2.1) (h := fun x => (logLoss realMath y x).2.2)
    (fun x => (C47_logloss y x hy).1) (fun x => (C47_logloss y x hy).2.1) (fun x => by
      simp only [logLoss, realMath]
      have hE : 0 < Real.exp (-y * x) := Real.exp_pos _
      generalize Real.exp (-y * x) = E at hE
      rw [div_le_div_iff₀ (by positivity) (by norm_num)]
      nlinarith [mul_self_nonneg (1 - E)]) f d
  simpa only [e] using this

variable {A : Type} [LinearOrder A] [ThrOps A]

/-- The error of trees and constants, and `x` more. -/
noncomputable def logisticD (env : TrainEnv ℝ A) (y : Nat → ℝ) (added : List (Tree ℝ A × ℝ)) (x : Nat → ℝ) : ℝ :=
  ∑ i ∈ Finset.range env.numRows, env.w i * logistic (y i * (valD env.columns i added + x i))

/-- What the theorem asks: logistic loss with the weights that the trees are fitted with, none of them negative; no rounding;
every draw below the sampling rate; shrinkage between 0 and 1; `l2_lambda` at least an eighth of the weight of all rows. -/
structure LogisticInput (env : TrainEnv ℝ A) (cfg : TrainConfig ℝ) (e : PointLoss ℝ) : Prop where
  loss : e.lossFn = logLoss realMath
  binary : e.binary = true
  one : e.one = 1
  minusOne : e.minusOne = -1
  weights : env.w = e.w
  nonneg : ∀ i < env.numRows, 0 ≤ env.w i
  exact : env.rnd32 = id
  allRows : ∀ k, env.draw k < cfg.exampleRate
  lambda : ((List.range env.numRows).map env.w).sum ≤ 8 * cfg.l2Lambda
  shrink0 : 0 ≤ cfg.shrinkage
  shrink1 : cfg.shrinkage ≤ 1

/-- `c` is where Newton's method for the constant, from 0, is before its last step: that step is no larger than the threshold, or the tenth. -/
def BeforeLast (e : PointLoss ℝ) (f : List ℝ) (c : ℝ) : Prop :=
  ∃ k < 10, c = (fun x => x + newton e f x)^[k] 0 ∧ (k = 9 ∨ e.fabs (newton e f c) ≤ e.threshold)

theorem round_logistic {env : TrainEnv ℝ A} {cfg : TrainConfig ℝ} {e : PointLoss ℝ} (hm : LogisticInput env cfg e)
    (hrows : ∀ name c, env.columns name = some c → HasRows env.numRows c) {names : List String}
    {features : List (String × Column A)} (hl : loadFeatures env.columns names = .ok features)
    {slices slices' : List (Nat × Nat)} (hinit : pointInit e env.numRows none = ok (.ok slices))
    {before : List (Tree ℝ A × ℝ)} {f : List ℝ} (hv : ValuesOf env before f) {c : ℝ} {grads : List (GD ℝ)}
    (hg : pointCompute e slices f = ok (slices', c, grads)) {p p1 : Nat} {t : Tree ℝ A}
    (ht : fitTree (env.fit features grads) cfg.fit p = ok (t, p1)) :
    ∃ c', BeforeLast e f c' ∧ c = c' + newton e f c' ∧
      logisticD env e.y before (fun i => c' + (scoreOf env.columns (applyShrinkage env.rnd32 cfg.shrinkage t) i).getD 0) ≤
        logisticD env e.y before (fun _ => c') := by
  obtain ⟨hflen, hval⟩ := hv
  have hbin : ∀ i < env.numRows, e.y i = 1 ∨ e.y i = -1 := by
    intro i hi
    by_contra hc
    obtain ⟨h1, h2⟩ := not_or.mp hc
    have := (C76_binary_targets e env.numRows none).mpr ⟨hm.binary, i, hi, by
      rw [exact_eqb, hm.one]; exact decide_eq_false h1, by rw [exact_eqb, hm.minusOne]; exact decide_eq_false h2⟩
    rw [hinit] at this
    cases this
  have hval' : ∀ i < env.numRows, f[i]? = some (valD env.columns i before) := by
    intro i hi
    obtain ⟨v, h1, h2⟩ := hval i hi
    rw [h1, valueOf_valD h2]
  rw [← hflen] at hinit
  obtain ⟨k, k1, k2, k3, k4, _, k6⟩ := C48_newton hinit hg
  obtain ⟨k, rfl⟩ : ∃ k', k = k' + 1 := ⟨k - 1, by omega⟩
  rw [Function.iterate_succ_apply'] at k3
  rw [Nat.add_sub_cancel] at k4 k6
  have hlast : BeforeLast e f ((fun x => x + newton e f x)^[k] 0) := ⟨k, by omega, rfl, k6.imp (fun h => by omega) id⟩
  generalize ((fun x => x + newton e f x)^[k] 0) = c' at k3 k4 hlast
  refine ⟨c', hlast, k3, ?_⟩
  rw [hflen] at k4
  have hglen : grads.length = env.numRows := by rw [k4]; simp
  have hfd : FitData (env.fit features grads) env.columns := by
    refine ⟨fun name c hmem => ?_, (loadFeatures_mem hl).2⟩
    show HasRows grads.length c
    rw [hglen]
    exact hrows _ _ ((loadFeatures_mem hl).2 _ _ hmem)
  have hwt : ∀ k ∈ Finset.range env.numRows, weighted env.w grads k =
      ⟨env.w k * (logLoss realMath (e.y k) (valD env.columns k before + c')).2.1,
        env.w k * (logLoss realMath (e.y k) (valD env.columns k before + c')).2.2⟩ := by
    intro k hk
    have hk := Finset.mem_range.mp hk
    rw [weighted, k4]
    simp only [List.getElem?_map, List.getElem?_range hk, Option.map_some, rowGrad, hval' k hk, hm.loss, GD.scale]
  have hh : ∀ y f, 0 ≤ (logLoss realMath y f).2.2 := by
    intro y f
    simp only [logLoss, realMath]
    positivity
  have hdes := fitTree_descent_by (cfg := cfg.fit) hfd (fun y => by show env.rnd32 y = y; rw [hm.exact]; rfl) (fun k => env.w k / 8)
    (by
      intro s hs
      change s ⊆ Finset.range grads.length at hs
      rw [hglen] at hs
      have h1 : ∑ k ∈ s, env.w k / 8 ≤ ∑ k ∈ Finset.range env.numRows, env.w k / 8 :=
        Finset.sum_le_sum_of_subset_of_nonneg hs (fun k hk _ => div_nonneg (hm.nonneg k (by simpa using hk)) (by norm_num))
      have h2 : 0 ≤ ∑ k ∈ s, (weighted env.w grads k).h := Finset.sum_nonneg (fun k hk => by
        rw [hwt k (hs hk)]
        exact mul_nonneg (hm.nonneg k (by simpa using hs hk)) (hh _ _))
      have h3 := hm.lambda
      rw [list_sum_range] at h3
      rw [← Finset.sum_div, ← Finset.sum_div] at h1
      have h4 : (∑ k ∈ Finset.range env.numRows, env.w k) / 8 ≤ cfg.l2Lambda := by linarith
      show _ ≤ _ + cfg.l2Lambda
      have h5 : ∑ k ∈ s, env.w k / 8 ≤ cfg.l2Lambda := by rw [← Finset.sum_div]; exact h1.trans h4
      change 0 ≤ ∑ k ∈ s, (weighted (env.fit features grads).w (env.fit features grads).grads k).h at h2
      linarith) hm.allRows ht
  have hwf := (C33_shape hfd ht).2.2
  change ∑ k ∈ Finset.range grads.length, env.w k / 8 * _ ≤ ∑ k ∈ Finset.range grads.length, (weighted env.w grads k).g * _ at hdes
  rw [hglen] at hdes
  have hs : ∀ k, (scoreOf env.columns (applyShrinkage env.rnd32 cfg.shrinkage t) k).getD 0 =
      (scoreOf env.columns t k).getD 0 * cfg.shrinkage := by
    intro k
    rw [scoreOf, C41_shrinkage env.columns env.rnd32 cfg.shrinkage t hwf k, scoreOf, hm.exact]
    cases leafOf env.columns t k <;> simp
  simp only [hs]
  set r := cfg.shrinkage
  set x : Nat → ℝ := fun k => (scoreOf env.columns t k).getD 0 with hx
  set g : Nat → ℝ := fun k => (weighted env.w grads k).g with hgd
  have step : ∀ k ∈ Finset.range env.numRows,
      env.w k * logistic (e.y k * (valD env.columns k before + (c' + x k * r))) ≤
        env.w k * logistic (e.y k * (valD env.columns k before + c')) - r * (g k * x k) + r * r * (env.w k / 8 * (x k * x k)) := by
    intro k hk
    have := mul_le_mul_of_nonneg_left (logistic_step (hbin k (by simpa using hk)) (valD env.columns k before + c') (x k * r))
      (hm.nonneg k (by simpa using hk))
    rw [add_assoc] at this
    refine this.trans (le_of_eq ?_)
    simp only [hgd, hwt k hk]
    ring
  refine (Finset.sum_le_sum step).trans ?_
  rw [Finset.sum_add_distrib, Finset.sum_sub_distrib, ← Finset.mul_sum, ← Finset.mul_sum]
  have hQ : 0 ≤ ∑ k ∈ Finset.range env.numRows, env.w k / 8 * (x k * x k) := Finset.sum_nonneg (fun k hk =>
    mul_nonneg (div_nonneg (hm.nonneg k (by simpa using hk)) (by norm_num)) (mul_self_nonneg _))
  change _ ≤ ∑ k ∈ Finset.range env.numRows, env.w k * logistic (e.y k * (valD env.columns k before + c'))
  change ∑ k ∈ Finset.range env.numRows, env.w k / 8 * (x k * x k) ≤ ∑ k ∈ Finset.range env.numRows, g k * x k at hdes
  generalize ∑ k ∈ Finset.range env.numRows, env.w k / 8 * (x k * x k) = Q at *
  generalize ∑ k ∈ Finset.range env.numRows, g k * x k = P at *
  have h0 : 0 ≤ r := hm.shrink0
  have h1 : r ≤ 1 := hm.shrink1
  nlinarith [mul_nonneg h0 (sub_nonneg.mpr hdes), mul_nonneg (mul_nonneg h0 (sub_nonneg.mpr h1)) hQ]

theorem boosts_logistic {env : TrainEnv ℝ A} {cfg : TrainConfig ℝ} {e : PointLoss ℝ} (hm : LogisticInput env cfg e)
    (hrows : ∀ name c, env.columns name = some c → HasRows env.numRows c) {names : List String}
    {features : List (String × Column A)} (hl : loadFeatures env.columns names = .ok features)
    {s s' : List (Nat × Nat)} {p q : Nat} {before rounds : List (Tree ℝ A × ℝ)}
    (h : Boosts env e.toLoss features cfg s p before rounds s' q) :
    pointInit e env.numRows none = ok (.ok s) → ∀ (i : Nat) (t : Tree ℝ A) (c : ℝ), rounds[i]? = some (t, c) →
      ∃ f c', ValuesOf env (before ++ rounds.take i) f ∧ BeforeLast e f c' ∧ c = c' + newton e f c' ∧
        logisticD env e.y (before ++ rounds.take i) (fun k => c' + (scoreOf env.columns t k).getD 0) ≤
          logisticD env e.y (before ++ rounds.take i) (fun _ => c') := by
  induction h with
  | done => intro _ i t c h; simp at h
  | @round s s1 s2 p p1 p2 before after f c grads t h1 h2 h3 h4 h5 ih =>
    intro hinit i u d hi
    cases i with
    | zero =>
      rw [List.getElem?_cons_zero, Option.some.injEq, Prod.mk.injEq] at hi
      obtain ⟨rfl, rfl⟩ := hi
      rw [List.take_zero, List.append_nil]
      obtain ⟨c', g0, g1, g2⟩ := round_logistic hm hrows hl hinit h1 h2 h4
      exact ⟨f, c', h1, g0, g1, g2⟩
    | succ i =>
      have hs : s1 = s := by
        have h2' := h2
        simp only [PointLoss.toLoss, pointCompute, bind_eq_ok, pure_eq, Outcome.ok.injEq] at h2'
        obtain ⟨⟨_, _⟩, _, h2'⟩ := h2'
        simp only [Prod.mk.injEq] at h2'
        exact h2'.1.symm
      subst hs
      have := ih hinit i u d (by simpa using hi)
      rw [List.append_assoc, List.singleton_append] at this
      rw [List.take_succ_cons]
      exact this

/-- **C178.** Training with the logistic loss (without rounding, on all rows, with shrinkage between 0 and 1) and with `l2_lambda` at least an eighth of
the weight of all rows: no tree makes the loss larger than the constant does at which its gradients were computed, the one before the last step of
Newton's method; and with the constant that is added in
its place, the loss is larger by at most the difference of the constants for each unit of weight. -/
theorem C178_tree {env : TrainEnv ℝ A} {names : List String} {cfg : TrainConfig ℝ}
    {base : Option (List (Tree ℝ A))} (hs : TrainStore env names cfg (base.getD [])) {e : PointLoss ℝ}
    (he : 0 < e.numThreads) (hm : LogisticInput env cfg e) {p : Nat} {r : TrainResult ℝ A}
    (h : trainGBDT env e.toLoss names cfg base [] p = ok r) (hok : r.code = .ok) :
    ∃ rounds : List (Tree ℝ A × ℝ), (rounds.length : Int) = cfg.numTrees ∧
      r.forest.tail = ((base.getD []).filter (fun t => !isSingleNode t) ++ rounds.map Prod.fst).map clearInternal ∧
      ∀ (i : Nat) (t : Tree ℝ A) (c : ℝ), rounds[i]? = some (t, c) →
        ∃ f c', ValuesOf env ((base.getD []).map (fun t => (t, 0)) ++ rounds.take i) f ∧ BeforeLast e f c' ∧ c = c' + newton e f c' ∧
          ((List.range env.numRows).map (fun k => env.w k * logistic (e.y k * (f.getD k 0 + c' + (scoreOf env.columns t k).getD 0)))).sum ≤
            ((List.range env.numRows).map (fun k => env.w k * logistic (e.y k * (f.getD k 0 + c')))).sum ∧
          ((List.range env.numRows).map (fun k => env.w k * logistic (e.y k * (f.getD k 0 + c + (scoreOf env.columns t k).getD 0)))).sum ≤
            ((List.range env.numRows).map (fun k => env.w k * logistic (e.y k * (f.getD k 0 + c')))).sum +
              ((List.range env.numRows).map env.w).sum * |c - c'| := by
  have hd := pointTrainData hs he
  obtain ⟨features, group, start, rounds, finish, b1, b2, b3, b4, b5, b6, b7⟩ := C73_rounds hd h hok
  refine ⟨rounds, b5, by rw [b7]; rfl, fun i t c hi => ?_⟩
  have hbin : ∀ i < env.numRows, e.y i = 1 ∨ e.y i = -1 := by
    intro i hi
    by_contra hc
    obtain ⟨h1, h2⟩ := not_or.mp hc
    have := (C76_binary_targets e env.numRows none).mpr ⟨hm.binary, i, hi, by
      rw [exact_eqb, hm.one]; exact decide_eq_false h1, by rw [exact_eqb, hm.minusOne]; exact decide_eq_false h2⟩
    change pointInit e env.numRows none = _ at b3
    rw [b3] at this
    cases this
  obtain ⟨f, c', h1, h0, h2, h3⟩ := boosts_logistic hm hd.rows b1 b4 b3 i t c hi
  refine ⟨f, c', h1, h0, h2, ?_⟩
  simp only [list_sum_range]
  have hval : ∀ k ∈ Finset.range env.numRows, f.getD k 0 =
      valD env.columns k ((base.getD []).map (fun t => (t, 0)) ++ rounds.take i) := by
    intro k hk
    obtain ⟨v, g1, g2⟩ := h1.2 k (by simpa using hk)
    rw [List.getD_eq_getElem?_getD, g1, Option.getD_some, valueOf_valD g2]
  have first : ∑ k ∈ Finset.range env.numRows, env.w k * logistic (e.y k * (f.getD k 0 + c' + (scoreOf env.columns t k).getD 0)) ≤
      ∑ k ∈ Finset.range env.numRows, env.w k * logistic (e.y k * (f.getD k 0 + c')) := by
    refine (le_of_eq (Finset.sum_congr rfl (fun k hk => ?_))).trans (h3.trans (le_of_eq (Finset.sum_congr rfl (fun k hk => ?_))))
    · rw [hval k hk, add_assoc]
    · rw [hval k hk]
  refine ⟨first, le_trans ?_ (add_le_add_left first _)⟩
  rw [Finset.sum_mul, ← Finset.sum_add_distrib]
  refine Finset.sum_le_sum (fun k hk => ?_)
  rw [← mul_add]
  refine mul_le_mul_of_nonneg_left ?_ (hm.nonneg k (by simpa using hk))
  have hk1 := logistic_lipschitz (e.y k * (f.getD k 0 + c' + (scoreOf env.columns t k).getD 0)) (e.y k * (c - c'))
  have hk2 : |e.y k * (c - c')| = |c - c'| := by
    rcases hbin k (by simpa using hk) with hy | hy <;> rw [hy] <;> simp [abs_sub_comm]
  rw [hk2] at hk1
  refine le_trans (le_of_eq ?_) hk1
  congr 1
  ring

/-! ## Examples -/

/-- `std::sort` over the real numbers. -/
noncomputable def realSort (key : Nat → ℝ) (l : List Nat) : List Nat := l.insertionSort (fun a b => key a ≤ key b)

theorem realSort_spec : SortSpec realSort := by
  intro key l
  refine ⟨List.perm_insertionSort _ _, ?_⟩
  have : Std.Total (fun a b => key a ≤ key b) := ⟨fun a b => le_total (key a) (key b)⟩
  have : IsTrans Nat (fun a b => key a ≤ key b) := ⟨fun a b c h1 h2 => le_trans h1 h2⟩
  refine (List.pairwise_insertionSort (fun a b => key a ≤ key b) l).imp ?_
  intro a b hab
  rw [exact_ltb]
  exact decide_eq_false (not_lt.mpr hab)

theorem exists_top (gains : List ℝ) : ∃ i : Nat, gains ≠ [] → ∃ g, gains[i]? = some g ∧ ∀ g' ∈ gains, g' ≤ g := by
  induction gains with
  | nil => exact ⟨0, fun h => absurd rfl h⟩
  | cons a l ih =>
    obtain ⟨i, hi⟩ := ih
    by_cases hall : ∀ b ∈ l, b ≤ a
    · exact ⟨0, fun _ => ⟨a, rfl, fun g' hg' => by
        rcases List.mem_cons.mp hg' with rfl | h
        · exact le_refl _
        · exact hall _ h⟩⟩
    · push Not at hall
      obtain ⟨b, hb, hab⟩ := hall
      obtain ⟨g, hg, hmax⟩ := hi (List.ne_nil_of_mem hb)
      exact ⟨i + 1, fun _ => ⟨g, by simpa using hg, fun g' hg' => by
        rcases List.mem_cons.mp hg' with rfl | h
        · exact le_of_lt (lt_of_lt_of_le hab (hmax b hb))
        · exact hmax _ h⟩⟩

/-- A priority queue over the real numbers. -/
noncomputable def realTop (_ : Nat) (gains : List ℝ) : Nat := Classical.choose (exists_top gains)

theorem realTop_spec : TopSpec realTop := by
  intro n gains hne
  obtain ⟨g, h1, h2⟩ := Classical.choose_spec (exists_top gains) hne
  exact ⟨g, h1, fun g' hg' => by rw [exact_ltb]; exact decide_eq_false (not_lt.mpr (h2 g' hg'))⟩

/-- A run with everything in order ends well. -/
theorem point_run {env : TrainEnv ℝ A} {names : List String} {cfg : TrainConfig ℝ} {base : Option (List (Tree ℝ A))}
    (hs : TrainStore env names cfg (base.getD [])) {e : PointLoss ℝ} (he : 0 < e.numThreads) (hcheck : checkConfig (env.ofNat 1) cfg = .ok)
    (hnames : ∀ name ∈ names, env.columns name ≠ none) (hbin : ∀ i < env.numRows, e.y i = e.one ∨ e.y i = e.minusOne)
    (hdiv : ∀ x, env.diverged x = false) (p : Nat) : ∃ r, trainGBDT env e.toLoss names cfg base [] p = ok r ∧ r.code = .ok := by
  obtain ⟨r, hr, _⟩ := C77_pointwise hs e he p
  refine ⟨r, hr, ?_⟩
  rcases trainGBDT_stages hr with ⟨_, g | ⟨_, g⟩ | ⟨g, hg⟩⟩ |
    ⟨_, features, group, ls, slices, forest1, slices1, f1, stopped, s, _, _, _, _, _, _, hst⟩
  · exact absurd (g.1.trans hcheck) g.2
  · obtain ⟨cs, hcs⟩ := loadFeatures_ok hnames
    rw [hcs] at g
    cases g
  · simp only [PointLoss.toLoss, pointInit] at hg
    split at hg
    · next hb =>
      rw [Bool.and_eq_true, List.any_eq_true] at hb
      obtain ⟨_, i, hi, hx⟩ := hb
      rcases hbin i (List.mem_range.mp hi) with h | h <;> simp [h, exact_eqb] at hx
    · rw [bind_eq_ok] at hg
      obtain ⟨_, _, hg⟩ := hg
      simp [pure_eq] at hg
  · cases stopped with
    | false => rw [hst]; rfl
    | true =>
      obtain ⟨_, _, _, _, _, _, x, _, _, _, _, _, _, _, _, hx, _⟩ := C73_divergence (pointTrainData hs he) (by
        intro n g hg
        simp only [PointLoss.toLoss, pointInit] at hg
        split at hg
        · cases hg
        · rw [bind_eq_ok] at hg
          obtain ⟨_, _, hg⟩ := hg
          simp [pure_eq] at hg) hr (by rw [hst]; rfl)
      rw [hdiv] at hx
      cases hx

/-- The store of `Props/Train.lean`, with real numbers for scores. -/
noncomputable def realEnv : TrainEnv ℝ ℚ where
  columns := fitCols
  numRows := 5
  w := fun _ => 1
  sort := realSort
  top := realTop
  toInt := fun x => some ⌊x⌋
  ofNat := fun n => n
  draw := fun _ => 1 / 2
  rnd32 := id
  numThreads := 2
  diverged := fun _ => false

/-- Targets 1, -1, 1, 1, -1. -/
noncomputable def realPoint : PointLoss ℝ where
  lossFn := logLoss realMath
  binary := true
  one := 1
  minusOne := -1
  w := fun _ => 1
  y := fun i => ([1, -1, 1, 1, -1] : List ℝ).getD i 0
  fabs := fun x => |x|
  threshold := 1 / 10000
  numThreads := 2

/-- Three trees of three leaves; `l2_lambda` is an eighth of the weight of the five rows. -/
noncomputable def realCfg : TrainConfig ℝ :=
  { numTrees := 3, numLeaves := 3, exampleRate := 1, featureRate := 1, minHessian := 0, minGain := 0, tol := 1 / 1000000, l2Lambda := 5 / 8, shrinkage := 1, groupColumn := "" }

/-- `C178_tree`: there is a run that meets its hypotheses, and it ends well. -/
example : TrainStore realEnv ["color", "size"] realCfg [] ∧ LogisticInput realEnv realCfg realPoint ∧
    ∃ r, trainGBDT realEnv realPoint.toLoss ["color", "size"] realCfg none [] 0 = ok r ∧ r.code = .ok := by
  have hs : TrainStore realEnv ["color", "size"] realCfg [] :=
    { rows := fun _ _ h => fitCols_rows h
      threads := by decide
      sort := realSort_spec
      top := realTop_spec
      examples := by simp [realEnv]
      features := by simp [realEnv]
      group := Or.inl rfl
      scorable := fun _ h => absurd h (by simp)
      baseFeatures := fun _ h => absurd h (by simp [forestFeatures]) }
  refine ⟨hs, ?_, ?_⟩
  · exact
      { loss := rfl
        binary := rfl
        one := rfl
        minusOne := rfl
        weights := rfl
        nonneg := fun _ _ => zero_le_one (α := ℝ)
        exact := rfl
        allRows := fun _ => by show (1 / 2 : ℝ) < 1; norm_num
        lambda := by show ((List.range 5).map (fun _ => (1 : ℝ))).sum ≤ 8 * (5 / 8); simp; norm_num
        shrink0 := by show (0 : ℝ) ≤ 1; norm_num
        shrink1 := le_refl _ }
  · refine point_run (base := none) hs (e := realPoint) (by decide) ?_ ?_ ?_ (fun _ => rfl) 0
    · have h10 : ¬ (1 : ℝ) < 0 := by norm_num
      simp [checkConfig, realCfg, realEnv, Dbl.leb, exact_ltb, exact_eqb, h10]
    · intro name hname hnone
      have hsome : ∀ name ∈ ["color", "size"], (fitCols name).isSome = true := by decide +kernel
      have := hsome name hname
      change fitCols name = none at hnone
      rw [hnone] at this
      cases this
    · intro i hi
      change i < 5 at hi
      rcases i with _ | _ | _ | _ | _ | i
      case succ.succ.succ.succ.succ => omega
      all_goals simp [realPoint]

end Gbdt
