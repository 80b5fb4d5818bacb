import Mathlib.Algebra.Order.BigOperators.Group.Finset
import Mathlib.Algebra.BigOperators.Ring.Finset
import Mathlib.Tactic.Linarith
import Mathlib.Tactic.Ring
import Mathlib.Tactic.NormNum
import Verif.Props.Boost
import Verif.Props.TrainLosses
import Verif.Props.SplitWitness

/-!
# C84, C85: more trees never fit the training data worse, and (nearly) no worse than a constant

Specification: `sqError`, the weighted sum of squared errors.  The trees and constants of a round are added for all rows at
once (`valD`, `errD`) in the proofs only.
-/

set_option autoImplicit false
set_option linter.unusedSectionVars false

namespace Gbdt
open Outcome

section spec
variable {K : Type} [Field K]

/-- The weighted sum of squared errors of the predictions `f` for the first `n` rows. -/
def sqError (w y : Nat → K) (n : Nat) (f : List K) : K :=
  ((List.range n).map (fun i => w i * ((y i - f.getD i 0) * (y i - f.getD i 0)))).sum

end spec

section exact
variable {K : Type} [Field K] [LinearOrder K] [IsStrictOrderedRing K] {A : Type} [LinearOrder A] [ThrOps A]

theorem list_sum_range {M : Type} [AddCommMonoid M] (n : Nat) (f : Nat → M) :
    ((List.range n).map f).sum = ∑ i ∈ Finset.range n, f i := by
  rw [← List.sum_toFinset f List.nodup_range]
  exact Finset.sum_congr (by ext i; simp) (fun _ _ => rfl)

/-- What a tree fitted to all rows does to a quadratic loss: the scores are no further than the Newton step of the leaf. -/
theorem fitTree_descent {env : FitEnv K A} {cfg : FitConfig K} {columns : String → Option (Column A)} (hd : FitData env columns)
    (hrnd : ∀ y, env.rnd32 y = y) (hlam : 0 ≤ cfg.l2Lambda) (hall : ∀ k, env.draw k < cfg.exampleRate)
    {p q : Nat} {t : Tree K A} (h : fitTree env cfg p = ok (t, q)) :
    ∑ k ∈ Finset.range env.grads.length, (weighted env.w env.grads k).h *
        ((scoreOf columns t k).getD 0 * (scoreOf columns t k).getD 0) ≤
      ∑ k ∈ Finset.range env.grads.length, (weighted env.w env.grads k).g * (scoreOf columns t k).getD 0 := by
  obtain ⟨s0, s, all, p1, _, _, _, h3, _⟩ := fitTree_ok hd h
  have hsamp := (C22_rate_one_zero _ _ _ _ _ _ _ _ h3).1 (fun k => by simpa using hall k)
  subst hsamp
  obtain ⟨_, h4⟩ := C34_samples_reach_leaves hd h
  set path : Nat → List Bool := fun k => ((leafOf columns t k).map Prod.fst).getD [] with hpath
  set n := env.grads.length with hn
  rw [← Finset.sum_fiberwise_of_maps_to (s := Finset.range n) (t := (Finset.range n).image path) (g := path)
      (fun k hk => Finset.mem_image_of_mem _ hk),
    ← Finset.sum_fiberwise_of_maps_to (s := Finset.range n) (t := (Finset.range n).image path) (g := path)
      (fun k hk => Finset.mem_image_of_mem _ hk) (fun k => (weighted env.w env.grads k).g * _)]
  refine Finset.sum_le_sum (fun y hy => ?_)
  obtain ⟨k0, hk0, rfl⟩ := Finset.mem_image.mp hy
  obtain ⟨pt, x, sp, h5, h6⟩ := h4 _ _ h3 k0 (by simpa using hk0)
  have hp0 : path k0 = pt := by simp [hpath, h5]
  rw [hp0]
  obtain ⟨e1, e2, _⟩ := C35_newton_step hd hrnd h h3 h6
  rw [C35_leaf_members hd h h3 h6] at e1 e2
  have hset : (Finset.range n).filter (fun k => path k = pt) = ((List.range n).filter (reaches columns t pt)).toFinset := by
    ext k
    simp only [Finset.mem_filter, Finset.mem_range, List.mem_toFinset, List.mem_filter, List.mem_range, reaches,
      decide_eq_true_eq, and_congr_right_iff]
    intro hk
    obtain ⟨pk, xk, spk, g1, _⟩ := h4 _ _ h3 k (by simpa using hk)
    simp [hpath, g1]
  have hnd : ((List.range n).filter (reaches columns t pt)).Nodup := List.nodup_range.filter _
  have hx : ∀ k ∈ (Finset.range n).filter (fun k => path k = pt), (scoreOf columns t k).getD 0 = x := by
    intro k hk
    rw [Finset.mem_filter, Finset.mem_range] at hk
    obtain ⟨pk, xk, spk, g1, g2⟩ := h4 _ _ h3 k (by simpa using hk.1)
    have : pk = pt := by rw [← hk.2]; simp [hpath, g1]
    subst this
    rw [IsLeafAt, h6, Option.some.injEq, Tree.node.injEq] at g2
    simp [scoreOf, g1, g2.1]
  have s1 : ∀ (d : Nat → K) (F : K → K), ∑ k ∈ (Finset.range n).filter (fun k => path k = pt), d k * F ((scoreOf columns t k).getD 0) =
      ∑ k ∈ (Finset.range n).filter (fun k => path k = pt), d k * F x :=
    fun d F => Finset.sum_congr rfl (fun k hk => by rw [hx k hk])
  rw [s1 _ (fun z => z * z), s1 _ (fun z => z), ← Finset.sum_mul, ← Finset.sum_mul, hset, List.sum_toFinset _ hnd, List.sum_toFinset _ hnd]
  set H := (((List.range n).filter (reaches columns t pt)).map (fun i => (weighted env.w env.grads i).h)).sum
  set G := (((List.range n).filter (reaches columns t pt)).map (fun i => (weighted env.w env.grads i).g)).sum
  by_cases hz : H + cfg.l2Lambda = 0
  · rw [e2 hz]; simp
  · have hG : G = x * (H + cfg.l2Lambda) := by rw [e1 hz]; field_simp
    have := mul_nonneg hlam (mul_self_nonneg x)
    rw [hG]
    nlinarith

/-- The arithmetic of a round. -/
theorem round_algebra (s : Finset Nat) (w r x : Nat → K) (hw : ∀ k ∈ s, 0 ≤ w k) {c c' rate : K}
    (hc : (∑ k ∈ s, w k) * c = ∑ k ∈ s, w k * r k) (hc' : c' = c ∨ c' = 0)
    (hP : ∑ k ∈ s, w k * (x k * x k) ≤ ∑ k ∈ s, w k * (r k - c') * x k) (h0 : 0 ≤ rate) (h1 : rate ≤ 1) :
    ∑ k ∈ s, w k * ((r k - (x k * rate + c)) * (r k - (x k * rate + c))) ≤
      ∑ k ∈ s, w k * (r k * r k) - (∑ k ∈ s, w k) * (c * c) + if c' = c then 0 else rate * ((∑ k ∈ s, w k) * (c * c)) := by
  have hQ : 0 ≤ ∑ k ∈ s, w k * (x k * x k) := Finset.sum_nonneg (fun k hk => mul_nonneg (hw k hk) (mul_self_nonneg _))
  have hexp : ∑ k ∈ s, w k * ((r k - (x k * rate + c)) * (r k - (x k * rate + c))) =
      ∑ k ∈ s, w k * (r k * r k) - 2 * c * (∑ k ∈ s, w k * r k) + c * c * (∑ k ∈ s, w k)
        - 2 * rate * (∑ k ∈ s, w k * r k * x k) + 2 * c * rate * (∑ k ∈ s, w k * x k)
        + rate * rate * ∑ k ∈ s, w k * (x k * x k) := by
    simp only [Finset.mul_sum, ← Finset.sum_add_distrib, ← Finset.sum_sub_distrib]
    exact Finset.sum_congr rfl (fun k _ => by ring)
  have hsq : 2 * c * (∑ k ∈ s, w k * x k) ≤ c * c * (∑ k ∈ s, w k) + ∑ k ∈ s, w k * (x k * x k) := by
    simp only [Finset.mul_sum, ← Finset.sum_add_distrib]
    refine Finset.sum_le_sum (fun k hk => ?_)
    have := mul_nonneg (hw k hk) (mul_self_nonneg (c - x k))
    nlinarith
  have hPe : ∑ k ∈ s, w k * (r k - c') * x k = ∑ k ∈ s, w k * r k * x k - c' * ∑ k ∈ s, w k * x k := by
    simp only [Finset.mul_sum, ← Finset.sum_sub_distrib]
    exact Finset.sum_congr rfl (fun k _ => by ring)
  rw [hexp, ← hc]
  rw [hPe] at hP
  generalize (∑ k ∈ s, w k * (x k * x k)) = Q at *
  generalize (∑ k ∈ s, w k * r k * x k) = P at *
  generalize (∑ k ∈ s, w k * x k) = X at *
  generalize (∑ k ∈ s, w k) = W at *
  by_cases hcc : c' = c
  · subst hcc
    rw [if_pos rfl]
    nlinarith [mul_nonneg h0 (sub_nonneg.mpr hP), mul_nonneg (mul_nonneg h0 (sub_nonneg.mpr h1)) hQ, mul_nonneg h0 hQ]
  · rw [if_neg hcc]
    rcases hc' with h | rfl
    · exact absurd h hcc
    · nlinarith [mul_nonneg h0 (sub_nonneg.mpr hP), mul_nonneg (mul_nonneg h0 (sub_nonneg.mpr h1)) hQ,
        mul_nonneg h0 (sub_nonneg.mpr hsq)]

/-- The value that trees and constants give to row `i`. -/
def valD (columns : String → Option (Column A)) (i : Nat) (added : List (Tree K A × K)) : K :=
  (added.map (fun x => (scoreOf columns x.1 i).getD 0 + x.2)).sum

theorem valueOf_valD {columns : String → Option (Column A)} {i : Nat} {added : List (Tree K A × K)} {v : K}
    (h : valueOf columns i added v) : v = valD columns i added := by
  obtain ⟨xs, h1, h2⟩ := h
  have e1 := mapM_getD _ h1
  have hlen : xs.length = (added.map Prod.snd).length := by rw [e1]; simp
  rw [foldl_pairs, List.map_fst_zip (le_of_eq hlen), List.map_snd_zip (le_of_eq hlen.symm), zero_add, e1] at h2
  rw [h2, valD, List.sum_map_add]

/-- The error of trees and constants. -/
def errD (env : TrainEnv K A) (y : Nat → K) (added : List (Tree K A × K)) : K :=
  ∑ i ∈ Finset.range env.numRows, env.w i * ((y i - valD env.columns i added) * (y i - valD env.columns i added))

theorem sqError_errD {env : TrainEnv K A} {y : Nat → K} {added : List (Tree K A × K)} {f : List K}
    (h : ∀ i < env.numRows, ∃ v, f[i]? = some v ∧ valueOf env.columns i added v) :
    sqError env.w y env.numRows f = errD env y added := by
  rw [sqError, list_sum_range, errD]
  refine Finset.sum_congr rfl (fun i hi => ?_)
  obtain ⟨v, h1, h2⟩ := h i (by simpa using hi)
  rw [List.getD_eq_getElem?_getD, h1, Option.getD_some, valueOf_valD h2]

/-- What C84 asks: squared error with the weights that the trees are fitted with, none of them negative; no rounding; every
draw below the sampling rate (draws are below 1, so any rate of 1); regularisation not negative; shrinkage between 0 and 1. -/
structure MseInput (env : TrainEnv K A) (cfg : TrainConfig K) (e : PointLoss K) : Prop where
  loss : ∃ m : MathFns K, m.one = 1 ∧ e.lossFn = mseLoss m
  weights : env.w = e.w
  nonneg : ∀ i < env.numRows, 0 ≤ env.w i
  exact : env.rnd32 = id
  allRows : ∀ k, env.draw k < cfg.exampleRate
  lambda : 0 ≤ cfg.l2Lambda
  shrink0 : 0 ≤ cfg.shrinkage
  shrink1 : cfg.shrinkage ≤ 1

/-- A round: the error goes below that of the best constant to add, but for the square of a constant that is below the
threshold. -/
theorem round_error_const {env : TrainEnv K A} {cfg : TrainConfig K} {e : PointLoss K} (hm : MseInput env cfg e)
    (hrows : ∀ name c, env.columns name = some c → HasRows env.numRows c) {names : List String}
    {features : List (String × Column A)} (hl : loadFeatures env.columns names = .ok features)
    {slices slices' : List (Nat × Nat)} (hinit : pointInit e env.numRows none = ok (.ok slices))
    {before : List (Tree K A × K)} {f : List K} (hv : ValuesOf env before f) {c : K} {grads : List (GD K)}
    (hg : pointCompute e slices f = ok (slices', c, grads)) {p p1 : Nat} {t : Tree K A}
    (ht : fitTree (env.fit features grads) cfg.fit p = ok (t, p1)) :
    ∃ extra, errD env e.y (before ++ [(applyShrinkage env.rnd32 cfg.shrinkage t, c)]) ≤
        errD env e.y before - (∑ k ∈ Finset.range env.numRows, env.w k) * (c * c) + extra ∧
      (∑ k ∈ Finset.range env.numRows, env.w k) * c =
        ∑ k ∈ Finset.range env.numRows, env.w k * (e.y k - valD env.columns k before) ∧
      (extra = 0 ∨ e.fabs c ≤ e.threshold ∧
        extra = cfg.shrinkage * ((∑ k ∈ Finset.range env.numRows, env.w k) * (c * c))) := by
  obtain ⟨m, hone, hloss⟩ := hm.loss
  obtain ⟨hflen, hval⟩ := hv
  have hval' : ∀ i < env.numRows, f.getD i 0 = valD env.columns i before := by
    intro i hi
    obtain ⟨v, h1, h2⟩ := hval i hi
    rw [List.getD_eq_getElem?_getD, h1, Option.getD_some, valueOf_valD h2]
  by_cases hw : ((List.range env.numRows).map env.w).sum = 0
  · rw [list_sum_range] at hw
    have hw0 := hw
    rw [Finset.sum_eq_zero_iff_of_nonneg (fun i hi => hm.nonneg i (by simpa using hi))] at hw0
    have hz : ∀ added, errD env e.y added = 0 := fun added =>
      Finset.sum_eq_zero (fun i hi => by rw [hw0 i hi, zero_mul])
    refine ⟨0, by rw [hz, hz, hw]; simp, ?_, Or.inl rfl⟩
    rw [hw, zero_mul]
    exact (Finset.sum_eq_zero (fun i hi => by rw [hw0 i hi, zero_mul])).symm
  · rw [← hflen] at hinit
    have hw' := hw
    rw [← hflen, hm.weights] at hw'
    obtain ⟨hc, c', hc', hgr⟩ := C48_mse hone hloss hw' hinit hg
    rw [hflen] at hc hgr
    have hglen : grads.length = env.numRows := by rw [hgr]; simp
    have hfd : FitData (env.fit features grads) env.columns := by
      refine ⟨fun name c hmem => ?_, (loadFeatures_mem hl).2⟩
      show HasRows grads.length c
      rw [hglen]
      exact hrows _ _ ((loadFeatures_mem hl).2 _ _ hmem)
    have hwt : ∀ k ∈ Finset.range env.numRows, weighted env.w grads k =
        ⟨env.w k * (e.y k - valD env.columns k before - c'), env.w k⟩ := by
      intro k hk
      have hk := Finset.mem_range.mp hk
      rw [weighted, hgr]
      simp only [List.getElem?_map, List.getElem?_range hk, Option.map_some, hval' k hk, GD.scale, mul_one]
    have hdes := fitTree_descent (cfg := cfg.fit) hfd (fun y => by show env.rnd32 y = y; rw [hm.exact]; rfl) hm.lambda hm.allRows ht
    have hwf := (C33_shape hfd ht).2.2
    change ∑ k ∈ Finset.range grads.length, (weighted env.w grads k).h * _ ≤
      ∑ k ∈ Finset.range grads.length, (weighted env.w grads k).g * _ at hdes
    have s1 : ∀ F : Nat → K, ∑ k ∈ Finset.range env.numRows, (weighted env.w grads k).h * F k =
        ∑ k ∈ Finset.range env.numRows, env.w k * F k := fun F => Finset.sum_congr rfl (fun k hk => by rw [hwt k hk])
    have s2 : ∀ F : Nat → K, ∑ k ∈ Finset.range env.numRows, (weighted env.w grads k).g * F k =
        ∑ k ∈ Finset.range env.numRows, env.w k * (e.y k - valD env.columns k before - c') * F k :=
      fun F => Finset.sum_congr rfl (fun k hk => by rw [hwt k hk])
    rw [hglen, s1, s2] at hdes
    have hmean : (∑ k ∈ Finset.range env.numRows, env.w k) * c =
        ∑ k ∈ Finset.range env.numRows, env.w k * (e.y k - valD env.columns k before) := by
      have h1 : (List.range env.numRows).map (fun k => e.w k * (e.y k - f.getD k 0)) =
          (List.range env.numRows).map (fun k => env.w k * (e.y k - valD env.columns k before)) :=
        List.map_congr_left (fun k hk => by rw [hval' k (by simpa using hk), hm.weights])
      rw [h1, ← hm.weights] at hc
      rw [hc, ← list_sum_range, ← list_sum_range]
      field_simp
    have halg := round_algebra (Finset.range env.numRows) env.w (fun k => e.y k - valD env.columns k before)
      (fun k => (scoreOf env.columns t k).getD 0) (fun k hk => hm.nonneg k (by simpa using hk)) hmean
      (hc'.imp id And.left) hdes hm.shrink0 hm.shrink1
    refine ⟨_, le_trans (le_of_eq ?_) halg, hmean, ?_⟩
    rotate_left
    · split
      · exact Or.inl rfl
      · rcases hc' with h | h
        · contradiction
        · exact Or.inr ⟨h.2, rfl⟩
    refine Finset.sum_congr rfl (fun k hk => ?_)
    have hs : (scoreOf env.columns (applyShrinkage env.rnd32 cfg.shrinkage t) k).getD 0 =
        (scoreOf env.columns t k).getD 0 * cfg.shrinkage := by
      rw [scoreOf, C41_shrinkage env.columns env.rnd32 cfg.shrinkage t hwf k, scoreOf, hm.exact]
      cases leafOf env.columns t k <;> simp
    have : valD env.columns k (before ++ [(applyShrinkage env.rnd32 cfg.shrinkage t, c)]) =
        valD env.columns k before + ((scoreOf env.columns t k).getD 0 * cfg.shrinkage + c) := by
      simp only [valD, List.map_append, List.map_cons, List.map_nil, List.sum_append, List.sum_cons, List.sum_nil,
        add_zero, hs]
    rw [this, sub_add_eq_sub_sub]

theorem round_error {env : TrainEnv K A} {cfg : TrainConfig K} {e : PointLoss K} (hm : MseInput env cfg e)
    (hrows : ∀ name c, env.columns name = some c → HasRows env.numRows c) {names : List String}
    {features : List (String × Column A)} (hl : loadFeatures env.columns names = .ok features)
    {slices slices' : List (Nat × Nat)} (hinit : pointInit e env.numRows none = ok (.ok slices))
    {before : List (Tree K A × K)} {f : List K} (hv : ValuesOf env before f) {c : K} {grads : List (GD K)}
    (hg : pointCompute e slices f = ok (slices', c, grads)) {p p1 : Nat} {t : Tree K A}
    (ht : fitTree (env.fit features grads) cfg.fit p = ok (t, p1)) :
    errD env e.y (before ++ [(applyShrinkage env.rnd32 cfg.shrinkage t, c)]) ≤ errD env e.y before := by
  obtain ⟨extra, h1, _, h2⟩ := round_error_const hm hrows hl hinit hv hg ht
  have hW : 0 ≤ ∑ k ∈ Finset.range env.numRows, env.w k :=
    Finset.sum_nonneg (fun k hk => hm.nonneg k (by simpa using hk))
  have hcc := mul_nonneg hW (mul_self_nonneg c)
  rcases h2 with rfl | ⟨_, rfl⟩
  · linarith
  · nlinarith [mul_nonneg (sub_nonneg.mpr hm.shrink1) hcc]

theorem boosts_error {env : TrainEnv K A} {cfg : TrainConfig K} {e : PointLoss K} (hm : MseInput env cfg e)
    (hrows : ∀ name c, env.columns name = some c → HasRows env.numRows c) {names : List String}
    {features : List (String × Column A)} (hl : loadFeatures env.columns names = .ok features)
    {s s' : List (Nat × Nat)} {p q : Nat} {before rounds : List (Tree K A × K)}
    (h : Boosts env e.toLoss features cfg s p before rounds s' q) :
    pointInit e env.numRows none = ok (.ok s) → errD env e.y (before ++ rounds) ≤ errD env e.y before := by
  induction h with
  | done => intro _; rw [List.append_nil]
  | @round s s1 s2 p p1 p2 before after f c grads t h1 h2 h3 h4 h5 ih =>
    intro hinit
    have hs : s1 = s := by
      have h2' := h2
      simp only [PointLoss.toLoss, pointCompute, bind_eq_ok, pure_eq, Outcome.ok.injEq] at h2'
      obtain ⟨⟨_, _⟩, _, h2'⟩ := h2'
      simp only [Prod.mk.injEq] at h2'
      exact h2'.1.symm
    subst hs
    have := ih hinit
    rw [List.append_assoc, List.singleton_append] at this
    exact this.trans (round_error hm hrows hl hinit h1 h2 h4)

/-- **C84.** Training with squared error (without rounding, on all rows, with shrinkage between 0 and 1) returns a forest
whose predictions have no larger weighted squared error than those of the forest it started from (of zeros, if none). -/
theorem C84_no_worse_than_base {env : TrainEnv K A} {names : List String} {cfg : TrainConfig K}
    {base : Option (List (Tree K A))} (hs : TrainStore env names cfg (base.getD [])) {e : PointLoss K}
    (he : 0 < e.numThreads) (hm : MseInput env cfg e) {p : Nat} {r : TrainResult K A}
    (h : trainGBDT env e.toLoss names cfg base [] p = ok r) (hok : r.code = .ok) {numThreads : Int} (hnt : 0 < numThreads) :
    ∃ f0 f1, evaluateForest env.columns env.numRows numThreads (base.getD []) = ok (.ok, some f0) ∧
      evaluateForest env.columns env.numRows numThreads r.forest = ok (.ok, some f1) ∧
      sqError env.w e.y env.numRows f1 ≤ sqError env.w e.y env.numRows f0 := by
  have hd := pointTrainData hs he
  obtain ⟨f0, a1, a2, a3⟩ := C37_prediction_exact hd.rows hnt (base.getD []) hd.features hd.scorable
  refine ⟨f0, r.f, a1, C39_training_scores_are_predictions hd hm.exact h hok hnt, ?_⟩
  obtain ⟨features, group, start, rounds, finish, b1, b2, b3, b4, b5, b6, b7⟩ := C73_rounds hd h hok
  have herr := boosts_error hm hd.rows b1 b4 b3
  rw [sqError_errD b6.2]
  refine herr.trans (le_of_eq ?_)
  symm
  apply sqError_errD
  intro i hi
  obtain ⟨xs, k1, k2⟩ := a3 i hi
  refine ⟨xs.sum, k2, xs, ?_, ?_⟩
  · rw [List.mapM_map]
    exact k1
  · have hlen : xs.length = ((base.getD []).map (fun t => (t, (0 : K)))).length := by rw [mapM_getD _ k1]; simp
    rw [foldl_pairs, List.map_fst_zip (by simpa using hlen.le), List.map_snd_zip (by simpa using hlen.ge)]
    simp [Function.comp_def]

/-- **C84.** The same run with `n` more trees has no larger error. -/
theorem C84_more_trees {env : TrainEnv K A} {names : List String} {cfg : TrainConfig K}
    {base : Option (List (Tree K A))} (hs : TrainStore env names cfg (base.getD [])) {e : PointLoss K}
    (he : 0 < e.numThreads) (hm : MseInput env cfg e) {p : Nat} {m n : Int} (hn : 0 < n) {r1 r2 : TrainResult K A}
    (h1 : trainGBDT env e.toLoss names { cfg with numTrees := m } base [] p = ok r1) (hok1 : r1.code = .ok)
    (h2 : trainGBDT env e.toLoss names { cfg with numTrees := m + n } base [] p = ok r2) (hok2 : r2.code = .ok)
    {numThreads : Int} (hnt : 0 < numThreads) :
    ∃ f1 f2, evaluateForest env.columns env.numRows numThreads r1.forest = ok (.ok, some f1) ∧
      evaluateForest env.columns env.numRows numThreads r2.forest = ok (.ok, some f2) ∧
      sqError env.w e.y env.numRows f2 ≤ sqError env.w e.y env.numRows f1 := by
  obtain ⟨r3, w1, w2, w3, _⟩ := C77_pointwise_warm_start hs e he hn hm.exact h1 hok1 h2 hok2
  have hd := pointTrainData (cfg := cfg) ⟨hs.rows, hs.threads, hs.sort, hs.top, hs.examples, hs.features, hs.group, hs.scorable, hs.baseFeatures⟩ he
  obtain ⟨u1, u2⟩ := C39_forest_usable hd h1 hok1
  have hs1 : TrainStore env names { cfg with numTrees := n } ((some r1.forest).getD []) :=
    ⟨hs.rows, hs.threads, hs.sort, hs.top, hs.examples, hs.features, hs.group, u2, u1⟩
  have hm1 : MseInput env { cfg with numTrees := n } e :=
    ⟨hm.loss, hm.weights, hm.nonneg, hm.exact, hm.allRows, hm.lambda, hm.shrink0, hm.shrink1⟩
  obtain ⟨f0, f1, c1, c2, c3⟩ := C84_no_worse_than_base hs1 he hm1 w1 w2 hnt
  have c4 := C39_training_scores_are_predictions (pointTrainData hs1 he) hm.exact w1 w2 hnt
  have c5 := C39_training_scores_are_predictions hd hm.exact h2 hok2 hnt
  rw [c2] at c4
  simp only [Outcome.ok.injEq, Prod.mk.injEq, Option.some.injEq, true_and] at c4
  refine ⟨f0, r2.f, c1, c5, ?_⟩
  rw [← w3, ← c4]
  exact c3

/-- The sum of the weights. -/
def totalWeight (env : TrainEnv K A) : K := ((List.range env.numRows).map env.w).sum

theorem const_error {s : Finset Nat} {w y : Nat → K} (hw : ∀ k ∈ s, 0 ≤ w k) {c : K}
    (hc : (∑ k ∈ s, w k) * c = ∑ k ∈ s, w k * y k) (k : K) :
    ∑ i ∈ s, w i * (y i * y i) - (∑ i ∈ s, w i) * (c * c) ≤ ∑ i ∈ s, w i * ((y i - k) * (y i - k)) := by
  have hW : 0 ≤ ∑ k ∈ s, w k := Finset.sum_nonneg hw
  have hexp : ∑ i ∈ s, w i * ((y i - k) * (y i - k)) =
      ∑ i ∈ s, w i * (y i * y i) - 2 * k * (∑ i ∈ s, w i * y i) + k * k * ∑ i ∈ s, w i := by
    simp only [Finset.mul_sum, ← Finset.sum_add_distrib, ← Finset.sum_sub_distrib]
    exact Finset.sum_congr rfl (fun k _ => by ring)
  rw [hexp, ← hc]
  nlinarith [mul_nonneg hW (mul_self_nonneg (c - k))]

theorem trainGBDT_numTrees {S : Type} {env : TrainEnv K A} {loss : LossFunc S K} {names : List String} {cfg : TrainConfig K}
    {base : Option (List (Tree K A))} {p : Nat} {r : TrainResult K A} (h : trainGBDT env loss names cfg base [] p = ok r)
    (hok : r.code = .ok) : 0 < cfg.numTrees := by
  by_contra hn
  have hc : checkConfig (env.ofNat 1) cfg = .invalidArgument := by rw [checkConfig, if_pos (by omega)]
  rw [trainGBDT, hc, if_pos (by decide), Outcome.ok.injEq] at h
  rw [← h] at hok
  cases hok

/-- The first round alone, and the ones after it. -/
theorem boosts_error_const {env : TrainEnv K A} {cfg : TrainConfig K} {e : PointLoss K} (hm : MseInput env cfg e)
    (hrows : ∀ name c, env.columns name = some c → HasRows env.numRows c) {names : List String}
    {features : List (String × Column A)} (hl : loadFeatures env.columns names = .ok features)
    {s s' : List (Nat × Nat)} {p q : Nat} {rounds : List (Tree K A × K)}
    (h : Boosts env e.toLoss features cfg s p [] rounds s' q) (hne : rounds ≠ [])
    (hinit : pointInit e env.numRows none = ok (.ok s)) :
    ∃ c extra, (∑ k ∈ Finset.range env.numRows, env.w k) * c = ∑ k ∈ Finset.range env.numRows, env.w k * e.y k ∧
      errD env e.y rounds ≤ errD env e.y [] - (∑ k ∈ Finset.range env.numRows, env.w k) * (c * c) + extra ∧
      (extra = 0 ∨ e.fabs c ≤ e.threshold ∧
        extra = cfg.shrinkage * ((∑ k ∈ Finset.range env.numRows, env.w k) * (c * c))) := by
  cases h with
  | done => exact absurd rfl hne
  | @round _ s1 s2 _ p1 p2 _ after f c grads t h1 h2 h3 h4 h5 =>
    have hs : s1 = s := by
      have h2' := h2
      simp only [PointLoss.toLoss, pointCompute, bind_eq_ok, pure_eq, Outcome.ok.injEq] at h2'
      obtain ⟨⟨_, _⟩, _, h2'⟩ := h2'
      simp only [Prod.mk.injEq] at h2'
      exact h2'.1.symm
    subst hs
    obtain ⟨extra, k1, k2, k3⟩ := round_error_const hm hrows hl hinit h1 h2 h4
    have k4 := boosts_error hm hrows hl h5 hinit
    refine ⟨c, extra, ?_, k4.trans k1, k3⟩
    rw [k2]
    exact Finset.sum_congr rfl (fun k _ => by simp [valD])

/-- The predictions after training are as good as those of any constant. -/
def BeatsConstants (env : TrainEnv K A) (y : Nat → K) (slack : K) (f : List K) : Prop :=
  ∀ k : K, sqError env.w y env.numRows f ≤ sqError env.w y env.numRows (List.replicate env.numRows k) + slack

/-- **C85 (partial).** Trained without base forest, the forest fits the training data no worse than any constant, if the
weighted mean `c` of the targets is above the convergence threshold of 0.0001 in absolute value; in any case it is
worse by no more than the square of the threshold per weight.  Missing: see `C85_refuted`. -/
theorem C85_constant_partial {env : TrainEnv K A} {names : List String} {cfg : TrainConfig K}
    (hs : TrainStore env names cfg []) {e : PointLoss K}
    (he : 0 < e.numThreads) (hm : MseInput env cfg e) {p : Nat} {r : TrainResult K A}
    (h : trainGBDT env e.toLoss names cfg none [] p = ok r) (hok : r.code = .ok) {numThreads : Int} (hnt : 0 < numThreads) :
    ∃ f, evaluateForest env.columns env.numRows numThreads r.forest = ok (.ok, some f) ∧
      (∀ c, totalWeight env * c = ((List.range env.numRows).map (fun i => env.w i * e.y i)).sum → e.threshold < e.fabs c →
        BeatsConstants env e.y 0 f) ∧
      ((∀ x, e.fabs x = |x|) → BeatsConstants env e.y (cfg.shrinkage * (totalWeight env * (e.threshold * e.threshold))) f) := by
  have hd := pointTrainData (base := []) hs he
  refine ⟨r.f, C39_training_scores_are_predictions hd hm.exact h hok hnt, ?_⟩
  obtain ⟨features, group, start, rounds, finish, b1, b2, b3, b4, b5, b6, b7⟩ := C73_rounds hd h hok
  have hne : rounds ≠ [] := by
    have := trainGBDT_numTrees h hok
    intro h0
    rw [h0] at b5
    simp at b5
    omega
  obtain ⟨c0, extra, c1, c2, c3⟩ := boosts_error_const hm hd.rows b1 b4 hne b3
  have hw : ∀ k ∈ Finset.range env.numRows, 0 ≤ env.w k := fun k hk => hm.nonneg k (by simpa using hk)
  have hW : 0 ≤ ∑ k ∈ Finset.range env.numRows, env.w k := Finset.sum_nonneg hw
  have herr : sqError env.w e.y env.numRows r.f = errD env e.y rounds := sqError_errD b6.2
  have hnil : errD env e.y [] = ∑ i ∈ Finset.range env.numRows, env.w i * (e.y i * e.y i) :=
    Finset.sum_congr rfl (fun i _ => by simp [valD])
  have hconst : ∀ k, sqError env.w e.y env.numRows (List.replicate env.numRows k) =
      ∑ i ∈ Finset.range env.numRows, env.w i * ((e.y i - k) * (e.y i - k)) := by
    intro k
    rw [sqError, list_sum_range]
    refine Finset.sum_congr rfl (fun i hi => ?_)
    rw [List.getD_eq_getElem?_getD, List.getElem?_replicate, if_pos (by simpa using hi), Option.getD_some]
  simp only [totalWeight, list_sum_range, BeatsConstants]
  constructor
  · intro c hc hgt k
    have := const_error hw c1 k
    rw [herr, hconst]
    have hx : extra = 0 := by
      rcases c3 with h | ⟨h1, h2⟩
      · exact h
      · by_cases h0 : ∑ k ∈ Finset.range env.numRows, env.w k = 0
        · rw [h2, h0]; simp
        · have : c0 = c := mul_left_cancel₀ h0 (c1.trans hc.symm)
          rw [this] at h1
          exact absurd h1 (not_le.mpr hgt)
    rw [hnil] at c2
    linarith
  · intro habs k
    have := const_error hw c1 k
    rw [herr, hconst]
    have hx : extra ≤ cfg.shrinkage * ((∑ k ∈ Finset.range env.numRows, env.w k) * (e.threshold * e.threshold)) := by
      rcases c3 with h | ⟨h1, h2⟩
      · rw [h]
        exact mul_nonneg hm.shrink0 (mul_nonneg hW (mul_self_nonneg _))
      · rw [h2]
        refine mul_le_mul_of_nonneg_left (mul_le_mul_of_nonneg_left ?_ hW) hm.shrink0
        rw [habs] at h1
        exact mul_self_le_mul_self_of_abs h1
    rw [hnil] at c2
    linarith
where
  mul_self_le_mul_self_of_abs {a b : K} (h : |a| ≤ b) : a * a ≤ b * b := by
    have h1 := abs_le.mp h
    nlinarith [h1.1, h1.2]

end exact

/-- The full statement: whatever the targets. -/
def C85_full : Prop :=
  ∀ (env : TrainEnv ℚ ℚ) (names : List String) (cfg : TrainConfig ℚ) (e : PointLoss ℚ) (p : Nat) (r : TrainResult ℚ ℚ),
    TrainStore env names cfg [] → 0 < e.numThreads → MseInput env cfg e → trainGBDT env e.toLoss names cfg none [] p = ok r →
    r.code = .ok → BeatsConstants env e.y 0 r.f

/-! ## Examples -/

/-- Squared error with the weights of `trainEnv`. -/
def errLoss (y : Nat → ℚ) : PointLoss ℚ := { ratMse with w := fun _ => 1, y := y }

/-- `C84_no_worse_than_base`, `C84_more_trees`, `C85_constant_partial`: the store of `Props/Train.lean` meets the hypotheses. -/
theorem errInput (y : Nat → ℚ) (cfg : TrainConfig ℚ) (h1 : cfg.exampleRate = 1) (h2 : 0 ≤ cfg.l2Lambda)
    (h3 : 0 ≤ cfg.shrinkage) (h4 : cfg.shrinkage ≤ 1) : MseInput trainEnv cfg (errLoss y) where
  loss := ⟨ratMath, rfl, rfl⟩
  weights := rfl
  nonneg := fun _ _ => zero_le_one (α := ℚ)
  exact := rfl
  allRows := fun k => by
    rw [h1]
    show ((((k * 7) % 10 : Nat) : ℚ) / 10) < 1
    have : ((k * 7) % 10 : Nat) < 10 := Nat.mod_lt _ (by decide)
    have h5 : (((k * 7) % 10 : Nat) : ℚ) < 10 := by exact_mod_cast this
    linarith
  lambda := h2
  shrink0 := h3
  shrink1 := h4

example : MseInput trainEnv trainCfg (errLoss (fun i => trainTargets.getD i 0)) :=
  errInput _ _ rfl (by decide +kernel) (by decide +kernel) (by decide +kernel)

/-- The error of a run. -/
def errAfter (y : Nat → ℚ) (cfg : TrainConfig ℚ) (base : Option (List (Tree ℚ ℚ))) : Option ℚ :=
  match trainGBDT trainEnv (errLoss y).toLoss ["color", "size"] cfg base [] 0 with
  | .ok r => if r.code = .ok then some (sqError trainEnv.w y 5 r.f) else none
  | _ => none

/-- With targets 1, 2, 6, 3, 8: from 34 (the best constant) to about 16.7 after one tree and 8.8 after two. -/
example : sqError trainEnv.w (fun i => trainTargets.getD i 0) 5 [4, 4, 4, 4, 4] = 34 ∧
    errAfter (fun i => trainTargets.getD i 0) { trainCfg with numTrees := 1 } none = some (267 / 16) ∧
    errAfter (fun i => trainTargets.getD i 0) trainCfg none = some (14097 / 1600) := by
  decide +kernel

/-- The mean of these targets is 4, above the threshold, as `C85_constant_partial` asks. -/
example : totalWeight trainEnv * 4 = ((List.range 5).map (fun i => trainEnv.w i * trainTargets.getD i 0)).sum ∧
    (errLoss (fun i => trainTargets.getD i 0)).threshold < (errLoss (fun i => trainTargets.getD i 0)).fabs 4 := by
  decide +kernel

/-- One tree without shrinkage and regularisation. -/
def smallCfg : TrainConfig ℚ := { trainCfg with numTrees := 1, l2Lambda := 0, shrinkage := 1 }

theorem smallStore (cfg : TrainConfig ℚ) (h : cfg.groupColumn = "") : TrainStore trainEnv ["color", "size"] cfg [] where
  rows := fun _ _ h => fitCols_rows h
  threads := by decide
  sort := ratSort_spec
  top := ratTop_spec
  examples := by simp [trainEnv]
  features := by simp [trainEnv]
  group := Or.inl h
  scorable := fun _ h => absurd h (by simp)
  baseFeatures := fun _ h => absurd h (by simp [forestFeatures])

/-- **C85 is false.**  All targets are 0.00005.  That is below the threshold, so the gradients that the tree is fitted to are
those before the constant is added: the tree makes up for the constant once more and the prediction is 0.0001 for every
row, as far off as 0 is.  The second tree goes back to 0, and so on for ever. -/
theorem C85_refuted : ¬ C85_full := by
  intro h
  have hrun : ∃ r, trainGBDT trainEnv (errLoss (fun _ => 1 / 20000)).toLoss ["color", "size"] smallCfg none [] 0 = ok r ∧
      r.code = .ok ∧ sqError trainEnv.w (fun _ => 1 / 20000) 5 r.f = 5 * (1 / 20000) * (1 / 20000) := by
    have hx : errAfter (fun _ => 1 / 20000) smallCfg none = some (5 * (1 / 20000) * (1 / 20000)) := by decide +kernel
    unfold errAfter at hx
    split at hx
    · rename_i r hr
      split at hx
      · rename_i hc
        exact ⟨r, hr, hc, by simpa using hx⟩
      · cases hx
    · cases hx
  obtain ⟨r, h1, h2, h3⟩ := hrun
  have := h trainEnv _ smallCfg _ 0 r (smallStore _ rfl) (by decide)
    (errInput _ _ rfl (by decide +kernel) (by decide +kernel) (by decide +kernel)) h1 h2 (1 / 20000)
  have h4 : sqError trainEnv.w (fun _ => 1 / 20000) 5 (List.replicate 5 (1 / 20000 : ℚ)) = 0 := by decide +kernel
  change sqError trainEnv.w (fun _ => 1 / 20000) 5 r.f ≤ sqError trainEnv.w (fun _ => 1 / 20000) 5 (List.replicate 5 (1 / 20000)) + 0 at this
  rw [h3, h4] at this
  norm_num at this

/-- Any number of trees: after two the error is the same again. -/
example : errAfter (fun _ => 1 / 20000) { smallCfg with numTrees := 2 } none = some (5 * (1 / 20000) * (1 / 20000)) := by
  decide +kernel

end Gbdt
