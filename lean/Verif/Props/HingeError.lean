import Mathlib.Algebra.BigOperators.Field
import Verif.Props.Pipeline

/-!
# C154: more trees and the huberized hinge

Specification: `hinge`, the loss as a function of the margin, and `hingeError`, its weighted sum.
-/

set_option autoImplicit false
set_option linter.unusedSectionVars false

namespace Gbdt
open Outcome

section spec
variable {K : Type} [Field K] [LinearOrder K]

/-- The huberized hinge of a margin (`docs/ALGORITHMS.md`): nothing from 1 on, a parabola between 0 and 1, a line below 0. -/
def hinge (m : K) : K := if 1 ≤ m then 0 else if 0 ≤ m then (1 - m) * (1 - m) / 2 else 1 / 2 - m

/-- The weighted sum of the loss of the predictions `f` for the first `n` rows. -/
def hingeError (w y : Nat → K) (n : Nat) (f : List K) : K :=
  ((List.range n).map (fun i => w i * hinge (y i * f.getD i 0))).sum

end spec

section exact
variable {K : Type} [Field K] [LinearOrder K] [IsStrictOrderedRing K] {A : Type} [LinearOrder A] [ThrOps A]

/-- What a tree fitted to all rows does, if no set of rows has more of `u` than hessian and regularisation together. -/
theorem fitTree_descent_by {env : FitEnv K A} {cfg : FitConfig K} {columns : String → Option (Column A)} (hd : FitData env columns)
    (hrnd : ∀ y, env.rnd32 y = y) (u : Nat → K)
    (hu : ∀ s ⊆ Finset.range env.grads.length, ∑ k ∈ s, u k ≤ (∑ k ∈ s, (weighted env.w env.grads k).h) + cfg.l2Lambda)
    (hall : ∀ k, env.draw k < cfg.exampleRate) {p q : Nat} {t : Tree K A} (h : fitTree env cfg p = ok (t, q)) :
    ∑ k ∈ Finset.range env.grads.length, u k * ((scoreOf columns t k).getD 0 * (scoreOf columns t k).getD 0) ≤
      ∑ k ∈ Finset.range env.grads.length, (weighted env.w env.grads k).g * (scoreOf columns t k).getD 0 := by
  obtain ⟨s0, s, all, p1, _, _, _, h3, _⟩ := fitTree_ok hd h
  have hsamp := (C22_rate_one_zero _ _ _ _ _ _ _ _ h3).1 (fun k => by simpa using hall k)
  subst hsamp
  obtain ⟨_, h4⟩ := C34_samples_reach_leaves hd h
  set path : Nat → List Bool := fun k => ((leafOf columns t k).map Prod.fst).getD [] with hpath
  set n := env.grads.length with hn
  rw [← Finset.sum_fiberwise_of_maps_to (s := Finset.range n) (t := (Finset.range n).image path) (g := path)
      (fun k hk => Finset.mem_image_of_mem _ hk),
    ← Finset.sum_fiberwise_of_maps_to (s := Finset.range n) (t := (Finset.range n).image path) (g := path)
      (fun k hk => Finset.mem_image_of_mem _ hk) (fun k => (weighted env.w env.grads k).g * _)]
  refine Finset.sum_le_sum (fun y hy => ?_)
  obtain ⟨k0, hk0, rfl⟩ := Finset.mem_image.mp hy
  obtain ⟨pt, x, sp, h5, h6⟩ := h4 _ _ h3 k0 (by simpa using hk0)
  have hp0 : path k0 = pt := by simp [hpath, h5]
  rw [hp0]
  obtain ⟨e1, e2, _⟩ := C35_newton_step hd hrnd h h3 h6
  rw [C35_leaf_members hd h h3 h6] at e1 e2
  have hset : (Finset.range n).filter (fun k => path k = pt) = ((List.range n).filter (reaches columns t pt)).toFinset := by
    ext k
    simp only [Finset.mem_filter, Finset.mem_range, List.mem_toFinset, List.mem_filter, List.mem_range, reaches,
      decide_eq_true_eq, and_congr_right_iff]
    intro hk
    obtain ⟨pk, xk, spk, g1, _⟩ := h4 _ _ h3 k (by simpa using hk)
    simp [hpath, g1]
  have hnd : ((List.range n).filter (reaches columns t pt)).Nodup := List.nodup_range.filter _
  have hx : ∀ k ∈ (Finset.range n).filter (fun k => path k = pt), (scoreOf columns t k).getD 0 = x := by
    intro k hk
    rw [Finset.mem_filter, Finset.mem_range] at hk
    obtain ⟨pk, xk, spk, g1, g2⟩ := h4 _ _ h3 k (by simpa using hk.1)
    have : pk = pt := by rw [← hk.2]; simp [hpath, g1]
    subst this
    rw [IsLeafAt, h6, Option.some.injEq, Tree.node.injEq] at g2
    simp [scoreOf, g1, g2.1]
  have s1 : ∀ (d : Nat → K) (F : K → K), ∑ k ∈ (Finset.range n).filter (fun k => path k = pt), d k * F ((scoreOf columns t k).getD 0) =
      ∑ k ∈ (Finset.range n).filter (fun k => path k = pt), d k * F x :=
    fun d F => Finset.sum_congr rfl (fun k hk => by rw [hx k hk])
  have hus := hu ((Finset.range n).filter (fun k => path k = pt)) (Finset.filter_subset _ _)
  rw [s1 _ (fun z => z * z), s1 _ (fun z => z), ← Finset.sum_mul, ← Finset.sum_mul]
  have hG := congrArg (fun s => ∑ k ∈ s, (weighted env.w env.grads k).g) hset
  have hH := congrArg (fun s => ∑ k ∈ s, (weighted env.w env.grads k).h) hset
  simp only [List.sum_toFinset _ hnd] at hG hH
  rw [hH] at hus
  rw [hG]
  set U := ∑ k ∈ (Finset.range n).filter (fun k => path k = pt), u k
  set H := (((List.range n).filter (reaches columns t pt)).map (fun i => (weighted env.w env.grads i).h)).sum
  set G := (((List.range n).filter (reaches columns t pt)).map (fun i => (weighted env.w env.grads i).g)).sum
  by_cases hz : H + cfg.l2Lambda = 0
  · rw [e2 hz]; simp
  · have hGx : G = x * (H + cfg.l2Lambda) := by rw [e1 hz]; field_simp
    have := mul_nonneg (sub_nonneg.mpr hus) (mul_self_nonneg x)
    rw [hGx]
    nlinarith

/-- The loss lies below a parabola of curvature 1 through each of its points. -/
theorem hinge_step {y : K} (hy : y = 1 ∨ y = -1) {m : MathFns K} (hone : m.one = 1) (f d : K) :
    hinge (y * (f + d)) ≤ hinge (y * f) - (huberizedHinge m y f).2.1 * d + d * d / 2 := by
  have hyy : y * y = 1 := by rcases hy with rfl | rfl <;> norm_num
  have hd : d * d = (y * d) * (y * d) := by
    calc d * d = (y * y) * (d * d) := by rw [hyy, one_mul]
      _ = _ := by ring
  have key : ∀ a b : K, hinge (a + b) ≤ hinge a - (if 1 ≤ a then 0 else if 0 ≤ a then 1 - a else 1) * b + b * b / 2 := by
    intro a b
    unfold hinge
    split_ifs <;> nlinarith [mul_self_nonneg b, mul_self_nonneg (1 - a - b), mul_self_nonneg (a + b), mul_self_nonneg (b + a - 1)]
  have hg : (huberizedHinge m y f).2.1 * d = (if 1 ≤ y * f then 0 else if 0 ≤ y * f then 1 - y * f else 1) * (y * d) := by
    unfold huberizedHinge
    simp only [hone, Dbl.leb, exact_ltb, exact_eqb, Bool.or_eq_true, decide_eq_true_eq, ← le_iff_lt_or_eq]
    split_ifs <;> ring
  rw [hg, hd, mul_add]
  exact key _ _

/-- The error of trees and constants, and `x` more. -/
def hingeD (env : TrainEnv K A) (y : Nat → K) (added : List (Tree K A × K)) (x : Nat → K) : K :=
  ∑ i ∈ Finset.range env.numRows, env.w i * hinge (y i * (valD env.columns i added + x i))

/-- What the partial theorem asks: huberized hinge with the weights that the trees are fitted with, none of them negative; no rounding;
every draw below the sampling rate; shrinkage between 0 and 1; `l2_lambda` at least half of the weight of all rows. -/
structure HingeInput (env : TrainEnv K A) (cfg : TrainConfig K) (e : PointLoss K) : Prop where
  loss : ∃ m : MathFns K, m.one = 1 ∧ e.lossFn = huberizedHinge m
  binary : e.binary = true
  one : e.one = 1
  minusOne : e.minusOne = -1
  weights : env.w = e.w
  nonneg : ∀ i < env.numRows, 0 ≤ env.w i
  exact : env.rnd32 = id
  allRows : ∀ k, env.draw k < cfg.exampleRate
  lambda : ((List.range env.numRows).map env.w).sum ≤ 2 * cfg.l2Lambda
  shrink0 : 0 ≤ cfg.shrinkage
  shrink1 : cfg.shrinkage ≤ 1

theorem round_hinge {env : TrainEnv K A} {cfg : TrainConfig K} {e : PointLoss K} (hm : HingeInput env cfg e)
    (hrows : ∀ name c, env.columns name = some c → HasRows env.numRows c) {names : List String}
    {features : List (String × Column A)} (hl : loadFeatures env.columns names = .ok features)
    {slices slices' : List (Nat × Nat)} (hinit : pointInit e env.numRows none = ok (.ok slices))
    {before : List (Tree K A × K)} {f : List K} (hv : ValuesOf env before f) {c : K} {grads : List (GD K)}
    (hg : pointCompute e slices f = ok (slices', c, grads)) {p p1 : Nat} {t : Tree K A}
    (ht : fitTree (env.fit features grads) cfg.fit p = ok (t, p1)) :
    ∃ c', c = c' + newton e f c' ∧
      hingeD env e.y before (fun i => c' + (scoreOf env.columns (applyShrinkage env.rnd32 cfg.shrinkage t) i).getD 0) ≤
        hingeD env e.y before (fun _ => c') := by
  obtain ⟨m, hone, hloss⟩ := hm.loss
  obtain ⟨hflen, hval⟩ := hv
  have hbin : ∀ i < env.numRows, e.y i = 1 ∨ e.y i = -1 := by
    intro i hi
    by_contra hc
    obtain ⟨h1, h2⟩ := not_or.mp hc
    have := (C76_binary_targets e env.numRows none).mpr ⟨hm.binary, i, hi, by
      rw [exact_eqb, hm.one]; exact decide_eq_false h1, by rw [exact_eqb, hm.minusOne]; exact decide_eq_false h2⟩
    rw [hinit] at this
    cases this
  have hval' : ∀ i < env.numRows, f[i]? = some (valD env.columns i before) := by
    intro i hi
    obtain ⟨v, h1, h2⟩ := hval i hi
    rw [h1, valueOf_valD h2]
  rw [← hflen] at hinit
  obtain ⟨k, k1, _, k3, k4, _, _⟩ := C48_newton hinit hg
  obtain ⟨k, rfl⟩ : ∃ k', k = k' + 1 := ⟨k - 1, by omega⟩
  rw [Function.iterate_succ_apply'] at k3
  rw [Nat.add_sub_cancel] at k4
  generalize ((fun x => x + newton e f x)^[k] 0) = c' at k3 k4
  refine ⟨c', k3, ?_⟩
  rw [hflen] at k4
  have hglen : grads.length = env.numRows := by rw [k4]; simp
  have hfd : FitData (env.fit features grads) env.columns := by
    refine ⟨fun name c hmem => ?_, (loadFeatures_mem hl).2⟩
    show HasRows grads.length c
    rw [hglen]
    exact hrows _ _ ((loadFeatures_mem hl).2 _ _ hmem)
  have hwt : ∀ k ∈ Finset.range env.numRows, weighted env.w grads k =
      ⟨env.w k * (huberizedHinge m (e.y k) (valD env.columns k before + c')).2.1,
        env.w k * (huberizedHinge m (e.y k) (valD env.columns k before + c')).2.2⟩ := by
    intro k hk
    have hk := Finset.mem_range.mp hk
    rw [weighted, k4]
    simp only [List.getElem?_map, List.getElem?_range hk, Option.map_some, rowGrad, hval' k hk, hloss, GD.scale]
  have hh : ∀ y f, 0 ≤ (huberizedHinge m y f).2.2 := by
    intro y f
    unfold huberizedHinge
    simp only [hone]
    split_ifs <;> norm_num
  have hdes := fitTree_descent_by (cfg := cfg.fit) hfd (fun y => by show env.rnd32 y = y; rw [hm.exact]; rfl) (fun k => env.w k / 2)
    (by
      intro s hs
      change s ⊆ Finset.range grads.length at hs
      rw [hglen] at hs
      have h1 : ∑ k ∈ s, env.w k / 2 ≤ ∑ k ∈ Finset.range env.numRows, env.w k / 2 :=
        Finset.sum_le_sum_of_subset_of_nonneg hs (fun k hk _ => div_nonneg (hm.nonneg k (by simpa using hk)) (by norm_num))
      have h2 : 0 ≤ ∑ k ∈ s, (weighted env.w grads k).h := Finset.sum_nonneg (fun k hk => by
        rw [hwt k (hs hk)]
        exact mul_nonneg (hm.nonneg k (by simpa using hs hk)) (hh _ _))
      have h3 := hm.lambda
      rw [list_sum_range] at h3
      rw [← Finset.sum_div, ← Finset.sum_div] at h1
      have h4 : (∑ k ∈ Finset.range env.numRows, env.w k) / 2 ≤ cfg.l2Lambda := by linarith
      show _ ≤ _ + cfg.l2Lambda
      have h5 : ∑ k ∈ s, env.w k / 2 ≤ cfg.l2Lambda := by rw [← Finset.sum_div]; exact h1.trans h4
      change 0 ≤ ∑ k ∈ s, (weighted (env.fit features grads).w (env.fit features grads).grads k).h at h2
      linarith) hm.allRows ht
  have hwf := (C33_shape hfd ht).2.2
  change ∑ k ∈ Finset.range grads.length, env.w k / 2 * _ ≤ ∑ k ∈ Finset.range grads.length, (weighted env.w grads k).g * _ at hdes
  rw [hglen] at hdes
  have hs : ∀ k, (scoreOf env.columns (applyShrinkage env.rnd32 cfg.shrinkage t) k).getD 0 =
      (scoreOf env.columns t k).getD 0 * cfg.shrinkage := by
    intro k
    rw [scoreOf, C41_shrinkage env.columns env.rnd32 cfg.shrinkage t hwf k, scoreOf, hm.exact]
    cases leafOf env.columns t k <;> simp
  simp only [hs]
  set r := cfg.shrinkage
  set x : Nat → K := fun k => (scoreOf env.columns t k).getD 0 with hx
  set g : Nat → K := fun k => (weighted env.w grads k).g with hgd
  have step : ∀ k ∈ Finset.range env.numRows,
      env.w k * hinge (e.y k * (valD env.columns k before + (c' + x k * r))) ≤
        env.w k * hinge (e.y k * (valD env.columns k before + c')) - r * (g k * x k) + r * r * (env.w k / 2 * (x k * x k)) := by
    intro k hk
    have := mul_le_mul_of_nonneg_left (hinge_step (hbin k (by simpa using hk)) hone (valD env.columns k before + c') (x k * r))
      (hm.nonneg k (by simpa using hk))
    rw [add_assoc] at this
    refine this.trans (le_of_eq ?_)
    simp only [hgd, hwt k hk]
    ring
  refine (Finset.sum_le_sum step).trans ?_
  rw [Finset.sum_add_distrib, Finset.sum_sub_distrib, ← Finset.mul_sum, ← Finset.mul_sum]
  have hQ : 0 ≤ ∑ k ∈ Finset.range env.numRows, env.w k / 2 * (x k * x k) := Finset.sum_nonneg (fun k hk =>
    mul_nonneg (div_nonneg (hm.nonneg k (by simpa using hk)) (by norm_num)) (mul_self_nonneg _))
  change _ ≤ ∑ k ∈ Finset.range env.numRows, env.w k * hinge (e.y k * (valD env.columns k before + c'))
  change ∑ k ∈ Finset.range env.numRows, env.w k / 2 * (x k * x k) ≤ ∑ k ∈ Finset.range env.numRows, g k * x k at hdes
  generalize ∑ k ∈ Finset.range env.numRows, env.w k / 2 * (x k * x k) = Q at *
  generalize ∑ k ∈ Finset.range env.numRows, g k * x k = P at *
  have h0 : 0 ≤ r := hm.shrink0
  have h1 : r ≤ 1 := hm.shrink1
  nlinarith [mul_nonneg h0 (sub_nonneg.mpr hdes), mul_nonneg (mul_nonneg h0 (sub_nonneg.mpr h1)) hQ]

theorem boosts_hinge {env : TrainEnv K A} {cfg : TrainConfig K} {e : PointLoss K} (hm : HingeInput env cfg e)
    (hrows : ∀ name c, env.columns name = some c → HasRows env.numRows c) {names : List String}
    {features : List (String × Column A)} (hl : loadFeatures env.columns names = .ok features)
    {s s' : List (Nat × Nat)} {p q : Nat} {before rounds : List (Tree K A × K)}
    (h : Boosts env e.toLoss features cfg s p before rounds s' q) :
    pointInit e env.numRows none = ok (.ok s) → ∀ (i : Nat) (t : Tree K A) (c : K), rounds[i]? = some (t, c) →
      ∃ f c', ValuesOf env (before ++ rounds.take i) f ∧ c = c' + newton e f c' ∧
        hingeD env e.y (before ++ rounds.take i) (fun k => c' + (scoreOf env.columns t k).getD 0) ≤
          hingeD env e.y (before ++ rounds.take i) (fun _ => c') := by
  induction h with
  | done => intro _ i t c h; simp at h
  | @round s s1 s2 p p1 p2 before after f c grads t h1 h2 h3 h4 h5 ih =>
    intro hinit i u d hi
    cases i with
    | zero =>
      rw [List.getElem?_cons_zero, Option.some.injEq, Prod.mk.injEq] at hi
      obtain ⟨rfl, rfl⟩ := hi
      rw [List.take_zero, List.append_nil]
      obtain ⟨c', g1, g2⟩ := round_hinge hm hrows hl hinit h1 h2 h4
      exact ⟨f, c', h1, g1, g2⟩
    | succ i =>
      have hs : s1 = s := by
        have h2' := h2
        simp only [PointLoss.toLoss, pointCompute, bind_eq_ok, pure_eq, Outcome.ok.injEq] at h2'
        obtain ⟨⟨_, _⟩, _, h2'⟩ := h2'
        simp only [Prod.mk.injEq] at h2'
        exact h2'.1.symm
      subst hs
      have := ih hinit i u d (by simpa using hi)
      rw [List.append_assoc, List.singleton_append] at this
      rw [List.take_succ_cons]
      exact this

/-- **C154 (partial).** Training with the huberized hinge (without rounding, on all rows, with shrinkage between 0 and 1) and with
`l2_lambda` at least half of the weight of all rows: no tree makes the loss larger than the constant does at which its gradients were
computed.  (Missing: smaller `l2_lambda`, and the constants, which no regularisation keeps small; see `C154_refuted`.) -/
theorem C154_tree_partial {env : TrainEnv K A} {names : List String} {cfg : TrainConfig K}
    {base : Option (List (Tree K A))} (hs : TrainStore env names cfg (base.getD [])) {e : PointLoss K}
    (he : 0 < e.numThreads) (hm : HingeInput env cfg e) {p : Nat} {r : TrainResult K A}
    (h : trainGBDT env e.toLoss names cfg base [] p = ok r) (hok : r.code = .ok) :
    ∃ rounds : List (Tree K A × K), (rounds.length : Int) = cfg.numTrees ∧
      r.forest.tail = ((base.getD []).filter (fun t => !isSingleNode t) ++ rounds.map Prod.fst).map clearInternal ∧
      ∀ (i : Nat) (t : Tree K A) (c : K), rounds[i]? = some (t, c) →
        ∃ f c', ValuesOf env ((base.getD []).map (fun t => (t, 0)) ++ rounds.take i) f ∧ c = c' + newton e f c' ∧
          ((List.range env.numRows).map (fun k => env.w k * hinge (e.y k * (f.getD k 0 + c' + (scoreOf env.columns t k).getD 0)))).sum ≤
            ((List.range env.numRows).map (fun k => env.w k * hinge (e.y k * (f.getD k 0 + c')))).sum := by
  have hd := pointTrainData hs he
  obtain ⟨features, group, start, rounds, finish, b1, b2, b3, b4, b5, b6, b7⟩ := C73_rounds hd h hok
  refine ⟨rounds, b5, by rw [b7]; rfl, fun i t c hi => ?_⟩
  obtain ⟨f, c', h1, h2, h3⟩ := boosts_hinge hm hd.rows b1 b4 b3 i t c hi
  refine ⟨f, c', h1, h2, ?_⟩
  rw [list_sum_range, list_sum_range]
  have hval : ∀ k ∈ Finset.range env.numRows, f.getD k 0 =
      valD env.columns k ((base.getD []).map (fun t => (t, 0)) ++ rounds.take i) := by
    intro k hk
    obtain ⟨v, g1, g2⟩ := h1.2 k (by simpa using hk)
    rw [List.getD_eq_getElem?_getD, g1, Option.getD_some, valueOf_valD g2]
  refine (le_of_eq (Finset.sum_congr rfl (fun k hk => ?_))).trans (h3.trans (le_of_eq (Finset.sum_congr rfl (fun k hk => ?_))))
  · rw [hval k hk, add_assoc]
  · rw [hval k hk]

end exact

/-! ## More trees do fit worse -/

/-- **C154 (in full).** As for squared error (`C87_mse`): the predictions have no larger loss than those of the base forest. -/
def C154_full : Prop :=
  ∀ (mc : Machine ℚ ℚ) (t : DataStore ℚ) (n : Nat) (c : Config ℚ) (base : Option (List (Tree ℚ ℚ))) (nt : Int) (y w : List (Fl ℚ))
    (features : List String) (seed nt' : Int), PyInput mc t n c base nt → ValidCall mc t n c y w features →
    c.lossFunc = "huberized_hinge" → mc.math.one = 1 → mc.math.half = 1 / 2 → mc.rnd32 = id → (∀ x, mc.diverged x = false) →
    (∀ k, mc.draw seed k < c.exampleRate.getD (mc.ofNat 1)) → (∀ i < n, 0 ≤ weightFn mc w i) →
    0 ≤ c.l2Lambda → 0 ≤ c.shrinkage → c.shrinkage ≤ 1 → 0 < nt' →
    ∃ forest before after, pyTrain mc (some t) c y features w base seed nt = ok (.ok forest) ∧
      pyPredict (some t) (base.getD []) nt' = ok (.ok before) ∧ pyPredict (some t) forest nt' = ok (.ok after) ∧
      hingeError (weightFn mc w) (targetFn mc t c y) n after ≤ hingeError (weightFn mc w) (targetFn mc t c y) n before

/-- Seven rows, two features of two values. -/
def hingeDict : PyRes (Option (DataStore ℚ)) :=
  PyStore.fromDict 1000 6 id [] [("color", ["z", "x", "z", "z", "x", "x", "z"]), ("team", ["x", "x", "x", "z", "z", "z", "x"])]
    [("y", [.num 1, .num (-1), .num 1, .num 1, .num (-1), .num (-1), .num (-1)])]

/-- A configuration with `l2_lambda` 0.1. -/
def hingeCfg : Config ℚ := { pyCfg with lossFunc := "huberized_hinge", l2Lambda := 1 / 10, shrinkage := 1 }

theorem hingeDict_store {t : DataStore ℚ} (h : hingeDict = ok (.ok (some t))) : GoodStore 7 t ∧ t.length = 3 ∧
    IsFeature (some t) "color" ∧ IsFeature (some t) "team" ∧ t.getRaw "y" ≠ none := by
  obtain ⟨h1, h2, _, h4, _, h5⟩ := C87_from_dict (1000 : ℚ) (by decide) (fun _ => List.Perm.refl _) (n := 7) (by decide)
    (by decide) (by
      intro p hp
      cases hp) (by decide) (by
      intro p hp
      rw [List.mem_singleton.mp hp]
      exact ⟨rfl, below_of _ (by decide +kernel)⟩) h
  exact ⟨h1, h2, h4 _ (List.mem_cons_self ..), h4 _ (List.mem_cons_of_mem _ (List.mem_cons_self ..)), h5 _ (List.mem_cons_self ..)⟩

theorem hingeInput {t : DataStore ℚ} (h : hingeDict = ok (.ok (some t))) : PyInput ratMachine t 7 hingeCfg none 2 where
  machine :=
    { sort := ratSort_spec
      top := ratTop_spec
      listing := fun l => l.reverse_perm
      toInt := by intros; simp [ratMachine] }
  store := (hingeDict_store h).1
  rowCount := by decide
  columnCount := by rw [(hingeDict_store h).2.1]; decide
  loss := by decide
  exampleRate := by simp [NotNaN]
  featureRate := by simp [NotNaN]
  threads := by decide
  group := Or.inl rfl
  base := ⟨fun _ h => absurd h (by simp [forestFeatures]), fun _ h => absurd h (by simp)⟩

theorem ratMachine_below (seed : Int) (k : Nat) : ratMachine.draw seed k < (hingeCfg.exampleRate).getD (ratMachine.ofNat 1) := by
  have h : ((k * 7) % 10 : Nat) < 10 := Nat.mod_lt _ (by decide)
  show (((k * 7) % 10 : Nat) : ℚ) / 10 < ((1 : Nat) : ℚ)
  rw [div_lt_iff₀ (by norm_num)]
  exact_mod_cast h

/-- Whether `k` holds of the store, the predictions of no tree and those of the forest. -/
def hingeRun (k : DataStore ℚ → List ℚ → List ℚ → Bool) : Bool :=
  match hingeDict with
  | .ok (.ok (some t)) => match pyTrain ratMachine (some t) hingeCfg [] ["color", "team"] [] none 1 2, pyPredict (some t) [] 3 with
    | .ok (.ok forest), .ok (.ok p0) => (match pyPredict (some t) forest 3 with
      | .ok (.ok p) => k t p0 p
      | _ => false)
    | _, _ => false
  | _ => false

/-- **C154 refuted.** Two trees with `l2_lambda` 0.1 and no shrinkage: the loss goes from 3.5, that of no trees at all, to more than 27.
Where the loss is a line its hessian is 0, and a leaf of rows most of which are beyond the parabola makes a step of gradient by
`l2_lambda` alone. -/
theorem C154_refuted : ¬ C154_full := by
  intro hfull
  have hrun : hingeRun (fun t p0 p => (List.range 7).all (fun i => decide (targetFn ratMachine t hingeCfg [] i = 1) ||
      decide (targetFn ratMachine t hingeCfg [] i = -1)) &&
      decide (hingeError (weightFn ratMachine []) (targetFn ratMachine t hingeCfg []) 7 p0 < 4 ∧
        27 < hingeError (weightFn ratMachine []) (targetFn ratMachine t hingeCfg []) 7 p)) = true := by decide +kernel
  unfold hingeRun at hrun
  split at hrun
  · next t ht =>
    split at hrun
    · next forest p0 hf hp0 =>
      split at hrun
      · next p hp =>
        rw [Bool.and_eq_true, List.all_eq_true, decide_eq_true_eq] at hrun
        obtain ⟨hbin, h0, h1⟩ := hrun
        have hv : ValidCall ratMachine t 7 hingeCfg [] [] ["color", "team"] :=
          { trees := by decide
            leaves := by decide
            exampleRate := by decide +kernel
            featureRate := by decide +kernel
            some := by decide
            known := by
              obtain ⟨_, _, g1, g2, _⟩ := hingeDict_store ht
              intro name hn
              simp only [List.mem_cons, List.not_mem_nil, or_false] at hn
              rcases hn with rfl | rfl
              · exact g1
              · exact g2
            weights := Or.inl rfl
            targets := Or.inr ⟨rfl, by decide, (hingeDict_store ht).2.2.2.2⟩
            binary := Or.inr (fun i hi => by
              have := hbin i (List.mem_range.mpr hi)
              rw [Bool.or_eq_true] at this
              exact this) }
        obtain ⟨forest', before, after, g1, g2, g3, g4⟩ := hfull ratMachine t 7 hingeCfg none 2 [] [] ["color", "team"] 1 3
          (hingeInput ht) hv rfl rfl rfl rfl (fun _ => rfl) (ratMachine_below 1) (fun i _ => by
            show (0 : ℚ) ≤ ((1 : Nat) : ℚ)
            norm_num) (by decide +kernel) (by decide +kernel) (by decide +kernel) (by decide)
        rw [hf] at g1
        cases g1
        rw [Option.getD_none, hp0] at g2
        cases g2
        rw [hp] at g3
        cases g3
        linarith
      · cases hrun
    · cases hrun
  · cases hrun

/-- The huberized hinge with the weights of `trainEnv`, and targets 1, -1, 1, 1, -1. -/
def hingePoint : PointLoss ℚ :=
  { ratMse with lossFn := huberizedHinge ratMath, binary := true, one := 1, minusOne := -1, w := fun _ => 1,
                y := fun i => ([1, -1, 1, 1, -1] : List ℚ).getD i 0 }

/-- Half of the weight of the five rows. -/
def halfCfg : TrainConfig ℚ := { trainCfg with l2Lambda := 5 / 2, shrinkage := 1 }

/-- The hypotheses of `C154_tree_partial` hold for the store of `Props/Train.lean`, and the run succeeds with trees that split. -/
example : TrainStore trainEnv ["color", "size"] halfCfg [] ∧ HingeInput trainEnv halfCfg hingePoint ∧
    (match trainGBDT trainEnv hingePoint.toLoss ["color", "size"] halfCfg none [] 0 with
    | .ok r => decide (r.code = .ok ∧ r.forest.map Tree.countLeaves = [1, 2, 2] ∧ hingeError trainEnv.w hingePoint.y 5 r.f < 2)
    | _ => false) = true := by
  refine ⟨smallStore _ rfl, ?_, by decide +kernel⟩
  exact
    { loss := ⟨ratMath, rfl, rfl⟩
      binary := rfl
      one := rfl
      minusOne := rfl
      weights := rfl
      nonneg := fun _ _ => zero_le_one (α := ℚ)
      exact := rfl
      allRows := ratMachine_below 1
      lambda := by decide +kernel
      shrink0 := by decide +kernel
      shrink1 := by decide +kernel }

end Gbdt
