import Verif.Props.LogError
import Mathlib.Analysis.SpecialFunctions.Trigonometric.DerivHyp
import Mathlib.Analysis.SpecialFunctions.Exponential

/-!
# C179: the constants that logistic loss starts a round with
-/

set_option autoImplicit false
set_option linter.unusedSectionVars false

namespace Gbdt
open Outcome

variable {A : Type} [LinearOrder A] [ThrOps A]

/-- The weighted sum of the loss of the predictions `f` for the first `n` rows. -/
noncomputable def logisticError (w y : Nat → ℝ) (n : Nat) (f : List ℝ) : ℝ := ((List.range n).map (fun i => w i * logistic (y i * f.getD i 0))).sum

/-- **C179 (in full).** Training with logistic loss and enough regularization (`LogisticInput`, see C178): the predictions for the training data have no larger
loss than those of the base forest. -/
def C179_full : Prop :=
  ∀ (env : TrainEnv ℝ ℚ) (names : List String) (cfg : TrainConfig ℝ) (base : List (Tree ℝ ℚ)) (e : PointLoss ℝ) (p : Nat) (r : TrainResult ℝ ℚ) (f : List ℝ),
    TrainStore env names cfg base → 0 < e.numThreads → LogisticInput env cfg e → ValuesOf env (base.map (fun t => (t, 0))) f →
    trainGBDT env e.toLoss names cfg (some base) [] p = ok r → r.code = .ok →
    logisticError env.w e.y env.numRows r.f ≤ logisticError env.w e.y env.numRows f

/-! ## Newton's method runs away -/

theorem two_mul_lt_sinh {x : ℝ} (h : 3 < x) : 2 * x < Real.sinh x := by
  have h1 := Real.sum_le_exp_of_nonneg (x := x) (by linarith) 4
  have h2 : Real.exp (-x) ≤ 1 := Real.exp_le_one_iff.mpr (by linarith)
  simp only [Finset.sum_range_succ, Finset.sum_range_zero, Nat.factorial] at h1
  rw [Real.sinh_eq]
  norm_num at h1
  nlinarith [mul_pos (sub_pos.mpr h) (sub_pos.mpr h), mul_pos (mul_pos (sub_pos.mpr h) (sub_pos.mpr h)) (sub_pos.mpr h)]

/-- A step goes beyond 0, and further than before. -/
theorem step_grows {x : ℝ} (h : 3 < |x|) : |x| < |x - Real.sinh x| ∧ (x - Real.sinh x) * x < 0 := by
  rcases le_total 0 x with hx | hx
  · rw [abs_of_nonneg hx] at h ⊢
    have := two_mul_lt_sinh h
    rw [abs_of_nonpos (by linarith)]
    exact ⟨by linarith, by nlinarith⟩
  · rw [abs_of_nonpos hx] at h ⊢
    have := two_mul_lt_sinh h
    rw [Real.sinh_neg] at this
    rw [abs_of_nonneg (by linarith)]
    exact ⟨by linarith, by nlinarith⟩

theorem grads_two (F : ℝ) : (logLoss realMath 1 F).2.1 + (logLoss realMath (-1) F).2.1 = -(Real.sinh F) * (2 * (Real.exp F / ((1 + Real.exp F) * (1 + Real.exp F)))) ∧
    (logLoss realMath 1 F).2.2 + (logLoss realMath (-1) F).2.2 = 2 * (Real.exp F / ((1 + Real.exp F) * (1 + Real.exp F))) := by
  have hE : 0 < Real.exp F := Real.exp_pos F
  simp only [logLoss, realMath, neg_mul, one_mul, neg_neg, Real.sinh_eq, Real.exp_neg]
  generalize Real.exp F = E at hE
  constructor <;> (field_simp; ring)

/-- Two rows that no feature tells apart, with targets 1 and -1. -/
noncomputable def warmPoint : PointLoss ℝ := { realPoint with y := fun i => ([1, -1] : List ℝ).getD i 0 }

/-- One column. -/
def warmCols (name : String) : Option (Column ℚ) := if name = "x" then some (.str (StrCol.build [["a", "a"]])) else none

/-- The two rows. -/
noncomputable def warmEnv : TrainEnv ℝ ℚ := { realEnv with columns := warmCols, numRows := 2 }

/-- One tree of one leaf. -/
noncomputable def warmCfg : TrainConfig ℝ := { realCfg with numTrees := 1, numLeaves := 1 }

/-- A base forest that predicts -4 for every row. -/
noncomputable def warmBase : List (Tree ℝ ℚ) := [.node (-4) none .absent .absent]

theorem warm_newton (v c : ℝ) : newton warmPoint [v, v] c = -(Real.sinh (v + c)) := by
  have hE : 0 < Real.exp (v + c) := Real.exp_pos _
  obtain ⟨h1, h2⟩ := grads_two (v + c)
  have e1 : ((List.range [v, v].length).map (fun k => warmPoint.w k * (rowGrad warmPoint [v, v] c k).h)).sum =
      (logLoss realMath 1 (v + c)).2.2 + (logLoss realMath (-1) (v + c)).2.2 := by
    simp [List.range_succ, rowGrad, warmPoint, realPoint]
  have e2 : ((List.range [v, v].length).map (fun k => warmPoint.w k * (rowGrad warmPoint [v, v] c k).g)).sum =
      (logLoss realMath 1 (v + c)).2.1 + (logLoss realMath (-1) (v + c)).2.1 := by
    simp [List.range_succ, rowGrad, warmPoint, realPoint]
  have hne : 2 * (Real.exp (v + c) / ((1 + Real.exp (v + c)) * (1 + Real.exp (v + c)))) ≠ 0 := by positivity
  rw [newton, e1, e2, h1, h2, if_neg hne, mul_div_assoc, div_self hne, mul_one]

theorem warm_iterates (v : ℝ) (hv : 3 < |v|) (k : Nat) : |v| ≤ |v + (fun x => x + newton warmPoint [v, v] x)^[k] 0| := by
  induction k with
  | zero => simp
  | succ k ih =>
    rw [Function.iterate_succ_apply']
    generalize (fun x => x + newton warmPoint [v, v] x)^[k] 0 = c at ih
    have := (step_grows (lt_of_lt_of_le hv ih)).1
    rw [warm_newton, ← add_assoc]
    exact ih.trans this.le

theorem warmStore : TrainStore warmEnv ["x"] warmCfg warmBase where
  rows := by
    intro name c h
    simp only [warmEnv, warmCols] at h
    split at h
    · cases h; exact TrainRows.str [["a", "a"]] rfl (by decide)
    · cases h
  threads := by decide
  sort := realSort_spec
  top := realTop_spec
  examples := by simp [warmEnv, realEnv]
  features := by simp [warmEnv, realEnv]
  group := Or.inl rfl
  scorable := by
    intro t ht
    rw [List.mem_singleton.mp ht]
    trivial
  baseFeatures := fun _ h => absurd h (by simp [warmBase, forestFeatures, treeFeatures])

theorem warmInput : LogisticInput warmEnv warmCfg warmPoint where
  loss := rfl
  binary := rfl
  one := rfl
  minusOne := rfl
  weights := rfl
  nonneg := fun _ _ => zero_le_one (α := ℝ)
  exact := rfl
  allRows := fun _ => by show (1 / 2 : ℝ) < 1; norm_num
  lambda := by show ((List.range 2).map (fun _ => (1 : ℝ))).sum ≤ 8 * (5 / 8); simp; norm_num
  shrink0 := by show (0 : ℝ) ≤ 1; norm_num
  shrink1 := le_refl _

theorem warm_error (v : ℝ) : logisticError warmEnv.w warmPoint.y 2 [v, v] = Real.log (2 + 2 * Real.cosh v) := by
  have : logisticError warmEnv.w warmPoint.y 2 [v, v] = logistic v + logistic (-v) := by
    simp [logisticError, List.range_succ, warmEnv, realEnv, warmPoint]
  rw [this, logistic, logistic, neg_neg, ← Real.log_mul (by positivity) (by positivity), Real.cosh_eq]
  congr 1
  have : Real.exp (-v) * Real.exp v = 1 := by rw [← Real.exp_add]; simp
  linear_combination this

theorem wellFormed_leaves {P : Split ℝ A → Prop} : ∀ {t : Tree ℝ A}, t.WellFormed P → 1 ≤ t.countLeaves
  | .absent, h => by cases h
  | .node x sp l r, h => by
    rcases wellFormed_node.mp h with ⟨rfl, rfl⟩ | ⟨_, h1, h2⟩
    · simp [Tree.countLeaves]
    · have := wellFormed_leaves h1
      rw [countLeaves_node (by rintro ⟨rfl, _⟩; cases h1)]
      omega

/-- A tree of one leaf scores all rows alike. -/
theorem single_leaf {columns : String → Option (Column A)} {P : Split ℝ A → Prop} {t : Tree ℝ A} (hw : t.WellFormed P) (h1 : t.countLeaves ≤ 1) :
    ∃ x, ∀ i, scoreOf columns t i = some x := by
  cases t with
  | absent => cases hw
  | node x sp l r =>
    rcases wellFormed_node.mp hw with ⟨rfl, rfl⟩ | ⟨_, h2, h3⟩
    · exact ⟨x, fun i => by simp [scoreOf, leafOf]⟩
    · have h4 := wellFormed_leaves h2
      have h5 := wellFormed_leaves h3
      rw [countLeaves_node (by rintro ⟨rfl, _⟩; cases h2)] at h1
      omega

/-- One round. -/
theorem boosts_one {S : Type} {env : TrainEnv ℝ A} {loss : LossFunc S ℝ} {features : List (String × Column A)} {cfg : TrainConfig ℝ} {s s' : S} {p q : Nat}
    {before rounds : List (Tree ℝ A × ℝ)} (h : Boosts env loss features cfg s p before rounds s' q) (h1 : rounds.length = 1) :
    ∃ f s1 c grads t p1, ValuesOf env before f ∧ loss.compute s f = ok (s1, c, grads) ∧ fitTree (env.fit features grads) cfg.fit p = ok (t, p1) ∧
      rounds = [(applyShrinkage env.rnd32 cfg.shrinkage t, c)] := by
  cases h with
  | done => cases h1
  | round g1 g2 _ g4 g5 =>
    rw [List.length_cons] at h1
    rw [List.length_eq_zero_iff.mp (Nat.succ.inj h1)]
    exact ⟨_, _, _, _, _, _, g1, g2, g4, rfl⟩

/-- **C179 refuted.** Two rows with the same features, targets 1 and -1, and a base forest that predicts -4.  Newton's method for the constant starts from 0; as each
step goes beyond the best constant, 4, and by more than before, it runs away from it, and ten steps later is given up. -/
theorem C179_refuted : ¬ C179_full := by
  intro hfull
  obtain ⟨r, hr, hok⟩ := point_run (base := some warmBase) warmStore (e := warmPoint) (by decide) (by
    have h10 : ¬ (1 : ℝ) < 0 := by norm_num
    simp [checkConfig, warmCfg, realCfg, warmEnv, realEnv, Dbl.leb, exact_ltb, exact_eqb, h10]) (by
    intro name hname
    rw [List.mem_singleton.mp hname]
    simp [warmEnv, warmCols]) (by
    intro i hi
    change i < 2 at hi
    rcases i with _ | _ | i
    · exact Or.inl rfl
    · exact Or.inr rfl
    · omega) (fun _ => rfl) 0
  have hbase : ∀ i, scoreOf warmCols (.node (-4) none .absent .absent : Tree ℝ ℚ) i = some (-4) := fun i => by simp [scoreOf, leafOf]
  have hvals : ValuesOf warmEnv (warmBase.map (fun t => (t, 0))) [-4, -4] := by
    refine ⟨rfl, fun i hi => ⟨-4, ?_, ?_⟩⟩
    · change i < 2 at hi
      rcases i with _ | _ | i
      · rfl
      · rfl
      · omega
    · exact ⟨[-4], by simp [warmBase, warmEnv, hbase], by simp [warmBase]⟩
  have hle := hfull warmEnv ["x"] warmCfg warmBase warmPoint 0 r [-4, -4] warmStore (by decide) warmInput hvals hr hok
  have hd := pointTrainData (base := warmBase) warmStore (e := warmPoint) (by decide)
  obtain ⟨features, group, start, rounds, finish, b1, b2, b3, b4, b5, b6, _⟩ := C73_rounds (base := some warmBase) hd hr hok
  obtain ⟨f, s1, c, grads, t, p1, h1, h2, h4, rfl⟩ := boosts_one b4 (by
    have : (rounds.length : Int) = 1 := b5
    omega)
  have hf : f = [-4, -4] := by
    obtain ⟨hl, hv⟩ := h1
    obtain ⟨_, hv'⟩ := hvals
    refine List.ext_getElem? (fun i => ?_)
    by_cases hi : i < warmEnv.numRows
    · obtain ⟨v, g1, g2⟩ := hv i hi
      obtain ⟨v', g1', g2'⟩ := hv' i hi
      rw [g1, g1', valueOf_valD g2, valueOf_valD g2']
      rfl
    · have hi : 2 ≤ i := not_lt.mp hi
      rw [List.getElem?_eq_none (by rw [hl]; exact hi), List.getElem?_eq_none (by exact hi)]
  subst hf
  obtain ⟨k, k1, _, k3, k4, _, _⟩ := C48_newton (e := warmPoint) (col := group) (f := [-4, -4]) b3 h2
  obtain ⟨k, rfl⟩ : ∃ k', k = k' + 1 := ⟨k - 1, by omega⟩
  rw [Function.iterate_succ_apply', warm_newton] at k3
  rw [Nat.add_sub_cancel] at k4
  have hgrow := warm_iterates (-4) (by norm_num) k
  generalize ((fun x => x + newton warmPoint [-4, -4] x)^[k] 0) = c' at k3 k4 hgrow
  have habs : |(-4 : ℝ)| = 4 := by norm_num
  rw [habs] at hgrow
  set F := -4 + c' with hF
  have hFd : FitData (warmEnv.fit features grads) warmCols := by
    refine ⟨fun name c hmem => ?_, (loadFeatures_mem b1).2⟩
    show HasRows grads.length c
    rw [k4]
    exact hd.rows _ _ ((loadFeatures_mem b1).2 _ _ hmem)
  obtain ⟨_, hleaves, hwf⟩ := C33_shape hFd h4
  obtain ⟨x, hx⟩ := single_leaf (columns := warmCols) hwf (by simpa [warmCfg, TrainConfig.fit] using hleaves)
  have hx' : ∀ i, scoreOf warmCols (applyShrinkage warmEnv.rnd32 warmCfg.shrinkage t) i = some x := by
    intro i
    have hxi := hx i
    rw [scoreOf] at hxi ⊢
    rw [C41_shrinkage warmCols _ _ t hwf i, Option.map_map]
    rw [Option.map_eq_some_iff] at hxi ⊢
    obtain ⟨a, ha, rfl⟩ := hxi
    exact ⟨a, ha, by simp [warmEnv, realEnv, warmCfg, realCfg]⟩
  have hgr : grads = [⟨(logLoss realMath 1 F).2.1, (logLoss realMath 1 F).2.2⟩, ⟨(logLoss realMath (-1) F).2.1, (logLoss realMath (-1) F).2.2⟩] := by
    rw [k4]
    simp [List.range_succ, rowGrad, warmPoint, realPoint, hF]
  have hnn : ∀ y v : ℝ, 0 ≤ 1 * (logLoss realMath y v).2.2 := fun y v => by
    simp only [logLoss, realMath]
    positivity
  have hdes := fitTree_descent_by (cfg := warmCfg.fit) hFd (fun y => rfl) (fun _ => 0) (by
    intro s hs
    change s ⊆ Finset.range grads.length at hs
    rw [Finset.sum_const_zero]
    have : 0 ≤ ∑ k ∈ s, (weighted warmEnv.w grads k).h := Finset.sum_nonneg (fun k hk => by
      have hk := Finset.mem_range.mp (hs hk)
      rw [hgr] at hk ⊢
      rcases k with _ | _ | k
      · exact hnn _ _
      · exact hnn _ _
      · exact absurd hk (by simp))
    show 0 ≤ (∑ k ∈ s, (weighted warmEnv.w grads k).h) + 5 / 8
    linarith) warmInput.allRows h4
  have hgx : 0 ≤ -(Real.sinh F) * x := by
    change ∑ k ∈ Finset.range grads.length, _ ≤ ∑ k ∈ Finset.range grads.length, (weighted warmEnv.w grads k).g * _ at hdes
    simp only [hx, Option.getD_some, zero_mul, Finset.sum_const_zero, ← Finset.sum_mul] at hdes
    have hsum : ∑ k ∈ Finset.range grads.length, (weighted warmEnv.w grads k).g = (logLoss realMath 1 F).2.1 + (logLoss realMath (-1) F).2.1 := by
      rw [hgr]
      simp [Finset.sum_range_succ, weighted, warmEnv, realEnv, GD.scale]
    rw [hsum, (grads_two F).1] at hdes
    have hpos : 0 < 2 * (Real.exp F / ((1 + Real.exp F) * (1 + Real.exp F))) := by positivity
    refine nonneg_of_mul_nonneg_left (b := 2 * (Real.exp F / ((1 + Real.exp F) * (1 + Real.exp F)))) ?_ hpos
    linarith
  have hrf : r.f = [F - Real.sinh F + x, F - Real.sinh F + x] := by
    obtain ⟨hl, hv⟩ := b6
    have hlen : r.f.length = 2 := hl
    have hval : ∀ i < 2, r.f[i]? = some (F - Real.sinh F + x) := by
      intro i hi
      obtain ⟨v, g1, g2⟩ := hv i hi
      rw [g1, valueOf_valD g2]
      change some (valD warmCols i _) = _
      have : valD warmCols i ((warmBase.map (fun t => (t, (0 : ℝ)))) ++ [(applyShrinkage warmEnv.rnd32 warmCfg.shrinkage t, c)]) = -4 + (x + c) := by
        simp [valD, warmBase, hbase, hx']
      rw [Option.getD_some, this, k3, hF]
      congr 1
      ring
    refine List.ext_getElem? (fun i => ?_)
    by_cases hi : i < 2
    · rw [hval i hi]
      rcases i with _ | _ | i
      · rfl
      · rfl
      · omega
    · rw [List.getElem?_eq_none (by omega), List.getElem?_eq_none (by simp; omega)]
  rw [hrf] at hle
  change logisticError warmEnv.w warmPoint.y 2 _ ≤ logisticError warmEnv.w warmPoint.y 2 _ at hle
  rw [warm_error, warm_error] at hle
  have hlt : |(-4 : ℝ)| < |F - Real.sinh F + x| := by
    rw [habs]
    obtain ⟨g1, _⟩ := step_grows (x := F) (by linarith)
    rcases le_total 0 F with h0 | h0
    · have hs : 0 < Real.sinh F := Real.sinh_pos_iff.mpr (by rw [abs_of_nonneg h0] at hgrow; linarith)
      have hxn : x ≤ 0 := by nlinarith
      rw [abs_of_nonneg h0] at g1 hgrow
      have := two_mul_lt_sinh (x := F) (by linarith)
      rw [abs_of_nonpos (by linarith)]
      linarith
    · have hs : Real.sinh F < 0 := Real.sinh_neg_iff.mpr (by rw [abs_of_nonpos h0] at hgrow; linarith)
      have hxn : 0 ≤ x := by nlinarith
      rw [abs_of_nonpos h0] at g1 hgrow
      have := two_mul_lt_sinh (x := -F) (by linarith)
      rw [Real.sinh_neg] at this
      rw [abs_of_nonneg (by linarith)]
      linarith
  have := Real.cosh_lt_cosh.mpr hlt
  have hcosh : 0 < Real.cosh (-4) := Real.cosh_pos _
  have := Real.log_lt_log (by positivity) (by linarith : 2 + 2 * Real.cosh (-4) < 2 + 2 * Real.cosh (F - Real.sinh F + x))
  linarith


/-! ## Without a base forest the first constant does no harm -/

theorem log_bound {r : ℝ} (hr : 1 ≤ r) : 2 * (r - 1) / (r + 1) ≤ Real.log r := by
  have hd : ∀ z : ℝ, 0 < z → HasDerivAt (fun z => Real.log z - 2 * (z - 1) / (z + 1)) (z⁻¹ - (2 * (z + 1) - 2 * (z - 1)) / (z + 1) ^ 2) z := by
    intro z hz
    have h1 : HasDerivAt (fun z : ℝ => 2 * (z - 1)) 2 z := by simpa using ((hasDerivAt_id z).sub_const 1).const_mul 2
    have h2 : HasDerivAt (fun z : ℝ => z + 1) 1 z := by simpa using (hasDerivAt_id z).add_const 1
    refine ((Real.hasDerivAt_log hz.ne').sub (h1.div h2 (by positivity))).congr_deriv ?_
    ring
  have hm : MonotoneOn (fun z : ℝ => Real.log z - 2 * (z - 1) / (z + 1)) (Set.Ici 1) := by
    refine monotoneOn_of_deriv_nonneg (convex_Ici 1) (fun z hz => (hd z (lt_of_lt_of_le one_pos hz)).continuousAt.continuousWithinAt)
      (fun z hz => (hd z (lt_of_lt_of_le one_pos (Set.mem_Ici.mp (interior_subset hz)))).differentiableAt.differentiableWithinAt) (fun z hz => ?_)
    have hz1 : 1 ≤ z := Set.mem_Ici.mp (interior_subset hz)
    have hz0 : 0 < z := by linarith
    rw [(hd z hz0).deriv]
    have : z⁻¹ - (2 * (z + 1) - 2 * (z - 1)) / (z + 1) ^ 2 = (z - 1) ^ 2 / (z * (z + 1) ^ 2) := by
      field_simp
      ring
    rw [this]
    positivity
  have := hm (Set.mem_Ici.mpr le_rfl) (Set.mem_Ici.mpr hr) hr
  simp only [Real.log_one, sub_self, mul_zero, zero_div] at this
  linarith

/-- Newton's step for weights `p` of targets 1 and `q` of targets -1. -/
noncomputable def stepOf (p q c : ℝ) : ℝ := (p - q * Real.exp c) * (1 + Real.exp c) / ((p + q) * Real.exp c)

theorem stepOf_neg (p q c : ℝ) : stepOf p q (-c) = -(stepOf q p c) := by
  unfold stepOf
  rw [Real.exp_neg]
  have hE : 0 < Real.exp c := Real.exp_pos c
  generalize Real.exp c = E at hE
  by_cases h : p + q = 0
  · rw [h, add_comm q p, h]; simp
  · have h' : q + p ≠ 0 := by rw [add_comm]; exact h
    field_simp
    ring

/-- The method stays on this side of the best constant. -/
theorem stepOf_stays {p q c : ℝ} (hp : 0 ≤ p) (hq : 0 ≤ q) (hpq : 0 < p + q) (hc : 0 ≤ c) (h : q * Real.exp c ≤ p) :
    0 ≤ c + stepOf p q c ∧ q * Real.exp (c + stepOf p q c) ≤ p := by
  have hE1 : 1 ≤ Real.exp c := Real.one_le_exp hc
  have h0 : 0 ≤ stepOf p q c := by
    unfold stepOf
    exact div_nonneg (mul_nonneg (by linarith) (by linarith)) (by positivity)
  refine ⟨by linarith, ?_⟩
  rcases hq.eq_or_lt with rfl | hq
  · simpa using hp
  · rw [Real.exp_add, ← mul_assoc]
    have hqE : 0 < q * Real.exp c := by positivity
    have hp' : 0 < p := lt_of_lt_of_le hqE h
    have hr : 1 ≤ p / (q * Real.exp c) := by rw [le_div_iff₀ hqE]; linarith
    have hstep : stepOf p q c ≤ 2 * (p / (q * Real.exp c) - 1) / (p / (q * Real.exp c) + 1) := by
      unfold stepOf
      generalize Real.exp c = E at *
      have e1 : 2 * (p / (q * E) - 1) / (p / (q * E) + 1) = 2 * (p - q * E) / (p + q * E) := by
        field_simp
      rw [e1, div_le_div_iff₀ (by positivity) (by positivity)]
      have : (1 + E) * (p + q * E) ≤ 2 * ((p + q) * E) := by nlinarith
      nlinarith [mul_le_mul_of_nonneg_left this (sub_nonneg.mpr h)]
    have hexp : Real.exp (stepOf p q c) ≤ p / (q * Real.exp c) := by
      rw [← Real.le_log_iff_exp_le (by positivity)]
      exact hstep.trans (log_bound hr)
    calc q * Real.exp c * Real.exp (stepOf p q c) ≤ q * Real.exp c * (p / (q * Real.exp c)) := mul_le_mul_of_nonneg_left hexp hqE.le
      _ = p := by field_simp

/-- The loss is convex: seen from `c` it is above its tangent at 0. -/
theorem logistic_tangent (c : ℝ) : logistic c + c / (1 + Real.exp c) ≤ Real.log 2 := by
  unfold logistic
  have hE : 0 < Real.exp c := Real.exp_pos c
  have e1 : Real.log (1 + Real.exp (-c)) = Real.log (1 + Real.exp c) - c := by
    have : 1 + Real.exp c = (1 + Real.exp (-c)) * Real.exp c := by
      rw [add_mul, one_mul, ← Real.exp_add]
      simp [add_comm]
    rw [this, Real.log_mul (by positivity) (by positivity), Real.log_exp]
    ring
  rw [e1]
  -- the logarithms of `2 / (1 + E)` and `2 E / (1 + E)`, weighted
  have a1 := Real.one_sub_inv_le_log_of_pos (x := 2 / (1 + Real.exp c)) (by positivity)
  have a2 := Real.one_sub_inv_le_log_of_pos (x := 2 * Real.exp c / (1 + Real.exp c)) (by positivity)
  rw [Real.log_div (by positivity) (by positivity)] at a1
  rw [Real.log_div (by positivity) (by positivity), Real.log_mul (by positivity) (by positivity), Real.log_exp] at a2
  generalize Real.log (1 + Real.exp c) = L at *
  generalize Real.exp c = E at *
  have b1 := mul_le_mul_of_nonneg_left a1 (show 0 ≤ 1 / (1 + E) by positivity)
  have b2 := mul_le_mul_of_nonneg_left a2 (show 0 ≤ E / (1 + E) by positivity)
  have c1 : 1 / (1 + E) * (1 - (2 / (1 + E))⁻¹) + E / (1 + E) * (1 - (2 * E / (1 + E))⁻¹) = 0 := by
    field_simp
    ring
  have c2 : 1 / (1 + E) * (Real.log 2 - L) + E / (1 + E) * (Real.log 2 + c - L) = Real.log 2 - L + c - c / (1 + E) := by
    field_simp
    ring
  linarith

theorem logistic_neg (c : ℝ) : logistic (-c) = c + logistic c := by
  unfold logistic
  rw [neg_neg]
  have : 1 + Real.exp c = (1 + Real.exp (-c)) * Real.exp c := by
    rw [add_mul, one_mul, ← Real.exp_add]
    simp [add_comm]
  rw [this, Real.log_mul (by positivity) (by positivity), Real.log_exp]
  ring

theorem split_loss {p q c : ℝ} (hq : 0 ≤ q) (hp : 0 ≤ p) (hc : 0 ≤ c) (h : q * Real.exp c ≤ p) : p * logistic c + q * logistic (-c) ≤ (p + q) * Real.log 2 := by
  have h1 := mul_le_mul_of_nonneg_left (logistic_tangent c) (add_nonneg hp hq)
  rw [logistic_neg]
  have h2 : q * c ≤ (p + q) * (c / (1 + Real.exp c)) := by
    have hE : 0 < Real.exp c := Real.exp_pos c
    rw [← mul_div_assoc, le_div_iff₀ (by positivity)]
    nlinarith
  nlinarith

/-- Where the method can be. -/
def OnTheWay (p q c : ℝ) : Prop := 0 ≤ c ∧ q * Real.exp c ≤ p ∨ c ≤ 0 ∧ p * Real.exp (-c) ≤ q

theorem onTheWay_step {p q c : ℝ} (hp : 0 ≤ p) (hq : 0 ≤ q) (hpq : 0 < p + q) (h : OnTheWay p q c) : OnTheWay p q (c + stepOf p q c) := by
  rcases h with ⟨h1, h2⟩ | ⟨h1, h2⟩
  · exact Or.inl (stepOf_stays hp hq hpq h1 h2)
  · obtain ⟨g1, g2⟩ := stepOf_stays hq hp (by linarith) (by linarith : 0 ≤ -c) h2
    have e : c + stepOf p q c = -(-c + stepOf q p (-c)) := by
      rw [stepOf_neg q p c]
      ring
    rw [e]
    exact Or.inr ⟨by linarith, by rw [neg_neg]; exact g2⟩

theorem onTheWay_loss {p q c : ℝ} (hp : 0 ≤ p) (hq : 0 ≤ q) (h : OnTheWay p q c) : p * logistic c + q * logistic (-c) ≤ (p + q) * Real.log 2 := by
  rcases h with ⟨h1, h2⟩ | ⟨h1, h2⟩
  · exact split_loss hq hp h1 h2
  · have := split_loss hp hq (by linarith : 0 ≤ -c) h2
    rw [neg_neg] at this
    linarith

/-- The weights of the rows with target 1. -/
noncomputable def positives (w y : Nat → ℝ) (n : Nat) : ℝ := ∑ k ∈ (Finset.range n).filter (fun k => y k = 1), w k

/-- The weights of the other rows. -/
noncomputable def negatives (w y : Nat → ℝ) (n : Nat) : ℝ := ∑ k ∈ (Finset.range n).filter (fun k => ¬ y k = 1), w k

theorem sum_by_target {w y : Nat → ℝ} {n : Nat} (hy : ∀ i < n, y i = 1 ∨ y i = -1) (F : ℝ → ℝ) :
    ((List.range n).map (fun k => w k * F (y k))).sum = positives w y n * F 1 + negatives w y n * F (-1) := by
  rw [list_sum_range, ← Finset.sum_filter_add_sum_filter_not (Finset.range n) (fun k => y k = 1), positives, negatives, Finset.sum_mul, Finset.sum_mul]
  congr 1
  · refine Finset.sum_congr rfl (fun k hk => ?_)
    rw [(Finset.mem_filter.mp hk).2]
  · refine Finset.sum_congr rfl (fun k hk => ?_)
    obtain ⟨h1, h2⟩ := Finset.mem_filter.mp hk
    rw [(hy k (Finset.mem_range.mp h1)).resolve_left h2]

theorem newton_first {e : PointLoss ℝ} (hloss : e.lossFn = logLoss realMath) {n : Nat} (hy : ∀ i < n, e.y i = 1 ∨ e.y i = -1)
    (hw : 0 < positives e.w e.y n + negatives e.w e.y n) (c : ℝ) :
    newton e (List.replicate n 0) c = stepOf (positives e.w e.y n) (negatives e.w e.y n) c := by
  have hrow : ∀ k ∈ List.range n, rowGrad e (List.replicate n 0) c k = ⟨(logLoss realMath (e.y k) c).2.1, (logLoss realMath (e.y k) c).2.2⟩ := by
    intro k hk
    simp [rowGrad, List.mem_range.mp hk, hloss]
  have h1 : ((List.range n).map (fun k => e.w k * (rowGrad e (List.replicate n 0) c k).g)).sum =
      ((List.range n).map (fun k => e.w k * (logLoss realMath (e.y k) c).2.1)).sum :=
    congrArg List.sum (List.map_congr_left (fun k hk => by rw [hrow k hk]))
  have h2 : ((List.range n).map (fun k => e.w k * (rowGrad e (List.replicate n 0) c k).h)).sum =
      ((List.range n).map (fun k => e.w k * (logLoss realMath (e.y k) c).2.2)).sum :=
    congrArg List.sum (List.map_congr_left (fun k hk => by rw [hrow k hk]))
  rw [newton, List.length_replicate, h1, h2, sum_by_target hy (fun y => (logLoss realMath y c).2.1), sum_by_target hy (fun y => (logLoss realMath y c).2.2)]
  generalize positives e.w e.y n = p at *
  generalize negatives e.w e.y n = q at *
  simp only [logLoss, realMath, neg_mul, one_mul, neg_neg, Real.exp_neg, stepOf]
  have hE : 0 < Real.exp c := Real.exp_pos c
  generalize Real.exp c = E at hE
  have hden : p * (E⁻¹ / ((1 + E⁻¹) * (1 + E⁻¹))) + q * (E / ((1 + E) * (1 + E))) = (p + q) * (E / ((1 + E) * (1 + E))) := by
    field_simp
    ring
  have hnum : p * (E⁻¹ / (1 + E⁻¹)) + q * (-E / (1 + E)) = (p - q * E) / (1 + E) := by
    field_simp
    ring
  rw [hden, if_neg (by positivity)]
  rw [hnum]
  field_simp

theorem logisticError_const {w y : Nat → ℝ} {n : Nat} (hy : ∀ i < n, y i = 1 ∨ y i = -1) (c : ℝ) :
    logisticError w y n (List.replicate n c) = positives w y n * logistic c + negatives w y n * logistic (-c) := by
  have := sum_by_target (w := w) hy (fun z => logistic (z * c))
  simp only [one_mul, neg_mul] at this
  rw [← this, logisticError]
  refine congrArg List.sum (List.map_congr_left (fun k hk => ?_))
  simp [List.mem_range.mp hk]

/-- The constant before the last step, and the one after it, have no larger loss than 0. -/
theorem first_constant {e : PointLoss ℝ} (hloss : e.lossFn = logLoss realMath) {n : Nat} (hy : ∀ i < n, e.y i = 1 ∨ e.y i = -1) (hw : ∀ i < n, 0 ≤ e.w i) {c : ℝ}
    (h : BeforeLast e (List.replicate n 0) c) :
    logisticError e.w e.y n (List.replicate n c) ≤ logisticError e.w e.y n (List.replicate n 0) ∧
      logisticError e.w e.y n (List.replicate n (c + newton e (List.replicate n 0) c)) ≤ logisticError e.w e.y n (List.replicate n 0) := by
  have hp : 0 ≤ positives e.w e.y n := Finset.sum_nonneg (fun k hk => hw k (Finset.mem_range.mp (Finset.mem_filter.mp hk).1))
  have hq : 0 ≤ negatives e.w e.y n := Finset.sum_nonneg (fun k hk => hw k (Finset.mem_range.mp (Finset.mem_filter.mp hk).1))
  have h0 : logisticError e.w e.y n (List.replicate n 0) = (positives e.w e.y n + negatives e.w e.y n) * Real.log 2 := by
    rw [logisticError_const hy]
    have : logistic 0 = Real.log 2 := by norm_num [logistic]
    rw [neg_zero, this]
    ring
  rw [h0, logisticError_const hy, logisticError_const hy]
  rcases (add_nonneg hp hq).eq_or_lt with hz | hpos
  · have hp0 : positives e.w e.y n = 0 := by linarith
    have hq0 : negatives e.w e.y n = 0 := by linarith
    simp [hp0, hq0]
  · obtain ⟨k, _, rfl, _⟩ := h
    have hway : ∀ k, OnTheWay (positives e.w e.y n) (negatives e.w e.y n) ((fun x => x + newton e (List.replicate n 0) x)^[k] 0) := by
      intro k
      induction k with
      | zero =>
        rcases le_total (negatives e.w e.y n) (positives e.w e.y n) with g | g
        · exact Or.inl ⟨le_rfl, by simpa using g⟩
        · exact Or.inr ⟨le_rfl, by simpa using g⟩
      | succ k ih =>
        rw [Function.iterate_succ_apply', newton_first hloss hy hpos]
        exact onTheWay_step hp hq hpos ih
    refine ⟨onTheWay_loss hp hq (hway k), ?_⟩
    have := onTheWay_loss hp hq (hway (k + 1))
    rw [Function.iterate_succ_apply'] at this
    exact this

/-- **C179 (partial).** One tree and no base forest: the loss of the predictions is at most that of predicting 0, but for the last step of Newton's method for the
constant, which the tree does not take into account; and the constant by itself is no worse than 0.  (Missing: more rounds and base forests, for which Newton's
method may run away, see `C179_refuted`.) -/
theorem C179_first_partial {env : TrainEnv ℝ A} {names : List String} {cfg : TrainConfig ℝ} (hs : TrainStore env names cfg []) {e : PointLoss ℝ}
    (he : 0 < e.numThreads) (hm : LogisticInput env cfg e) (hone : cfg.numTrees = 1) {p : Nat} {r : TrainResult ℝ A}
    (h : trainGBDT env e.toLoss names cfg none [] p = ok r) (hok : r.code = .ok) :
    ∃ c', BeforeLast e (List.replicate env.numRows 0) c' ∧
      logisticError env.w e.y env.numRows (List.replicate env.numRows (c' + newton e (List.replicate env.numRows 0) c')) ≤
        logisticError env.w e.y env.numRows (List.replicate env.numRows 0) ∧
      logisticError env.w e.y env.numRows r.f ≤ logisticError env.w e.y env.numRows (List.replicate env.numRows 0) +
        ((List.range env.numRows).map env.w).sum * |newton e (List.replicate env.numRows 0) c'| := by
  have hd := pointTrainData (base := []) hs he
  obtain ⟨features, group, start, rounds, finish, b1, b2, b3, b4, b5, b6, _⟩ := C73_rounds (base := none) hd h hok
  obtain ⟨f, s1, c, grads, t, p1, h1, h2, h4, rfl⟩ := boosts_one b4 (by omega)
  have hf : f = List.replicate env.numRows 0 := by
    obtain ⟨hl, hv⟩ := h1
    refine List.ext_getElem? (fun i => ?_)
    by_cases hi : i < env.numRows
    · obtain ⟨v, g1, g2⟩ := hv i hi
      rw [g1, valueOf_valD g2, List.getElem?_replicate, if_pos hi]
      simp [valD]
    · rw [List.getElem?_eq_none (by omega), List.getElem?_eq_none (by rw [List.length_replicate]; omega)]
  subst hf
  have hbin : ∀ i < env.numRows, e.y i = 1 ∨ e.y i = -1 := by
    intro i hi
    by_contra hc
    obtain ⟨h1, h2⟩ := not_or.mp hc
    have := (C76_binary_targets e env.numRows none).mpr ⟨hm.binary, i, hi, by
      rw [exact_eqb, hm.one]; exact decide_eq_false h1, by rw [exact_eqb, hm.minusOne]; exact decide_eq_false h2⟩
    change pointInit e env.numRows none = _ at b3
    rw [b3] at this
    cases this
  obtain ⟨c', g0, g1, g2⟩ := round_logistic hm hd.rows b1 b3 h1 h2 h4
  have hwe : ∀ i < env.numRows, 0 ≤ e.w i := fun i hi => hm.weights ▸ hm.nonneg i hi
  obtain ⟨k1, k2⟩ := first_constant hm.loss hbin hwe g0
  rw [← hm.weights] at k1 k2
  refine ⟨c', g0, k2, ?_⟩
  have hsum : logisticError env.w e.y env.numRows (List.replicate env.numRows c') = logisticD env e.y [] (fun _ => c') := by
    rw [logisticError, logisticD, list_sum_range]
    refine Finset.sum_congr rfl (fun k hk => ?_)
    have hk := Finset.mem_range.mp hk
    simp [valD, hk]
  rw [hsum] at k1
  have hlast : logisticError env.w e.y env.numRows r.f ≤
      logisticD env e.y [] (fun i => c' + (scoreOf env.columns (applyShrinkage env.rnd32 cfg.shrinkage t) i).getD 0) +
        ((List.range env.numRows).map env.w).sum * |newton e (List.replicate env.numRows 0) c'| := by
    rw [logisticError, logisticD, list_sum_range, list_sum_range, Finset.sum_mul, ← Finset.sum_add_distrib]
    refine Finset.sum_le_sum (fun k hk => ?_)
    have hk := Finset.mem_range.mp hk
    rw [← mul_add]
    refine mul_le_mul_of_nonneg_left ?_ (hm.nonneg k hk)
    obtain ⟨v, a1, a2⟩ := b6.2 k hk
    rw [List.getD_eq_getElem?_getD, a1, Option.getD_some, valueOf_valD a2]
    have hv : valD env.columns k (((none : Option (List (Tree ℝ A))).getD []).map (fun t => (t, (0 : ℝ))) ++ [(applyShrinkage env.rnd32 cfg.shrinkage t, c)]) =
        (scoreOf env.columns (applyShrinkage env.rnd32 cfg.shrinkage t) k).getD 0 + c := by simp [valD]
    have hv0 : valD env.columns k ([] : List (Tree ℝ A × ℝ)) = 0 := by simp [valD]
    rw [hv, hv0, zero_add, g1]
    have hl := logistic_lipschitz (e.y k * (c' + (scoreOf env.columns (applyShrinkage env.rnd32 cfg.shrinkage t) k).getD 0)) (e.y k * newton e (List.replicate env.numRows 0) c')
    have habs : |e.y k * newton e (List.replicate env.numRows 0) c'| = |newton e (List.replicate env.numRows 0) c'| := by
      rcases hbin k hk with hy | hy <;> rw [hy] <;> simp
    rw [habs] at hl
    refine le_trans (le_of_eq ?_) hl
    congr 1
    ring
  change logisticD env e.y [] _ ≤ logisticD env e.y [] _ at g2
  linarith

/-! ## Examples -/

/-- `C179_first_partial`: there is a run that meets its hypotheses, and it ends well. -/
example : TrainStore warmEnv ["x"] warmCfg [] ∧ LogisticInput warmEnv warmCfg warmPoint ∧ warmCfg.numTrees = 1 ∧
    ∃ r, trainGBDT warmEnv warmPoint.toLoss ["x"] warmCfg none [] 0 = ok r ∧ r.code = .ok := by
  have hs : TrainStore warmEnv ["x"] warmCfg [] := { warmStore with scorable := fun _ h => absurd h (by simp), baseFeatures := fun _ h => absurd h (by simp [forestFeatures]) }
  refine ⟨hs, warmInput, rfl, point_run (base := none) hs (e := warmPoint) (by decide) ?_ ?_ ?_ (fun _ => rfl) 0⟩
  · have h10 : ¬ (1 : ℝ) < 0 := by norm_num
    simp [checkConfig, warmCfg, realCfg, warmEnv, realEnv, Dbl.leb, exact_ltb, exact_eqb, h10]
  · intro name hname
    rw [List.mem_singleton.mp hname]
    simp [warmEnv, warmCols]
  · intro i hi
    change i < 2 at hi
    rcases i with _ | _ | i
    · exact Or.inl rfl
    · exact Or.inr rfl
    · omega

end Gbdt
