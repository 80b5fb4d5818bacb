import Verif.Props.TrainError
import Verif.Props.OtherStore

/-!
# C173, C174: predictions and the range of the targets

Specification: `forestValue`, what a forest says of a row given by its values (see C96), on whatever data.
-/

set_option autoImplicit false
set_option linter.unusedSectionVars false

namespace Gbdt
open Outcome

section value
variable {D A : Type} [Dbl D] [LinearOrder A] [ThrOps A]

/-- A tree as it is returned gives every row 0 or the score of a node of the fitted tree times the shrinkage. -/
theorem treeValue_node (rnd : D → D) (rate : D) (row : String → Option (Cell A)) : ∀ (t : Tree D A) {v : D},
    treeValue row (clearInternal (applyShrinkage rnd rate t)) = some v →
    v = 0 ∨ ∃ path x sp l r, t.at? path = some (.node x sp l r) ∧ v = rnd (x * rate) := by
  intro t
  induction t with
  | absent =>
    intro v h
    left
    simpa [applyShrinkage, clearInternal, treeValue] using h.symm
  | node score split left right ihl ihr =>
    intro v h
    cases left with
    | absent =>
      simp only [applyShrinkage, clearInternal, treeValue, Option.some.injEq] at h
      exact Or.inr ⟨[], score, split, .absent, right, rfl, h.symm⟩
    | node sc sp l r =>
      have hl : ∀ {v}, treeValue row (clearInternal (applyShrinkage rnd rate (.node sc sp l r))) = some v → v = 0 ∨
          ∃ path x sp' l' r', (Tree.node score split (.node sc sp l r) right).at? path = some (.node x sp' l' r') ∧ v = rnd (x * rate) := by
        intro v h
        rcases ihl h with h | ⟨path, x, sp', l', r', h1, h2⟩
        · exact Or.inl h
        · exact Or.inr ⟨false :: path, x, sp', l', r', h1, h2⟩
      have hr : ∀ {v}, treeValue row (clearInternal (applyShrinkage rnd rate right)) = some v → v = 0 ∨
          ∃ path x sp' l' r', (Tree.node score split (.node sc sp l r) right).at? path = some (.node x sp' l' r') ∧ v = rnd (x * rate) := by
        intro v h
        rcases ihr h with h | ⟨path, x, sp', l', r', h1, h2⟩
        · exact Or.inl h
        · exact Or.inr ⟨true :: path, x, sp', l', r', h1, h2⟩
      simp only [applyShrinkage, clearInternal, Tree.isSet, if_true] at h hl
      cases split with
      | none => simp [treeValue] at h
      | some s =>
        simp only [Option.map_some, treeValue] at h
        split at h
        · cases h
        · exact hl h
        · exact hr h

end value

section exact
variable {K : Type} [Field K] [LinearOrder K] [IsStrictOrderedRing K] {A : Type} [LinearOrder A] [ThrOps A]

theorem sum_between {l : List Nat} {w x : Nat → K} {lo hi : K} (hw : ∀ k ∈ l, 0 ≤ w k) (hx : ∀ k ∈ l, lo ≤ x k ∧ x k ≤ hi) :
    lo * (l.map w).sum ≤ (l.map (fun k => w k * x k)).sum ∧ (l.map (fun k => w k * x k)).sum ≤ hi * (l.map w).sum ∧ 0 ≤ (l.map w).sum := by
  induction l with
  | nil => simp
  | cons a l ih =>
    obtain ⟨i1, i2, i3⟩ := ih (fun k hk => hw k (by simp [hk])) (fun k hk => hx k (by simp [hk]))
    have h0 := hw a (by simp)
    obtain ⟨h1, h2⟩ := hx a (by simp)
    have := mul_le_mul_of_nonneg_left h1 h0
    have := mul_le_mul_of_nonneg_left h2 h0
    simp only [List.map_cons, List.sum_cons]
    refine ⟨by nlinarith, by nlinarith, add_nonneg h0 i3⟩

/-- What training with squared error asks here: the loss with the weights that trees are fitted with, none of them negative; no rounding; regularisation not
negative; shrinkage between 0 and 1.  (`MseInput` without the condition that all rows are used.) -/
structure MseSampled (env : TrainEnv K A) (cfg : TrainConfig K) (e : PointLoss K) : Prop where
  loss : ∃ m : MathFns K, m.one = 1 ∧ e.lossFn = mseLoss m
  weights : env.w = e.w
  nonneg : ∀ i < env.numRows, 0 ≤ env.w i
  exact : env.rnd32 = id
  lambda : 0 ≤ cfg.l2Lambda
  shrink0 : 0 ≤ cfg.shrinkage
  shrink1 : cfg.shrinkage ≤ 1

/-- The weighted mean of the targets. -/
def meanTarget (env : TrainEnv K A) (y : Nat → K) : K :=
  ((List.range env.numRows).map (fun k => env.w k * y k)).sum / totalWeight env

/-- The scores of a tree fitted to residuals that are between `a` and `b`, where 0 is. -/
theorem fit_between {env : TrainEnv K A} {cfg : TrainConfig K} {features : List (String × Column A)} {y : Nat → K} {c' a b : K} {p q : Nat} {t : Tree K A}
    (hrows : ∀ name c, env.columns name = some c → HasRows env.numRows c) {names : List String} (hl : loadFeatures env.columns names = .ok features)
    (hexact : env.rnd32 = id) (hlam : 0 ≤ cfg.l2Lambda) (hw : ∀ i < env.numRows, 0 ≤ env.w i)
    (ht : fitTree (env.fit features ((List.range env.numRows).map (fun k => ⟨y k - c', 1⟩))) cfg.fit p = ok (t, q))
    (hy : ∀ k < env.numRows, a ≤ y k - c' ∧ y k - c' ≤ b) {path : List Bool} {x : K} {sp : Option (Split K A)} {l r : Tree K A}
    (hnode : t.at? path = some (.node x sp l r)) (ha : a ≤ 0) (hb : 0 ≤ b) : a ≤ x ∧ x ≤ b := by
  set grads : List (GD K) := (List.range env.numRows).map (fun k => ⟨y k - c', 1⟩) with hgr
  have hglen : grads.length = env.numRows := by rw [hgr]; simp
  have hfd : FitData (env.fit features grads) env.columns := by
    refine ⟨fun name c hmem => ?_, (loadFeatures_mem hl).2⟩
    show HasRows grads.length c
    rw [hglen]
    exact hrows _ _ ((loadFeatures_mem hl).2 _ _ hmem)
  obtain ⟨_, _, samples, p1, _, _, _, h3, _⟩ := fitTree_ok hfd ht
  obtain ⟨e1, e2, _⟩ := C35_newton_step hfd (fun y => by show env.rnd32 y = y; rw [hexact]; rfl) ht h3 hnode
  have hin : ∀ i ∈ samples.filter (passes env.columns t path), i < env.numRows := by
    intro i hi
    have := subsample_lt h3 i (List.mem_filter.mp hi).1
    change i < grads.length at this
    rwa [hglen] at this
  have hwt : ∀ k ∈ samples.filter (passes env.columns t path), weighted env.w grads k = ⟨env.w k * (y k - c'), env.w k⟩ := by
    intro k hk
    rw [weighted, hgr]
    simp only [List.getElem?_map, List.getElem?_range (hin k hk), Option.map_some, GD.scale, mul_one]
  have hG : (samples.filter (passes env.columns t path)).map (fun i => (weighted env.w grads i).g) =
      (samples.filter (passes env.columns t path)).map (fun k => env.w k * (y k - c')) := List.map_congr_left (fun k hk => by rw [hwt k hk])
  have hH : (samples.filter (passes env.columns t path)).map (fun i => (weighted env.w grads i).h) =
      (samples.filter (passes env.columns t path)).map env.w := List.map_congr_left (fun k hk => by rw [hwt k hk])
  obtain ⟨k1, k2, k3⟩ := sum_between (l := samples.filter (passes env.columns t path)) (w := env.w) (x := fun k => y k - c')
    (fun k hk => hw k (hin k hk)) (fun k hk => hy k (hin k hk))
  change (((samples.filter (passes env.columns t path)).map (fun i => (weighted env.w grads i).h)).sum + cfg.l2Lambda ≠ 0 →
    x = ((samples.filter (passes env.columns t path)).map (fun i => (weighted env.w grads i).g)).sum /
    (((samples.filter (passes env.columns t path)).map (fun i => (weighted env.w grads i).h)).sum + cfg.l2Lambda)) at e1
  change (((samples.filter (passes env.columns t path)).map (fun i => (weighted env.w grads i).h)).sum + cfg.l2Lambda = 0 → _) at e2
  rw [hG, hH] at e1
  rw [hH] at e2
  generalize ((samples.filter (passes env.columns t path)).map env.w).sum = H at *
  generalize ((samples.filter (passes env.columns t path)).map (fun k => env.w k * (y k - c'))).sum = G at *
  by_cases hz : H + cfg.l2Lambda = 0
  · rw [e2 hz]; exact ⟨ha, hb⟩
  · have hpos : 0 < H + cfg.l2Lambda := lt_of_le_of_ne (add_nonneg k3 hlam) (Ne.symm hz)
    rw [e1 hz]
    have := mul_nonneg hb hlam
    have := mul_nonneg (neg_nonneg.mpr ha) hlam
    exact ⟨by rw [le_div_iff₀ hpos]; nlinarith, by rw [div_le_iff₀ hpos]; nlinarith⟩

/-- **C173.** Training a single tree with squared error (in exact arithmetic, shrinkage between 0 and 1, weights that are not negative nor all zero, no base
forest), rows and features sampled or not: whatever data the forest is used on, every prediction lies between the least and the largest target; but if the
mean of the targets is within the threshold of the constant step (1e-4 in the code) then it may be outside by as much as that threshold. -/
theorem C173_one_tree {env : TrainEnv K A} {names : List String} {cfg : TrainConfig K} (hs : TrainStore env names cfg []) {e : PointLoss K}
    (he : 0 < e.numThreads) (hm : MseSampled env cfg e) (hW : totalWeight env ≠ 0) (habs : ∀ x, e.fabs x = |x|) (hone : cfg.numTrees = 1) {p : Nat}
    {r : TrainResult K A} (h : trainGBDT env e.toLoss names cfg none [] p = ok r) (hok : r.code = .ok) {lo hi : K}
    (hy : ∀ i < env.numRows, lo ≤ e.y i ∧ e.y i ≤ hi) {row : String → Option (Cell A)} {v : K} (hv : forestValue row r.forest = some v) :
    (e.threshold < |meanTarget env e.y| → lo ≤ v ∧ v ≤ hi) ∧
    (|meanTarget env e.y| ≤ e.threshold → lo - e.threshold ≤ v ∧ v ≤ hi + e.threshold) := by
  have hd := pointTrainData (base := []) hs he
  obtain ⟨features, group, start, rounds, finish, b1, b2, b3, b4, b5, b6, b7⟩ := C73_rounds (base := none) hd h hok
  obtain ⟨m, hm1, hloss⟩ := hm.loss
  rw [hone] at b5
  cases b4 with
  | done => simp at b5
  | @round _ s1 _ _ p1 _ _ after f c grads t h1 h2 h3 h4 h5 =>
    have hafter : after = [] := by
      rw [List.length_cons] at b5
      exact List.length_eq_zero_iff.mp (by omega)
    subst hafter
    obtain ⟨hflen, hval⟩ := h1
    have hf0 : ∀ i < env.numRows, f.getD i 0 = 0 := by
      intro i hi
      obtain ⟨v, g1, g2⟩ := hval i hi
      rw [List.getD_eq_getElem?_getD, g1, Option.getD_some, valueOf_valD g2]
      simp [valD]
    have hinit : pointInit e f.length group = ok (.ok start) := by rw [hflen]; exact b3
    have hw' : ((List.range f.length).map e.w).sum ≠ 0 := by
      rw [hflen, ← hm.weights]; exact hW
    obtain ⟨hc, c', hc', hgr⟩ := C48_mse hm1 hloss hw' hinit h2
    rw [hflen] at hc hgr
    have hmean : c = meanTarget env e.y := by
      rw [hc, meanTarget, totalWeight, hm.weights]
      congr 2
      exact List.map_congr_left (fun k hk => by rw [hf0 k (by simpa using hk), sub_zero])
    have hgr' : grads = (List.range env.numRows).map (fun k => ⟨e.y k - c', 1⟩) := by
      rw [hgr]
      exact List.map_congr_left (fun k hk => by rw [hf0 k (by simpa using hk), sub_zero])
    rw [hgr'] at h4
    obtain ⟨w1, w2, w3⟩ := sum_between (l := List.range env.numRows) (w := env.w) (x := e.y) (fun k hk => hm.nonneg k (by simpa using hk))
      (fun k hk => hy k (by simpa using hk))
    change 0 ≤ totalWeight env at w3
    have hpos : 0 < totalWeight env := lt_of_le_of_ne w3 (Ne.symm hW)
    have hclo : lo ≤ c := by rw [hmean, meanTarget, le_div_iff₀ hpos]; exact w1
    have hchi : c ≤ hi := by rw [hmean, meanTarget, div_le_iff₀ hpos]; exact w2
    -- what the forest says
    have hforest : r.forest = [.node c none .absent .absent, clearInternal (applyShrinkage env.rnd32 cfg.shrinkage t)] := by
      rw [b7]
      simp [constantOf, hm.exact]
    have hval2 : ∃ x, treeValue row (clearInternal (applyShrinkage env.rnd32 cfg.shrinkage t)) = some x ∧ v = c + x := by
      rw [hforest, forestValue] at hv
      cases ht2 : treeValue row (clearInternal (applyShrinkage env.rnd32 cfg.shrinkage t)) with
      | none => simp [List.mapM_cons, ht2, treeValue] at hv
      | some x =>
        simp [List.mapM_cons, ht2, treeValue, sumScores] at hv
        exact ⟨x, rfl, hv.symm⟩
    obtain ⟨x, hx, rfl⟩ := hval2
    have hxb : ∀ a b, a ≤ 0 → 0 ≤ b → (∀ k < env.numRows, a ≤ e.y k - c' ∧ e.y k - c' ≤ b) → a ≤ x ∧ x ≤ b := by
      intro a b ha hb hab
      rcases treeValue_node _ _ _ _ hx with rfl | ⟨path, z, sp, l, rr, g1, g2⟩
      · exact ⟨ha, hb⟩
      · obtain ⟨k1, k2⟩ := fit_between hd.rows b1 hm.exact hm.lambda hm.nonneg h4 hab g1 ha hb
        rw [hm.exact] at g2
        simp only [id_eq] at g2
        rw [g2]
        have s0 := hm.shrink0
        have s1 := hm.shrink1
        have := mul_nonneg (sub_nonneg.mpr k2) s0
        have := mul_nonneg (sub_nonneg.mpr k1) s0
        have := mul_nonneg hb (sub_nonneg.mpr s1)
        have := mul_nonneg (neg_nonneg.mpr ha) (sub_nonneg.mpr s1)
        constructor <;> nlinarith
    have hsame : c' = c → lo ≤ c + x ∧ c + x ≤ hi := by
      rintro rfl
      obtain ⟨g1, g2⟩ := hxb (lo - c') (hi - c') (by linarith) (by linarith) (fun k hk => by
        obtain ⟨q1, q2⟩ := hy k hk
        exact ⟨by linarith, by linarith⟩)
      exact ⟨by linarith, by linarith⟩
    rw [← hmean]
    constructor
    · intro hlt
      rcases hc' with hc' | ⟨_, hc'⟩
      · exact hsame hc'
      · rw [habs] at hc'
        exact absurd hc' (not_le.mpr hlt)
    · intro hle
      have hthr : 0 ≤ e.threshold := (abs_nonneg c).trans hle
      obtain ⟨q1, q2⟩ := abs_le.mp hle
      rcases hc' with hc' | ⟨rfl, _⟩
      · obtain ⟨g1, g2⟩ := hsame hc'
        exact ⟨by linarith, by linarith⟩
      · obtain ⟨g1, g2⟩ := hxb (min lo 0) (max hi 0) (min_le_right _ _) (le_max_right _ _) (fun k hk => by
          obtain ⟨q1, q2⟩ := hy k hk
          rw [sub_zero]
          exact ⟨(min_le_left _ _).trans q1, q2.trans (le_max_left _ _)⟩)
        constructor
        · rcases min_choice lo 0 with hh | hh <;> rw [hh] at g1 <;> linarith
        · rcases max_choice hi 0 with hh | hh <;> rw [hh] at g2 <;> linarith

/-- **C174 (partial).** With any number of trees, fitted to all rows, and a mean beyond the threshold: the prediction for a training row is as close to its
target as the weighted variance of the targets and the weight of the row say.  Missing: that predictions are in the range of the targets, see
`C174_refuted`. -/
theorem C174_training_rows_partial {env : TrainEnv K A} {names : List String} {cfg : TrainConfig K} (hs : TrainStore env names cfg []) {e : PointLoss K}
    (he : 0 < e.numThreads) (hm : MseInput env cfg e) (hW : totalWeight env ≠ 0) (habs : ∀ x, e.fabs x = |x|)
    (hmean : e.threshold < |meanTarget env e.y|) {p : Nat} {r : TrainResult K A} (h : trainGBDT env e.toLoss names cfg none [] p = ok r)
    (hok : r.code = .ok) {numThreads : Int} (hnt : 0 < numThreads) :
    ∃ f, evaluateForest env.columns env.numRows numThreads r.forest = ok (.ok, some f) ∧ ∀ i < env.numRows,
      env.w i * ((e.y i - f.getD i 0) * (e.y i - f.getD i 0)) ≤
        ((List.range env.numRows).map (fun k => env.w k * ((e.y k - meanTarget env e.y) * (e.y k - meanTarget env e.y)))).sum := by
  obtain ⟨f, h1, h2, _⟩ := C85_constant_partial hs he hm h hok hnt
  refine ⟨f, h1, fun i hi => ?_⟩
  have := h2 (meanTarget env e.y) (by rw [meanTarget, mul_div_cancel₀ _ hW]) (by rw [habs]; exact hmean) (meanTarget env e.y)
  rw [add_zero, sqError, sqError] at this
  have hrep : (List.range env.numRows).map (fun k => env.w k * ((e.y k - (List.replicate env.numRows (meanTarget env e.y)).getD k 0) *
      (e.y k - (List.replicate env.numRows (meanTarget env e.y)).getD k 0))) =
      (List.range env.numRows).map (fun k => env.w k * ((e.y k - meanTarget env e.y) * (e.y k - meanTarget env e.y))) := by
    refine List.map_congr_left (fun k hk => ?_)
    rw [List.getD_eq_getElem?_getD, List.getElem?_replicate, if_pos (by simpa using hk), Option.getD_some]
  rw [hrep] at this
  refine le_trans ?_ this
  refine List.single_le_sum ?_ _ (List.mem_map.mpr ⟨i, by simpa using hi, rfl⟩)
  intro x hx
  obtain ⟨k, hk, rfl⟩ := List.mem_map.mp hx
  exact mul_nonneg (hm.nonneg k (by simpa using hk)) (mul_self_nonneg _)

end exact

/-- **C174 (in full).** As `C173_one_tree`, with any number of trees. -/
def C174_full : Prop :=
  ∀ (env : TrainEnv ℚ ℚ) (names : List String) (cfg : TrainConfig ℚ) (e : PointLoss ℚ) (p : Nat) (r : TrainResult ℚ ℚ) (lo hi : ℚ)
    (row : String → Option (Cell ℚ)) (v : ℚ), TrainStore env names cfg [] → 0 < e.numThreads → MseInput env cfg e → totalWeight env ≠ 0 →
    (∀ x, e.fabs x = |x|) → e.threshold < |meanTarget env e.y| → trainGBDT env e.toLoss names cfg none [] p = ok r → r.code = .ok →
    (∀ i < env.numRows, lo ≤ e.y i ∧ e.y i ≤ hi) → forestValue row r.forest = some v → lo ≤ v ∧ v ≤ hi

/-- Three rows, two features of two values, one of the four combinations missing. -/
def rangeColumns (name : String) : Option (Column ℚ) :=
  if name = "color" then some (.str (StrCol.build [["x", "x", "z"]]))
  else if name = "team" then some (.str (StrCol.build [["x", "z", "x"]]))
  else none

/-- Training on these rows. -/
def rangeEnv : TrainEnv ℚ ℚ := { trainEnv with columns := rangeColumns, numRows := 3 }

/-- Targets 0, 1, 1. -/
def rangeLoss : PointLoss ℚ := errLoss (fun i => if i = 0 then 0 else 1)

/-- Two trees with two leaves each, no shrinkage, no regularisation. -/
def rangeCfg : TrainConfig ℚ := { smallCfg with numTrees := 2, numLeaves := 2 }

/-- The row that is missing. -/
def rangeRow (name : String) : Option (Cell ℚ) := if name = "color" ∨ name = "team" then some (.str "z") else none

/-- The prediction for it. -/
def rangeValue (cfg : TrainConfig ℚ) : Option ℚ :=
  match trainGBDT rangeEnv rangeLoss.toLoss ["color", "team"] cfg none [] 0 with
  | .ok r => if r.code = .ok then forestValue rangeRow r.forest else none
  | _ => none

theorem rangeStore (cfg : TrainConfig ℚ) (h : cfg.groupColumn = "") : TrainStore rangeEnv ["color", "team"] cfg [] where
  rows := by
    intro name c h
    change rangeColumns name = some c at h
    unfold rangeColumns at h
    split at h
    · cases h
      exact TrainRows.str _ (by decide) (by decide)
    · split at h
      · cases h
        exact TrainRows.str _ (by decide) (by decide)
      · cases h
  threads := by decide
  sort := ratSort_spec
  top := ratTop_spec
  examples := by simp [rangeEnv, trainEnv]
  features := by simp [rangeEnv, trainEnv]
  group := Or.inl h
  scorable := fun _ h => absurd h (by simp)
  baseFeatures := fun _ h => absurd h (by simp [forestFeatures])

theorem rangeInput : MseInput rangeEnv rangeCfg rangeLoss where
  loss := ⟨ratMath, rfl, rfl⟩
  weights := rfl
  nonneg := fun _ _ => zero_le_one (α := ℚ)
  exact := rfl
  allRows := (errInput (fun _ => 0) rangeCfg rfl (by decide +kernel) (by decide +kernel) (by decide +kernel)).allRows
  lambda := by decide +kernel
  shrink0 := by decide +kernel
  shrink1 := by decide +kernel

theorem rangeSampled (cfg : TrainConfig ℚ) (h2 : 0 ≤ cfg.l2Lambda) (h3 : 0 ≤ cfg.shrinkage) (h4 : cfg.shrinkage ≤ 1) :
    MseSampled rangeEnv cfg rangeLoss :=
  ⟨⟨ratMath, rfl, rfl⟩, rfl, fun _ _ => zero_le_one (α := ℚ), rfl, h2, h3, h4⟩

theorem rangeAbs (x : ℚ) : rangeLoss.fabs x = |x| := by
  change (if x < 0 then -x else x) = |x|
  split
  · rename_i h
    rw [abs_of_neg h]
  · rename_i h
    rw [abs_of_nonneg (not_lt.mp h)]

theorem rangeMean : meanTarget rangeEnv rangeLoss.y = 2 / 3 := by decide +kernel

theorem rangeTargets : ∀ i < rangeEnv.numRows, 0 ≤ rangeLoss.y i ∧ rangeLoss.y i ≤ 1 := by
  intro i _
  change (0 : ℚ) ≤ (if i = 0 then 0 else 1) ∧ (if i = 0 then (0 : ℚ) else 1) ≤ 1
  split <;> norm_num

theorem rangeValue_run {cfg : TrainConfig ℚ} {v : ℚ} (h : rangeValue cfg = some v) :
    ∃ r, trainGBDT rangeEnv rangeLoss.toLoss ["color", "team"] cfg none [] 0 = ok r ∧ r.code = .ok ∧ forestValue rangeRow r.forest = some v := by
  unfold rangeValue at h
  split at h
  · rename_i r h1
    split at h
    · rename_i h2
      exact ⟨r, h1, h2, h⟩
    · cases h
  · cases h

/-- **C174 refuted.** Targets 0, 1 and 1, two trees of two leaves, no shrinkage: the row that has the value `z` in both features gets 1.5. -/
theorem C174_refuted : ¬ C174_full := by
  intro h
  have hv : rangeValue rangeCfg = some (3 / 2) := by decide +kernel
  obtain ⟨r, h1, h2, h3⟩ := rangeValue_run hv
  have := h rangeEnv _ rangeCfg rangeLoss 0 r 0 1 rangeRow (3 / 2) (rangeStore _ rfl) (by decide) rangeInput (by decide +kernel) rangeAbs
    (by rw [rangeMean]; decide +kernel) h1 h2 rangeTargets h3
  norm_num at this

/-- `C173_one_tree`: with one tree the same row gets 1, which is in the range. -/
example : ∃ r, trainGBDT rangeEnv rangeLoss.toLoss ["color", "team"] { rangeCfg with numTrees := 1 } none [] 0 = ok r ∧
    forestValue rangeRow r.forest = some 1 ∧ (0 : ℚ) ≤ 1 ∧ (1 : ℚ) ≤ 1 := by
  have hv : rangeValue { rangeCfg with numTrees := 1 } = some 1 := by decide +kernel
  obtain ⟨r, h1, h2, h3⟩ := rangeValue_run hv
  exact ⟨r, h1, h3, (C173_one_tree (rangeStore _ rfl) (by decide)
    (rangeSampled _ (by decide +kernel) (by decide +kernel) (by decide +kernel)) (by decide +kernel) rangeAbs rfl h1 h2 rangeTargets h3).1
    (by rw [rangeMean]; decide +kernel)⟩

/-- `C174_training_rows_partial`: on the training rows the two trees are within the root of 2/3 of the targets. -/
example : ∃ r f, trainGBDT rangeEnv rangeLoss.toLoss ["color", "team"] rangeCfg none [] 0 = ok r ∧
    evaluateForest rangeEnv.columns rangeEnv.numRows 2 r.forest = ok (.ok, some f) ∧ ∀ i < rangeEnv.numRows,
      rangeEnv.w i * ((rangeLoss.y i - f.getD i 0) * (rangeLoss.y i - f.getD i 0)) ≤ 2 / 3 := by
  have hv : rangeValue rangeCfg = some (3 / 2) := by decide +kernel
  obtain ⟨r, h1, h2, -⟩ := rangeValue_run hv
  obtain ⟨f, h3, h4⟩ := C174_training_rows_partial (rangeStore _ rfl) (by decide) rangeInput (by decide +kernel) rangeAbs
    (by rw [rangeMean]; decide +kernel) h1 h2 (numThreads := 2) (by decide)
  refine ⟨r, f, h1, h3, fun i hi => le_trans (h4 i hi) (le_of_eq ?_)⟩
  rw [rangeMean]
  decide +kernel

end Gbdt
