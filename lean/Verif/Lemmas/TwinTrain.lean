import Verif.Lemmas.Twin

/-!
# Two data sets that are the same up to the order and the repetition of rows: training
-/

set_option autoImplicit false
set_option linter.unusedSectionVars false

namespace Gbdt
open Outcome

section score
variable {K A : Type} [Field K] [LinearOrder K] [IsStrictOrderedRing K] [LinearOrder A] [ThrOps A]
variable {σ : Nat → Nat} {n1 n2 : Nat}

/-- Corresponding columns under the same names. -/
def TwinCols (σ : Nat → Nat) (n1 n2 : Nat) (cols1 cols2 : String → Option (Column A)) : Prop :=
  ∀ name, Option.Rel (TwinCol σ n1 n2) (cols1 name) (cols2 name)

theorem TwinCols.of_some {cols1 cols2 : String → Option (Column A)} (h : TwinCols σ n1 n2 cols1 cols2) {name : String} {c : Column A}
    (hc : cols1 name = some c) : ∃ c2, cols2 name = some c2 ∧ TwinCol σ n1 n2 c c2 := by
  have := h name
  rw [hc] at this
  cases hh : cols2 name with
  | none => rw [hh] at this; cases this
  | some c2 => rw [hh] at this; cases this with | some h => exact ⟨c2, rfl, h⟩

theorem TwinCol.sendsLeft {c1 c2 : Column A} (hc : TwinCol σ n1 n2 c1 c2) (s : Split K A) {j : Nat} (hj : j < n2) :
    sendsLeft c2 s j = sendsLeft c1 s (σ j) := by
  cases hc with
  | str c1 c2 hs _ hi =>
    have : c2.rowString j = c1.rowString (σ j) := by
      simp only [StrCol.rowString, StrCol.catString, (hi.code hj).1, hs]
    simp only [Gbdt.sendsLeft, this]
  | bkt c1 c2 hx hn hi =>
    have h1 : c2.ints.missing j = c1.ints.missing (σ j) := by simp only [IntCol.missing, (hi.code hj).1]
    have h2 : c2.rowMax j = c1.rowMax (σ j) := by simp only [BktCol.rowMax, BktCol.bucketMax, (hi.code hj).1, hx]
    simp only [Gbdt.sendsLeft, h1, h2]
  | raw c1 c2 => rfl

theorem TwinCol.splitFits {c1 c2 : Column A} (hc : TwinCol σ n1 n2 c1 c2) (s : Split K A) (h : SplitFits c1 s) : SplitFits c2 s := by
  cases hc with
  | str c1 c2 hs _ _ =>
    have : c2.catString = c1.catString := by funext k; rw [StrCol.catString, StrCol.catString, hs]
    simpa only [SplitFits, this] using h
  | bkt c1 c2 _ _ _ => exact h
  | raw c1 c2 => trivial

theorem TwinCols.scorable {cols1 cols2 : String → Option (Column A)} (h : TwinCols σ n1 n2 cols1 cols2) :
    ∀ {t : Tree K A}, Scorable cols1 t → Scorable cols2 t
  | .absent, _ => trivial
  | .node _ _ .absent _, _ => trivial
  | .node _ split (.node sc sp l r) right, ⟨⟨s, c, h1, h2, h3⟩, h4, h5⟩ => by
    obtain ⟨c2, k1, k2⟩ := h.of_some h2
    exact ⟨⟨s, c2, h1, k1, k2.splitFits s h3⟩, h.scorable h4, h.scorable h5⟩

theorem TwinCols.leafOf {cols1 cols2 : String → Option (Column A)} (h : TwinCols σ n1 n2 cols1 cols2) {j : Nat} (hj : j < n2) :
    ∀ (t : Tree K A), leafOf cols2 t j = leafOf cols1 t (σ j)
  | .absent => rfl
  | .node _ _ .absent _ => rfl
  | .node _ none (.node _ _ _ _) _ => rfl
  | .node _ (some s) (.node sc sp l r) right => by
    have hl := h.leafOf hj (.node sc sp l r)
    have hr := h.leafOf hj right
    have hn := h s.feature
    rw [Gbdt.leafOf, Gbdt.leafOf]
    cases hc : cols1 s.feature with
    | none =>
      rw [hc] at hn
      cases hc2 : cols2 s.feature with
      | none => rfl
      | some c2 => rw [hc2] at hn; cases hn
    | some c1 =>
      obtain ⟨c2, k1, k2⟩ := h.of_some hc
      simp only [k1, k2.sendsLeft s hj, hl, hr]

theorem TwinCols.scoreOf {cols1 cols2 : String → Option (Column A)} (h : TwinCols σ n1 n2 cols1 cols2) (t : Tree K A) {j : Nat} (hj : j < n2) :
    scoreOf cols2 t j = scoreOf cols1 t (σ j) := by
  rw [Gbdt.scoreOf, Gbdt.scoreOf, h.leafOf hj]

/-- Function values that correspond. -/
structure TwinVals (σ : Nat → Nat) (n1 n2 : Nat) (f1 f2 : List K) : Prop where
  len1 : f1.length = n1
  len2 : f2.length = n2
  val : ∀ j < n2, f2[j]? = f1[σ j]?

/-- Adding a tree keeps function values in correspondence. -/
theorem TwinVals.addTree {cols1 cols2 : String → Option (Column A)} (h : TwinCols σ n1 n2 cols1 cols2)
    (hσ : ∀ j < n2, σ j < n1) (hr1 : ∀ name c, cols1 name = some c → HasRows n1 c)
    (hr2 : ∀ name c, cols2 name = some c → HasRows n2 c) {s1 s2 : List (List Nat)} (h1 : Slices n1 s1) (h2 : Slices n2 s2) (k : K)
    {t : Tree K A} (ht : Scorable cols1 t) {f1 f2 : List K} (hf : TwinVals σ n1 n2 f1 f2) :
    ∃ t1 t2 g1 g2, addTreeScores cols1 t k s1 f1 = ok (t1, g1) ∧ addTreeScores cols2 t k s2 f2 = ok (t2, g2) ∧
      Slices n1 t1 ∧ Slices n2 t2 ∧ TwinVals σ n1 n2 g1 g2 := by
  obtain ⟨t1, g1, a1, a2, a3, a4⟩ := h1.add hr1 k ht hf.len1
  obtain ⟨t2, g2, b1, b2, b3, b4⟩ := h2.add hr2 k (h.scorable ht) hf.len2
  refine ⟨t1, t2, g1, g2, a1, b1, a2, b2, a3, b3, fun j hj => ?_⟩
  obtain ⟨x, old, c1, c2, c3⟩ := a4 (σ j) (hσ j hj)
  obtain ⟨x', old', d1, d2, d3⟩ := b4 j hj
  rw [h.scoreOf t hj, c1, Option.some.injEq] at d1
  rw [hf.val j hj, c2, Option.some.injEq] at d2
  rw [c3, d3, d1, d2]

theorem TwinVals.initWithBase {env1 env2 : TrainEnv K A} (h : TwinCols σ env1.numRows env2.numRows env1.columns env2.columns)
    (hσ : ∀ j < env2.numRows, σ j < env1.numRows) (hrnd : env2.rnd32 = env1.rnd32)
    (hr1 : ∀ name c, env1.columns name = some c → HasRows env1.numRows c)
    (hr2 : ∀ name c, env2.columns name = some c → HasRows env2.numRows c) :
    ∀ (base forest : List (Tree K A)) {s1 s2 : List (List Nat)} {f1 f2 : List K}, (∀ t ∈ base, Scorable env1.columns t) →
      Slices env1.numRows s1 → Slices env2.numRows s2 → TwinVals σ env1.numRows env2.numRows f1 f2 →
      ∃ fo t1 t2 g1 g2, initWithBase env1 base forest s1 f1 = ok (fo, t1, g1) ∧
        initWithBase env2 base forest s2 f2 = ok (fo, t2, g2) ∧ Slices env1.numRows t1 ∧ Slices env2.numRows t2 ∧
        TwinVals σ env1.numRows env2.numRows g1 g2
  | [], forest, s1, s2, f1, f2, _, h1, h2, hf => ⟨forest, s1, s2, f1, f2, rfl, rfl, h1, h2, hf⟩
  | t :: ts, forest, s1, s2, f1, f2, hb, h1, h2, hf => by
    obtain ⟨t1, t2, g1, g2, a1, a2, a3, a4, a5⟩ := hf.addTree h hσ hr1 hr2 h1 h2 0 (hb t (by simp))
    obtain ⟨fo, u1, u2, k1, k2, b1, b2, b3⟩ := TwinVals.initWithBase h hσ hrnd hr1 hr2 ts
      (if isSingleNode t then forest.modify 0 (addRootScore env1.rnd32 (rootScore t)) else forest ++ [t])
      (fun x hx => hb x (by simp [hx])) a3 a4 a5
    exact ⟨fo, u1, u2, k1, k2, by rw [Gbdt.initWithBase, a1, ok_bind]; exact b1,
      by rw [Gbdt.initWithBase, a2, ok_bind, hrnd]; exact b2, b3⟩

end score

section loss
variable {K A : Type} [Field K] [LinearOrder K] [IsStrictOrderedRing K] [LinearOrder A] [ThrOps A]
variable {σ : Nat → Nat} {n1 n2 : Nat}

/-- Losses for data sets that correspond. -/
structure TwinLoss (σ : Nat → Nat) (n1 n2 : Nat) (e1 e2 : PointLoss K) : Prop where
  lossFn : e2.lossFn = e1.lossFn
  binary : e2.binary = e1.binary
  one : e2.one = e1.one
  minusOne : e2.minusOne = e1.minusOne
  fabs : e2.fabs = e1.fabs
  threshold : e2.threshold = e1.threshold
  threads1 : 0 < e1.numThreads
  threads2 : 0 < e2.numThreads
  y : ∀ j < n2, e2.y j = e1.y (σ j)
  bal : Bal σ e1.w e2.w (List.range n1) (List.range n2)

theorem TwinLoss.rowGrad {e1 e2 : PointLoss K} (h : TwinLoss σ n1 n2 e1 e2) {f1 f2 : List K} (hf : TwinVals σ n1 n2 f1 f2) (c : K)
    {j : Nat} (hj : j < n2) : rowGrad e2 f2 c j = rowGrad e1 f1 c (σ j) := by
  rw [Gbdt.rowGrad, Gbdt.rowGrad, hf.val j hj, h.lossFn, h.y j hj]

theorem sliceStep_sum (e : PointLoss K) (f : List K) {s : List (Nat × Nat)} (hs : Consecutive 0 f.length s) (c : K) :
    sliceStep e f s c = (sumOf (fun k => (rowGrad e f c k).scale (e.w k)) (List.range f.length)).score 0 := by
  have h := foldl_groups (fun k => (rowGrad e f c k).scale (e.w k)) (s.map (fun sl => List.range' sl.1 (sl.2 - sl.1))) GD.zero
  rw [(ranges_flatten s 0 _ hs).2, List.map_map, Nat.sub_zero, ← List.range_eq_range'] at h
  rw [sliceStep, sumOf, ← h]
  rfl

theorem TwinLoss.sliceStep {e1 e2 : PointLoss K} (h : TwinLoss σ n1 n2 e1 e2) {f1 f2 : List K} (hf : TwinVals σ n1 n2 f1 f2)
    {s1 s2 : List (Nat × Nat)} (h1 : Consecutive 0 n1 s1) (h2 : Consecutive 0 n2 s2) (c : K) :
    sliceStep e1 f1 s1 c = sliceStep e2 f2 s2 c := by
  rw [sliceStep_sum e1 f1 (by rw [hf.len1]; exact h1) c, sliceStep_sum e2 f2 (by rw [hf.len2]; exact h2) c, hf.len1, hf.len2]
  congr 1
  rw [GD.ext_iff', sumOf_g, sumOf_g, sumOf_h, sumOf_h]
  have key : ∀ p : GD K → K, ((List.range n1).map (fun i => e1.w i * p (Gbdt.rowGrad e1 f1 c i))).sum =
      ((List.range n2).map (fun i => e2.w i * p (Gbdt.rowGrad e2 f2 c i))).sum := by
    intro p
    rw [h.bal (fun i => p (Gbdt.rowGrad e1 f1 c i))]
    congr 1
    refine List.map_congr_left (fun j hj => ?_)
    rw [h.rowGrad hf c (List.mem_range.mp hj)]
  exact ⟨key GD.g, key GD.h⟩

theorem TwinLoss.pointLoop {e1 e2 : PointLoss K} (h : TwinLoss σ n1 n2 e1 e2) (hσ : ∀ j < n2, σ j < n1) {f1 f2 : List K}
    (hf : TwinVals σ n1 n2 f1 f2) {s1 s2 : List (Nat × Nat)} (h1 : Consecutive 0 n1 s1) (h2 : Consecutive 0 n2 s2) :
    ∀ (left : Nat) (c : K) (g1 g2 : List (GD K)), g1.length = n1 → g2.length = n2 → (∀ j < n2, g2[j]? = g1[σ j]?) →
      ∃ c' g1' g2', pointLoop e1 s1 f1 left c g1 = ok (c', g1') ∧ pointLoop e2 s2 f2 left c g2 = ok (c', g2') ∧
        g1'.length = n1 ∧ g2'.length = n2 ∧ ∀ j < n2, g2'[j]? = g1'[σ j]?
  | 0, c, g1, g2, l1, l2, hg => ⟨c, g1, g2, rfl, rfl, l1, l2, hg⟩
  | left + 1, c, g1, g2, l1, l2, hg => by
    have h1' : Consecutive 0 f1.length s1 := by rw [hf.len1]; exact h1
    have h2' : Consecutive 0 f2.length s2 := by rw [hf.len2]; exact h2
    obtain ⟨o1, a1, _, a2, a3⟩ := pointSlices_spec e1 f1 c s1 0 f1.length g1 h1' (le_refl _) (by rw [hf.len1]; exact l1)
    obtain ⟨o2, b1, _, b2, b3⟩ := pointSlices_spec e2 f2 c s2 0 f2.length g2 h2' (le_refl _) (by rw [hf.len2]; exact l2)
    have ho : ∀ j < n2, o2[j]? = o1[σ j]? := by
      intro j hj
      rw [a3, b3, hf.len1, hf.len2, if_pos ⟨Nat.zero_le _, hj⟩, if_pos ⟨Nat.zero_le _, hσ j hj⟩, h.rowGrad hf c hj]
    have n1 := h.sliceStep hf h1 h2 c
    unfold Gbdt.sliceStep at n1
    have a2' := a2.trans hf.len1
    have b2' := b2.trans hf.len2
    simp only [Gbdt.pointLoop, a1, b1, ok_bind, n1, h.threshold, h.fabs]
    split
    · exact h.pointLoop hσ hf h1 h2 left _ o1 o2 a2' b2' ho
    · exact ⟨_, o1, o2, rfl, rfl, a2', b2', ho⟩

theorem TwinLoss.compute {e1 e2 : PointLoss K} (h : TwinLoss σ n1 n2 e1 e2) (hσ : ∀ j < n2, σ j < n1) {f1 f2 : List K}
    (hf : TwinVals σ n1 n2 f1 f2) {s1 s2 : List (Nat × Nat)} (h1 : Consecutive 0 n1 s1) (h2 : Consecutive 0 n2 s2) :
    ∃ c g1 g2, e1.toLoss.compute s1 f1 = ok (s1, c, g1) ∧ e2.toLoss.compute s2 f2 = ok (s2, c, g2) ∧
      g1.length = n1 ∧ g2.length = n2 ∧ ∀ j < n2, g2[j]? = g1[σ j]? := by
  obtain ⟨c, g1, g2, a, b, r⟩ := h.pointLoop hσ hf h1 h2 10 0 (List.replicate f1.length ⟨0, 0⟩) (List.replicate f2.length ⟨0, 0⟩)
    (by simp [hf.len1]) (by simp [hf.len2]) (fun j hj => by
      simp [hf.len1, hf.len2, hj, hσ j hj])
  refine ⟨c, g1, g2, ?_, ?_, r⟩
  · rw [show e1.toLoss.compute s1 f1 = pointCompute e1 s1 f1 from rfl, pointCompute, a, ok_bind]
    rfl
  · rw [show e2.toLoss.compute s2 f2 = pointCompute e2 s2 f2 from rfl, pointCompute, b, ok_bind]
    rfl

/-- What training is given, twice. -/
structure TwinTrain (σ : Nat → Nat) (env1 env2 : TrainEnv K A) (e1 e2 : PointLoss K) (cfg : TrainConfig K) : Prop where
  sort : env2.sort = env1.sort
  top : env2.top = env1.top
  toInt : env2.toInt = env1.toInt
  ofNat : env2.ofNat = env1.ofNat
  draw : env2.draw = env1.draw
  rnd32 : env2.rnd32 = env1.rnd32
  diverged : env2.diverged = env1.diverged
  lt : ∀ j < env2.numRows, σ j < env1.numRows
  onto : ∀ i < env1.numRows, ∃ j < env2.numRows, σ j = i
  cols : TwinCols σ env1.numRows env2.numRows env1.columns env2.columns
  loss : TwinLoss σ env1.numRows env2.numRows e1 e2
  w1 : e1.w = env1.w
  w2 : e2.w = env2.w
  all : ∀ k, Dbl.ltb (env1.draw k) cfg.exampleRate = true
  pos : env1.numRows = env2.numRows ∨ ∀ k, Dbl.ltb (env1.draw k) cfg.featureRate = true

variable {env1 env2 : TrainEnv K A} {e1 e2 : PointLoss K} {cfg : TrainConfig K}

/-- The features that are loaded. -/
theorem TwinCols.loadFeatures {cols1 cols2 : String → Option (Column A)} (h : TwinCols σ n1 n2 cols1 cols2) : ∀ (names : List String),
    (∃ e, loadFeatures cols1 names = .error e ∧ loadFeatures cols2 names = .error e) ∨
    ∃ l1 l2, loadFeatures cols1 names = .ok l1 ∧ loadFeatures cols2 names = .ok l2 ∧
      List.Forall₂ (fun f1 f2 => f2.1 = f1.1 ∧ TwinCol σ n1 n2 f1.2 f2.2) l1 l2
  | [] => Or.inr ⟨[], [], rfl, rfl, .nil⟩
  | name :: names => by
    have hn := h name
    cases hc : cols1 name with
    | none =>
      rw [hc] at hn
      cases hc2 : cols2 name with
      | none => exact Or.inl ⟨.notFound, by simp only [Gbdt.loadFeatures, hc], by simp only [Gbdt.loadFeatures, hc2]⟩
      | some c2 => rw [hc2] at hn; cases hn
    | some c1 =>
      obtain ⟨c2, k1, k2⟩ := h.of_some hc
      rcases h.loadFeatures names with ⟨e, a1, a2⟩ | ⟨l1, l2, a1, a2, a3⟩
      · exact Or.inl ⟨e, by simp only [Gbdt.loadFeatures, hc, a1], by simp only [Gbdt.loadFeatures, k1, a2]⟩
      · exact Or.inr ⟨(name, c1) :: l1, (name, c2) :: l2, by simp only [Gbdt.loadFeatures, hc, a1],
          by simp only [Gbdt.loadFeatures, k1, a2], .cons ⟨rfl, k2⟩ a3⟩

theorem TwinCols.group {cols1 cols2 : String → Option (Column A)} (h : TwinCols σ n1 n2 cols1 cols2) (name : String) :
    OutRel (fun _ _ => True) (groupOrDie cols1 name) (groupOrDie cols2 name) := by
  unfold groupOrDie
  split
  · exact .ok trivial
  · have hn := h name
    generalize cols1 name = a at hn
    generalize cols2 name = b at hn
    cases hn with
    | none => exact .fatal
    | some hc =>
      cases hc with
      | str c1 c2 _ _ _ => exact .ok trivial
      | bkt c1 c2 _ _ _ => exact .fatal
      | raw c1 c2 => exact .fatal

theorem TwinTrain.fit (h : TwinTrain σ env1 env2 e1 e2 cfg) {names : List String} {base : List (Tree K A)}
    (hs1 : TrainStore env1 names cfg base) (hs2 : TrainStore env2 names cfg base) {l1 l2 : List (String × Column A)}
    (hl : List.Forall₂ (fun f1 f2 => f2.1 = f1.1 ∧ TwinCol σ env1.numRows env2.numRows f1.2 f2.2) l1 l2) {g1 g2 : List (GD K)}
    (hg1 : g1.length = env1.numRows) (hg2 : g2.length = env2.numRows) (hg : ∀ j < env2.numRows, g2[j]? = g1[σ j]?) :
    TwinFit σ (env1.fit l1 g1) (env2.fit l2 g2) cfg.fit where
  sort := h.sort
  top := h.top
  toInt := h.toInt
  ofNat := h.ofNat
  draw := h.draw
  rnd32 := h.rnd32
  threads1 := hs1.threads
  threads2 := hs2.threads
  features := by
    show List.Forall₂ (fun f1 f2 => f2.1 = f1.1 ∧ TwinCol σ g1.length g2.length f1.2 f2.2) l1 l2
    rw [hg1, hg2]
    exact hl
  grads := by
    show TwinGrads σ g1 g2
    intro j hj
    exact hg j (hg2 ▸ hj)
  examples1 := by
    show env1.toInt (cfg.exampleRate * env1.ofNat g1.length) ≠ none
    rw [hg1]
    exact hs1.examples
  examples2 := by
    show env1.toInt (cfg.exampleRate * env1.ofNat g2.length) ≠ none
    rw [hg2, ← h.toInt, ← h.ofNat]
    exact hs2.examples
  all := h.all
  start := by
    show TwinSamples σ g1.length g2.length env1.w env2.w (List.range g1.length) (List.range g2.length)
    rw [hg1, hg2]
    exact ⟨h.w1 ▸ h.w2 ▸ h.loss.bal, fun i hi => List.mem_range.mp hi, fun i hi => List.mem_range.mp hi⟩
  pos := by
    show g1.length = g2.length ∨ _
    rw [hg1, hg2]
    exact h.pos

/-- States of training that correspond. -/
structure TwinLoop (σ : Nat → Nat) (n1 n2 : Nat) (s1 s2 : TrainState (List (Nat × Nat)) K A) : Prop where
  forest : s2.forest = s1.forest
  vals : TwinVals σ n1 n2 s1.f s2.f
  slices1 : Slices n1 s1.slices
  slices2 : Slices n2 s2.slices
  loss1 : Consecutive 0 n1 s1.loss
  loss2 : Consecutive 0 n2 s2.loss
  pos : n1 = n2 → s1.pos = s2.pos

theorem TwinTrain.trainLoop (h : TwinTrain σ env1 env2 e1 e2 cfg) {names : List String} {base : List (Tree K A)}
    (hs1 : TrainStore env1 names cfg base) (hs2 : TrainStore env2 names cfg base) {l1 l2 : List (String × Column A)}
    (hl1 : loadFeatures env1.columns names = .ok l1)
    (hl : List.Forall₂ (fun f1 f2 => f2.1 = f1.1 ∧ TwinCol σ env1.numRows env2.numRows f1.2 f2.2) l1 l2) :
    ∀ (n : Nat) {s1 s2 : TrainState (List (Nat × Nat)) K A}, TwinLoop σ env1.numRows env2.numRows s1 s2 →
      OutRel (fun a b => a.1 = b.1 ∧ b.2.forest = a.2.forest) (trainLoop env1 e1.toLoss l1 cfg 0 n s1) (trainLoop env2 e2.toLoss l2 cfg 0 n s2)
  | 0, s1, s2, hs => .ok ⟨rfl, hs.forest⟩
  | n + 1, s1, s2, hs => by
    obtain ⟨c, g1, g2, a1, a2, hg1, hg2, hg⟩ := h.loss.compute h.lt hs.vals hs.loss1 hs.loss2
    by_cases hd : env1.diverged c = true
    · rw [trainLoop_diverged a1 hd, trainLoop_diverged a2 (by rw [h.diverged]; exact hd)]
      exact .ok ⟨rfl, hs.forest⟩
    · have hd' : ¬ env2.diverged c = true := by rw [h.diverged]; exact hd
      have hfit := (h.fit hs1 hs2 hl hg1 hg2 hg).fitTree (p1 := s1.pos) (p2 := s2.pos)
        (fun he => hs.pos (by rw [← hg1, ← hg2]; exact he))
      generalize hx1 : fitTree (env1.fit l1 g1) cfg.fit s1.pos = x1 at hfit
      generalize hx2 : fitTree (env2.fit l2 g2) cfg.fit s2.pos = x2 at hfit
      cases hfit with
      | ub => rw [trainLoop_ub a1 hd hx1, trainLoop_ub a2 hd' hx2]; exact .ub
      | fatal => rw [trainLoop_fatal a1 hd hx1, trainLoop_fatal a2 hd' hx2]; exact .fatal
      | @ok u1 u2 ht =>
        obtain ⟨t, p1⟩ := u1
        obtain ⟨t', p2⟩ := u2
        obtain ⟨rfl, hp⟩ := ht
        have hsc : Scorable env1.columns (applyShrinkage env1.rnd32 cfg.shrinkage t) :=
          FittedTree.scorable (pointTrainData hs1 h.loss.threads1) hl1 ⟨g1, t, s1.pos, p1, hg1, hx1, rfl⟩
        obtain ⟨t1, t2, f1, f2, b1, b2, b3, b4, b5⟩ := hs.vals.addTree h.cols h.lt (fun _ _ x => (hs1.rows _ _ x).hasRows)
          (fun _ _ x => (hs2.rows _ _ x).hasRows) hs.slices1 hs.slices2 c hsc
        rw [trainLoop_step a1 hd hx1 b1, trainLoop_step a2 hd' hx2 (by rw [h.rnd32]; exact b2)]
        refine h.trainLoop hs1 hs2 hl1 hl n ⟨by simp only [hs.forest, h.rnd32], b5, b3, b4, hs.loss1, hs.loss2, ?_⟩
        intro he
        exact hp (show g1.length = g2.length by rw [hg1, hg2]; exact he)

/-- Training on data sets that correspond gives the same status and the same forest. -/
theorem TwinTrain.trainGBDT (h : TwinTrain σ env1 env2 e1 e2 cfg) {names : List String} {base : Option (List (Tree K A))}
    (hs1 : checkConfig (env1.ofNat 1) cfg = .ok → TrainStore env1 names cfg (base.getD []))
    (hs2 : checkConfig (env1.ofNat 1) cfg = .ok → TrainStore env2 names cfg (base.getD [])) (p : Nat) :
    OutRel (fun a b => a.code = b.code ∧ a.forest = b.forest) (trainGBDT env1 e1.toLoss names cfg base [] p)
      (trainGBDT env2 e2.toLoss names cfg base [] p) := by
  unfold Gbdt.trainGBDT
  rw [h.ofNat]
  by_cases hc : checkConfig (env1.ofNat 1) cfg = .ok
  · rw [if_neg (by simp [hc]), if_neg (by simp [hc])]
    have hs1 := hs1 hc
    have hs2 := hs2 hc
    rcases h.cols.loadFeatures names with ⟨e, a1, a2⟩ | ⟨l1, l2, a1, a2, hl⟩
    · rw [a1, a2]
      exact .ok ⟨rfl, rfl⟩
    · rw [a1, a2]
      simp only
      refine OutRel.bind (h.cols.group cfg.groupColumn) ?_
      intro gr1 gr2 _
      have hinit : ∀ (e : PointLoss K) (n : Nat) (g : Option StrCol), 0 < e.numThreads → ∃ sl, Consecutive 0 n sl ∧ e.toLoss.init n g =
          if e.binary && (List.range n).any (fun i => !Dbl.eqb (e.y i) e.one && !Dbl.eqb (e.y i) e.minusOne) then
            ok (.error .invalidArgument) else ok (.ok sl) := by
        intro e n g he
        obtain ⟨sl, a1, _, a3, _⟩ := C21_divide_range n (e.numThreads * 5).toNat (by omega)
        rw [Int.toNat_of_nonneg (by omega)] at a1
        exact ⟨sl, a3, by simp only [PointLoss.toLoss, pointInit, a1, ok_bind, pure_eq]⟩
      obtain ⟨k1, c1, i1⟩ := hinit e1 env1.numRows gr1 h.loss.threads1
      obtain ⟨k2, c2, i2⟩ := hinit e2 env2.numRows gr2 h.loss.threads2
      have hany : (List.range env2.numRows).any (fun i => !Dbl.eqb (e2.y i) e2.one && !Dbl.eqb (e2.y i) e2.minusOne) =
          (List.range env1.numRows).any (fun i => !Dbl.eqb (e1.y i) e1.one && !Dbl.eqb (e1.y i) e1.minusOne) := by
        rw [Bool.eq_iff_iff, List.any_eq_true, List.any_eq_true, h.loss.one, h.loss.minusOne]
        constructor
        · rintro ⟨j, hj, hb⟩
          rw [List.mem_range] at hj
          exact ⟨σ j, List.mem_range.mpr (h.lt j hj), by rw [← h.loss.y j hj]; exact hb⟩
        · rintro ⟨i, hi, hb⟩
          obtain ⟨j, hj, rfl⟩ := h.onto i (List.mem_range.mp hi)
          exact ⟨j, List.mem_range.mpr hj, by rw [h.loss.y j hj]; exact hb⟩
      rw [hany, h.loss.binary] at i2
      rw [i1, i2]
      by_cases hb : (e1.binary && (List.range env1.numRows).any (fun i => !Dbl.eqb (e1.y i) e1.one && !Dbl.eqb (e1.y i) e1.minusOne)) = true
      · rw [if_pos hb, if_pos hb, ok_bind, ok_bind]
        exact .ok ⟨rfl, rfl⟩
      · rw [if_neg hb, if_neg hb, ok_bind, ok_bind]
        simp only
        obtain ⟨s1, b1, b2⟩ := scoreSlices_ok hs1.threads env1.numRows
        obtain ⟨s2, b3, b4⟩ := scoreSlices_ok hs2.threads env2.numRows
        obtain ⟨fo, t1, t2, f1, f2, d1, d2, d3, d4, d5⟩ := TwinVals.initWithBase h.cols h.lt h.rnd32
          (fun _ _ x => (hs1.rows _ _ x).hasRows) (fun _ _ x => (hs2.rows _ _ x).hasRows) (base.getD [])
          ([] ++ [.node 0 none .absent .absent]) hs1.scorable b2 b4 (f1 := List.replicate env1.numRows 0)
          (f2 := List.replicate env2.numRows 0) ⟨by simp, by simp, fun j hj => by
            simp [hj, h.lt j hj]⟩
        rw [b1, b3, ok_bind, ok_bind, d1, d2, ok_bind, ok_bind]
        refine OutRel.bind (h.trainLoop hs1 hs2 a1 hl cfg.numTrees.toNat (s1 := ⟨fo, t1, f1, k1, p⟩) (s2 := ⟨fo, t2, f2, k2, p⟩)
          ⟨rfl, d5, d3, d4, c1, c2, fun _ => rfl⟩) ?_
        rintro ⟨st, r1⟩ ⟨_, r2⟩ ⟨rfl, hf⟩
        simp only at hf ⊢
        split
        · exact .ok ⟨rfl, hf.symm⟩
        · exact .ok ⟨rfl, by simp only [hf]⟩
  · rw [if_pos hc, if_pos hc]
    exact .ok ⟨rfl, rfl⟩

end loss

end Gbdt
