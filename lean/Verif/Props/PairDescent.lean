import Verif.Props.EqualGroup
import Verif.Props.Limits

/-!
# C205: does a tree lower the loss of the sampled pairs?

Specification: `pairSlope` is the rate at which the weighted loss of the sampled pairs falls when `v i` is added to the score of row `i`.
-/

set_option autoImplicit false
set_option linter.unusedSectionVars false

namespace Gbdt

open Outcome

section fit
variable {K : Type} [Field K] [LinearOrder K] [IsStrictOrderedRing K] {A : Type} [LinearOrder A] [ThrOps A]

theorem newton_ascent (a : GD K) {lambda : K} (h : 0 ≤ a.h + lambda) : 0 ≤ a.g * a.score lambda := by
  simp only [GD.score, exact_eqb, decide_eq_true_eq]
  split
  · simp
  · rw [mul_div_assoc']
    exact div_nonneg (mul_self_nonneg _) h

/-- A fitted tree moves the scores of its samples with their weighted gradients. -/
theorem fit_ascent {env : FitEnv K A} {cfg : FitConfig K} {columns : String → Option (Column A)} (hd : FitData env columns)
    (hexact : ∀ y, env.rnd32 y = y) {p q : Nat} {t : Tree K A} (h : fitTree env cfg p = ok (t, q)) {samples : List Nat} {p1 : Nat}
    (hs : uniformSubsample env.toInt env.ofNat env.draw env.grads.length cfg.exampleRate p = ok (samples, p1))
    (hlam : 0 ≤ cfg.l2Lambda) (hh : ∀ i, 0 ≤ (weighted env.w env.grads i).h) :
    0 ≤ (samples.map (fun i => (weighted env.w env.grads i).g * (scoreOf columns t i).getD 0)).sum := by
  obtain ⟨s0, s, all, p1', h0, hl, rfl, h3, hall, _, hg0, hg, _⟩ := fitTree_ok hd h
  rw [hs] at h3
  cases h3
  set x := weighted env.w env.grads with hx
  have hsc : ∀ e ∈ s.queue, ∀ i ∈ e.samples, (scoreOf columns s.tree i).getD 0 = (sumOf x e.samples).score cfg.l2Lambda := by
    intro e hem i hi
    obtain ⟨y, hy⟩ := hg.routed e hem i hi
    obtain ⟨sp, hl⟩ := leafOf_isLeafAt hg.wf hy
    obtain ⟨total, best, p, p1, h1, h2, h3, h4⟩ := hg.entry e hem
    rw [newNode_eq env cfg total h2] at h4
    obtain ⟨h5, _⟩ := IsLeafAt.unique hl h4
    have hin : ∀ i ∈ e.samples, i < env.grads.length := fun i hi => hall i (hg.perm.mem_iff.mp (List.mem_flatMap.mpr ⟨e, hem, hi⟩))
    rw [weightedSum_exact hin h1, hexact] at h5
    simp [scoreOf, hy, h5, hx]
  rw [← (hg.perm.map _).sum_eq]
  have : ∀ q : List (NodeData A), (∀ e ∈ q, e ∈ s.queue) →
      0 ≤ ((q.flatMap NodeData.samples).map (fun i => (x i).g * (scoreOf columns s.tree i).getD 0)).sum := by
    intro q
    induction q with
    | nil => intro _; simp
    | cons e q ih =>
      intro hq
      have ih := ih (fun e' h => hq e' (List.mem_cons_of_mem _ h))
      simp only [List.flatMap_cons, List.map_append, List.sum_append]
      have e1 : (e.samples.map (fun i => (x i).g * (scoreOf columns s.tree i).getD 0)).sum =
          (sumOf x e.samples).g * (sumOf x e.samples).score cfg.l2Lambda := by
        rw [sumOf_g, ← List.sum_map_mul_right]
        exact congrArg List.sum (List.map_congr_left (fun i hi => by rw [hsc e (hq e (by simp)) i hi]))
      rw [e1]
      refine add_nonneg (newton_ascent _ (add_nonneg ?_ hlam)) ih
      rw [sumOf_h]
      apply List.sum_nonneg
      intro y hy
      obtain ⟨i, _, rfl⟩ := List.mem_map.mp hy
      exact hh i
  exact this _ (fun _ h => h)

end fit

section pairs
variable {K : Type} [Field K] [LinearOrder K]

/-- The rate at which the weighted loss of the pairs falls when `v i` is added to the score of each row `i` (`dg` is minus the derivative of the loss of
the pair in the difference of the scores). -/
def pairSlope (draws : List (Draw K)) (v : Nat → K) : K := (draws.map (fun d => d.weight * d.dg * (v d.pos - v d.neg))).sum

theorem sum_pick_mul (x : K) (v : Nat → K) (p : Nat) : ∀ (l : List Nat), l.Nodup →
    (l.map (fun r => (if r = p then x else 0) * v r)).sum = if p ∈ l then x * v p else 0
  | [], _ => by simp
  | a :: l, h => by
    obtain ⟨h1, h2⟩ := List.nodup_cons.mp h
    rw [List.map_cons, List.sum_cons, sum_pick_mul x v p l h2]
    by_cases ha : a = p
    · subst ha
      simp [h1]
    · simp [ha, Ne.symm ha]

theorem sum_map_minus (a b : Nat → K) : ∀ l : List Nat, (l.map (fun r => a r - b r)).sum = (l.map a).sum - (l.map b).sum
  | [] => by simp
  | x :: l => by
    simp only [List.map_cons, List.sum_cons, sum_map_minus a b l]
    ring

theorem pull_slope (v : Nat → K) {l : List Nat} (hl : l.Nodup) : ∀ (ds : List (Draw K)), (∀ d ∈ ds, d.pos ∈ l ∧ d.neg ∈ l) →
    (l.map (fun r => (ds.map (pull r)).sum * v r)).sum = pairSlope ds v
  | [], _ => by simp [pairSlope]
  | d :: ds, h => by
    have ih := pull_slope v hl ds (fun x hx => h x (List.mem_cons_of_mem d hx))
    obtain ⟨h1, h2⟩ := h d (by simp)
    simp only [pairSlope, List.map_cons, List.sum_cons, add_mul] at ih ⊢
    rw [List.sum_map_add, ih]
    congr 1
    simp only [pull, sub_mul]
    rw [sum_map_minus, sum_pick_mul _ v _ _ hl, sum_pick_mul _ v _ _ hl, if_pos h1, if_pos h2]
    ring

/-- **C205 (what gradients are).** In exact arithmetic, the sum over all rows of gradient times `v` is the rate at which the weighted loss of the pairs that
were drawn falls when `v` is added to the scores. -/
theorem C205_slope {e : PairLoss K} (hsort : DescSortSpec e.sort) {numRows : Nat} {col : Option StrCol}
    {s s' : PairState K} {f : List K} {c : K} {grads : List (GD K)} (hr : PairReach e numRows col s)
    (h : pairCompute e s f = ok (s', c, grads)) (v : Nat → K) :
    ∃ draws : List (List (Draw K)), draws.length = s.groups.length ∧
      (∀ (index : Nat) (ds : List (Draw K)), draws[index]? = some ds → DrawsOf e s f index ds) ∧
      ((List.range grads.length).map (fun i => gOf grads i * v i)).sum = pairSlope draws.flatten v := by
  obtain ⟨_, hlen, draws, h1, h2, h3⟩ := C75_gradients hsort hr h
  refine ⟨draws, h1, h2, ?_⟩
  rw [← pull_slope v List.nodup_range]
  · exact congrArg List.sum (List.map_congr_left (fun r _ => by rw [(h3 r).1]))
  · intro d hdm
    obtain ⟨ds, hds, hdd⟩ := List.mem_flatten.mp hdm
    obtain ⟨index, hi⟩ := List.getElem?_of_mem hds
    obtain ⟨g0, g, _, _, _, h4⟩ := h2 index ds hi
    obtain ⟨i, hii⟩ := List.getElem?_of_mem hdd
    obtain ⟨_, _, ⟨fp, fn, l, k1, k2, _⟩, _⟩ := h4 i d hii
    rw [List.mem_range, List.mem_range, hlen]
    exact ⟨(List.getElem?_eq_some_iff.mp k1).1, (List.getElem?_eq_some_iff.mp k2).1⟩

/-- A pairwise loss with exact arithmetic and a convex loss of pairs; row weights are not negative. -/
structure ConvexPair (e : PairLoss K) : Prop where
  sort : DescSortSpec e.sort
  ofNat : ∀ n, 0 ≤ e.ofNat n
  rnd32 : ∀ x, e.rnd32 x = x
  fabs : ∀ x, 0 ≤ e.fabs x
  weights : ∀ r, 0 ≤ e.w r
  hessian : ∀ a b, 0 ≤ (e.lossFn a b).2.2

end pairs

section descent
variable {K : Type} [Field K] [LinearOrder K] [IsStrictOrderedRing K] {A : Type} [LinearOrder A] [ThrOps A]

/-- **C205 (partial).** If every row has weight 1 and all rows are used for the tree, then adding the tree fitted to the gradients of a pairwise loss (or
LambdaMART) does not raise the weighted loss of the sampled pairs, to first order.  Missing: rows of different weights, for which it is false. -/
theorem C205_descent_partial {e : PairLoss K} (he : ConvexPair e) {numRows : Nat} {col : Option StrCol} {s s' : PairState K} {f : List K} {c : K}
    {env : FitEnv K A} (hr : PairReach e numRows col s) (hc : pairCompute e s f = ok (s', c, env.grads)) {cfg : FitConfig K}
    {columns : String → Option (Column A)} (hd : FitData env columns) (hexact : ∀ y, env.rnd32 y = y) (hlam : 0 ≤ cfg.l2Lambda)
    (hall : ∀ k, env.draw k < cfg.exampleRate) (hw : env.w = e.w) (hone : ∀ i, e.w i = 1) {p q : Nat} {t : Tree K A} (h : fitTree env cfg p = ok (t, q)) :
    ∃ draws : List (List (Draw K)), draws.length = s.groups.length ∧
      (∀ (index : Nat) (ds : List (Draw K)), draws[index]? = some ds → DrawsOf e s f index ds) ∧
      ((List.range env.grads.length).map (fun i => gOf env.grads i * (scoreOf columns t i).getD 0)).sum =
        pairSlope draws.flatten (fun i => (scoreOf columns t i).getD 0) ∧
      0 ≤ pairSlope draws.flatten (fun i => (scoreOf columns t i).getD 0) := by
  obtain ⟨draws, h1, h2, h3⟩ := C205_slope he.sort hr hc (fun i => (scoreOf columns t i).getD 0)
  refine ⟨draws, h1, h2, h3, ?_⟩
  rw [← h3]
  obtain ⟨s0, s, all, p1, _, _, _, hs, _⟩ := fitTree_ok hd h
  have hsamp := (C22_rate_one_zero _ _ _ _ _ _ _ _ hs).1 (fun k => by simpa using hall k)
  subst hsamp
  have hhess := C51_hessians he.sort he.ofNat (fun x hx => by rw [he.rnd32]; exact hx) he.fabs he.weights he.hessian hr hc
  have hg : ∀ i, (weighted env.w env.grads i).g = gOf env.grads i := by
    intro i
    simp only [weighted, gOf, hw, hone]
    cases env.grads[i]? with
    | none => rfl
    | some d => simp [GD.scale]
  have := fit_ascent hd hexact h hs hlam (fun i => by
    simp only [weighted, hw, hone]
    cases hi : env.grads[i]? with
    | none => exact le_refl _
    | some d =>
      have := hhess d (List.mem_of_getElem? hi)
      simpa [GD.scale] using this)
  refine le_of_le_of_eq this ?_
  exact congrArg List.sum (List.map_congr_left (fun i _ => by rw [hg]))

end descent

/-- **C205 (in full).** Any positive weights. -/
def C205_full : Prop :=
  ∀ (e : PairLoss ℚ) (numRows : Nat) (col : Option StrCol) (s s' : PairState ℚ) (f : List ℚ) (c : ℚ) (env : FitEnv ℚ ℚ) (cfg : FitConfig ℚ)
    (columns : String → Option (Column ℚ)) (p q : Nat) (t : Tree ℚ ℚ), ConvexPair e → PairReach e numRows col s →
    pairCompute e s f = ok (s', c, env.grads) → FitData env columns → (∀ y, env.rnd32 y = y) → 0 ≤ cfg.l2Lambda →
    (∀ k, env.draw k < cfg.exampleRate) → env.w = e.w → (∀ i, 0 < e.w i) → fitTree env cfg p = ok (t, q) →
    ∃ draws : List (List (Draw ℚ)), draws.length = s.groups.length ∧
      (∀ (index : Nat) (ds : List (Draw ℚ)), draws[index]? = some ds → DrawsOf e s f index ds) ∧
      ((List.range env.grads.length).map (fun i => gOf env.grads i * (scoreOf columns t i).getD 0)).sum =
        pairSlope draws.flatten (fun i => (scoreOf columns t i).getD 0) ∧
      0 ≤ pairSlope draws.flatten (fun i => (scoreOf columns t i).getD 0)

/-- Three groups of a pair each: rows 0 and 1, rows 3 and 4, rows 2 and 5. -/
def twiceGroups : StrCol := StrCol.build [["1", "1", "3", "2", "2", "3"]]

/-- One pair is drawn of each group; `weights` are the weights of the rows. -/
def twiceLoss (weights : List ℚ) : PairLoss ℚ :=
  { fewLoss 1 (fun i => [2, 1, 2, 2, 1, 1].getD i 0) with w := fun i => weights.getD i 1 }

theorem twice_convex {weights : List ℚ} (h : ∀ x ∈ weights, 0 < x) : ConvexPair (twiceLoss weights) where
  sort := ratDescSort_spec
  ofNat := fun n => Nat.cast_nonneg n
  rnd32 := fun _ => rfl
  fabs := fun x => by
    simp only [twiceLoss, fewLoss]
    split <;> linarith
  weights := fun r => by
    simp only [twiceLoss, List.getD_eq_getElem?_getD]
    cases hr : weights[r]? with
    | none => simp
    | some x => exact (h x (List.mem_of_getElem? hr)).le
  hessian := fun a b => by
    simp only [twiceLoss, fewLoss]
    split <;> simp

/-- The only feature tells the first three rows from the others. -/
def twiceCols (name : String) : Option (Column ℚ) :=
  if name = "side" then some (.str (StrCol.build [["l", "l", "l", "r", "r", "r"]])) else none

/-- The gradients of the first round, with all scores 0. -/
def twiceGrads (weights : List ℚ) : List (GD ℚ) :=
  match pairCompute (twiceLoss weights) (madeState (twiceLoss weights) 6 (some twiceGroups)) [0, 0, 0, 0, 0, 0] with
  | .ok (_, _, grads) => grads
  | _ => []

/-- What the tree is fitted to. -/
def twiceEnv (weights : List ℚ) : FitEnv ℚ ℚ :=
  { fitEnv with
    w := (twiceLoss weights).w
    features := [("side", .str (StrCol.build [["l", "l", "l", "r", "r", "r"]]))]
    grads := twiceGrads weights }

/-- Two leaves. -/
def twiceCfg : FitConfig ℚ := { fitCfg with numLeaves := 2 }

theorem twice_data {weights : List ℚ} (h : (twiceGrads weights).length = 6) : FitData (twiceEnv weights) twiceCols where
  rows := fun name c hc => by
    simp only [twiceEnv, List.mem_singleton, Prod.mk.injEq] at hc
    obtain ⟨rfl, rfl⟩ := hc
    have : HasRows 6 (.str (StrCol.build [["l", "l", "l", "r", "r", "r"]]) : Column ℚ) :=
      (TrainRows.str (A := ℚ) [["l", "l", "l", "r", "r", "r"]] (by decide) (by decide) : TrainRows 6 _).hasRows
    rw [← h] at this
    exact this
  stored := fun name c hc => by
    simp only [twiceEnv, List.mem_singleton, Prod.mk.injEq] at hc
    obtain ⟨rfl, rfl⟩ := hc
    rfl

theorem twice_draw (weights : List ℚ) (k : Nat) : (twiceEnv weights).draw k < twiceCfg.exampleRate := limit_draw k

theorem twice_init {weights : List ℚ}
    (h : (match pairInit (twiceLoss weights) 6 (some twiceGroups) with | .ok (.ok _) => true | _ => false) = true) :
    PairReach (twiceLoss weights) 6 (some twiceGroups) (madeState (twiceLoss weights) 6 (some twiceGroups)) := PairReach.init (madeState_eq h)

theorem twice_compute {weights : List ℚ}
    (h : ∃ a, pairCompute (twiceLoss weights) (madeState (twiceLoss weights) 6 (some twiceGroups)) [0, 0, 0, 0, 0, 0] = ok a) :
    ∃ s' c, pairCompute (twiceLoss weights) (madeState (twiceLoss weights) 6 (some twiceGroups)) [0, 0, 0, 0, 0, 0] =
      ok (s', c, (twiceEnv weights).grads) := by
  obtain ⟨⟨s', c, grads⟩, hc⟩ := h
  refine ⟨s', c, ?_⟩
  simp only [twiceEnv, twiceGrads, hc]

/-- **C205 is false.** The row weights count twice: the weight of a pair is the product of the weights of its rows, and the tree is fitted to the gradients
of the rows times their weights again.  Here the only pair whose rows a tree can tell apart is that of rows 2 and 5, ranked wrongly by the tree. -/
theorem C205_refuted : ¬ C205_full := by
  intro h
  obtain ⟨s', c, hc⟩ := twice_compute (weights := [1, 4, 1, 4, 1, 1]) (defined_of (by decide +kernel))
  obtain ⟨⟨t, q⟩, ht⟩ := defined_of (o := fitTree (twiceEnv [1, 4, 1, 4, 1, 1]) twiceCfg 0) (by decide +kernel)
  have hpos : ∀ i, 0 < (twiceLoss [1, 4, 1, 4, 1, 1]).w i := by
    intro i
    simp only [twiceLoss, List.getD_eq_getElem?_getD]
    cases hr : ([1, 4, 1, 4, 1, 1] : List ℚ)[i]? with
    | none => simp
    | some x => exact (show ∀ x ∈ ([1, 4, 1, 4, 1, 1] : List ℚ), 0 < x by decide +kernel) x (List.mem_of_getElem? hr)
  obtain ⟨draws, _, _, h1, h2⟩ := h _ 6 _ _ s' _ c (twiceEnv [1, 4, 1, 4, 1, 1]) twiceCfg twiceCols 0 q t
    (twice_convex (by decide +kernel)) (twice_init (by decide +kernel)) hc (twice_data (by decide +kernel)) (fun _ => rfl)
    (by decide +kernel) (twice_draw _) rfl hpos ht
  rw [← h1] at h2
  have key : (match fitTree (twiceEnv [1, 4, 1, 4, 1, 1]) twiceCfg 0 with
    | .ok (t, _) => decide (((List.range (twiceEnv [1, 4, 1, 4, 1, 1]).grads.length).map
      (fun i => gOf (twiceEnv [1, 4, 1, 4, 1, 1]).grads i * (scoreOf twiceCols t i).getD 0)).sum < 0)
    | _ => false) = true := by decide +kernel
  rw [ht] at key
  exact absurd h2 (not_le.mpr (of_decide_eq_true key))

/-- With weights of 1 the hypotheses of `C205_descent_partial` hold for the same rows, and the loss falls at the rate `2/7`. -/
example : ∃ s' c t q, ConvexPair (twiceLoss [1, 1, 1, 1, 1, 1]) ∧
    PairReach (twiceLoss [1, 1, 1, 1, 1, 1]) 6 (some twiceGroups) (madeState (twiceLoss [1, 1, 1, 1, 1, 1]) 6 (some twiceGroups)) ∧
    pairCompute (twiceLoss [1, 1, 1, 1, 1, 1]) (madeState (twiceLoss [1, 1, 1, 1, 1, 1]) 6 (some twiceGroups)) [0, 0, 0, 0, 0, 0] =
      ok (s', c, (twiceEnv [1, 1, 1, 1, 1, 1]).grads) ∧
    FitData (twiceEnv [1, 1, 1, 1, 1, 1]) twiceCols ∧ (∀ k, (twiceEnv [1, 1, 1, 1, 1, 1]).draw k < twiceCfg.exampleRate) ∧
    fitTree (twiceEnv [1, 1, 1, 1, 1, 1]) twiceCfg 0 = ok (t, q) ∧
    ((List.range 6).map (fun i => gOf (twiceEnv [1, 1, 1, 1, 1, 1]).grads i * (scoreOf twiceCols t i).getD 0)).sum = 2 / 7 := by
  obtain ⟨s', c, hc⟩ := twice_compute (weights := [1, 1, 1, 1, 1, 1]) (defined_of (by decide +kernel))
  obtain ⟨⟨t, q⟩, ht⟩ := defined_of (o := fitTree (twiceEnv [1, 1, 1, 1, 1, 1]) twiceCfg 0) (by decide +kernel)
  refine ⟨s', c, t, q, twice_convex (by decide +kernel), twice_init (by decide +kernel), hc, twice_data (by decide +kernel), twice_draw _, ht, ?_⟩
  have key : (match fitTree (twiceEnv [1, 1, 1, 1, 1, 1]) twiceCfg 0 with
    | .ok (t, _) => decide (((List.range 6).map
      (fun i => gOf (twiceEnv [1, 1, 1, 1, 1, 1]).grads i * (scoreOf twiceCols t i).getD 0)).sum = 2 / 7)
    | _ => false) = true := by decide +kernel
  rw [ht] at key
  exact of_decide_eq_true key

end Gbdt
