import Verif.Props.PairDescent
import Verif.Props.LogError

/-!
# C206: with enough regularization a tree does not raise the loss of the sampled pairs

Specification: `pairLossAt` is the weighted loss of the sampled pairs at given scores.
-/

set_option autoImplicit false
set_option linter.unusedSectionVars false

namespace Gbdt

open Outcome

section fit
variable {K : Type} [Field K] [LinearOrder K] [IsStrictOrderedRing K] {A : Type} [LinearOrder A] [ThrOps A]

theorem newton_square (a : GD K) {lambda x : K} (h : 0 ≤ a.h) (hx : x ≤ lambda) :
    x * (a.score lambda * a.score lambda) ≤ a.g * a.score lambda := by
  simp only [GD.score, exact_eqb, decide_eq_true_eq]
  split
  · simp
  · next hne =>
    have e : a.g * (a.g / (a.h + lambda)) = (a.h + lambda) * (a.g / (a.h + lambda) * (a.g / (a.h + lambda))) := by
      field_simp
    rw [e]
    exact mul_le_mul_of_nonneg_right (by linarith) (mul_self_nonneg _)

/-- A fitted tree gains more, to first order, than weighted squares of its scores, if the weights add up to at most `l2_lambda`. -/
theorem fit_squares {env : FitEnv K A} {cfg : FitConfig K} {columns : String → Option (Column A)} (hd : FitData env columns)
    (hexact : ∀ y, env.rnd32 y = y) {p q : Nat} {t : Tree K A} (h : fitTree env cfg p = ok (t, q)) {samples : List Nat} {p1 : Nat}
    (hs : uniformSubsample env.toInt env.ofNat env.draw env.grads.length cfg.exampleRate p = ok (samples, p1))
    (hh : ∀ i, 0 ≤ (weighted env.w env.grads i).h) {a : Nat → K} (ha : ∀ i, 0 ≤ a i) (hsum : (samples.map a).sum ≤ cfg.l2Lambda) :
    (samples.map (fun i => a i * ((scoreOf columns t i).getD 0 * (scoreOf columns t i).getD 0))).sum ≤
      (samples.map (fun i => (weighted env.w env.grads i).g * (scoreOf columns t i).getD 0)).sum := by
  obtain ⟨s0, s, all, p1', h0, hl, rfl, h3, hall, _, hg0, hg, _⟩ := fitTree_ok hd h
  rw [hs] at h3
  cases h3
  set x := weighted env.w env.grads with hx
  have hsc : ∀ e ∈ s.queue, ∀ i ∈ e.samples, (scoreOf columns s.tree i).getD 0 = (sumOf x e.samples).score cfg.l2Lambda := by
    intro e hem i hi
    obtain ⟨y, hy⟩ := hg.routed e hem i hi
    obtain ⟨sp, hl⟩ := leafOf_isLeafAt hg.wf hy
    obtain ⟨total, best, p, p1, h1, h2, h3, h4⟩ := hg.entry e hem
    rw [newNode_eq env cfg total h2] at h4
    obtain ⟨h5, _⟩ := IsLeafAt.unique hl h4
    have hin : ∀ i ∈ e.samples, i < env.grads.length := fun i hi => hall i (hg.perm.mem_iff.mp (List.mem_flatMap.mpr ⟨e, hem, hi⟩))
    rw [weightedSum_exact hin h1, hexact] at h5
    simp [scoreOf, hy, h5, hx]
  rw [← (hg.perm.map _).sum_eq, ← (hg.perm.map (fun i => (x i).g * _)).sum_eq]
  rw [← (hg.perm.map a).sum_eq] at hsum
  have : ∀ q : List (NodeData A), (∀ e ∈ q, e ∈ s.queue) → ((q.flatMap NodeData.samples).map a).sum ≤ cfg.l2Lambda →
      ((q.flatMap NodeData.samples).map (fun i => a i * ((scoreOf columns s.tree i).getD 0 * (scoreOf columns s.tree i).getD 0))).sum ≤
        ((q.flatMap NodeData.samples).map (fun i => (x i).g * (scoreOf columns s.tree i).getD 0)).sum := by
    intro q
    induction q with
    | nil => intro _ _; simp
    | cons e q ih =>
      intro hq hle
      simp only [List.flatMap_cons, List.map_append, List.sum_append] at hle ⊢
      have n1 : 0 ≤ (e.samples.map a).sum := List.sum_nonneg (fun y hy => by obtain ⟨i, _, rfl⟩ := List.mem_map.mp hy; exact ha i)
      have n2 : 0 ≤ ((q.flatMap NodeData.samples).map a).sum :=
        List.sum_nonneg (fun y hy => by obtain ⟨i, _, rfl⟩ := List.mem_map.mp hy; exact ha i)
      have ih := ih (fun e' h => hq e' (List.mem_cons_of_mem _ h)) (by linarith)
      have e1 : (e.samples.map (fun i => (x i).g * (scoreOf columns s.tree i).getD 0)).sum =
          (sumOf x e.samples).g * (sumOf x e.samples).score cfg.l2Lambda := by
        rw [sumOf_g, ← List.sum_map_mul_right]
        exact congrArg List.sum (List.map_congr_left (fun i hi => by rw [hsc e (hq e (by simp)) i hi]))
      have e2 : (e.samples.map (fun i => a i * ((scoreOf columns s.tree i).getD 0 * (scoreOf columns s.tree i).getD 0))).sum =
          (e.samples.map a).sum * ((sumOf x e.samples).score cfg.l2Lambda * (sumOf x e.samples).score cfg.l2Lambda) := by
        rw [← List.sum_map_mul_right]
        exact congrArg List.sum (List.map_congr_left (fun i hi => by rw [hsc e (hq e (by simp)) i hi]))
      rw [e1, e2]
      refine add_le_add (newton_square _ ?_ (by linarith)) ih
      rw [sumOf_h]
      apply List.sum_nonneg
      intro y hy
      obtain ⟨i, _, rfl⟩ := List.mem_map.mp hy
      exact hh i
  exact this _ (fun _ h => h) hsum

end fit

section pairs
variable {K : Type} [Field K] [LinearOrder K]

/-- The weighted loss of the pairs if row `i` has the score `v i`. -/
def pairLossAt (e : PairLoss K) (draws : List (Draw K)) (v : Nat → K) : K :=
  (draws.map (fun d => d.weight * (e.lossFn (e.y d.pos - e.y d.neg) (v d.pos - v d.neg)).1)).sum

/-- The weight of the pairs that a row is in. -/
def touch (r : Nat) (d : Draw K) : K := (if r = d.pos then d.weight else 0) + (if r = d.neg then d.weight else 0)

theorem touch_sum (v : Nat → K) {l : List Nat} (hl : l.Nodup) : ∀ (ds : List (Draw K)), (∀ d ∈ ds, d.pos ∈ l ∧ d.neg ∈ l) →
    (l.map (fun r => (ds.map (touch r)).sum * v r)).sum = (ds.map (fun d => d.weight * (v d.pos + v d.neg))).sum
  | [], _ => by simp
  | d :: ds, h => by
    have ih := touch_sum v hl ds (fun x hx => h x (List.mem_cons_of_mem d hx))
    obtain ⟨h1, h2⟩ := h d (by simp)
    simp only [List.map_cons, List.sum_cons, add_mul] at ih ⊢
    rw [List.sum_map_add, ih]
    congr 1
    simp only [touch, add_mul]
    rw [List.sum_map_add, sum_pick_mul _ v _ _ hl, sum_pick_mul _ v _ _ hl, if_pos h1, if_pos h2]
    ring

/-- The loss of a pair lies below parabolas: `m` times the reported gradient is minus its slope, and its curvature is at most `2 * κ`. -/
def BelowParabola (e : PairLoss K) (κ m : K) : Prop :=
  ∀ a, 0 < a → ∀ x δ, (e.lossFn a (x + δ)).1 ≤ (e.lossFn a x).1 - m * (e.lossFn a x).2.1 * δ + κ * (δ * δ)

end pairs

section fall
variable {K : Type} [Field K] [LinearOrder K] [IsStrictOrderedRing K] {A : Type} [LinearOrder A] [ThrOps A]

/-- A step along `v` changes the loss of the pairs by at most its slope and a multiple of the squares. -/
theorem pair_step {e : PairLoss K} {κ m : K} (hb : BelowParabola e κ m) (hκ : 0 ≤ κ) {f v : Nat → K} {s : K} : ∀ (ds : List (Draw K)),
    (∀ d ∈ ds, 0 ≤ d.weight ∧ e.y d.neg < e.y d.pos ∧ d.dg = (e.lossFn (e.y d.pos - e.y d.neg) (f d.pos - f d.neg)).2.1) →
    pairLossAt e ds (fun i => f i + s * v i) ≤ pairLossAt e ds f - m * s * pairSlope ds v +
      κ * (s * s) * 2 * (ds.map (fun d => d.weight * (v d.pos * v d.pos + v d.neg * v d.neg))).sum
  | [], _ => by simp [pairLossAt, pairSlope]
  | d :: ds, h => by
    have ih := pair_step (f := f) (v := v) (s := s) hb hκ ds (fun x hx => h x (List.mem_cons_of_mem d hx))
    obtain ⟨h1, h2, h3⟩ := h d (by simp)
    simp only [pairLossAt, pairSlope, List.map_cons, List.sum_cons] at ih ⊢
    have k := hb (e.y d.pos - e.y d.neg) (sub_pos.mpr h2) (f d.pos - f d.neg) (s * (v d.pos - v d.neg))
    rw [← h3, show f d.pos - f d.neg + s * (v d.pos - v d.neg) = f d.pos + s * v d.pos - (f d.neg + s * v d.neg) by ring] at k
    have k2 : κ * (s * (v d.pos - v d.neg) * (s * (v d.pos - v d.neg))) ≤ κ * (s * s) * 2 * (v d.pos * v d.pos + v d.neg * v d.neg) := by
      have : 0 ≤ κ * (s * s) * ((v d.pos + v d.neg) * (v d.pos + v d.neg)) :=
        mul_nonneg (mul_nonneg hκ (mul_self_nonneg _)) (mul_self_nonneg _)
      nlinarith [this]
    have k3 := mul_le_mul_of_nonneg_left (k.trans (add_le_add_right k2 _)) h1
    refine (add_le_add k3 ih).trans (le_of_eq ?_)
    ring

/-- **C206.** With enough regularization, and rows of weight 1, adding the tree fitted to the gradients of a pairwise loss, shrunk by any `s` between 0 and 1,
does not raise the weighted loss of the sampled pairs: `l2_lambda` has to be at least `4 * κ / m` times the weight of the pairs. -/
theorem C206_fall {e : PairLoss K} (he : ConvexPair e) {κ m : K} (hb : BelowParabola e κ m) (hκ : 0 ≤ κ) (hm : 0 < m) {numRows : Nat}
    {col : Option StrCol} {s s' : PairState K} {f : List K} {c : K}
    {env : FitEnv K A} (hr : PairReach e numRows col s) (hc : pairCompute e s f = ok (s', c, env.grads)) {cfg : FitConfig K}
    {columns : String → Option (Column A)} (hd : FitData env columns) (hexact : ∀ y, env.rnd32 y = y)
    (hall : ∀ k, env.draw k < cfg.exampleRate) (hw : env.w = e.w) (hone : ∀ i, e.w i = 1) {p q : Nat} {t : Tree K A} (h : fitTree env cfg p = ok (t, q)) :
    ∃ draws : List (List (Draw K)), draws.length = s.groups.length ∧
      (∀ (index : Nat) (ds : List (Draw K)), draws[index]? = some ds → DrawsOf e s f index ds) ∧
      (4 * κ * (draws.flatten.map (·.weight)).sum ≤ m * cfg.l2Lambda → ∀ step, 0 ≤ step → step ≤ 1 →
        pairLossAt e draws.flatten (fun i => f.getD i 0 + step * (scoreOf columns t i).getD 0) ≤ pairLossAt e draws.flatten (fun i => f.getD i 0)) := by
  obtain ⟨_, hlen, draws, h1, h2, h3⟩ := C75_gradients he.sort hr hc
  refine ⟨draws, h1, h2, fun hlam step hs0 hs1 => ?_⟩
  have hvalid : ∀ d ∈ draws.flatten, (d.pos ∈ List.range env.grads.length ∧ d.neg ∈ List.range env.grads.length) ∧
      (0 ≤ d.weight ∧ e.y d.neg < e.y d.pos ∧ d.dg = (e.lossFn (e.y d.pos - e.y d.neg) (f.getD d.pos 0 - f.getD d.neg 0)).2.1) := by
    intro d hdm
    obtain ⟨ds, hds, hdd⟩ := List.mem_flatten.mp hdm
    obtain ⟨index, hi⟩ := List.getElem?_of_mem hds
    obtain ⟨g0, g, _, _, _, h4⟩ := h2 index ds hi
    obtain ⟨i, hii⟩ := List.getElem?_of_mem hdd
    obtain ⟨_, hlt, ⟨fp, fn, l, k1, k2, k3⟩, a, b, ra, rb, _, _, _, _, hwt⟩ := h4 i d hii
    rw [he.rnd32] at k3
    have hlt' : e.y d.neg < e.y d.pos := by simpa using hlt
    refine ⟨?_, ?_, hlt', ?_⟩
    · rw [List.mem_range, List.mem_range, hlen]
      exact ⟨(List.getElem?_eq_some_iff.mp k1).1, (List.getElem?_eq_some_iff.mp k2).1⟩
    · have hwo : 0 ≤ weightOf e d.pos d.neg ra rb := by
        unfold weightOf
        have h0 : 0 ≤ e.rnd32 (e.y d.pos - e.y d.neg) := by rw [he.rnd32]; exact sub_nonneg.mpr hlt'.le
        split
        · exact mul_nonneg h0 (he.fabs _)
        · split
          · exact h0
          · exact he.ofNat 1
      have hfac : 0 ≤ (if e.equalWeight then e.ofNat s.minNumPairs / e.ofNat g0.numPairs else e.ofNat 1) := by
        split
        · exact div_nonneg (he.ofNat _) (he.ofNat _)
        · exact he.ofNat 1
      rw [hwt, he.rnd32]
      exact mul_nonneg (mul_nonneg (mul_nonneg (he.weights _) (he.weights _)) hwo) hfac
    · simp [List.getD_eq_getElem?_getD, k1, k2, k3]
  obtain ⟨s0, s1, all, p1, _, _, _, hs, _⟩ := fitTree_ok hd h
  have hsamp := (C22_rate_one_zero _ _ _ _ _ _ _ _ hs).1 (fun k => by simpa using hall k)
  subst hsamp
  have hhess := C51_hessians he.sort he.ofNat (fun x hx => by rw [he.rnd32]; exact hx) he.fabs he.weights he.hessian hr hc
  have hg : ∀ i, (weighted env.w env.grads i).g = gOf env.grads i := by
    intro i
    simp only [weighted, gOf, hw, hone]
    cases env.grads[i]? with
    | none => rfl
    | some d => simp [GD.scale]
  have hh : ∀ i, 0 ≤ (weighted env.w env.grads i).h := by
    intro i
    simp only [weighted, hw, hone]
    cases hi : env.grads[i]? with
    | none => exact le_refl _
    | some d =>
      have := hhess d (List.mem_of_getElem? hi)
      simpa [GD.scale] using this
  set P := draws.flatten with hP
  set v := fun i => (scoreOf columns t i).getD 0 with hv
  have hin : ∀ d ∈ P, d.pos ∈ List.range env.grads.length ∧ d.neg ∈ List.range env.grads.length := fun d hdm => (hvalid d hdm).1
  have hcoef : 0 ≤ 2 * κ / m := div_nonneg (mul_nonneg zero_le_two hκ) hm.le
  have htouch : ∀ i, 0 ≤ (P.map (touch i)).sum := by
    intro i
    apply List.sum_nonneg
    intro y hy
    obtain ⟨d, hdm, rfl⟩ := List.mem_map.mp hy
    have := (hvalid d hdm).2.1
    unfold touch
    split <;> split <;> linarith
  have hsum1 := touch_sum (fun _ => (1 : K)) List.nodup_range P hin
  have hsum2 := touch_sum (fun i => v i * v i) List.nodup_range P hin
  have key := fit_squares hd hexact h hs hh (a := fun i => 2 * κ / m * (P.map (touch i)).sum) (fun i => mul_nonneg hcoef (htouch i)) (by
    rw [List.sum_map_mul_left]
    simp only [mul_one] at hsum1
    rw [hsum1, List.sum_map_mul_right, div_mul_eq_mul_div, div_le_iff₀ hm]
    linarith)
  have hslope : ((List.range env.grads.length).map (fun i => (weighted env.w env.grads i).g * v i)).sum = pairSlope P v := by
    rw [← pull_slope v List.nodup_range P hin]
    exact congrArg List.sum (List.map_congr_left (fun i _ => by rw [hg, (h3 i).1]))
  rw [hslope] at key
  have e3 : ((List.range env.grads.length).map (fun i => 2 * κ / m * (P.map (touch i)).sum * (v i * v i))).sum =
      2 * κ / m * (P.map (fun d => d.weight * (v d.pos * v d.pos + v d.neg * v d.neg))).sum := by
    rw [← hsum2, ← List.sum_map_mul_left]
    exact congrArg List.sum (List.map_congr_left (fun i _ => by ring))
  rw [e3] at key
  have hstep := pair_step (f := fun i => f.getD i 0) (v := v) (s := step) hb hκ P (fun d hdm => (hvalid d hdm).2)
  refine hstep.trans ?_
  have hQ : 0 ≤ κ * (P.map (fun d => d.weight * (v d.pos * v d.pos + v d.neg * v d.neg))).sum := by
    refine mul_nonneg hκ (List.sum_nonneg (fun y hy => ?_))
    obtain ⟨d, hdm, rfl⟩ := List.mem_map.mp hy
    exact mul_nonneg (hvalid d hdm).2.1 (add_nonneg (mul_self_nonneg _) (mul_self_nonneg _))
  generalize (P.map (fun d => d.weight * (v d.pos * v d.pos + v d.neg * v d.neg))).sum = Q at *
  generalize pairSlope P v = S at *
  rw [div_mul_eq_mul_div, div_le_iff₀ hm] at key
  nlinarith [mul_nonneg (mul_nonneg hs0 (sub_nonneg.mpr hs1)) hQ, mul_le_mul_of_nonneg_left key hs0]

end fall

section train
variable {K : Type} [Field K] [LinearOrder K] [IsStrictOrderedRing K] {A : Type} [LinearOrder A] [ThrOps A]

/-- Training with a pairwise loss without rounding, on all rows, all of weight 1, with shrinkage between 0 and 1. -/
structure PlainRanking (env : TrainEnv K A) (cfg : TrainConfig K) (e : PairLoss K) : Prop where
  convex : ConvexPair e
  weights : env.w = e.w
  ones : ∀ i, e.w i = 1
  exact : env.rnd32 = id
  allRows : ∀ k, env.draw k < cfg.exampleRate
  shrink0 : 0 ≤ cfg.shrinkage
  shrink1 : cfg.shrinkage ≤ 1

theorem boosts_pair_fall {env : TrainEnv K A} {cfg : TrainConfig K} {e : PairLoss K} (hm : PlainRanking env cfg e) {κ m : K}
    (hb : BelowParabola e κ m) (hκ : 0 ≤ κ) (hm0 : 0 < m) (hrows : ∀ name c, env.columns name = some c → HasRows env.numRows c) {names : List String}
    {features : List (String × Column A)} (hl : loadFeatures env.columns names = .ok features) {col : Option StrCol}
    {s s' : PairState K} {p q : Nat} {before rounds : List (Tree K A × K)} (h : Boosts env e.toLoss features cfg s p before rounds s' q) :
    PairReach e env.numRows col s → ∀ (i : Nat) (t : Tree K A) (c : K), rounds[i]? = some (t, c) →
      ∃ (s : PairState K) (f : List K) (draws : List (List (Draw K))), PairReach e env.numRows col s ∧ ValuesOf env (before ++ rounds.take i) f ∧
        draws.length = s.groups.length ∧ (∀ (index : Nat) (ds : List (Draw K)), draws[index]? = some ds → DrawsOf e s f index ds) ∧
        (4 * κ * (draws.flatten.map (·.weight)).sum ≤ m * cfg.l2Lambda →
          pairLossAt e draws.flatten (fun k => f.getD k 0 + (scoreOf env.columns t k).getD 0) ≤ pairLossAt e draws.flatten (fun k => f.getD k 0)) := by
  induction h with
  | done => intro _ i t c h; simp at h
  | @round s s1 s2 p p1 p2 before after f c grads t h1 h2 h3 h4 h5 ih =>
    intro hr i u d hi
    cases i with
    | zero =>
      rw [List.getElem?_cons_zero, Option.some.injEq, Prod.mk.injEq] at hi
      obtain ⟨rfl, rfl⟩ := hi
      rw [List.take_zero, List.append_nil]
      obtain ⟨_, hlen, _⟩ := C75_gradients hm.convex.sort hr h2
      have hfd : FitData (env.fit features grads) env.columns := by
        refine ⟨fun name c hmem => ?_, (loadFeatures_mem hl).2⟩
        show HasRows grads.length c
        rw [hlen, h1.1]
        exact hrows _ _ ((loadFeatures_mem hl).2 _ _ hmem)
      obtain ⟨draws, d1, d2, d3⟩ := C206_fall (env := env.fit features grads) (cfg := cfg.fit) hm.convex hb hκ hm0 hr h2 hfd
        (fun y => by show env.rnd32 y = y; rw [hm.exact]; rfl) hm.allRows hm.weights hm.ones h4
      refine ⟨s, f, draws, hr, h1, d1, d2, fun hle => ?_⟩
      have := d3 hle cfg.shrinkage hm.shrink0 hm.shrink1
      have hwf := (C33_shape hfd h4).2.2
      have hs : ∀ k, (scoreOf env.columns (applyShrinkage env.rnd32 cfg.shrinkage t) k).getD 0 =
          cfg.shrinkage * (scoreOf env.columns t k).getD 0 := by
        intro k
        rw [scoreOf, C41_shrinkage env.columns env.rnd32 cfg.shrinkage t hwf k, scoreOf, hm.exact]
        cases leafOf env.columns t k <;> simp [mul_comm]
      simpa only [hs] using this
    | succ i =>
      have := ih (.compute hr h2) i u d (by simpa using hi)
      simp only [List.append_assoc, List.singleton_append] at this
      rw [List.take_succ_cons]
      exact this

/-- **C206 (training).** In every round of a successful training, the tree that is put into the forest does not raise the weighted loss of the pairs drawn in
that round, at the values `f` of all trees so far, provided that `l2_lambda` is large enough for the weight of those pairs. -/
theorem C206_train [FloorSemiring K] {env : TrainEnv K A} {names : List String} {cfg : TrainConfig K} {base : Option (List (Tree K A))}
    (hs : TrainStore env names cfg (base.getD [])) {e : PairLoss K} (hm : PlainRanking env cfg e) {κ m : K} (hb : BelowParabola e κ m) (hκ : 0 ≤ κ)
    (hm0 : 0 < m) {p : Nat} {r : TrainResult K A} (h : trainGBDT env e.toLoss names cfg base [] p = ok r) (hok : r.code = .ok) :
    ∃ (col : Option StrCol) (rounds : List (Tree K A × K)), groupOrDie env.columns cfg.groupColumn = ok col ∧ (rounds.length : Int) = cfg.numTrees ∧
      r.forest.tail = ((base.getD []).filter (fun t => !isSingleNode t) ++ rounds.map Prod.fst).map clearInternal ∧
      ∀ (i : Nat) (t : Tree K A) (c : K), rounds[i]? = some (t, c) →
        ∃ (s : PairState K) (f : List K) (draws : List (List (Draw K))), PairReach e env.numRows col s ∧
          ValuesOf env ((base.getD []).map (fun t => (t, 0)) ++ rounds.take i) f ∧
          draws.length = s.groups.length ∧ (∀ (index : Nat) (ds : List (Draw K)), draws[index]? = some ds → DrawsOf e s f index ds) ∧
          (4 * κ * (draws.flatten.map (·.weight)).sum ≤ m * cfg.l2Lambda →
            pairLossAt e draws.flatten (fun k => f.getD k 0 + (scoreOf env.columns t k).getD 0) ≤ pairLossAt e draws.flatten (fun k => f.getD k 0)) := by
  have hd := pairTrainData hs hm.convex.sort
  obtain ⟨features, group, start, rounds, finish, b1, b2, b3, b4, b5, b6, b7⟩ := C73_rounds hd h hok
  exact ⟨group, rounds, b2, b5, by rw [b7]; rfl, boosts_pair_fall hm hb hκ hm0 hd.rows b1 b4 (PairReach.init b3)⟩

end train

/-- **C206 (the losses).** The losses of ranking lie below parabolas, so that `l2_lambda` is large enough if it is at least half the weight of the pairs for
pairwise_logloss and lambdamart, and twice that weight for auc and gbrank. -/
theorem C206_losses (e : PairLoss ℝ) :
    (e.lossFn = (fun _ df => logLoss realMath realMath.one df) → BelowParabola e (1 / 8) 1) ∧
    (e.lossFn = (fun _ df => huberizedHinge realMath realMath.one df) → BelowParabola e (1 / 2) 1) ∧
    (e.lossFn = squaredHinge realMath → BelowParabola e 1 2) := by
  refine ⟨?_, ?_, ?_⟩
  · intro h a _ x δ
    rw [h]
    have := logistic_step (y := 1) (Or.inl rfl) x δ
    have e1 : ∀ x, (logLoss realMath realMath.one x).1 = logistic (1 * x) := fun x => by simp [logLoss, realMath, logistic]
    simp only [e1]
    have e2 : realMath.one = 1 := rfl
    rw [e2]
    linarith
  · intro h a _ x δ
    rw [h]
    simp only [huberizedHinge, realMath, Dbl.leb, exact_ltb, exact_eqb, Bool.or_eq_true, decide_eq_true_eq, ← le_iff_lt_or_eq, one_mul]
    split_ifs <;> simp only [] <;> nlinarith [mul_self_nonneg δ, mul_self_nonneg (1 - x), mul_self_nonneg (1 - x - δ), mul_self_nonneg x, mul_self_nonneg (x + δ)]
  · intro h a ha x δ
    rw [h]
    simp only [squaredHinge, realMath, exact_ltb, decide_eq_true_eq, mul_pos_iff_of_pos_right ha, sub_pos]
    split_ifs <;> simp only [] <;> nlinarith [mul_self_nonneg δ, mul_self_nonneg (a - x), mul_self_nonneg (a - x - δ)]

/-- The data of C205 with weights of 1 and `l2_lambda` 6: the pairs weigh 3. -/
def fallCfg : FitConfig ℚ := { twiceCfg with l2Lambda := 6 }

theorem twice_parabola (weights : List ℚ) : BelowParabola (twiceLoss weights) (1 / 2) 1 := by
  intro a _ x δ
  simp only [twiceLoss, fewLoss]
  split_ifs <;> simp only [] <;> nlinarith [mul_self_nonneg δ, mul_self_nonneg (1 - x), mul_self_nonneg (1 - x - δ)]

/-- The hypotheses of `C206_fall` hold; the pair of rows 2 and 5 has loss `1/2` before, and less after. -/
example : ∃ s' c t q, ConvexPair (twiceLoss [1, 1, 1, 1, 1, 1]) ∧ BelowParabola (twiceLoss [1, 1, 1, 1, 1, 1]) (1 / 2) 1 ∧
    PairReach (twiceLoss [1, 1, 1, 1, 1, 1]) 6 (some twiceGroups) (madeState (twiceLoss [1, 1, 1, 1, 1, 1]) 6 (some twiceGroups)) ∧
    pairCompute (twiceLoss [1, 1, 1, 1, 1, 1]) (madeState (twiceLoss [1, 1, 1, 1, 1, 1]) 6 (some twiceGroups)) [0, 0, 0, 0, 0, 0] =
      ok (s', c, (twiceEnv [1, 1, 1, 1, 1, 1]).grads) ∧
    FitData (twiceEnv [1, 1, 1, 1, 1, 1]) twiceCols ∧ (∀ k, (twiceEnv [1, 1, 1, 1, 1, 1]).draw k < fallCfg.exampleRate) ∧
    (4 * (1 / 2) * (1 + 1 + 1) : ℚ) ≤ 1 * fallCfg.l2Lambda ∧
    fitTree (twiceEnv [1, 1, 1, 1, 1, 1]) fallCfg 0 = ok (t, q) ∧
    (List.range 6).map (fun i => (scoreOf twiceCols t i).getD 0) = [1 / 12, 1 / 12, 1 / 12, -1 / 12, -1 / 12, -1 / 12] := by
  obtain ⟨s', c, hc⟩ := twice_compute (weights := [1, 1, 1, 1, 1, 1]) (defined_of (by decide +kernel))
  obtain ⟨⟨t, q⟩, ht⟩ := defined_of (o := fitTree (twiceEnv [1, 1, 1, 1, 1, 1]) fallCfg 0) (by decide +kernel)
  refine ⟨s', c, t, q, twice_convex (by decide +kernel), twice_parabola _, twice_init (by decide +kernel), hc, twice_data (by decide +kernel),
    twice_draw _, by decide +kernel, ht, ?_⟩
  have key : (match fitTree (twiceEnv [1, 1, 1, 1, 1, 1]) fallCfg 0 with
    | .ok (t, _) => decide ((List.range 6).map (fun i => (scoreOf twiceCols t i).getD 0) = [1 / 12, 1 / 12, 1 / 12, -1 / 12, -1 / 12, -1 / 12])
    | _ => false) = true := by decide +kernel
  rw [ht] at key
  exact of_decide_eq_true key

/-- The five rows of the examples of training, ranked: five pairs are drawn in a round. -/
def plainLoss : PairLoss ℚ := fewLoss 2 (fun i => trainTargets.getD i 0)

/-- `l2_lambda` 10 is enough for five pairs. -/
def plainCfg : TrainConfig ℚ := { trainCfg with l2Lambda := 10 }

/-- The hypotheses of `C206_train`. -/
example : TrainStore trainEnv ["color", "size"] plainCfg ((none : Option (List (Tree ℚ ℚ))).getD []) ∧ PlainRanking trainEnv plainCfg plainLoss ∧
    BelowParabola plainLoss (1 / 2) 1 ∧
    (match trainGBDT trainEnv plainLoss.toLoss ["color", "size"] plainCfg none [] 0 with
      | .ok r => decide (r.code = .ok ∧ r.forest.length = 3)
      | _ => false) = true := by
  refine ⟨{ trainStore with
      scorable := fun _ h => absurd h List.not_mem_nil
      baseFeatures := fun _ h => absurd h List.not_mem_nil }, ⟨?_, rfl, fun _ => rfl, rfl, limit_draw, by decide +kernel, by decide +kernel⟩, ?_, by decide +kernel⟩
  · exact {
      sort := ratDescSort_spec
      ofNat := fun n => Nat.cast_nonneg n
      rnd32 := fun _ => rfl
      fabs := fun x => by
        simp only [plainLoss, fewLoss]
        split <;> linarith
      weights := fun _ => zero_le_one
      hessian := fun a b => by
        simp only [plainLoss, fewLoss]
        split <;> simp }
  · exact twice_parabola []

end Gbdt
