import Verif.Lemmas.GainSum
import Verif.Props.MoreLeaves
import Verif.Props.SplitWitness

/-!
# C181, C182, C183: the limits on splits, and the gains of a tree added up

Specification: `leafScores` and `ColumnFine` (`Verif/Spec/Limits.lean`), `innerSplits` (`Verif/Props/Importance.lean`),
`treeObjective`, `rootOnly`, `leftError` (`Verif/Props/MoreLeaves.lean`).
-/

set_option autoImplicit false
set_option linter.unusedSectionVars false

namespace Gbdt
open Outcome

section gain
variable {D A : Type} [Dbl D] [LinearOrder A] [ThrOps A] [FpOrder D]

theorem findBestSplit_limits {sort : (Nat → D) → List Nat → List Nat} {c : Column A} {w : Nat → D}
    {grads : List (GD D)} {samples : List Nat} {cfg : SplitConfig D} {total : GD D} {s : Split D A}
    (h : findBestSplit sort c w grads samples cfg total = ok (some s)) (hm : Dbl.eqb cfg.minGain cfg.minGain = true)
    (ht : Dbl.eqb cfg.tol cfg.tol = true) : Dbl.ltb cfg.minGain s.gain = true ∧ Dbl.ltb cfg.tol s.gain = true := by
  cases c with
  | str c =>
    simp only [findBestSplit, findBestStringSplit, bind_eq_ok, pure_eq] at h
    obtain ⟨_, _, _, _, _, _, h⟩ := h
    split at h
    · cases h
    · rename_i p hp
      cases h
      exact C28_exceeds_limits cfg total _ _ p hp hm ht
  | bkt c =>
    simp only [findBestSplit, findBestFloatSplit, bind_eq_ok, pure_eq] at h
    obtain ⟨_, _, _, _, _, _, _, _, h⟩ := h
    split at h
    · cases h
    · rename_i p hp
      simp only [bind_eq_ok] at h
      obtain ⟨_, _, _, _, _, _, h⟩ := h
      cases h
      exact C28_exceeds_limits cfg total _ _ p hp hm ht
  | raw c => simp [findBestSplit] at h

/-- **C181.** Every split in a fitted tree gains more than `min_gain` and than the tolerance, provided these are not NaN. -/
theorem C181_gain {env : FitEnv D A} {cfg : FitConfig D} {columns : String → Option (Column A)} (hd : FitData env columns)
    (hm : Dbl.eqb cfg.minGain cfg.minGain = true) (htol : Dbl.eqb cfg.tol cfg.tol = true) {p q : Nat} {t : Tree D A}
    (h : fitTree env cfg p = ok (t, q)) {path : List Bool} {x : D} {s : Split D A} {l r : Tree D A}
    (hnode : t.at? path = some (.node x (some s) l r)) :
    Dbl.ltb cfg.minGain s.gain = true ∧ Dbl.ltb cfg.tol s.gain = true := by
  obtain ⟨_, _, all, p1, _, _, _, h3, _⟩ := fitTree_ok hd h
  obtain ⟨_, _, _, _, _, _, _, _, _, h6⟩ := C67_splits_are_best hd h h3 hnode
  obtain ⟨_, _, f, s0, _, h7, _, h8, _⟩ := h6 s rfl
  rw [h8]
  exact findBestSplit_limits h7 hm htol

end gain

section exact
variable {K : Type} [Field K] [LinearOrder K] [IsStrictOrderedRing K] {A : Type} [LinearOrder A] [ThrOps A]

/-- No value of a feature has, among the samples that pass a node, exactly one of its two sums equal to zero. -/
def FineIn (env : FitEnv K A) (columns : String → Option (Column A)) (samples : List Nat) (t : Tree K A) : Prop :=
  ∀ q name c, (name, c) ∈ env.features → ColumnFine c (weighted env.w env.grads) (samples.filter (passes columns t q))

/-- The surroundings of a fit in exact arithmetic. -/
structure ExactFit (env : FitEnv K A) (cfg : FitConfig K) (columns : String → Option (Column A)) : Prop where
  input : FitInput env cfg
  data : FitData env columns
  exact : ∀ y, env.rnd32 y = y
  thr : ∀ name b, (name, .bkt b) ∈ env.features → ThrSeparates b

theorem fitTree_sided {env : FitEnv K A} {cfg : FitConfig K} {columns : String → Option (Column A)} (he : ExactFit env cfg columns) {p q : Nat}
    {t : Tree K A} (h : fitTree env cfg p = ok (t, q)) {samples : List Nat} {p1 : Nat}
    (hs : uniformSubsample env.toInt env.ofNat env.draw env.grads.length cfg.exampleRate p = ok (samples, p1))
    (hz : FineIn env columns samples t) :
    ∃ s, s.tree = t ∧ Grown env cfg columns samples s ∧ Sided env cfg samples s ∧ ∀ i ∈ samples, i < env.grads.length := by
  obtain ⟨s0, s, all, p1', h0, hl, rfl, h3, hall, _, hg0, hg, _⟩ := fitTree_ok he.data h
  rw [hs] at h3
  cases h3
  exact ⟨s, rfl, hg, sided_loop he.input he.data he.exact he.thr hall hg0 (sided_start he.exact h0 hs) hl hz, hall⟩

/-- **C182 (partial).** If a tree has more than one leaf, the samples of each of its leaves have a hessian above `min_hessian`.  Missing: samples
with a value whose gradients cancel at some node. -/
theorem C182_hessian_partial {env : FitEnv K A} {cfg : FitConfig K} {columns : String → Option (Column A)} (he : ExactFit env cfg columns) {p q : Nat}
    {t : Tree K A} (h : fitTree env cfg p = ok (t, q)) {samples : List Nat} {p1 : Nat}
    (hs : uniformSubsample env.toInt env.ofNat env.draw env.grads.length cfg.exampleRate p = ok (samples, p1))
    (hz : FineIn env columns samples t) (hl : 1 < t.countLeaves) {path : List Bool} {x : K} {sp : Option (Split K A)} (hleaf : IsLeafAt t path x sp) :
    cfg.minHessian < ((samples.filter (reaches columns t path)).map (fun i => (weighted env.w env.grads i).h)).sum := by
  obtain ⟨s, rfl, hg, hv, _⟩ := fitTree_sided he h hs hz
  obtain ⟨e, hem, rfl, _⟩ := hg.leafEntry hleaf
  rw [hg.count] at hl
  rcases hv.limit with h1 | h1
  · omega
  · have := h1 e hem
    rwa [sumOf_perm _ (hg.members hem), sumOf_h] at this

/-- The quadratic objective that a tree is fitted to, over the given samples: with `x i` the weighted gradient and hessian of row `i`, twice the
second order approximation of the loss with the regularisation of each leaf. -/
def treeObjective (columns : String → Option (Column A)) (x : Nat → GD K) (lambda : K) (samples : List Nat) (t : Tree K A) : K :=
  (samples.map (fun i => (x i).h * ((scoreOf columns t i).getD 0 * (scoreOf columns t i).getD 0) - 2 * ((x i).g * (scoreOf columns t i).getD 0))).sum +
    lambda * ((leafScores t).map (fun z => z * z)).sum

/-- The root of a tree without its children. -/
def rootOnly : Tree K A → Tree K A
  | .absent => .absent
  | .node x sp _ _ => .node x sp .absent .absent

theorem newton_energy (a : GD K) (lambda : K) :
    a.h * (a.score lambda * a.score lambda) - 2 * (a.g * a.score lambda) + lambda * (a.score lambda * a.score lambda) = - a.energy lambda := by
  simp only [GD.score, GD.energy, exact_eqb, decide_eq_true_eq]
  split
  · simp
  · next h =>
    field_simp
    ring

theorem quad_sum (x : Nat → GD K) (z : K) (l : List Nat) :
    (l.map (fun i => (x i).h * (z * z) - 2 * ((x i).g * z))).sum = (sumOf x l).h * (z * z) - 2 * ((sumOf x l).g * z) := by
  rw [sumOf_g, sumOf_h]
  induction l with
  | nil => simp
  | cons a l ih =>
    simp only [List.map_cons, List.sum_cons, ih]
    ring

/-- **C183 (partial).** The gains of the splits of a tree add up to what they take from the objective, compared to the root alone.  Missing: samples
with a value whose gradients cancel at some node. -/
theorem C183_sum_partial {env : FitEnv K A} {cfg : FitConfig K} {columns : String → Option (Column A)} (he : ExactFit env cfg columns) {p q : Nat}
    {t : Tree K A} (h : fitTree env cfg p = ok (t, q)) {samples : List Nat} {p1 : Nat}
    (hs : uniformSubsample env.toInt env.ofNat env.draw env.grads.length cfg.exampleRate p = ok (samples, p1))
    (hz : FineIn env columns samples t) :
    ((innerSplits t).map Split.gain).sum = treeObjective columns (weighted env.w env.grads) cfg.l2Lambda samples (rootOnly t) -
      treeObjective columns (weighted env.w env.grads) cfg.l2Lambda samples t := by
  have hroot : ∀ x0 sp l r, t = .node x0 sp l r → x0 = (sumOf (weighted env.w env.grads) samples).score cfg.l2Lambda := by
    intro x0 sp l r ht
    obtain ⟨m, total, h1, h2, h3⟩ := C35_scores he.data h hs (path := []) (by rw [ht]; rfl)
    have hpass : samples.filter (passes columns t []) = samples := by
      rw [List.filter_eq_self]
      intro i hi
      obtain ⟨_, _, _, g1, _⟩ := (C34_samples_reach_leaves he.data h).2 _ _ hs i hi
      simp [passes, g1]
    rw [hpass] at h1
    have ht2 := weightedSum_exact (fun i hi => subsample_lt hs i (h1.mem_iff.mp hi)) h2
    rw [h3, he.exact, ht2, sumOf_perm _ h1]
  obtain ⟨s, rfl, hg, hv, hall⟩ := fitTree_sided he h hs hz
  set x := weighted env.w env.grads with hx
  have hsc : ∀ e ∈ s.queue, ∀ i ∈ e.samples, (scoreOf columns s.tree i).getD 0 = (sumOf x e.samples).score cfg.l2Lambda := by
    intro e hem i hi
    obtain ⟨y, hy⟩ := hg.routed e hem i hi
    obtain ⟨sp, hl⟩ := leafOf_isLeafAt hg.wf hy
    obtain ⟨total, best, p, p1, h1, h2, h3, h4⟩ := hg.entry e hem
    rw [newNode_eq env cfg total h2] at h4
    obtain ⟨h5, _⟩ := IsLeafAt.unique hl h4
    have hin : ∀ i ∈ e.samples, i < env.grads.length := fun i hi => hall i (hg.perm.mem_iff.mp (List.mem_flatMap.mpr ⟨e, hem, hi⟩))
    rw [weightedSum_exact hin h1, he.exact] at h5
    simp [scoreOf, hy, h5, hx]
  have htree : treeObjective columns x cfg.l2Lambda samples s.tree = - (s.queue.map (fun e => (sumOf x e.samples).energy cfg.l2Lambda)).sum := by
    rw [treeObjective, hv.scores, ← (hg.perm.map _).sum_eq]
    have : ∀ q : List (NodeData A), (∀ e ∈ q, e ∈ s.queue) →
        ((q.flatMap NodeData.samples).map (fun i => (x i).h * ((scoreOf columns s.tree i).getD 0 * (scoreOf columns s.tree i).getD 0) -
          2 * ((x i).g * (scoreOf columns s.tree i).getD 0))).sum + cfg.l2Lambda * (q.map (fun e => (sumOf x e.samples).score cfg.l2Lambda *
            (sumOf x e.samples).score cfg.l2Lambda)).sum = - (q.map (fun e => (sumOf x e.samples).energy cfg.l2Lambda)).sum := by
      intro q
      induction q with
      | nil => intro _; simp
      | cons e q ih =>
        intro hq
        have ih := ih (fun e' h => hq e' (List.mem_cons_of_mem _ h))
        simp only [List.flatMap_cons, List.map_append, List.sum_append, List.map_cons, List.sum_cons]
        have e1 : (e.samples.map (fun i => (x i).h * ((scoreOf columns s.tree i).getD 0 * (scoreOf columns s.tree i).getD 0) -
            2 * ((x i).g * (scoreOf columns s.tree i).getD 0))).sum = (sumOf x e.samples).h * ((sumOf x e.samples).score cfg.l2Lambda *
              (sumOf x e.samples).score cfg.l2Lambda) - 2 * ((sumOf x e.samples).g * (sumOf x e.samples).score cfg.l2Lambda) := by
          rw [← quad_sum]
          exact congrArg List.sum (List.map_congr_left (fun i hi => by rw [hsc e (hq e (by simp)) i hi]))
        have e2 := newton_energy (sumOf x e.samples) cfg.l2Lambda
        rw [e1]
        linarith
    exact this _ (fun _ h => h)
  have hrt : treeObjective columns x cfg.l2Lambda samples (rootOnly s.tree) = - (sumOf x samples).energy cfg.l2Lambda := by
    cases ht : s.tree with
    | absent =>
      have := hg.wf
      rw [ht] at this
      exact absurd this id
    | node x0 sp l r =>
      have hx0 := hroot _ _ _ _ ht
      simp only [rootOnly, treeObjective, scoreOf, leafOf, Option.map_some, Option.getD_some, leafScores, List.map_cons, List.map_nil,
        List.sum_cons, List.sum_nil, add_zero]
      rw [quad_sum, hx0, newton_energy]
  rw [htree, hrt, ← hv.gains]
  ring

/-- **C183 (partial, squared error).** Without regularisation and for all rows, with residuals as gradients: the gains of the splits of a tree
add up to the squared error that the tree removes beyond what its root alone does.  Missing: as in `C183_sum_partial`. -/
theorem C183_error_partial {env : FitEnv K A} {cfg : FitConfig K} {columns : String → Option (Column A)} (he : ExactFit env cfg columns)
    {ρ : Nat → K} (hgr : ∀ k < env.grads.length, env.grads[k]? = some ⟨ρ k, 1⟩) (hlam : cfg.l2Lambda = 0)
    (hall : ∀ k, env.draw k < cfg.exampleRate) {p q : Nat} {t : Tree K A} (h : fitTree env cfg p = ok (t, q))
    (hz : FineIn env columns (List.range env.grads.length) t) :
    ((innerSplits t).map Split.gain).sum =
      leftError columns env.w ρ env.grads.length (rootOnly t) - leftError columns env.w ρ env.grads.length t := by
  obtain ⟨s0, s, all, p1, _, _, _, h3, _⟩ := fitTree_ok he.data h
  have hsamp := (C22_rate_one_zero _ _ _ _ _ _ _ _ h3).1 (fun k => by simpa using hall k)
  subst hsamp
  rw [C183_sum_partial he h h3 hz]
  have : ∀ u : Tree K A, leftError columns env.w ρ env.grads.length u =
      ((List.range env.grads.length).map (fun k => env.w k * (ρ k * ρ k))).sum +
        treeObjective columns (weighted env.w env.grads) cfg.l2Lambda (List.range env.grads.length) u := by
    intro u
    rw [leftError, treeObjective, hlam, zero_mul, add_zero, ← List.sum_map_add]
    refine congrArg List.sum (List.map_congr_left (fun k hk => ?_))
    simp only [weighted, hgr k (List.mem_range.mp hk), GD.scale]
    ring
  rw [this, this]
  ring

/-- If no non-empty part of the samples has gradients or hessians that cancel, no value's do. -/
theorem fineIn_of_generic {env : FitEnv K A} {columns : String → Option (Column A)} {samples : List Nat} {t : Tree K A}
    (h : ∀ l ∈ samples.sublists, l ≠ [] → (sumOf (weighted env.w env.grads) l).g ≠ 0 ∧ (sumOf (weighted env.w env.grads) l).h ≠ 0) :
    FineIn env columns samples t := by
  have key : ∀ (q : List Bool) (code : Nat → Outcome Nat), NoHalfZero code (weighted env.w env.grads) (samples.filter (passes columns t q)) := by
    intro q code k
    generalize hl : (samples.filter (passes columns t q)).filter (fun i => decide (code i = ok k)) = l
    by_cases h0 : l = []
    · subst h0
      simp [sumOf, GD.zero]
    · have := h l (List.mem_sublists.mpr (hl ▸ List.filter_sublist.trans List.filter_sublist)) h0
      exact ⟨fun g => absurd g this.1, fun g => absurd g this.2⟩
  intro q name c _
  cases c with
  | raw => trivial
  | str c => exact key q _
  | bkt c => exact key q _

end exact

/-! ### Gradients that cancel -/

/-- **C182**, the whole statement, for unit weights and hessians: if a tree has more than one leaf, each leaf has more than `min_hessian` samples. -/
def C182_full : Prop :=
  ∀ (env : FitEnv ℚ ℚ) (cfg : FitConfig ℚ) (columns : String → Option (Column ℚ)), ExactFit env cfg columns → (∀ k, env.w k = 1) →
    (∀ d ∈ env.grads, d.h = 1) → ∀ (p q : Nat) (t : Tree ℚ ℚ) (samples : List Nat) (p1 : Nat), fitTree env cfg p = ok (t, q) →
      uniformSubsample env.toInt env.ofNat env.draw env.grads.length cfg.exampleRate p = ok (samples, p1) → 1 < t.countLeaves →
        ∀ path x sp, IsLeafAt t path x sp → cfg.minHessian < (samples.filter (reaches columns t path)).length

/-- **C183**, the whole statement, for unit weights and no regularisation: the gains add up to the squared error removed. -/
def C183_full : Prop :=
  ∀ (env : FitEnv ℚ ℚ) (cfg : FitConfig ℚ) (columns : String → Option (Column ℚ)), ExactFit env cfg columns → (∀ k, env.w k = 1) →
    ∀ (ρ : Nat → ℚ), (∀ k < env.grads.length, env.grads[k]? = some ⟨ρ k, 1⟩) → cfg.l2Lambda = 0 → (∀ k, env.draw k < cfg.exampleRate) →
      ∀ (p q : Nat) (t : Tree ℚ ℚ), fitTree env cfg p = ok (t, q) → ((innerSplits t).map Split.gain).sum =
        leftError columns env.w ρ env.grads.length (rootOnly t) - leftError columns env.w ρ env.grads.length t

/-- Six rows with three values. -/
def limitCol : List (List (Fl ℚ)) := [[.num 1, .num 1, .num 1, .num 2, .num 2, .num 4]]

/-- The store with one feature. -/
def limitCols : String → Option (Column ℚ) := fun name =>
  if name = "size" then
    match BktCol.build (1000 : ℚ) 10 limitCol with
    | ok c => some (.bkt c)
    | _ => none
  else none

/-- The residuals of the two rows with value 2 cancel. -/
def limitEnv : FitEnv ℚ ℚ :=
  { fitEnv with
    w := fun _ => 1
    features := (limitCols "size").toList.map (fun c => ("size", c))
    grads := [⟨1, 1⟩, ⟨1, 1⟩, ⟨1, 1⟩, ⟨2, 1⟩, ⟨-2, 1⟩, ⟨-6, 1⟩] }

/-- Two leaves, each with more than two rows. -/
def limitCfg : FitConfig ℚ := { fitCfg with l2Lambda := 0, minHessian := 2, numLeaves := 2 }

theorem limitCols_some {name : String} {c : Column ℚ} (h : (name, c) ∈ limitEnv.features) : limitCols name = some c := by
  simp only [limitEnv, List.mem_map, Option.mem_toList, Prod.mk.injEq] at h
  obtain ⟨c', h1, rfl, rfl⟩ := h
  exact h1

theorem limitCols_rows {name : String} {c : Column ℚ} (h : limitCols name = some c) : TrainRows 6 c := by
  unfold limitCols at h
  split at h
  · split at h
    · next c' hb =>
      cases h
      refine TrainRows.bkt 1000 10 _ c' (by decide) (by decide) (by decide) hb ?_
      intro v hv
      simp only [limitCol, List.flatten_cons, List.flatten_nil, List.append_nil, List.mem_cons, Fl.num.injEq, List.not_mem_nil,
        or_false] at hv
      rcases hv with rfl | rfl | rfl | rfl | rfl | rfl <;> decide +kernel
    · cases h
  · cases h

theorem limit_fit : ExactFit limitEnv limitCfg limitCols where
  input := {
    rows := fun _ _ h => limitCols_rows (limitCols_some h)
    sort := ratSort_spec
    top := ratTop_spec
    threads := by decide
    examples := by simp [limitEnv, fitEnv]
    features := by simp [limitEnv, fitEnv] }
  data := ⟨fun _ _ h => (limitCols_rows (limitCols_some h)).hasRows, fun _ _ h => limitCols_some h⟩
  exact := fun _ => rfl
  thr := fun _ b _ => exactThr_separates b

/-- The tree: the rows with value 2 were counted on the right, and go left. -/
def limitTree : Tree ℚ ℚ :=
  .node (-1/2) (some { feature := "size", floatSplit := some ⟨.num (5/2), false⟩, gain := 27/2 })
    (.node (3/5) none .absent .absent) (.node (-6) none .absent .absent)

theorem limit_run : fitTree limitEnv limitCfg 0 = ok (limitTree, 9) := by decide +kernel

theorem limit_draw (k : Nat) : limitEnv.draw k < limitCfg.exampleRate := by
  show ((k * 7 % 10 : Nat) : ℚ) / 10 < 1
  have : ((k * 7 % 10 : Nat) : ℚ) < 10 := by exact_mod_cast Nat.mod_lt _ (by decide)
  linarith

/-- **C182 is false.** The leaf on the right has one row, though `min_hessian` is 2. -/
theorem C182_refuted : ¬ C182_full := by
  intro h
  have := h limitEnv limitCfg limitCols limit_fit (fun _ => rfl) (by decide +kernel) 0 9 limitTree (List.range 6) 6 limit_run (by decide +kernel)
    (by decide) [true] (-6) none rfl
  revert this
  decide +kernel

/-- **C183 is false.** The gain reported is 27/2; the squared error is reduced by 363/10. -/
theorem C183_refuted : ¬ C183_full := by
  intro h
  have := h limitEnv limitCfg limitCols limit_fit (fun _ => rfl) (fun i => (limitEnv.grads.getD i ⟨0, 0⟩).g) (by decide +kernel) rfl
    limit_draw 0 9 limitTree limit_run
  revert this
  decide +kernel

/-! ### Examples -/

/-- With a `min_gain` of 3 the split with gain 9/4 is not made; without, there are four leaves. -/
example : (match fitTree fitEnv { fitCfg with minGain := 3, numLeaves := 10 } 0 with
    | ok (t, _) => (innerSplits t).map Split.gain
    | _ => []) = [3093 / 40, 71 / 20] ∧
    (match fitTree fitEnv { fitCfg with numLeaves := 10 } 0 with
    | ok (t, _) => (innerSplits t).map Split.gain
    | _ => []) = [3093 / 40, 71 / 20, 9 / 4] := by decide +kernel

/-- Residuals of which no part cancels. -/
def genericEnv : FitEnv ℚ ℚ := { fitEnv with w := fun _ => 1, grads := [⟨-1, 1⟩, ⟨-2, 1⟩, ⟨4, 1⟩, ⟨8, 1⟩, ⟨16, 1⟩] }

/-- The configuration of the example. -/
def genericCfg : FitConfig ℚ := { fitCfg with l2Lambda := 0, minHessian := 1 / 2 }

theorem generic_fit : ExactFit genericEnv genericCfg fitCols where
  input := { fitInput with rows := fun _ _ h => fitCols_rows (fitCols_some h), examples := by simp [genericEnv, fitEnv], features := by simp [genericEnv, fitEnv] }
  data := ⟨fun _ _ h => (fitCols_rows (fitCols_some h)).hasRows, fun _ _ h => fitCols_some h⟩
  exact := fun _ => rfl
  thr := fun _ b _ => exactThr_separates b

/-- A tree with three leaves is fitted, and the hypotheses of the theorems hold for it. -/
example (t : Tree ℚ ℚ) : FineIn genericEnv fitCols (List.range genericEnv.grads.length) t ∧
    (match fitTree genericEnv genericCfg 0 with
    | ok (t, _) => some (t.countLeaves, (innerSplits t).map Split.gain)
    | _ => none) = some (3, [490 / 3, 32]) :=
  ⟨fineIn_of_generic (by decide +kernel), by decide +kernel⟩

end Gbdt
