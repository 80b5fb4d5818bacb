import Mathlib.Algebra.BigOperators.Field
import Verif.Props.HingeError

/-!
# C180: more leaves

Specification: `Refines`, one tree obtained from another by giving children to leaves.
-/

set_option autoImplicit false
set_option linter.unusedSectionVars false

namespace Gbdt
open Outcome

section spec
variable {D A : Type}

/-- The second tree is the first one, with subtrees put below some of its leaves.  Scores and splits of the nodes of the first
are those of the second. -/
inductive Refines : Tree D A → Tree D A → Prop
  | same (t : Tree D A) : Refines t t
  | grow (x : D) (sp : Option (Split D A)) (l r : Tree D A) : Refines (.node x sp .absent .absent) (.node x sp l r)
  | inside (x : D) (sp : Option (Split D A)) {l r l' r' : Tree D A} : Refines l l' → Refines r r' →
      Refines (.node x sp l r) (.node x sp l' r')

end spec

section trees
variable {D A : Type}

theorem refines_absent {t u : Tree D A} (h : Refines t u) : t = .absent ↔ u = .absent := by
  cases h <;> simp

theorem Refines.trans : ∀ {t u v : Tree D A}, Refines t u → Refines u v → Refines t v := by
  intro t u v h
  induction h generalizing v with
  | same => exact id
  | grow x sp l r =>
    intro h
    cases h
    · exact .grow _ _ _ _
    · exact .grow _ _ _ _
    · exact .grow _ _ _ _
  | inside x sp h1 h2 ih1 ih2 =>
    intro h
    cases h with
    | same => exact .inside _ _ h1 h2
    | grow _ _ l r =>
      rw [(refines_absent h1).mpr rfl, (refines_absent h2).mpr rfl]
      exact .grow _ _ _ _
    | inside _ _ g1 g2 => exact .inside _ _ (ih1 g1) (ih2 g2)

/-- Giving children to a leaf. -/
theorem refines_graft {nl nr : Tree D A} : ∀ {t : Tree D A} {q : List Bool} {x : D} {sp : Option (Split D A)}, IsLeafAt t q x sp →
    Refines t (t.graft q nl nr)
  | .absent, _, _, _, _ => .same _
  | .node s sp l r, [], x, sx, h => by
    rw [IsLeafAt, Tree.at?, Option.some.injEq, Tree.node.injEq] at h
    obtain ⟨rfl, rfl, rfl, rfl⟩ := h
    exact .grow _ _ _ _
  | .node s sp l r, b :: q, x, sx, h => by
    rw [Tree.graft]
    cases b
    · exact .inside _ _ (refines_graft (x := x) (sp := sx) (by simpa [IsLeafAt, Tree.at?] using h)) (.same _)
    · exact .inside _ _ (.same _) (refines_graft (x := x) (sp := sx) (by simpa [IsLeafAt, Tree.at?] using h))

variable [Zero D] [LinearOrder A]

/-- The leaf of a row in the refined tree is at or below its leaf in the other one. -/
theorem refines_leafOf {columns : String → Option (Column A)} {i : Nat} {t u : Tree D A} (h : Refines t u) :
    ∀ {a b : List Bool} {x y : D}, leafOf columns t i = some (a, x) → leafOf columns u i = some (b, y) → a <+: b := by
  induction h with
  | same t =>
    intro a b x y h1 h2
    rw [h1] at h2
    cases h2
    exact List.prefix_refl _
  | grow s sp l r =>
    intro a b x y h1 _
    simp only [leafOf, Option.some.injEq, Prod.mk.injEq] at h1
    rw [← h1.1]
    exact List.nil_prefix
  | @inside s sp l r l' r' g1 g2 ih1 ih2 =>
    intro a b x y h1 h2
    cases l with
    | absent =>
      simp only [leafOf, Option.some.injEq, Prod.mk.injEq] at h1
      rw [← h1.1]
      exact List.nil_prefix
    | node s1 sp1 l1 r1 =>
      cases l' with
      | absent => exact absurd ((refines_absent g1).mpr rfl) (by simp)
      | node s2 sp2 l2 r2 =>
        cases sp with
        | none => simp [leafOf] at h1
        | some sp =>
          rw [leafOf] at h1 h2
          split at h1
          · cases h1
          · next c hc =>
            rw [hc] at h2
            simp only at h2
            split at h1
            · cases h1
            · next hs =>
              rw [hs] at h2
              simp only [Option.map_eq_some_iff, Prod.exists, Prod.mk.injEq] at h1 h2
              obtain ⟨a', x', e1, rfl, _⟩ := h1
              obtain ⟨b', y', e2, rfl, _⟩ := h2
              exact List.cons_prefix_cons.mpr ⟨rfl, ih1 e1 e2⟩
            · next hs =>
              rw [hs] at h2
              simp only [Option.map_eq_some_iff, Prod.exists, Prod.mk.injEq] at h1 h2
              obtain ⟨a', x', e1, rfl, _⟩ := h1
              obtain ⟨b', y', e2, rfl, _⟩ := h2
              exact List.cons_prefix_cons.mpr ⟨rfl, ih2 e1 e2⟩

/-- Rows of one leaf of the refined tree are in one leaf of the other one. -/
theorem refines_fiber {columns : String → Option (Column A)} {i j : Nat} {t u : Tree D A} (h : Refines t u) {P : Split D A → Prop}
    (ht : t.WellFormed P) {a a' b : List Bool} {x x' y y' : D} (h1 : leafOf columns t i = some (a, x))
    (h2 : leafOf columns t j = some (a', x')) (h3 : leafOf columns u i = some (b, y)) (h4 : leafOf columns u j = some (b, y')) : x = x' := by
  have p1 := refines_leafOf h h1 h3
  have p2 := refines_leafOf h h2 h4
  obtain ⟨s1, l1⟩ := leafOf_isLeafAt ht h1
  obtain ⟨s2, l2⟩ := leafOf_isLeafAt ht h2
  have : a = a' := by
    rcases List.prefix_or_prefix_of_prefix p1 p2 with q | q
    · have := leaf_prefix l1 l2
      rw [List.isPrefixOf_iff_prefix.mpr q] at this
      exact (of_decide_eq_true this.symm).symm
    · have := leaf_prefix l2 l1
      rw [List.isPrefixOf_iff_prefix.mpr q] at this
      exact of_decide_eq_true this.symm
  subst this
  rw [IsLeafAt] at l1 l2
  rw [l1, Option.some.injEq, Tree.node.injEq] at l2
  exact l2.1

end trees

section fit
variable {D A : Type} [Dbl D] [LinearOrder A] [ThrOps A] [FpOrder D] {env : FitEnv D A} {columns : String → Option (Column A)} {all : List Nat}

theorem fitStep_leaves (cfg : FitConfig D) (m n : Nat) (s : FitState D A) (k : Nat) (e : NodeData A) (f : Column A) :
    fitStep env { cfg with numLeaves := m } s k e f = fitStep env { cfg with numLeaves := n } s k e f := rfl

theorem Grown.other {cfg : FitConfig D} {m n : Nat} {s : FitState D A} (h : Grown env { cfg with numLeaves := m } columns all s) :
    Grown env { cfg with numLeaves := n } columns all s :=
  ⟨h.wf, h.count, h.nodup, h.leaves, h.entry, h.perm, h.routed⟩

theorem fitLoop_refines {cfg : FitConfig D} (hd : FitData env columns) (hall : ∀ i ∈ all, i < env.grads.length) :
    ∀ {fuel : Nat} {s s' : FitState D A}, Grown env cfg columns all s → fitLoop env cfg fuel s = ok s' → Refines s.tree s'.tree
  | 0, s, s', _, h => by
    cases h
    exact .same _
  | fuel + 1, s, s', hg, h => by
    rw [fitLoop] at h
    split at h
    · simp only [bind_eq_ok] at h
      obtain ⟨e, he, h⟩ := h
      rw [vecGet_eq_ok] at he
      split at h
      · cases h
        exact .same _
      · next f hf =>
        simp only [bind_eq_ok] at h
        obtain ⟨s1, hs1, h⟩ := h
        obtain ⟨_, _, _, _, _, _, hleaf, _, htree, _, _, hg1⟩ := fitStep_ok hd hall hg he hf hs1
        have h2 := fitLoop_refines hd hall hg1 h
        rw [htree] at h2
        exact (refines_graft hleaf).trans h2
    · cases h
      exact .same _

/-- Two runs of the loop from one state. -/
theorem fitLoop_more {cfg : FitConfig D} {m n : Nat} (hmn : m ≤ n) (hd : FitData env columns) (hall : ∀ i ∈ all, i < env.grads.length) :
    ∀ {fuel fuel' : Nat} {s s1 s2 : FitState D A}, fuel ≤ fuel' → m ≤ s.queue.length + fuel → 0 < s.queue.length →
      Grown env { cfg with numLeaves := m } columns all s →
      fitLoop env { cfg with numLeaves := m } fuel s = ok s1 → fitLoop env { cfg with numLeaves := n } fuel' s = ok s2 →
      Refines s1.tree s2.tree ∧ (s1.queue.length < m → s1 = s2)
  | 0, _, s, s1, s2, _, hm, _, hg, h1, h2 => by
    cases h1
    exact ⟨fitLoop_refines hd hall hg.other h2, fun h => by omega⟩
  | fuel + 1, 0, _, _, _, hf, _, _, _, _, _ => by omega
  | fuel + 1, fuel' + 1, s, s1, s2, hf, hm, hpos, hg, h1, h2 => by
    have h2' := h2
    rw [fitLoop] at h1 h2
    by_cases hc : s.queue.length > 0 ∧ s.queue.length < m
    · rw [if_pos hc] at h1
      rw [if_pos ⟨hc.1, lt_of_lt_of_le hc.2 hmn⟩] at h2
      simp only [bind_eq_ok] at h1 h2
      obtain ⟨e, he, h1⟩ := h1
      obtain ⟨e', he', h2⟩ := h2
      rw [he] at he'
      cases he'
      rw [vecGet_eq_ok] at he
      cases hfe : e.feature with
      | none =>
        simp only [hfe, pure_eq, Outcome.ok.injEq] at h1 h2
        subst h1 h2
        exact ⟨.same _, fun _ => rfl⟩
      | some f =>
        simp only [hfe, bind_eq_ok] at h1 h2
        obtain ⟨a, ha, h1⟩ := h1
        obtain ⟨b, hb, h2⟩ := h2
        rw [fitStep_leaves cfg n m, ha] at hb
        cases hb
        obtain ⟨_, _, _, _, _, _, _, _, _, hl, _, hg1⟩ := fitStep_ok hd hall hg he hfe ha
        exact fitLoop_more hmn hd hall (by omega) (by omega) (by omega) hg1 h1 h2
    · rw [if_neg hc] at h1
      cases h1
      exact ⟨fitLoop_refines hd hall hg.other h2', fun h => absurd ⟨hpos, h⟩ hc⟩

/-- **C180** (fitting).  Fitting with a larger `num_leaves` gives the same tree, with subtrees put below some of its leaves.
If the smaller number of leaves was not reached, it gives exactly the same tree. -/
theorem C180_refines {cfg : FitConfig D} {m n : Nat} (hmn : m ≤ n) (hd : FitData env columns) {p q q' : Nat} {t u : Tree D A}
    (ht : fitTree env { cfg with numLeaves := m } p = ok (t, q)) (hu : fitTree env { cfg with numLeaves := n } p = ok (u, q')) :
    Refines t u ∧ (t.countLeaves < m → t = u ∧ q = q') := by
  simp only [fitTree, bind_eq_ok, pure_eq, Outcome.ok.injEq, Prod.mk.injEq] at ht hu
  obtain ⟨s0, h0, s, h1, rfl, rfl⟩ := ht
  obtain ⟨s0', h0', s', h2, rfl, rfl⟩ := hu
  have : fitStart env { cfg with numLeaves := m } p = fitStart env { cfg with numLeaves := n } p := rfl
  rw [← this, h0] at h0'
  cases h0'
  obtain ⟨all, p1, h3, hg0, hl0⟩ := Grown.start (columns := columns) h0
  have hall := subsample_lt h3
  obtain ⟨a, b⟩ := fitLoop_more (cfg := cfg) hmn hd hall hmn (by omega) (by omega) hg0 h1 h2
  obtain ⟨hg, _⟩ := fitLoop_ok hd hall hg0 (by show m ≤ _ + m; omega) (by omega) h1
  refine ⟨a, fun hlt => ?_⟩
  rw [hg.count] at hlt
  rw [b hlt]
  exact ⟨rfl, rfl⟩

/-- **C180** (rows).  The leaf of a row in the larger tree is at or below its leaf in the smaller one. -/
theorem C180_rows {cfg : FitConfig D} {m n : Nat} (hmn : m ≤ n) (hd : FitData env columns) {p q q' : Nat} {t u : Tree D A}
    (ht : fitTree env { cfg with numLeaves := m } p = ok (t, q)) (hu : fitTree env { cfg with numLeaves := n } p = ok (u, q'))
    {i : Nat} {a b : List Bool} {x y : D} (h1 : leafOf columns t i = some (a, x)) (h2 : leafOf columns u i = some (b, y)) : a <+: b :=
  refines_leafOf (C180_refines hmn hd ht hu).1 h1 h2

end fit

section exact
variable {K : Type} [Field K] [LinearOrder K] [IsStrictOrderedRing K] {A : Type} [LinearOrder A] [ThrOps A]

/-- The weighted sum of the squares of what is left of the residuals `ρ` of the first `n` rows after adding the scores of a tree;
a row without a score keeps its residual. -/
def leftError (columns : String → Option (Column A)) (w ρ : Nat → K) (n : Nat) (t : Tree K A) : K :=
  ((List.range n).map (fun i => w i * ((ρ i - (scoreOf columns t i).getD 0) * (ρ i - (scoreOf columns t i).getD 0)))).sum

/-- A tree fitted to all rows without regularisation: no other scores that are constant on its leaves are better. -/
theorem fitTree_least {env : FitEnv K A} {cfg : FitConfig K} {columns : String → Option (Column A)} (hd : FitData env columns)
    (hrnd : ∀ y, env.rnd32 y = y) {ρ : Nat → K} (hgr : ∀ k < env.grads.length, weighted env.w env.grads k = ⟨env.w k * ρ k, env.w k⟩)
    (hw : ∀ k, 0 ≤ env.w k) (hlam : cfg.l2Lambda = 0) (hall : ∀ k, env.draw k < cfg.exampleRate) {p q : Nat} {t : Tree K A}
    (h : fitTree env cfg p = ok (t, q)) {f : Nat → K}
    (hf : ∀ i j b y y', leafOf columns t i = some (b, y) → leafOf columns t j = some (b, y') → i < env.grads.length → j < env.grads.length → f i = f j) :
    ∑ k ∈ Finset.range env.grads.length, env.w k * ((ρ k - (scoreOf columns t k).getD 0) * (ρ k - (scoreOf columns t k).getD 0)) ≤
      ∑ k ∈ Finset.range env.grads.length, env.w k * ((ρ k - f k) * (ρ k - f k)) := by
  obtain ⟨s0, s, all, p1, _, _, _, h3, _⟩ := fitTree_ok hd h
  have hsamp := (C22_rate_one_zero _ _ _ _ _ _ _ _ h3).1 (fun k => by simpa using hall k)
  subst hsamp
  obtain ⟨_, h4⟩ := C34_samples_reach_leaves hd h
  set path : Nat → List Bool := fun k => ((leafOf columns t k).map Prod.fst).getD [] with hpath
  set n := env.grads.length with hn
  rw [← Finset.sum_fiberwise_of_maps_to (s := Finset.range n) (t := (Finset.range n).image path) (g := path)
      (fun k hk => Finset.mem_image_of_mem _ hk),
    ← Finset.sum_fiberwise_of_maps_to (s := Finset.range n) (t := (Finset.range n).image path) (g := path)
      (fun k hk => Finset.mem_image_of_mem _ hk) (fun k => env.w k * ((ρ k - f k) * (ρ k - f k)))]
  refine Finset.sum_le_sum (fun y hy => ?_)
  obtain ⟨k0, hk0, rfl⟩ := Finset.mem_image.mp hy
  obtain ⟨pt, x, sp, h5, h6⟩ := h4 _ _ h3 k0 (by simpa using hk0)
  have hp0 : path k0 = pt := by simp [hpath, h5]
  rw [hp0]
  obtain ⟨_, _, e3⟩ := C35_newton_step hd hrnd h h3 h6
  rw [C35_leaf_members hd h h3 h6, hlam] at e3
  have hset : (Finset.range n).filter (fun k => path k = pt) = ((List.range n).filter (reaches columns t pt)).toFinset := by
    ext k
    simp only [Finset.mem_filter, Finset.mem_range, List.mem_toFinset, List.mem_filter, List.mem_range, reaches,
      decide_eq_true_eq, and_congr_right_iff]
    intro hk
    obtain ⟨pk, xk, spk, g1, _⟩ := h4 _ _ h3 k (by simpa using hk)
    simp [hpath, g1]
  have hnd : ((List.range n).filter (reaches columns t pt)).Nodup := List.nodup_range.filter _
  have hx : ∀ k ∈ (Finset.range n).filter (fun k => path k = pt), (scoreOf columns t k).getD 0 = x ∧ f k = f k0 := by
    intro k hk
    rw [Finset.mem_filter, Finset.mem_range] at hk
    obtain ⟨pk, xk, spk, g1, g2⟩ := h4 _ _ h3 k (by simpa using hk.1)
    have : pk = pt := by rw [← hk.2]; simp [hpath, g1]
    subst this
    refine ⟨?_, hf _ _ _ _ _ g1 h5 hk.1 (by simpa using hk0)⟩
    rw [IsLeafAt, h6, Option.some.injEq, Tree.node.injEq] at g2
    simp [scoreOf, g1, g2.1]
  have hG := congrArg (fun s => ∑ k ∈ s, (weighted env.w env.grads k).g) hset
  have hH := congrArg (fun s => ∑ k ∈ s, (weighted env.w env.grads k).h) hset
  simp only [List.sum_toFinset _ hnd] at hG hH
  rw [← hG, ← hH] at e3
  set S := (Finset.range n).filter (fun k => path k = pt) with hS
  have hSlt : ∀ k ∈ S, k < n := fun k hk => Finset.mem_range.mp (Finset.mem_filter.mp hk).1
  rw [Finset.sum_congr rfl (fun k hk => by rw [hgr k (hSlt k hk)] : ∀ k ∈ S, (weighted env.w env.grads k).h = env.w k),
    Finset.sum_congr rfl (fun k hk => by rw [hgr k (hSlt k hk)] : ∀ k ∈ S, (weighted env.w env.grads k).g = env.w k * ρ k)] at e3
  rw [Finset.sum_congr rfl (fun k hk => by rw [(hx k hk).1] :
      ∀ k ∈ S, env.w k * ((ρ k - (scoreOf columns t k).getD 0) * (ρ k - (scoreOf columns t k).getD 0)) = env.w k * ((ρ k - x) * (ρ k - x))),
    Finset.sum_congr rfl (fun k hk => by rw [(hx k hk).2] :
      ∀ k ∈ S, env.w k * ((ρ k - f k) * (ρ k - f k)) = env.w k * ((ρ k - f k0) * (ρ k - f k0)))]
  have hexp : ∀ z : K, ∑ k ∈ S, env.w k * ((ρ k - z) * (ρ k - z)) =
      ∑ k ∈ S, env.w k * (ρ k * ρ k) + 2 * ((∑ k ∈ S, env.w k) * (z * z) / 2 - (∑ k ∈ S, env.w k * ρ k) * z) := by
    intro z
    rw [Finset.sum_mul, Finset.sum_mul, Finset.sum_div, ← Finset.sum_sub_distrib, Finset.mul_sum, ← Finset.sum_add_distrib]
    exact Finset.sum_congr rfl (fun k _ => by ring)
  rcases (Finset.sum_nonneg (fun k _ => hw k) : 0 ≤ ∑ k ∈ S, env.w k).lt_or_eq with hpos | hzero
  · have := e3 (by rw [add_zero]; exact hpos) (f k0)
    simp only [add_zero] at this
    rw [hexp, hexp]
    linarith
  · have hz := (Finset.sum_eq_zero_iff_of_nonneg (fun k _ => hw k)).mp hzero.symm
    rw [Finset.sum_eq_zero (fun k hk => by rw [hz k hk, zero_mul]), Finset.sum_eq_zero (fun k hk => by rw [hz k hk, zero_mul])]

/-- **C180** (error).  Without regularisation, and fitted to all rows with non-negative weights, a tree with a larger `num_leaves` leaves
no larger squared error: the gradient of a row is its residual and the hessian 1, as for squared error. -/
theorem C180_error {env : FitEnv K A} {cfg : FitConfig K} {columns : String → Option (Column A)} {m n : Nat} (hmn : m ≤ n)
    (hd : FitData env columns) (hrnd : ∀ y, env.rnd32 y = y) {ρ : Nat → K}
    (hgr : ∀ k < env.grads.length, env.grads[k]? = some ⟨ρ k, 1⟩) (hw : ∀ k, 0 ≤ env.w k) (hlam : cfg.l2Lambda = 0)
    (hall : ∀ k, env.draw k < cfg.exampleRate) {p q q' : Nat} {t u : Tree K A}
    (ht : fitTree env { cfg with numLeaves := m } p = ok (t, q)) (hu : fitTree env { cfg with numLeaves := n } p = ok (u, q')) :
    leftError columns env.w ρ env.grads.length u ≤ leftError columns env.w ρ env.grads.length t := by
  have hr := (C180_refines hmn hd ht hu).1
  obtain ⟨_, s, all, p1, _, _, rfl, h3, _, _, _, hg, _⟩ := fitTree_ok hd ht
  have hsamp := (C22_rate_one_zero _ _ _ _ _ _ _ _ h3).1 (fun k => by simpa using hall k)
  subst hsamp
  obtain ⟨_, h4⟩ := C34_samples_reach_leaves hd ht
  have := fitTree_least (cfg := { cfg with numLeaves := n }) (f := fun k => (scoreOf columns s.tree k).getD 0) hd hrnd (ρ := ρ) (fun k hk => by
    simp [weighted, hgr k hk, GD.scale, mul_comm]) hw hlam hall hu (by
    intro i j b y y' g1 g2 hi hj
    obtain ⟨pi, xi, _, e1, _⟩ := h4 _ _ h3 i (by simpa using hi)
    obtain ⟨pj, xj, _, e2, _⟩ := h4 _ _ h3 j (by simpa using hj)
    have := refines_fiber hr hg.wf e1 e2 g1 g2
    simp [scoreOf, e1, e2, this])
  rw [leftError, leftError, list_sum_range, list_sum_range]
  exact this

end exact

/-! ### Examples -/

/-- In the example with up to 3 and up to 10 leaves, the right child of the root is a leaf of the smaller tree only. -/
example : fitTree fitEnv { fitCfg with numLeaves := 3 } 0 = ok (fittedTree, 15) ∧
    fitTree fitEnv { fitCfg with numLeaves := 10 } 0 = ok (fittedTree.graft [true]
      (.node (3/2) none .absent .absent) (.node 6 none .absent .absent), 19) := by decide +kernel

/-- Residuals to which trees without regularisation are fitted. -/
def leftEnv : FitEnv ℚ ℚ := { fitEnv with w := fun _ => 1, grads := [⟨-3, 1⟩, ⟨-2, 1⟩, ⟨3, 1⟩, ⟨1, 1⟩, ⟨9, 1⟩] }

/-- The squared error left by trees with 1, 2, 3 and 4 leaves. -/
example : FitData leftEnv fitCols ∧ [1, 2, 3, 4].map (fun m => match fitTree leftEnv { fitCfg with l2Lambda := 0, numLeaves := m } 0 with
    | ok (t, _) => some (leftError fitCols leftEnv.w (fun i => (leftEnv.grads.getD i ⟨0, 0⟩).g) 5 t)
    | _ => none) = [some (456 / 5), some (91 / 4), some (5 / 2), some (1 / 2)] :=
  ⟨⟨fun _ _ h => (fitCols_rows (fitCols_some h)).hasRows, fun _ _ h => fitCols_some h⟩, by decide +kernel⟩

end Gbdt
