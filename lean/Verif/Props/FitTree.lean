import Verif.Lemmas.FitNodes
import Verif.Props.CatSplit
import Verif.Props.Score
import Mathlib.Tactic.Linarith
import Mathlib.Tactic.FieldSimp

/-!
# C33-C36, C67, C68: fitting a tree

Specification: `Verif/Spec/Tree.lean`.  `leafOf columns t i` is the leaf that row `i` reaches, by comparing its values with
the splits; `passes columns t q i` says that the node at path `q` is on the way.  A path lists the turns from the root, `false`
for left.  The theorems start from a run `fitTree env cfg p = ok (t, q)`; `C68_fit_defined` shows that there is one.
-/

set_option autoImplicit false
set_option linter.unusedSectionVars false

namespace Gbdt

open Outcome

section general
variable {D A : Type} [Dbl D] [LinearOrder A] [ThrOps A] [FpOrder D]

/-- **C68.** Tree fitting reads nothing out of bounds, never aborts and ends: given columns as the loaders build them,
with one row per gradient and no number above `FLT_MAX`, at least one thread, and sampling rates that can be converted, it
returns a tree. -/
theorem C68_fit_defined {env : FitEnv D A} {cfg : FitConfig D} {columns : String → Option (Column A)}
    (hi : FitInput env cfg) (hd : FitData env columns) (p : Nat) : ∃ t q, fitTree env cfg p = ok (t, q) := by
  obtain ⟨s0, h0⟩ := fitStart_total hi p
  obtain ⟨all, p1, h2, hg0, _⟩ := Grown.start (columns := columns) h0
  obtain ⟨s, hs⟩ := fitLoop_total hi hd (subsample_lt h2) cfg.numLeaves hg0
  exact ⟨s.tree, s.pos, by simp only [fitTree, h0, ok_bind, hs, pure_eq]⟩

/-- **C33.** Between 1 and `num_leaves` leaves; every node has no child or two; every inner node has a split of positive
gain on one of the features, which fits the feature's type. -/
theorem C33_shape {env : FitEnv D A} {cfg : FitConfig D} {columns : String → Option (Column A)} (hd : FitData env columns)
    {p q : Nat} {t : Tree D A} (h : fitTree env cfg p = ok (t, q)) :
    1 ≤ t.countLeaves ∧ t.countLeaves ≤ max 1 cfg.numLeaves ∧
    t.WellFormed (fun s => Dbl.ltb 0 s.gain = true ∧ ∃ c, (s.feature, c) ∈ env.features ∧ SplitFits c s) := by
  obtain ⟨s0, s, all, p1, _, _, rfl, _, _, _, _, hg, _, h1, h2, _⟩ := fitTree_ok hd h
  rw [hg.count]
  refine ⟨h1, h2, wellFormed_imp ?_ hg.wf⟩
  rintro sp ⟨c, a, b, d⟩
  exact ⟨a, c, b, d⟩

/-- **C33 (stopping).** A tree with fewer leaves than `num_leaves` has no leaf with a split to make. -/
theorem C33_stops_when_exhausted {env : FitEnv D A} {cfg : FitConfig D} {columns : String → Option (Column A)}
    (hd : FitData env columns) (htop : TopSpec env.top)
    {p q : Nat} {t : Tree D A} (h : fitTree env cfg p = ok (t, q)) (hlt : t.countLeaves < cfg.numLeaves) :
    ∀ path x sp, IsLeafAt t path x sp → sp = none := by
  obtain ⟨s0, s, all, p1, _, _, rfl, _, _, _, _, hg, _, h1, h2, h3⟩ := fitTree_ok hd h
  rw [hg.count] at hlt
  rcases h3 with h3 | ⟨e, he, hf⟩
  · omega
  · exact (hg.top htop he).1 hf

/-- **C34.** Every sample the tree is fitted on reaches a leaf, and the tree can be scored on the store (so that C37
applies: the score added to a row is that of the leaf it reaches). -/
theorem C34_samples_reach_leaves {env : FitEnv D A} {cfg : FitConfig D} {columns : String → Option (Column A)}
    (hd : FitData env columns) {p q : Nat} {t : Tree D A} (h : fitTree env cfg p = ok (t, q)) :
    Scorable columns t ∧
    ∀ samples p1, uniformSubsample env.toInt env.ofNat env.draw env.grads.length cfg.exampleRate p = ok (samples, p1) →
      ∀ i ∈ samples, ∃ path x sp, leafOf columns t i = some (path, x) ∧ IsLeafAt t path x sp := by
  obtain ⟨s0, s, all, p1, _, _, rfl, h3, _, _, _, hg, _, _, _, _⟩ := fitTree_ok hd h
  constructor
  · refine scorable_of_wellFormed (wellFormed_imp ?_ hg.wf)
    rintro sp ⟨c, _, b, d⟩
    exact ⟨c, hd.stored _ _ b, d⟩
  · intro samples p1' hs i hi
    rw [h3] at hs
    cases hs
    obtain ⟨e, _, _, x, sp, h1, h2⟩ := hg.leafOf_all hi
    exact ⟨e.path, x, sp, h1, h2⟩

/-- **C34 (the leaves divide the samples).** Distinct leaves hold distinct samples, all of them together: the samples in
order of leaves are a rearrangement of the samples. -/
theorem C34_leaves_partition {env : FitEnv D A} {cfg : FitConfig D} {columns : String → Option (Column A)}
    (hd : FitData env columns) {p q : Nat} {t : Tree D A} (h : fitTree env cfg p = ok (t, q)) {samples : List Nat} {p1 : Nat}
    (hs : uniformSubsample env.toInt env.ofNat env.draw env.grads.length cfg.exampleRate p = ok (samples, p1)) :
    ∃ paths : List (List Bool), paths.Nodup ∧ paths.length = t.countLeaves ∧
      (∀ path, path ∈ paths ↔ ∃ x sp, IsLeafAt t path x sp) ∧
      (paths.flatMap (fun path => samples.filter (reaches columns t path))).Perm samples := by
  obtain ⟨s0, s, all, p1, _, _, rfl, h3, _, _, _, hg, _, _, _, _⟩ := fitTree_ok hd h
  rw [hs] at h3
  cases h3
  refine ⟨s.queue.map NodeData.path, hg.nodup, by rw [hg.count, List.length_map], fun path => (hg.leaves path).symm, ?_⟩
  rw [List.flatMap_map]
  refine List.Perm.trans ?_ hg.perm
  have : ∀ l : List (NodeData A), (∀ e ∈ l, e ∈ s.queue) →
      (l.flatMap (fun e => samples.filter (reaches columns s.tree e.path))).Perm (l.flatMap NodeData.samples) := by
    intro l
    induction l with
    | nil => intro _; exact List.Perm.refl _
    | cons e l ih =>
      intro hl
      rw [List.flatMap_cons, List.flatMap_cons]
      exact (hg.members (hl e (List.mem_cons_self ..))).symm.append (ih (fun a ha => hl a (List.mem_cons_of_mem _ ha)))
  exact this _ (fun e he => he)

/-- **C35.** The score stored at any node, leaf or not, is `Score` of the sum of the weighted gradients of the samples
that pass the node, rounded to `float`; in any arithmetic. -/
theorem C35_scores {env : FitEnv D A} {cfg : FitConfig D} {columns : String → Option (Column A)} (hd : FitData env columns)
    {p q : Nat} {t : Tree D A} (h : fitTree env cfg p = ok (t, q)) {samples : List Nat} {p1 : Nat}
    (hs : uniformSubsample env.toInt env.ofNat env.draw env.grads.length cfg.exampleRate p = ok (samples, p1))
    {path : List Bool} {x : D} {sp : Option (Split D A)} {l r : Tree D A} (hnode : t.at? path = some (.node x sp l r)) :
    ∃ members total, members.Perm (samples.filter (passes columns t path)) ∧
      weightedSum env.numThreads env.w env.grads members = ok total ∧ x = env.rnd32 (total.score cfg.l2Lambda) := by
  obtain ⟨s0, s, all, p1, _, _, rfl, h3, _, _, _, _, hn, _, _, _⟩ := fitTree_ok hd h
  rw [hs] at h3
  cases h3
  obtain ⟨members, total, best, _, _, h1, h2, _, h4, _⟩ := hn path x sp l r hnode
  exact ⟨members, total, h1, h2, h4⟩

/-- At a leaf, the samples that pass are those that reach it. -/
theorem C35_leaf_members {env : FitEnv D A} {cfg : FitConfig D} {columns : String → Option (Column A)} (hd : FitData env columns)
    {p q : Nat} {t : Tree D A} (h : fitTree env cfg p = ok (t, q)) {samples : List Nat} {p1 : Nat}
    (hs : uniformSubsample env.toInt env.ofNat env.draw env.grads.length cfg.exampleRate p = ok (samples, p1))
    {path : List Bool} {x : D} {sp : Option (Split D A)} (hleaf : IsLeafAt t path x sp) :
    samples.filter (passes columns t path) = samples.filter (reaches columns t path) := by
  obtain ⟨_, h2⟩ := C34_samples_reach_leaves hd h
  refine List.filter_congr (fun i hi => ?_)
  obtain ⟨path', y, sq, h3, h4⟩ := h2 samples p1 hs i hi
  simp only [reaches, passes, h3, Option.map_some, Option.some.injEq]
  exact leaf_prefix hleaf h4

/-- **C36.** One leaf more is one more split, at a leaf whose gain no other leaf's exceeds; or, if no leaf had a split to
make, the same tree. -/
theorem C36_best_first {env : FitEnv D A} {cfg : FitConfig D} {columns : String → Option (Column A)} (hd : FitData env columns)
    (htop : TopSpec env.top) {p q q' n : Nat} (hn : 1 ≤ n) {t t' : Tree D A}
    (h : fitTree env { cfg with numLeaves := n } p = ok (t, q))
    (h' : fitTree env { cfg with numLeaves := n + 1 } p = ok (t', q')) :
    (t' = t ∧ ∀ path x sp, IsLeafAt t path x sp → sp = none) ∨
    ∃ path x s a sa b sb, IsLeafAt t path x (some s) ∧
      (∀ path' x' s', IsLeafAt t path' x' (some s') → Dbl.ltb s.gain s'.gain = false) ∧
      t' = t.graft path (.node a sa .absent .absent) (.node b sb .absent .absent) := by
  obtain ⟨s0, s, all, p1, k1, k2, rfl, k3, hall, k4, hg0, hg, _, h1, h2, h3⟩ := fitTree_ok hd h
  obtain ⟨s0', s', all', p1', k1', k2', rfl, _⟩ := fitTree_ok hd h'
  have hs0 : s0' = s0 := by
    have : (ok s0' : Outcome (FitState D A)) = ok s0 := by rw [← k1', ← k1]; rfl
    cases this; rfl
  subst hs0
  rcases fitLoop_next (cfg := cfg) (n := n) (Nat.le_add_left _ _) (by omega) (by omega)
    (fun s s' k e f a _ c => fitStep_length a c) k2 k2' with ⟨rfl, e, he, hf⟩ | ⟨e, f, he, hf, hstep⟩
  · exact Or.inl ⟨rfl, (hg.top htop he).1 hf⟩
  · right
    obtain ⟨sc, sp, a, sa, b, sb, g1, _, g2, _⟩ := fitStep_ok hd hall hg he hf hstep
    exact ⟨e.path, sc, sp, a, sa, b, sb, g1, (hg.top htop he).2 _ _ g1, g2⟩

/-- What `FindBestFeatureAndSplit` does: the features looked at are drawn by `uniformSubsample`; the split returned is the
one found for one of them, and none found for another has a larger gain; nothing is returned only if no split is found for
any of them. -/
theorem C67_best_feature {env : FitEnv D A} {cfg : FitConfig D} {samples : List Nat} {total : GD D} {p p1 : Nat}
    {best : Option (Split D A × Column A)} (h : bestFeature env cfg samples total p = ok (best, p1)) :
    ∃ chosen : List Nat, uniformSubsample env.toInt env.ofNat env.draw env.features.length cfg.featureRate p
        = ok (chosen, p1) ∧
      (best = none → ∀ j ∈ chosen, ∃ f, env.features[j]? = some f ∧
        findBestSplit env.sort f.2 env.w env.grads samples cfg.toSplitConfig total = ok none) ∧
      (∀ s c, best = some (s, c) → ∃ j ∈ chosen, ∃ f s0, env.features[j]? = some f ∧
        findBestSplit env.sort f.2 env.w env.grads samples cfg.toSplitConfig total = ok (some s0) ∧
        c = f.2 ∧ s.feature = f.1 ∧ s.gain = s0.gain ∧ s.floatSplit = s0.floatSplit ∧
        s.catSplit.map CatSplit.index = s0.catSplit.map CatSplit.index ∧ SplitFits f.2 s ∧
        ∀ j' ∈ chosen, ∀ f' s', env.features[j']? = some f' →
          findBestSplit env.sort f'.2 env.w env.grads samples cfg.toSplitConfig total = ok (some s') →
          Dbl.ltb s.gain s'.gain = false) := by
  obtain ⟨chosen, splits, k, h1, h2, h3, h4, h5⟩ := bestFeature_ok h
  have hnan : ∀ g ∈ splits.map Split.gain, Dbl.eqb g g = true := by
    intro g hg
    obtain ⟨s, hs, rfl⟩ := List.mem_map.mp hg
    obtain ⟨i, hi⟩ := List.mem_iff_getElem?.mp hs
    have hil := (List.getElem?_eq_some_iff.mp hi).1
    obtain ⟨f, s', _, e2, o, e3, e4⟩ := h3 i _ (List.getElem?_eq_getElem (by omega))
    rw [hi] at e2
    cases e2
    cases o with
    | none => rw [e4]; exact FpOrder.zero_not_nan
    | some s' =>
      rw [e4]
      exact (FpOrder.not_nan _ _ (findBestSplit_pos e3)).2
  have hmax : ∀ (i j : Nat) (sk : Split D A), chosen[i]? = some j → splits[k]? = some sk → ∀ f s', env.features[j]? = some f →
      findBestSplit env.sort f.2 env.w env.grads samples cfg.toSplitConfig total = ok (some s') →
      Dbl.ltb sk.gain s'.gain = false := by
    intro i j sk hij hk f s' hf hs'
    obtain ⟨f1, s1, e1, e2, o, e3, e4⟩ := h3 i j hij
    rw [hf] at e1
    cases e1
    rw [hs'] at e3
    cases e3
    simp only [Option.getD_some] at e4
    subst e4
    have hil := (List.getElem?_eq_some_iff.mp hij).1
    refine bestIndexFrom_max hnan h4 ?_ (by omega) i (by omega) _ _ (by simp [e2]) (by simp [hk])
    intro j hj g b hg hb
    have : j = 0 := by omega
    subst this
    rw [hg] at hb
    cases hb
    exact StrictLt.irrefl _
  refine ⟨chosen, h1, ?_, ?_⟩
  · rintro rfl j hj
    obtain ⟨i, hi⟩ := List.mem_iff_getElem?.mp hj
    obtain ⟨f, s, e1, e2, o, e3, _⟩ := h3 i j hi
    refine ⟨f, e1, ?_⟩
    cases o with
    | none => exact e3
    | some s' =>
      exfalso
      have hil := (List.getElem?_eq_some_iff.mp hi).1
      have hk : k < splits.length := by
        rcases bestIndexFrom_lt h4 with h | h <;> omega
      have hsk := List.getElem?_eq_getElem hk
      have hle := h5 _ hsk
      have h6 := hmax i j _ hi hsk f s' e1 e3
      have hpos := findBestSplit_pos e3
      have hn := hnan _ (List.mem_map_of_mem (List.getElem_mem hk))
      rcases FpOrder.cotrans _ (splits[k]).gain _ hn hpos with h7 | h7
      · rw [hle] at h7; cases h7
      · rw [h6] at h7; cases h7
  · rintro s c rfl
    obtain ⟨s0, j, f, e1, e2, e3, e4, e5, rfl⟩ := h5
    obtain ⟨f1, s1, g1, g2, o, g3, g4⟩ := h3 k j e3
    rw [e4] at g1
    cases g1
    rw [e1] at g2
    cases g2
    cases o with
    | none =>
      subst g4
      simp only [Option.getD_none] at e2
      rw [StrictLt.irrefl] at e2
      cases e2
    | some s2 =>
      simp only [Option.getD_some] at g4
      subst g4
      have hk : KindOf f.2 { s0 with feature := f.1 } := by
        have := findBestSplit_kind g3
        exact this
      obtain ⟨k1, k2, k3⟩ := nameCategories_fits e5 hk
      refine ⟨j, List.mem_of_getElem? e3, f, s0, e4, g3, rfl, k3, k2, ?_, ?_, k1, ?_⟩
      · unfold nameCategories at e5
        split at e5
        · cases e5; rfl
        · split at e5
          · simp only [bind_eq_ok, pure_eq] at e5
            obtain ⟨_, _, e5⟩ := e5
            cases e5; rfl
          · cases e5
      · unfold nameCategories at e5
        split at e5
        · cases e5; rfl
        · rename_i cs hcs
          split at e5
          · simp only [bind_eq_ok, pure_eq] at e5
            obtain ⟨_, _, e5⟩ := e5
            cases e5
            simp only at hcs
            rw [hcs]; rfl
          · cases e5
      · intro j' hj' f' s' hf' hs'
        obtain ⟨i, hi⟩ := List.mem_iff_getElem?.mp hj'
        rw [k2]
        exact hmax i j' _ hi e1 f' s' hf' hs'

/-- **C67.** At every node of a fitted tree, the stored split is one found on the samples that pass the node for one of the
features drawn for the node, and no split found there for another of them has a larger gain; a node stores no split only if
none is found for any of the features drawn. -/
theorem C67_splits_are_best {env : FitEnv D A} {cfg : FitConfig D} {columns : String → Option (Column A)} (hd : FitData env columns)
    {p q : Nat} {t : Tree D A} (h : fitTree env cfg p = ok (t, q)) {samples : List Nat} {p1 : Nat}
    (hs : uniformSubsample env.toInt env.ofNat env.draw env.grads.length cfg.exampleRate p = ok (samples, p1))
    {path : List Bool} {x : D} {sp : Option (Split D A)} {l r : Tree D A} (hnode : t.at? path = some (.node x sp l r)) :
    ∃ (members : List Nat) (total : GD D) (chosen : List Nat) (p2 p3 : Nat),
      members.Perm (samples.filter (passes columns t path)) ∧
      weightedSum env.numThreads env.w env.grads members = ok total ∧
      uniformSubsample env.toInt env.ofNat env.draw env.features.length cfg.featureRate p2 = ok (chosen, p3) ∧
      (sp = none → ∀ j ∈ chosen, ∃ f, env.features[j]? = some f ∧
        findBestSplit env.sort f.2 env.w env.grads members cfg.toSplitConfig total = ok none) ∧
      (∀ s, sp = some s → ∃ j ∈ chosen, ∃ f s0, env.features[j]? = some f ∧
        findBestSplit env.sort f.2 env.w env.grads members cfg.toSplitConfig total = ok (some s0) ∧
        s.feature = f.1 ∧ s.gain = s0.gain ∧ s.floatSplit = s0.floatSplit ∧
        s.catSplit.map CatSplit.index = s0.catSplit.map CatSplit.index ∧ SplitFits f.2 s ∧
        ∀ j' ∈ chosen, ∀ f' s', env.features[j']? = some f' →
          findBestSplit env.sort f'.2 env.w env.grads members cfg.toSplitConfig total = ok (some s') →
          Dbl.ltb s.gain s'.gain = false) := by
  obtain ⟨s0, s, all, p1, _, _, rfl, h3, _, _, _, _, hn, _, _, _⟩ := fitTree_ok hd h
  rw [hs] at h3
  cases h3
  obtain ⟨members, total, best, p2, p3, h1, h2, h4, _, h5⟩ := hn path x sp l r hnode
  obtain ⟨chosen, g1, g2, g3⟩ := C67_best_feature h4
  refine ⟨members, total, chosen, p2, p3, h1, h2, g1, ?_, ?_⟩
  · rintro rfl
    cases best with
    | none => exact g2 rfl
    | some b => cases h5
  · rintro s rfl
    cases best with
    | none => cases h5
    | some b =>
      obtain ⟨sb, c⟩ := b
      cases h5
      obtain ⟨j, hj, f, s0, a1, a2, a3, a4, a5, a6, a7, a8, a9⟩ := g3 _ c rfl
      exact ⟨j, hj, f, s0, a1, a2, a4, a5, a6, a7, a8, a9⟩

end general

section exact
variable {K : Type} [Field K] [LinearOrder K] [IsStrictOrderedRing K] {A : Type} [LinearOrder A] [ThrOps A]

/-- **C35 (exact arithmetic).** Without rounding the score of a node is `G / (H + lambda)` (0 if the denominator is 0),
where `G` and `H` are the sums of weight times gradient and hessian over the samples that pass the node; if
`H + lambda > 0` it minimizes `(H + lambda) s^2 / 2 - G s`. -/
theorem C35_newton_step {env : FitEnv K A} {cfg : FitConfig K} {columns : String → Option (Column A)} (hd : FitData env columns)
    (hrnd : ∀ y, env.rnd32 y = y) {p q : Nat} {t : Tree K A} (h : fitTree env cfg p = ok (t, q)) {samples : List Nat} {p1 : Nat}
    (hs : uniformSubsample env.toInt env.ofNat env.draw env.grads.length cfg.exampleRate p = ok (samples, p1))
    {path : List Bool} {x : K} {sp : Option (Split K A)} {l r : Tree K A} (hnode : t.at? path = some (.node x sp l r)) :
    let members := samples.filter (passes columns t path)
    let G := (members.map (fun i => (weighted env.w env.grads i).g)).sum
    let H := (members.map (fun i => (weighted env.w env.grads i).h)).sum
    (H + cfg.l2Lambda ≠ 0 → x = G / (H + cfg.l2Lambda)) ∧ (H + cfg.l2Lambda = 0 → x = 0) ∧
    (0 < H + cfg.l2Lambda → ∀ s : K, (H + cfg.l2Lambda) * (x * x) / 2 - G * x ≤ (H + cfg.l2Lambda) * (s * s) / 2 - G * s) := by
  intro members G H
  obtain ⟨m, total, h1, h2, h3⟩ := C35_scores hd h hs hnode
  have hin : ∀ i ∈ m, i < env.grads.length := fun i hi =>
    subsample_lt hs i (List.mem_filter.mp (h1.mem_iff.mp hi)).1
  have ht := weightedSum_exact hin h2
  rw [sumOf_perm _ h1] at ht
  have hG : total.g = G := by rw [ht, sumOf_g]
  have hH : total.h = H := by rw [ht, sumOf_h]
  rw [hrnd, GD.score] at h3
  simp only [hG, hH, exact_eqb, decide_eq_true_eq] at h3
  have hx : H + cfg.l2Lambda ≠ 0 → x = G / (H + cfg.l2Lambda) := fun hne => by rw [h3, if_neg hne]
  refine ⟨hx, fun h0 => by rw [h3, if_pos h0], ?_⟩
  intro hpos s
  generalize hM : H + cfg.l2Lambda = M at hpos hx
  have hx' : M * x = G := by rw [hx hpos.ne']; field_simp
  have : M * (s * s) / 2 - G * s - (M * (x * x) / 2 - G * x) = M * ((s - x) * (s - x)) / 2 := by
    rw [← hx']; ring
  have h4 : 0 ≤ M * ((s - x) * (s - x)) / 2 := by
    have := mul_nonneg hpos.le (mul_self_nonneg (s - x))
    linarith
  linarith

end exact

/-! ## An example -/

/-- A priority queue over the rationals. -/
def ratTop (_ : Nat) : List ℚ → Nat
  | [] => 0
  | a :: l => if ∀ b ∈ l, b ≤ a then 0 else ratTop 0 l + 1

theorem ratTop_spec : TopSpec ratTop := by
  have : ∀ (gains : List ℚ) (n : Nat), gains ≠ [] → ∃ g, gains[ratTop n gains]? = some g ∧ ∀ g' ∈ gains, g' ≤ g := by
    intro gains
    induction gains with
    | nil => intro n h; exact absurd rfl h
    | cons a l ih =>
      intro n _
      rw [ratTop]
      by_cases hall : ∀ b ∈ l, b ≤ a
      · rw [if_pos hall]
        refine ⟨a, rfl, ?_⟩
        intro g' hg'
        rcases List.mem_cons.mp hg' with rfl | h
        · exact le_refl _
        · exact hall _ h
      · rw [if_neg hall]
        push Not at hall
        obtain ⟨b, hb, hab⟩ := hall
        obtain ⟨g, hg, hmax⟩ := ih 0 (List.ne_nil_of_mem hb)
        refine ⟨g, by simpa using hg, ?_⟩
        intro g' hg'
        rcases List.mem_cons.mp hg' with rfl | h
        · exact le_of_lt (lt_of_lt_of_le hab (hmax b hb))
        · exact hmax _ h
  intro n gains hne
  obtain ⟨g, h1, h2⟩ := this gains n hne
  exact ⟨g, h1, fun g' hg' => by simpa using h2 g' hg'⟩

/-- The columns of the example: colours b a __missing__ b c, sizes 5 nan 7 9 9. -/
def fitCols (name : String) : Option (Column ℚ) :=
  if name = "color" then some (.str (StrCol.build [["b", "a"], ["__missing__", "b", "c"]]))
  else if name = "size" then
    match BktCol.build (1000 : ℚ) 5 [[.num 5, .nan, .num 7, .num 9, .num 9]] with
    | .ok c => some (.bkt c)
    | _ => none
  else none

/-- The features of the example. -/
def fitFeatures : List (String × Column ℚ) :=
  ["color", "size"].filterMap (fun n => (fitCols n).map (fun c => (n, c)))

/-- The surroundings in the example. -/
def fitEnv : FitEnv ℚ ℚ where
  w := fun i => if i = 4 then 2 else 1
  grads := [⟨-3, 1⟩, ⟨-2, 2⟩, ⟨3, 1⟩, ⟨1, 1⟩, ⟨9, 1⟩]
  features := fitFeatures
  sort := ratSort
  top := ratTop
  toInt := fun x => some x.floor
  ofNat := fun n => n
  draw := fun k => ((k * 7) % 10 : Nat) / 10
  rnd32 := fun x => x
  numThreads := 2

/-- The configuration in the example. -/
def fitCfg : FitConfig ℚ where
  l2Lambda := 1
  minHessian := 0
  minGain := 0
  tol := 1 / 1000000
  numLeaves := 3
  exampleRate := 1
  featureRate := 1

theorem fitCols_some {name : String} {c : Column ℚ} (h : (name, c) ∈ fitFeatures) : fitCols name = some c := by
  simp only [fitFeatures, List.mem_filterMap, Option.map_eq_some_iff, Prod.mk.injEq] at h
  obtain ⟨n, _, c', h1, rfl, rfl⟩ := h
  exact h1

theorem fitCols_rows {name : String} {c : Column ℚ} (h : fitCols name = some c) : TrainRows 5 c := by
  unfold fitCols at h
  split at h
  · cases h
    exact TrainRows.str _ (by decide) (by decide)
  · split at h
    · split at h
      · next c' hb =>
        cases h
        refine TrainRows.bkt 1000 5 _ c' (by decide) (by decide) (by decide) hb ?_
        intro v hv
        simp only [List.flatten_cons, List.flatten_nil, List.append_nil, List.mem_cons, Fl.num.injEq, List.not_mem_nil,
          or_false, reduceCtorEq, false_or] at hv
        rcases hv with rfl | rfl | rfl | rfl <;> decide +kernel
      · cases h
    · cases h

theorem fitData : FitData fitEnv fitCols where
  rows := fun _ _ h => (fitCols_rows (fitCols_some h)).hasRows
  stored := fun _ _ h => fitCols_some h

/-- The hypotheses of the theorems hold in the example. -/
theorem fitInput : FitInput fitEnv fitCfg where
  rows := fun _ _ h => fitCols_rows (fitCols_some h)
  sort := ratSort_spec
  top := ratTop_spec
  threads := by decide
  examples := by simp [fitEnv]
  features := by simp [fitEnv]

/-- The tree fitted in the example, with 3 leaves: the left child of the root was split before the right one because its
gain is larger. -/
def fittedTree : Tree ℚ ℚ :=
  .node (17/8) (some { feature := "color", catSplit := some { category := ["b", "a"], index := [1, 2] }, gain := 3093/40 })
    (.node (-4/5) (some { feature := "size", floatSplit := some ⟨.num 7, false⟩, gain := 71/20 })
      (.node (-5/4) none .absent .absent) (.node (1/2) none .absent .absent))
    (.node (21/4) (some { feature := "color", catSplit := some { category := ["__missing__"], index := [0] }, gain := 9/4 })
      .absent .absent)

example : fitTree fitEnv fitCfg 0 = ok (fittedTree, 15) := by decide +kernel

/-- With up to 10 leaves it stops at 4, when no leaf has a split to make. -/
example : fitTree fitEnv { fitCfg with numLeaves := 10 } 0 = ok (fittedTree.graft [true]
    (.node (3/2) none .absent .absent) (.node 6 none .absent .absent), 19) := by decide +kernel

/-- Where the samples go. -/
example : (List.range 5).map (fun i => (leafOf fitCols fittedTree i).map Prod.fst) =
    [some [false, false], some [false, false], some [true], some [false, true], some [true]] := by decide +kernel

end Gbdt
