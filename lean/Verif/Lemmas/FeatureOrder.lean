import Verif.Lemmas.Useless
import Verif.Lemmas.FitNodes

/-!
# Features listed in another order
-/

set_option autoImplicit false
set_option linter.unusedSectionVars false

namespace Gbdt
open Outcome

section trees
variable {D A : Type}

/-- A node is still there after a leaf got children. -/
theorem at?_graft_keep {nl nr : Tree D A} : ∀ {t : Tree D A} {p q : List Bool}, t.at? q ≠ none → (t.graft p nl nr).at? q ≠ none ∨ ∃ d r, q = p ++ d :: r
  | .absent, p, q, h => by cases q <;> exact absurd rfl h
  | .node s sp l r, [], q, h => by
    cases q with
    | nil => left; simp [Tree.graft, Tree.at?]
    | cons d q => exact Or.inr ⟨d, q, rfl⟩
  | .node s sp l r, b :: p, q, h => by
    cases q with
    | nil => left; rw [Tree.graft]; split <;> simp [Tree.at?]
    | cons d q =>
      rw [Tree.graft]
      cases b <;> cases d <;> simp only [Tree.at?, if_true, Bool.false_eq_true, if_false] at h ⊢
      · rcases at?_graft_keep (p := p) h with h | ⟨d, r, rfl⟩
        · exact Or.inl h
        · exact Or.inr ⟨d, r, rfl⟩
      · exact Or.inl h
      · exact Or.inl h
      · rcases at?_graft_keep (p := p) h with h | ⟨d, r, rfl⟩
        · exact Or.inl h
        · exact Or.inr ⟨d, r, rfl⟩

end trees

variable {D A : Type} [Dbl D] [LinearOrder A] [ThrOps A] [FpOrder D]

theorem pickBest_mem (l : List (Offer D A)) {y : Offer D A} (h : pickBest l = some y) : y ∈ l := by
  induction l using List.reverseRecOn generalizing y with
  | nil => cases h
  | append_singleton l z ih =>
    unfold pickBest at ih h
    rw [List.foldl_append, List.foldl_cons, List.foldl_nil] at h
    unfold pickStep at h
    split at h
    · split at h
      · cases h; simp
      · cases h
    · next b hb =>
      split at h
      · cases h; simp
      · cases h; exact List.mem_append_left _ (ih hb)

/-- No two offers that gain something gain the same. -/
def DistinctOffers (l : List (Offer D A)) : Prop :=
  ∀ x ∈ l, ∀ y ∈ l, x ≠ y → Dbl.ltb 0 x.2.gain = true → Dbl.ltb 0 y.2.gain = true →
    Dbl.ltb x.2.gain y.2.gain = true ∨ Dbl.ltb y.2.gain x.2.gain = true

theorem pickBest_perm {l l' : List (Offer D A)} (hp : l.Perm l') (hd : DistinctOffers l) : pickBest l' = pickBest l := by
  have h1 := pickBest_max l
  have h2 := pickBest_max l'
  cases e1 : pickBest l with
  | none =>
    rw [e1] at h1
    cases e2 : pickBest l' with
    | none => rfl
    | some y =>
      rw [e2] at h2
      have := h1 y (hp.mem_iff.mpr (pickBest_mem _ e2))
      rw [h2.1] at this
      cases this
  | some x =>
    rw [e1] at h1
    cases e2 : pickBest l' with
    | none =>
      rw [e2] at h2
      have := h2 x (hp.mem_iff.mp (pickBest_mem _ e1))
      rw [h1.1] at this
      cases this
    | some y =>
      rw [e2] at h2
      by_contra hne
      have hx := pickBest_mem _ e1
      have hy := pickBest_mem _ e2
      rcases hd x hx y (hp.mem_iff.mpr hy) (fun h => hne (by rw [h])) h1.1 h2.1 with h | h
      · rw [h1.2 y (hp.mem_iff.mpr hy)] at h; cases h
      · rw [h2.2 x (hp.mem_iff.mp hx)] at h; cases h

/-- The gain is the same in any order. -/
theorem pickBest_perm_gain {l l' : List (Offer D A)} (hp : l.Perm l') :
    match pickBest l, pickBest l' with
    | none, none => True
    | some x, some y => Dbl.ltb x.2.gain y.2.gain = false ∧ Dbl.ltb y.2.gain x.2.gain = false
    | _, _ => False := by
  have h1 := pickBest_max l
  have h2 := pickBest_max l'
  cases e1 : pickBest l with
  | none =>
    rw [e1] at h1
    cases e2 : pickBest l' with
    | none => trivial
    | some y =>
      rw [e2] at h2
      have := h1 y (hp.mem_iff.mpr (pickBest_mem _ e2))
      rw [h2.1] at this
      cases this
  | some x =>
    rw [e1] at h1
    cases e2 : pickBest l' with
    | none =>
      rw [e2] at h2
      have := h2 x (hp.mem_iff.mp (pickBest_mem _ e1))
      rw [h1.1] at this
      cases this
    | some y =>
      rw [e2] at h2
      exact ⟨h1.2 y (hp.mem_iff.mpr (pickBest_mem _ e2)), h2.2 x (hp.mem_iff.mp (pickBest_mem _ e1))⟩

theorem mapM_zip_perm {α β : Type} {f : α → Outcome β} {l l' : List α} (hp : l.Perm l') {r : List β} (h : l.mapM f = ok r) :
    ∃ r', l'.mapM f = ok r' ∧ (l.zip r).Perm (l'.zip r') := by
  induction hp generalizing r with
  | nil => exact ⟨r, h, .refl _⟩
  | cons x _ ih =>
    rw [List.mapM_cons] at h
    obtain ⟨b, hb, h⟩ := bind_eq_ok.mp h
    obtain ⟨r1, h1, h⟩ := bind_eq_ok.mp h
    cases h
    obtain ⟨r', h2, h3⟩ := ih h1
    refine ⟨b :: r', ?_, ?_⟩
    · rw [List.mapM_cons, hb, ok_bind, h2, ok_bind]; rfl
    · exact h3.cons _
  | swap x y l =>
    rw [List.mapM_cons] at h
    obtain ⟨b, hb, h⟩ := bind_eq_ok.mp h
    obtain ⟨r1, h1, h⟩ := bind_eq_ok.mp h
    cases h
    rw [List.mapM_cons] at h1
    obtain ⟨c, hc, h1⟩ := bind_eq_ok.mp h1
    obtain ⟨r2, h2, h1⟩ := bind_eq_ok.mp h1
    cases h1
    refine ⟨c :: b :: r2, ?_, ?_⟩
    · rw [List.mapM_cons, hc, ok_bind, List.mapM_cons, hb, ok_bind, h2, ok_bind]; rfl
    · exact .swap _ _ _
  | trans _ _ ih1 ih2 =>
    obtain ⟨r1, h1, h2⟩ := ih1 h
    obtain ⟨r2, h3, h4⟩ := ih2 h1
    exact ⟨r2, h3, h2.trans h4⟩

/-- No two features offer splits of the same gain for these samples. -/
def NoTies (env : FitEnv D A) (cfg : FitConfig D) (samples : List Nat) (total : GD D) : Prop :=
  ∀ f ∈ env.features, ∀ g ∈ env.features, f ≠ g → ∀ s s',
    findBestSplit env.sort f.2 env.w env.grads samples cfg.toSplitConfig total = ok (some s) →
    findBestSplit env.sort g.2 env.w env.grads samples cfg.toSplitConfig total = ok (some s') →
    Dbl.ltb s.gain s'.gain = true ∨ Dbl.ltb s'.gain s.gain = true

variable {env : FitEnv D A} {cfg : FitConfig D} {fs : List (String × Column A)}

theorem bestFeature_reordered (hp : env.features.Perm fs) (hall : ∀ k, Dbl.ltb (env.draw k) cfg.featureRate = true)
    (hint : env.toInt (cfg.featureRate * env.ofNat env.features.length) ≠ none) {samples : List Nat} {total : GD D}
    (hn : NoTies env cfg samples total) {p p1 : Nat} {b : Option (Split D A × Column A)}
    (h : bestFeature env cfg samples total p = ok (b, p1)) :
    bestFeature { env with features := fs } cfg samples total p = ok (b, p1) := by
  rw [bestFeature_all hall hint] at h
  rw [bestFeature_all (env := { env with features := fs }) hall (by rw [← hp.length_eq]; exact hint)]
  obtain ⟨splits, hs, h⟩ := bind_eq_ok.mp h
  obtain ⟨splits', hs', hz⟩ := mapM_zip_perm hp hs
  have hoffer : offerOf { env with features := fs } cfg samples total = offerOf env cfg samples total := rfl
  rw [hoffer]
  dsimp only
  rw [hs', ok_bind, pickBest_perm hz, ← hp.length_eq]
  · exact h
  · have hw : ∀ x ∈ env.features.zip splits, Dbl.ltb 0 x.2.gain = true →
        findBestSplit env.sort x.1.2 env.w env.grads samples cfg.toSplitConfig total = ok (some x.2) := by
      intro x hx hg
      have := zip_mem_offer hs x hx
      unfold offerOf at this
      obtain ⟨o, ho, h1⟩ := bind_eq_ok.mp this
      cases o with
      | none =>
        rw [pure_eq, Outcome.ok.injEq] at h1
        rw [← h1] at hg
        exact absurd hg (by rw [Option.getD_none, StrictLt.irrefl]; decide)
      | some s =>
        rw [pure_eq, Outcome.ok.injEq, Option.getD_some] at h1
        rw [ho, h1]
    intro x hx y hy hxy gx gy
    by_cases hf : x.1 = y.1
    · refine absurd ?_ hxy
      have a := zip_mem_offer hs x hx
      have b := zip_mem_offer hs y hy
      rw [hf, b] at a
      rw [Outcome.ok.injEq] at a
      exact Prod.ext hf a.symm
    · exact hn _ (List.of_mem_zip hx).1 _ (List.of_mem_zip hy).1 hf _ _ (hw x hx gx) (hw y hy gy)

variable {columns : String → Option (Column A)} {all : List Nat}

/-- Which rows pass a node does not change any more. -/
theorem passes_step {s s' : FitState D A} (hd : FitData env columns) (hall : ∀ i ∈ all, i < env.grads.length)
    (hg : Grown env cfg columns all s) {k : Nat} {e : NodeData A} (hk : s.queue[k]? = some e) {f : Column A}
    (hf : e.feature = some f) (h : fitStep env cfg s k e f = ok s') {q : List Bool} (hold : s.tree.at? q ≠ none) :
    s'.tree.at? q ≠ none ∧ ∀ i ∈ all, passes columns s'.tree q i = passes columns s.tree q i := by
  obtain ⟨sc, sp, a, sa, b, sb, hleaf, hch, htree, _, _, hg'⟩ := fitStep_ok hd hall hg hk hf h
  refine ⟨?_, fun i hi => ?_⟩
  · rw [htree]
    rcases at?_graft_keep (p := e.path) (nl := leaf a sa) (nr := leaf b sb) hold with h | ⟨d, r, rfl⟩
    · exact h
    · exact absurd (at?_below_leaf hleaf) hold
  · obtain ⟨e1, he1, hie, y, sy, hy, hyl⟩ := hg.leafOf_all hi
    by_cases hp : e1.path = e.path
    · rw [hp] at hy
      obtain ⟨d, hd1, _⟩ := rowTest_sendsLeft (hd.rows _ _ hch.2.1) hch.2.2 (hall i hi)
      have := leafOf_graft_eq (a := a) (b := b) (sa := sa) (sb := sb) (hd.stored _ _ hch.2.1) hleaf hg.wf hy hd1
      simp only [passes, hy, htree, this]
      rw [Bool.eq_iff_iff, List.isPrefixOf_iff_prefix, List.isPrefixOf_iff_prefix, List.prefix_concat_iff]
      constructor
      · rintro (rfl | h)
        · exact absurd (at?_below_leaf hleaf) hold
        · exact h
      · exact Or.inr
    · have := leafOf_graft_ne (a := a) (b := b) (sa := sa) (sb := sb) hleaf hg.wf hy hp
      simp only [passes, hy, htree, this]

theorem passes_loop (hd : FitData env columns) (hall : ∀ i ∈ all, i < env.grads.length) :
    ∀ {fuel : Nat} {s s' : FitState D A}, Grown env cfg columns all s → fitLoop env cfg fuel s = ok s' → ∀ {q : List Bool},
      s.tree.at? q ≠ none → ∀ i ∈ all, passes columns s'.tree q i = passes columns s.tree q i
  | 0, s, s', _, h, q, _, i, _ => by
    simp only [fitLoop, Outcome.ok.injEq] at h
    subst h
    rfl
  | fuel + 1, s, s', hg, h, q, hq, i, hi => by
    rw [fitLoop] at h
    by_cases hc : s.queue.length > 0 ∧ s.queue.length < cfg.numLeaves
    · rw [if_pos hc] at h
      simp only [bind_eq_ok] at h
      obtain ⟨e, he, h⟩ := h
      rw [vecGet_eq_ok] at he
      cases hf : e.feature with
      | none =>
        rw [hf] at h
        cases h
        rfl
      | some f =>
        rw [hf] at h
        simp only [bind_eq_ok] at h
        obtain ⟨s1, hs1, h⟩ := h
        obtain ⟨_, _, _, _, _, _, _, _, _, _, _, hg1⟩ := fitStep_ok hd hall hg he hf hs1
        obtain ⟨h1, h2⟩ := passes_step hd hall hg he hf hs1 hq
        rw [passes_loop hd hall hg1 h h1 i hi, h2 i hi]
    · rw [if_neg hc] at h
      cases h
      rfl

/-- There are no ties for the samples of any node of a tree. -/
def NoTiesIn (env : FitEnv D A) (cfg : FitConfig D) (columns : String → Option (Column A)) (all : List Nat) (t : Tree D A) : Prop :=
  ∀ (q : List Bool) (members : List Nat) (total : GD D), members.Perm (all.filter (passes columns t q)) →
    weightedSum env.numThreads env.w env.grads members = ok total → NoTies env cfg members total

/-- The samples of an entry of the queue are those that pass its node in the end. -/
theorem entry_passes (hd : FitData env columns) (hall : ∀ i ∈ all, i < env.grads.length) {fuel : Nat} {s s' : FitState D A}
    (hg : Grown env cfg columns all s) (h : fitLoop env cfg fuel s = ok s') {e : NodeData A} (he : e ∈ s.queue) :
    e.samples.Perm (all.filter (passes columns s'.tree e.path)) := by
  obtain ⟨x, sp, hl⟩ := (hg.leaves e.path).mpr (List.mem_map.mpr ⟨e, he, rfl⟩)
  refine (hg.members he).trans (List.Perm.of_eq (List.filter_congr ?_))
  intro i hi
  rw [passes_loop hd hall hg h (by rw [hl]; simp) i hi]
  obtain ⟨e', he', _, y, sq, hy, hq⟩ := hg.leafOf_all hi
  simp only [reaches, passes, hy, Option.map_some, Option.some.injEq]
  exact (leaf_prefix hl hq).symm

theorem fitLoop_reordered (hd : FitData env columns) (hall : ∀ i ∈ all, i < env.grads.length) (hp : env.features.Perm fs)
    (hdraw : ∀ k, Dbl.ltb (env.draw k) cfg.featureRate = true) (hint : env.toInt (cfg.featureRate * env.ofNat env.features.length) ≠ none) :
    ∀ {fuel : Nat} {s s' : FitState D A}, Grown env cfg columns all s → NoTiesIn env cfg columns all s'.tree →
      fitLoop env cfg fuel s = ok s' → fitLoop { env with features := fs } cfg fuel s = ok s'
  | 0, s, s', _, _, h => h
  | fuel + 1, s, s', hg, hn, h => by
    rw [fitLoop] at h ⊢
    by_cases hc : s.queue.length > 0 ∧ s.queue.length < cfg.numLeaves
    · rw [if_pos hc] at h ⊢
      dsimp only at h ⊢
      obtain ⟨e, he, h⟩ := bind_eq_ok.mp h
      rw [he, ok_bind]
      rw [vecGet_eq_ok] at he
      cases hf : e.feature with
      | none =>
        rw [hf] at h
        exact h
      | some f =>
        rw [hf] at h
        dsimp only at h ⊢
        obtain ⟨s1, hs1, h⟩ := bind_eq_ok.mp h
        obtain ⟨_, _, _, _, _, _, _, _, _, _, _, hg1⟩ := fitStep_ok hd hall hg he hf hs1
        have hs1' : fitStep { env with features := fs } cfg s (env.top s.step (queueGains s)) e f = ok s1 := by
          have hq : ∀ e' ∈ s1.queue, e'.samples.Perm (all.filter (passes columns s'.tree e'.path)) :=
            fun e' he' => entry_passes hd hall hg1 h he'
          clear h
          unfold fitStep at hs1 ⊢
          dsimp only at hs1 ⊢
          cases ht : s.tree.at? e.path with
          | none => rw [ht] at hs1; cases hs1
          | some t =>
          rw [ht] at hs1
          dsimp only at hs1 ⊢
          rw [ok_bind] at hs1 ⊢
          obtain ⟨⟨ls, rs⟩, hpt, hs1⟩ := bind_eq_ok.mp hs1
          obtain ⟨lt, hlt, hs1⟩ := bind_eq_ok.mp hs1
          obtain ⟨rt, hrt, hs1⟩ := bind_eq_ok.mp hs1
          obtain ⟨⟨lb, p1⟩, hlb, hs1⟩ := bind_eq_ok.mp hs1
          obtain ⟨⟨rb, p2⟩, hrb, hs1⟩ := bind_eq_ok.mp hs1
          cases hs1
          have h1 := hn _ _ _ (hq ⟨e.path ++ [false], lb.map (·.2), ls⟩ (by simp)) hlt
          have h2 := hn _ _ _ (hq ⟨e.path ++ [true], rb.map (·.2), rs⟩ (by simp)) hrt
          rw [hpt, ok_bind]
          dsimp only at hlt hrt ⊢
          rw [hlt, ok_bind, hrt, ok_bind, bestFeature_reordered hp hdraw hint h1 hlb, ok_bind]
          dsimp only
          rw [bestFeature_reordered hp hdraw hint h2 hrb, ok_bind]
          rfl
        rw [hs1', ok_bind]
        exact fitLoop_reordered hd hall hp hdraw hint hg1 hn h
    · rw [if_neg hc] at h ⊢
      exact h

theorem fitTree_reordered (hd : FitData env columns) (hp : env.features.Perm fs)
    (hdraw : ∀ k, Dbl.ltb (env.draw k) cfg.featureRate = true) (hint : env.toInt (cfg.featureRate * env.ofNat env.features.length) ≠ none)
    {p q : Nat} {t : Tree D A} (h : fitTree env cfg p = ok (t, q)) {samples : List Nat} {p1 : Nat}
    (hs : uniformSubsample env.toInt env.ofNat env.draw env.grads.length cfg.exampleRate p = ok (samples, p1))
    (hn : NoTiesIn env cfg columns samples t) : fitTree { env with features := fs } cfg p = ok (t, q) := by
  obtain ⟨s0, s, all, p1', h0, h1, rfl, h3, hall, _, hg0, _⟩ := fitTree_ok hd h
  rw [hs] at h3
  cases h3
  have h1' := fitLoop_reordered hd hall hp hdraw hint hg0 hn h1
  have h0' : fitStart { env with features := fs } cfg p = ok s0 := by
    have hq : ∀ e' ∈ s0.queue, e'.samples.Perm (samples.filter (passes columns s.tree e'.path)) :=
      fun e' he' => entry_passes hd hall hg0 h1 he'
    unfold fitStart at h0 ⊢
    obtain ⟨⟨smp, p1'⟩, g1, h0⟩ := bind_eq_ok.mp h0
    obtain ⟨total, g2, h0⟩ := bind_eq_ok.mp h0
    obtain ⟨⟨best, p2⟩, g3, h0⟩ := bind_eq_ok.mp h0
    cases h0
    dsimp only at g1 g2 g3 ⊢
    rw [g1, ok_bind]
    dsimp only
    rw [g2, ok_bind, bestFeature_reordered hp hdraw hint (hn _ _ _ (hq ⟨[], best.map (·.2), smp⟩ (by simp)) g2) g3, ok_bind]
    rfl
  unfold fitTree at h ⊢
  rw [h0, ok_bind, h1, ok_bind] at h
  rw [h0', ok_bind, h1', ok_bind]
  exact h

end Gbdt
