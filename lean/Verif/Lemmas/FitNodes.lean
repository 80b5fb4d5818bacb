import Verif.Lemmas.FitTotal

/-!
# Growing a tree: what is stored at every node, inner nodes included
-/

set_option autoImplicit false
set_option linter.unusedSectionVars false

namespace Gbdt

open Outcome

section trees
variable {D A : Type}

theorem at?_absent (q : List Bool) : (Tree.absent : Tree D A).at? q = none := by cases q <;> rfl

theorem at?_leaf_eq {x : D} {sp : Option (Split D A)} {q : List Bool} {t : Tree D A} (h : (leaf x sp).at? q = some t) :
    q = [] ∧ t = leaf x sp := by
  cases q with
  | nil => exact ⟨rfl, by simpa [leaf, Tree.at?] using h.symm⟩
  | cons b q => cases b <;> simp [Tree.at?] at h

/-- The nodes after a leaf got two children: the old ones, with score and split unchanged, and the two new ones. -/
theorem at?_graft {a b : D} {sa sb : Option (Split D A)} : ∀ {t : Tree D A} {p q : List Bool} {s x : D}
    {sp sx : Option (Split D A)} {l r : Tree D A}, IsLeafAt t p s sp →
    (t.graft p (leaf a sa) (leaf b sb)).at? q = some (.node x sx l r) →
    (∃ l' r', t.at? q = some (.node x sx l' r')) ∨ q = p ++ [false] ∨ q = p ++ [true] := by
  intro t
  induction t with
  | absent => intro p q s x sp sx l r h; exact absurd h not_at?_absent
  | node s0 sp0 l0 r0 ihl ihr =>
    intro p q s x sp sx l r h hq
    cases p with
    | nil =>
      obtain ⟨rfl, rfl, rfl, rfl⟩ := isLeafAt_nil.mp h
      rw [Tree.graft] at hq
      cases q with
      | nil =>
        simp only [Tree.at?, Option.some.injEq, Tree.node.injEq] at hq
        obtain ⟨rfl, rfl, _, _⟩ := hq
        exact Or.inl ⟨_, _, rfl⟩
      | cons c q =>
        right
        cases c
        · simp only [Tree.at?, Bool.false_eq_true, if_false] at hq
          obtain ⟨rfl, _⟩ := at?_leaf_eq hq
          exact Or.inl rfl
        · simp only [Tree.at?, if_true] at hq
          obtain ⟨rfl, _⟩ := at?_leaf_eq hq
          exact Or.inr rfl
    | cons c p =>
      rw [isLeafAt_cons] at h
      cases q with
      | nil =>
        refine Or.inl ⟨l0, r0, ?_⟩
        cases c
        · rw [Tree.graft, if_neg (by simp)] at hq
          simp only [Tree.at?, Option.some.injEq, Tree.node.injEq] at hq
          rw [Tree.at?, hq.1, hq.2.1]
        · rw [Tree.graft, if_pos rfl] at hq
          simp only [Tree.at?, Option.some.injEq, Tree.node.injEq] at hq
          rw [Tree.at?, hq.1, hq.2.1]
      | cons d q =>
        cases c with
        | true =>
          simp only [if_true] at h
          rw [Tree.graft, if_pos rfl] at hq
          cases d with
          | true =>
            simp only [Tree.at?, if_true] at hq ⊢
            rcases ihr h hq with h' | rfl | rfl
            · exact Or.inl h'
            · exact Or.inr (Or.inl rfl)
            · exact Or.inr (Or.inr rfl)
          | false =>
            simp only [Tree.at?, Bool.false_eq_true, if_false] at hq ⊢
            exact Or.inl ⟨_, _, hq⟩
        | false =>
          simp only [Bool.false_eq_true, if_false] at h
          rw [Tree.graft, if_neg (by simp)] at hq
          cases d with
          | false =>
            simp only [Tree.at?, Bool.false_eq_true, if_false] at hq ⊢
            rcases ihl h hq with h' | rfl | rfl
            · exact Or.inl h'
            · exact Or.inr (Or.inl rfl)
            · exact Or.inr (Or.inr rfl)
          | true =>
            simp only [Tree.at?, if_true] at hq ⊢
            exact Or.inl ⟨_, _, hq⟩

/-- There is nothing below a leaf. -/
theorem at?_below_leaf : ∀ {t : Tree D A} {p : List Bool} {s : D} {sp : Option (Split D A)} {d : Bool} {q : List Bool},
    IsLeafAt t p s sp → t.at? (p ++ d :: q) = none := by
  intro t p
  induction p generalizing t with
  | nil =>
    intro s sp d q h
    cases t with
    | absent => exact absurd h not_at?_absent
    | node s0 sp0 l r =>
      obtain ⟨_, _, rfl, rfl⟩ := isLeafAt_nil.mp h
      cases d <;> simp [Tree.at?]
  | cons c p ih =>
    intro s sp d q h
    cases t with
    | absent => exact absurd h not_at?_absent
    | node s0 sp0 l r =>
      rw [isLeafAt_cons] at h
      rw [List.cons_append]
      cases c
      · simp only [Tree.at?, Bool.false_eq_true, if_false] at h ⊢
        exact ih h
      · simp only [Tree.at?, if_true] at h ⊢
        exact ih h

theorem leaf_prefix {t : Tree D A} {q path : List Bool} {x : D} {sp : Option (Split D A)} {u : Tree D A}
    (h : IsLeafAt t q x sp) (h2 : t.at? path = some u) : q.isPrefixOf path = decide (path = q) := by
  rw [Bool.eq_iff_iff, List.isPrefixOf_iff_prefix, decide_eq_true_eq]
  constructor
  · rintro ⟨r, rfl⟩
    cases r with
    | nil => simp
    | cons d r => rw [at?_below_leaf h] at h2; cases h2
  · rintro rfl; exact List.prefix_rfl

end trees

variable {D A : Type} [Dbl D] [LinearOrder A] [ThrOps A] [FpOrder D]

/-- What is stored at the node at path `q` comes from the samples that pass it. -/
def NodeFit (env : FitEnv D A) (cfg : FitConfig D) (columns : String → Option (Column A)) (all : List Nat) (t : Tree D A)
    (q : List Bool) (x : D) (sp : Option (Split D A)) : Prop :=
  ∃ members total best p p1, members.Perm (all.filter (passes columns t q)) ∧
    weightedSum env.numThreads env.w env.grads members = ok total ∧
    bestFeature env cfg members total p = ok (best, p1) ∧
    x = env.rnd32 (total.score cfg.l2Lambda) ∧ sp = best.map Prod.fst

theorem Grown.leafOf_all {env : FitEnv D A} {cfg : FitConfig D} {columns : String → Option (Column A)} {all : List Nat}
    {s : FitState D A} (hg : Grown env cfg columns all s) {i : Nat} (hi : i ∈ all) :
    ∃ e ∈ s.queue, i ∈ e.samples ∧ ∃ x sp, leafOf columns s.tree i = some (e.path, x) ∧ IsLeafAt s.tree e.path x sp := by
  obtain ⟨e, he, hie⟩ := List.mem_flatMap.mp (hg.perm.mem_iff.mpr hi)
  obtain ⟨x, hx⟩ := hg.routed e he i hie
  obtain ⟨sp, hsp⟩ := leafOf_isLeafAt hg.wf hx
  exact ⟨e, he, hie, x, sp, hx, hsp⟩

theorem Grown.leafFit {env : FitEnv D A} {cfg : FitConfig D} {columns : String → Option (Column A)} {all : List Nat}
    {s : FitState D A} (hg : Grown env cfg columns all s) {q : List Bool} {x : D} {sp : Option (Split D A)}
    (h : IsLeafAt s.tree q x sp) : NodeFit env cfg columns all s.tree q x sp := by
  obtain ⟨e, he, rfl, total, best, p, p1, h1, h2, _, h3, h4⟩ := hg.leafEntry h
  refine ⟨e.samples, total, best, p, p1, ?_, h1, h2, h3, h4⟩
  refine (hg.members he).trans (List.Perm.of_eq (List.filter_congr ?_))
  intro i hi
  obtain ⟨e', he', _, y, sq, hy, hq⟩ := hg.leafOf_all hi
  simp only [reaches, passes, hy, Option.map_some, Option.some.injEq]
  exact (leaf_prefix h hq).symm

/-- The invariant for all nodes. -/
def NodesFit (env : FitEnv D A) (cfg : FitConfig D) (columns : String → Option (Column A)) (all : List Nat)
    (t : Tree D A) : Prop :=
  ∀ q x sp l r, t.at? q = some (.node x sp l r) → NodeFit env cfg columns all t q x sp

theorem NodesFit.step {env : FitEnv D A} {cfg : FitConfig D} {columns : String → Option (Column A)}
    {all : List Nat} {s s' : FitState D A} (hd : FitData env columns) (hall : ∀ i ∈ all, i < env.grads.length)
    (hg : Grown env cfg columns all s) (hn : NodesFit env cfg columns all s.tree) {k : Nat} {e : NodeData A}
    (hk : s.queue[k]? = some e) {f : Column A}
    (hf : e.feature = some f) (h : fitStep env cfg s k e f = ok s') : NodesFit env cfg columns all s'.tree := by
  obtain ⟨sc, sp, a, sa, b, sb, hleaf, hch, htree, _, _, hg'⟩ := fitStep_ok hd hall hg hk hf h
  intro q x sx l r hq
  have hl1 : IsLeafAt s'.tree (e.path ++ [false]) a sa := by
    rw [htree]; exact (isLeafAt_graft hleaf).mpr (Or.inr (Or.inl ⟨rfl, rfl, rfl⟩))
  have hl2 : IsLeafAt s'.tree (e.path ++ [true]) b sb := by
    rw [htree]; exact (isLeafAt_graft hleaf).mpr (Or.inr (Or.inr ⟨rfl, rfl, rfl⟩))
  have hnew : ∀ {y : D} {sy : Option (Split D A)}, IsLeafAt s'.tree q y sy → NodeFit env cfg columns all s'.tree q x sx := by
    intro y sy hy
    have hy' := hy
    rw [IsLeafAt, hq] at hy
    cases hy
    exact hg'.leafFit hy'
  have hq' := hq
  rw [htree] at hq'
  rcases at?_graft hleaf hq' with ⟨l', r', hold⟩ | rfl | rfl
  · obtain ⟨members, total, best, p, p1, h1, h2, h3, h4, h5⟩ := hn q x sx l' r' hold
    refine ⟨members, total, best, p, p1, h1.trans (List.Perm.of_eq (List.filter_congr ?_)), h2, h3, h4, h5⟩
    intro i hi
    obtain ⟨e1, he1, hie, y, sy, hy, hyl⟩ := hg.leafOf_all hi
    by_cases hp : e1.path = e.path
    · rw [hp] at hy
      obtain ⟨d, hd1, _⟩ := rowTest_sendsLeft (hd.rows _ _ hch.2.1) hch.2.2 (hall i hi)
      have := leafOf_graft_eq (a := a) (b := b) (sa := sa) (sb := sb) (hd.stored _ _ hch.2.1) hleaf hg.wf hy hd1
      simp only [passes, hy, htree, this]
      rw [Bool.eq_iff_iff, List.isPrefixOf_iff_prefix, List.isPrefixOf_iff_prefix, List.prefix_concat_iff]
      constructor
      · exact Or.inr
      · rintro (rfl | h)
        · rw [at?_below_leaf hleaf] at hold
          cases hold
        · exact h
    · have := leafOf_graft_ne (a := a) (b := b) (sa := sa) (sb := sb) hleaf hg.wf hy hp
      simp only [passes, hy, htree, this]
  · exact hnew hl1
  · exact hnew hl2

theorem NodesFit.loop {env : FitEnv D A} {cfg : FitConfig D} {columns : String → Option (Column A)}
    {all : List Nat} (hd : FitData env columns) (hall : ∀ i ∈ all, i < env.grads.length) :
    ∀ {fuel : Nat} {s s' : FitState D A}, Grown env cfg columns all s → NodesFit env cfg columns all s.tree →
    fitLoop env cfg fuel s = ok s' → NodesFit env cfg columns all s'.tree
  | 0, s, s', _, hn, h => by
    simp only [fitLoop, Outcome.ok.injEq] at h
    subst h
    exact hn
  | fuel + 1, s, s', hg, hn, h => by
    rw [fitLoop] at h
    by_cases hc : s.queue.length > 0 ∧ s.queue.length < cfg.numLeaves
    · rw [if_pos hc] at h
      simp only [bind_eq_ok] at h
      obtain ⟨e, he, h⟩ := h
      rw [vecGet_eq_ok] at he
      cases hf : e.feature with
      | none =>
        rw [hf] at h
        cases h
        exact hn
      | some f =>
        rw [hf] at h
        simp only [bind_eq_ok] at h
        obtain ⟨s1, hs1, h⟩ := h
        obtain ⟨_, _, _, _, _, _, _, _, _, _, _, hg1⟩ := fitStep_ok hd hall hg he hf hs1
        exact NodesFit.loop hd hall hg1 (hn.step hd hall hg he hf hs1) h
    · rw [if_neg hc] at h
      cases h
      exact hn

/-- A run of `FitTreeToGradients` taken apart. -/
theorem fitTree_ok {env : FitEnv D A} {cfg : FitConfig D} {columns : String → Option (Column A)} (hd : FitData env columns)
    {p q : Nat} {t : Tree D A} (h : fitTree env cfg p = ok (t, q)) :
    ∃ s0 s all p1, fitStart env cfg p = ok s0 ∧ fitLoop env cfg cfg.numLeaves s0 = ok s ∧ s.tree = t ∧
      uniformSubsample env.toInt env.ofNat env.draw env.grads.length cfg.exampleRate p = ok (all, p1) ∧
      (∀ i ∈ all, i < env.grads.length) ∧ s0.queue.length = 1 ∧ Grown env cfg columns all s0 ∧
      Grown env cfg columns all s ∧ NodesFit env cfg columns all t ∧
      1 ≤ s.queue.length ∧ s.queue.length ≤ max 1 cfg.numLeaves ∧
      (cfg.numLeaves ≤ s.queue.length ∨
        ∃ e, s.queue[env.top s.step (queueGains s)]? = some e ∧ e.feature = none) := by
  simp only [fitTree, bind_eq_ok, pure_eq, Outcome.ok.injEq, Prod.mk.injEq] at h
  obtain ⟨s0, h0, s, h1, rfl, rfl⟩ := h
  obtain ⟨all, p1, h2, hg0, hl0⟩ := Grown.start (columns := columns) h0
  have hall := subsample_lt h2
  obtain ⟨hg, g1, g2, g3⟩ := fitLoop_ok hd hall hg0 (by omega) (by omega) h1
  refine ⟨s0, s, all, p1, h0, h1, rfl, h2, hall, hl0, hg0, hg, ?_, by omega, by omega, g3⟩
  refine NodesFit.loop hd hall hg0 ?_ h1
  simp only [fitStart, bind_eq_ok] at h0
  obtain ⟨⟨all', p1'⟩, k1, total, k2, ⟨best, p2⟩, k3, k4⟩ := h0
  cases k4
  intro q x sp l r hq
  simp only [newNode_eq env cfg total k3] at hq
  obtain ⟨rfl, hl⟩ := at?_leaf_eq hq
  have : IsLeafAt (newNode env cfg total best) [] x sp := by
    rw [newNode_eq env cfg total k3, IsLeafAt, hq, hl]
    cases hl
    rfl
  exact hg0.leafFit this

end Gbdt
