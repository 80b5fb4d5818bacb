import Verif.Spec.Train
import Verif.Lemmas.Score
import Verif.Lemmas.FitNodes

/-!
# Lemmas about training
-/

set_option autoImplicit false
set_option linter.unusedSectionVars false

namespace Gbdt

open Outcome

variable {S D A : Type} [Dbl D] [LinearOrder A]

/-! ## Shrinking and stripping -/

theorem clearIndex_sendsLeft (c : Column A) (s : Split D A) (i : Nat) :
    sendsLeft c (clearIndex s) i = sendsLeft c s i := by
  cases c with
  | str c => cases h : s.catSplit <;> cases hr : c.rowString i <;> simp [sendsLeft, clearIndex, h, hr]
  | bkt c => rfl
  | raw c => rfl

theorem clearIndex_fits {c : Column A} {s : Split D A} (h : SplitFits c s) : SplitFits c (clearIndex s) := by
  cases c with
  | str c =>
    obtain ⟨cs, h1, h2⟩ := h
    exact ⟨{ cs with index := [] }, by simp [clearIndex, h1], Or.inl rfl⟩
  | bkt c => exact h
  | raw c => trivial

theorem leafOf_clearInternal (columns : String → Option (Column A)) (t : Tree D A) (i : Nat) :
    leafOf columns (clearInternal t) i = leafOf columns t i := by
  induction t with
  | absent => rfl
  | node score split left right ihl ihr =>
    cases left with
    | absent => rfl
    | node a b c d =>
      cases split with
      | none => rfl
      | some s =>
        simp only [clearInternal, Tree.isSet, if_true, Option.map_some] at ihl ihr ⊢
        simp only [leafOf, clearIndex_sendsLeft, ihl, ihr]
        rfl

theorem scorable_clearInternal {columns : String → Option (Column A)} {t : Tree D A} (h : Scorable columns t) :
    Scorable columns (clearInternal t) := by
  induction t with
  | absent => trivial
  | node score split left right ihl ihr =>
    cases left with
    | absent => trivial
    | node a b c d =>
      obtain ⟨⟨s, col, rfl, h1, h2⟩, h3, h4⟩ := h
      exact ⟨⟨clearIndex s, col, rfl, h1, clearIndex_fits h2⟩, ihl h3, ihr h4⟩

theorem scorable_applyShrinkage {columns : String → Option (Column A)} (rnd32 : D → D) (rate : D) {t : Tree D A}
    (h : Scorable columns t) : Scorable columns (applyShrinkage rnd32 rate t) := by
  induction t with
  | absent => trivial
  | node score split left right ihl ihr =>
    cases left with
    | absent => trivial
    | node a b c d =>
      obtain ⟨h1, h3, h4⟩ := h
      exact ⟨h1, ihl h3, ihr h4⟩

theorem wellFormed_applyShrinkage {P : Split D A → Prop} (rnd32 : D → D) (rate : D) {t : Tree D A}
    (h : t.WellFormed P) : (applyShrinkage rnd32 rate t).WellFormed P := by
  induction t with
  | absent => exact h
  | node score split left right ihl ihr =>
    cases left with
    | absent => cases right with
      | absent => trivial
      | node a b c d => exact absurd h.2.1 (by simp [Tree.WellFormed])
    | node a b c d => exact ⟨h.1, ihl h.2.1, ihr h.2.2⟩

theorem wellFormed_clearInternal {P Q : Split D A → Prop} (hPQ : ∀ s, P s → Q (clearIndex s)) {t : Tree D A}
    (h : t.WellFormed P) : (clearInternal t).WellFormed Q := by
  induction t with
  | absent => exact h
  | node score split left right ihl ihr =>
    cases left with
    | absent => cases right with
      | absent => trivial
      | node a b c d => exact absurd h.2.1 (by simp [Tree.WellFormed])
    | node a b c d =>
      obtain ⟨⟨s, rfl, hs⟩, h3, h4⟩ := h
      exact ⟨⟨clearIndex s, rfl, hPQ s hs⟩, ihl h3, ihr h4⟩

theorem countLeaves_applyShrinkage (rnd32 : D → D) (rate : D) (t : Tree D A) :
    (applyShrinkage rnd32 rate t).countLeaves = t.countLeaves := by
  induction t with
  | absent => rfl
  | node score split left right ihl ihr =>
    cases left <;> cases right <;> simp only [applyShrinkage, Tree.countLeaves] at ihl ihr ⊢ <;> omega

theorem countLeaves_clearInternal (t : Tree D A) : (clearInternal t).countLeaves = t.countLeaves := by
  induction t with
  | absent => rfl
  | node score split left right ihl ihr =>
    cases left <;> cases right <;> simp only [clearInternal, Tree.countLeaves] at ihl ihr ⊢ <;> omega

theorem treeFeatures_clearInternal {t : Tree D A} {name : String} (h : name ∈ treeFeatures (clearInternal t)) :
    name ∈ treeFeatures t := by
  induction t with
  | absent => exact h
  | node score split left right ihl ihr =>
    simp only [clearInternal, treeFeatures, List.mem_append] at h ⊢
    rcases h with (h | h) | h
    · left; left
      cases split with
      | none => split at h <;> simp_all
      | some s => by_cases hl : left.isSet <;> simp_all [clearIndex]
    · exact Or.inl (Or.inr (ihl h))
    · exact Or.inr (ihr h)

theorem treeFeatures_wellFormed {P : Split D A → Prop} {t : Tree D A} (h : t.WellFormed P) {name : String}
    (hn : name ∈ treeFeatures (clearInternal t)) : ∃ s, P s ∧ s.feature = name := by
  induction t with
  | absent => cases hn
  | node score split left right ihl ihr =>
    cases left with
    | absent => cases right with
      | absent => cases hn
      | node a b c d => exact absurd h.2.1 (by simp [Tree.WellFormed])
    | node a b c d =>
      obtain ⟨⟨s, rfl, hs⟩, h3, h4⟩ := h
      have hn' : name ∈ [s.feature] ++ treeFeatures (clearInternal (.node a b c d)) ++ treeFeatures (clearInternal right) :=
        hn
      rw [List.mem_append, List.mem_append, List.mem_singleton] at hn'
      clear hn
      have hn := hn'
      rcases hn with (hn | hn) | hn
      · exact ⟨s, hs, hn.symm⟩
      · exact ihl h3 hn
      · exact ihr h4 hn

theorem clearInternal_idem (t : Tree D A) : clearInternal (clearInternal t) = clearInternal t := by
  induction t with
  | absent => rfl
  | node score split left right ihl ihr =>
    simp only [clearInternal, ihl, ihr]
    congr 1
    have : (clearInternal left).isSet = left.isSet := by cases left <;> rfl
    rw [this]
    by_cases hl : left.isSet
    · simp only [hl, if_true, Option.map_map]
      congr 1
      funext s
      cases h : s.catSplit <;> simp [clearIndex, h]
    · simp [hl]

/-! ## The training loop -/

/-- What a row scores on a tree; only used for trees that can be scored. -/
def scoreD (columns : String → Option (Column A)) (i : Nat) (t : Tree D A) : D := (scoreOf columns t i).getD 0

/-- The trees whose scores have been added to the function values, with their constants. -/
def Added (columns : String → Option (Column A)) (n : Nat) (l : List (Tree D A × D)) (f : List D) : Prop :=
  f.length = n ∧ ∀ i < n, f[i]? = some (l.foldl (fun a x => a + (scoreD columns i x.1 + x.2)) 0)

theorem Added.add {columns : String → Option (Column A)} {n : Nat}
    (hcols : ∀ name c, columns name = some c → HasRows n c) {l : List (Tree D A × D)} {f : List D}
    (h : Added columns n l f) {slices : List (List Nat)} (hs : Slices n slices) {t : Tree D A} (ht : Scorable columns t)
    {k : D} {ss : List (List Nat)} {sc : List D} (hr : addTreeScores columns t k slices f = ok (ss, sc)) :
    Slices n ss ∧ Added columns n (l ++ [(t, k)]) sc := by
  obtain ⟨ss', sc', h1, h2, h3, h4⟩ := hs.add hcols k ht h.1
  rw [hr, Outcome.ok.injEq, Prod.mk.injEq] at h1
  obtain ⟨rfl, rfl⟩ := h1
  refine ⟨h2, h3, fun i hi => ?_⟩
  obtain ⟨x, old, g1, g2, g3⟩ := h4 i hi
  rw [h.2 i hi, Option.some.injEq] at g2
  rw [g3, List.foldl_append, List.foldl_cons, List.foldl_nil, g2, scoreD, g1, Option.getD_some]

/-- Adding constants to the score of the constant tree, each time rounded. -/
def addConstants (rnd32 : D → D) (k : D) (ks : List D) : D := ks.foldl (fun a x => rnd32 (a + x)) k

theorem initWithBase_spec {env : TrainEnv D A}
    (hcols : ∀ name c, env.columns name = some c → HasRows env.numRows c) :
    ∀ (base : List (Tree D A)) {k : D} {rest : List (Tree D A)} {l : List (Tree D A × D)} {slices : List (List Nat)}
      {f : List D} {forest1 : List (Tree D A)} {slices1 : List (List Nat)} {f1 : List D},
      (∀ t ∈ base, Scorable env.columns t) → Slices env.numRows slices → Added env.columns env.numRows l f →
      initWithBase env base (.node k none .absent .absent :: rest) slices f = ok (forest1, slices1, f1) →
      forest1 = .node (addConstants env.rnd32 k ((base.filter isSingleNode).map rootScore)) none .absent .absent ::
        (rest ++ base.filter (fun t => !isSingleNode t)) ∧
      Slices env.numRows slices1 ∧ Added env.columns env.numRows (l ++ base.map (fun t => (t, 0))) f1
  | [], k, rest, l, slices, f, forest1, slices1, f1, _, hs, hf, h => by
    rw [initWithBase, Outcome.ok.injEq] at h
    cases h
    simp only [List.filter_nil, List.map_nil, List.append_nil]
    exact ⟨rfl, hs, hf⟩
  | t :: ts, k, rest, l, slices, f, forest1, slices1, f1, hb, hs, hf, h => by
    rw [initWithBase, bind_eq_ok] at h
    obtain ⟨⟨ss, sc⟩, h1, h2⟩ := h
    obtain ⟨g1, g2⟩ := hf.add hcols hs (hb t (by simp)) h1
    by_cases hsingle : isSingleNode t = true
    · simp only [hsingle, if_true, List.modify_zero_cons, addRootScore] at h2
      obtain ⟨k1, k2, k3⟩ := initWithBase_spec hcols ts (fun x hx => hb x (by simp [hx])) g1 g2 h2
      refine ⟨?_, k2, ?_⟩
      · rw [k1]
        simp [hsingle, addConstants]
      · simpa using k3
    · simp only [hsingle, List.cons_append] at h2
      obtain ⟨k1, k2, k3⟩ := initWithBase_spec hcols ts (fun x hx => hb x (by simp [hx])) g1 g2 h2
      refine ⟨?_, k2, ?_⟩
      · rw [k1]
        simp [hsingle]
      · simpa using k3

variable [ThrOps A] [FpOrder D]

/-- A fitted tree as training keeps it. -/
def FittedTree (env : TrainEnv D A) (features : List (String × Column A)) (cfg : TrainConfig D) (t1 : Tree D A) : Prop :=
  ∃ grads t p q, grads.length = env.numRows ∧ fitTree (env.fit features grads) cfg.fit p = ok (t, q) ∧
    t1 = applyShrinkage env.rnd32 cfg.shrinkage t

theorem trainLoop_spec {env : TrainEnv D A} {G : Option StrCol → Prop} {loss : LossFunc S D} {features : List (String × Column A)}
    {cfg : TrainConfig D} (hcols : ∀ name c, env.columns name = some c → HasRows env.numRows c)
    (hstored : ∀ name c, (name, c) ∈ features → env.columns name = some c)
    (hloss : ∀ s f s' c g, LossReach env.numRows G loss s → loss.compute s f = ok (s', c, g) → f.length = env.numRows →
      g.length = env.numRows)
    (hfit : ∀ t1, FittedTree env features cfg t1 → Scorable env.columns t1) :
    ∀ (n : Nat) {k : D} {rest : List (Tree D A)} {l : List (Tree D A × D)} {s s' : TrainState S D A} {stopped : Bool},
      s.forest = .node k none .absent .absent :: rest → LossReach env.numRows G loss s.loss →
      Slices env.numRows s.slices → Added env.columns env.numRows l s.f →
      trainLoop env loss features cfg 0 n s = ok (stopped, s') →
      ∃ fitted : List (Tree D A × D),
        s'.forest = .node (addConstants env.rnd32 k (fitted.map Prod.snd)) none .absent .absent ::
          (rest ++ fitted.map Prod.fst) ∧
        (∀ x ∈ fitted, FittedTree env features cfg x.1 ∧ env.diverged x.2 = false) ∧
        Added env.columns env.numRows (l ++ fitted) s'.f ∧
        (if stopped then fitted.length < n else fitted.length = n)
  | 0, k, rest, l, s, s', stopped, hf, hr, hs, ha, h => by
    rw [trainLoop, Outcome.ok.injEq, Prod.mk.injEq] at h
    obtain ⟨rfl, rfl⟩ := h
    exact ⟨[], by simp [hf, addConstants], by simp, by simpa using ha, by simp⟩
  | n + 1, k, rest, l, s, s', stopped, hf, hr, hs, ha, h => by
    rw [trainLoop, bind_eq_ok] at h
    obtain ⟨⟨ls, constant, grads⟩, h1, h2⟩ := h
    have hg := hloss _ _ _ _ _ hr h1 ha.1
    simp only at h2
    by_cases hd : env.diverged constant = true
    · simp only [hd, if_true, pure_eq, Outcome.ok.injEq, Prod.mk.injEq] at h2
      obtain ⟨rfl, rfl⟩ := h2
      exact ⟨[], by simp [hf, addConstants], by simp, by simpa using ha, by simp⟩
    · rw [if_neg hd, bind_eq_ok] at h2
      obtain ⟨⟨t, pos⟩, h3, h4⟩ := h2
      simp only [bind_eq_ok] at h4
      obtain ⟨⟨ss, sc⟩, h5, h6⟩ := h4
      have ht : FittedTree env features cfg (applyShrinkage env.rnd32 cfg.shrinkage t) :=
        ⟨grads, t, s.pos, pos, hg, h3, rfl⟩
      obtain ⟨g1, g2⟩ := ha.add hcols hs (hfit _ ht) h5
      simp only [hf, List.cons_append, List.modify_zero_cons, addRootScore] at h6
      obtain ⟨fitted, k1, k2, k3, k4⟩ := trainLoop_spec hcols hstored hloss hfit n rfl (hr.step ha.1 h1) g1 g2 h6
      refine ⟨(applyShrinkage env.rnd32 cfg.shrinkage t, constant) :: fitted, ?_, ?_, ?_, ?_⟩
      · rw [k1]; simp [addConstants]
      · intro x hx
        rcases List.mem_cons.mp hx with rfl | hx
        · exact ⟨ht, by simpa using hd⟩
        · exact k2 x hx
      · simpa using k3
      · cases stopped <;> simp at k4 ⊢ <;> omega

theorem trainLoop_add {env : TrainEnv D A} {loss : LossFunc S D} {features : List (String × Column A)}
    {cfg : TrainConfig D} (ci : Nat) (k : Nat) : ∀ (m : Nat) (s : TrainState S D A),
    trainLoop env loss features cfg ci (m + k) s =
      (trainLoop env loss features cfg ci m s).bind (fun x =>
        if x.1 then ok (true, x.2) else trainLoop env loss features cfg ci k x.2)
  | 0, s => by rw [Nat.zero_add]; rfl
  | m + 1, s => by
    rw [Nat.succ_add_eq_add_succ, Nat.add_succ, trainLoop, trainLoop]
    cases h1 : loss.compute s.loss s.f with
    | ub => rfl
    | fatal => rfl
    | ok x =>
      obtain ⟨ls, constant, grads⟩ := x
      simp only [ok_bind]
      by_cases hd : env.diverged constant = true
      · simp only [hd, if_true, pure_eq]
        rfl
      · simp only [hd, Bool.false_eq_true, if_false]
        cases h2 : fitTree (env.fit features grads) cfg.fit s.pos with
        | ub => rfl
        | fatal => rfl
        | ok y =>
          obtain ⟨t, pos⟩ := y
          simp only [ok_bind]
          cases h3 : addTreeScores env.columns (applyShrinkage env.rnd32 cfg.shrinkage t) constant s.slices s.f with
          | ub => rfl
          | fatal => rfl
          | ok z =>
            obtain ⟨ss, sc⟩ := z
            simp only [ok_bind]
            exact trainLoop_add ci k m _

theorem trainLoop_numTrees {env : TrainEnv D A} {loss : LossFunc S D} {features : List (String × Column A)}
    (cfg : TrainConfig D) (k : Int) (ci : Nat) : ∀ (m : Nat) (s : TrainState S D A),
    trainLoop env loss features { cfg with numTrees := k } ci m s = trainLoop env loss features cfg ci m s
  | 0, s => rfl
  | m + 1, s => by
    simp only [trainLoop, trainLoop_numTrees cfg k ci m]
    rfl

/-- Only the root score of the first tree changes, and trees are added at the end. -/
theorem trainLoop_forest {env : TrainEnv D A} {loss : LossFunc S D} {features : List (String × Column A)}
    {cfg : TrainConfig D} : ∀ (n : Nat) {k : D} {rest : List (Tree D A)} {s s' : TrainState S D A} {stopped : Bool},
      s.forest = .node k none .absent .absent :: rest →
      trainLoop env loss features cfg 0 n s = ok (stopped, s') →
      ∃ k' more, s'.forest = .node k' none .absent .absent :: (rest ++ more)
  | 0, k, rest, s, s', stopped, hf, h => by
    rw [trainLoop, Outcome.ok.injEq, Prod.mk.injEq] at h
    obtain ⟨rfl, rfl⟩ := h
    exact ⟨k, [], by simp [hf]⟩
  | n + 1, k, rest, s, s', stopped, hf, h => by
    rw [trainLoop, bind_eq_ok] at h
    obtain ⟨⟨ls, constant, grads⟩, h1, h2⟩ := h
    simp only at h2
    by_cases hd : env.diverged constant = true
    · simp only [hd, if_true, pure_eq, Outcome.ok.injEq, Prod.mk.injEq] at h2
      obtain ⟨rfl, rfl⟩ := h2
      exact ⟨k, [], by simp [hf]⟩
    · rw [if_neg hd, bind_eq_ok] at h2
      obtain ⟨⟨t, pos⟩, h3, h4⟩ := h2
      simp only [bind_eq_ok] at h4
      obtain ⟨⟨ss, sc⟩, h5, h6⟩ := h4
      simp only [hf, List.cons_append, List.modify_zero_cons, addRootScore] at h6
      obtain ⟨k', more, h7⟩ := trainLoop_forest n rfl h6
      exact ⟨k', _ :: more, by rw [h7, List.append_assoc]; rfl⟩

/-- Two states with the same function values and generator go on alike, for a loss without state. -/
theorem trainLoop_sim {env : TrainEnv D A} {G : Option StrCol → Prop} {loss : LossFunc S D} {features : List (String × Column A)}
    {cfg : TrainConfig D} (hcols : ∀ name c, env.columns name = some c → HasRows env.numRows c)
    (hloss : ∀ s f s' c g, LossReach env.numRows G loss s → loss.compute s f = ok (s', c, g) → f.length = env.numRows →
      g.length = env.numRows)
    (hstate : ∀ s f s' c g, LossReach env.numRows G loss s → f.length = env.numRows → loss.compute s f = ok (s', c, g) →
      ∀ t, LossReach env.numRows G loss t → ∃ t', loss.compute t f = ok (t', c, g))
    (hfit : ∀ t1, FittedTree env features cfg t1 → Scorable env.columns t1) :
    ∀ (n : Nat) {k k2 : D} {rest rest2 : List (Tree D A)} {s s2 s' : TrainState S D A},
      s.forest = .node k none .absent .absent :: rest → s2.forest = .node k2 none .absent .absent :: rest2 →
      LossReach env.numRows G loss s.loss → LossReach env.numRows G loss s2.loss → s.f = s2.f → s.pos = s2.pos → s.f.length = env.numRows → Slices env.numRows s.slices →
      Slices env.numRows s2.slices → trainLoop env loss features cfg 0 n s = ok (false, s') →
      ∃ s2' k' k2' more, trainLoop env loss features cfg 0 n s2 = ok (false, s2') ∧ s'.f = s2'.f ∧ s'.pos = s2'.pos ∧
        s'.forest = .node k' none .absent .absent :: (rest ++ more) ∧
        s2'.forest = .node k2' none .absent .absent :: (rest2 ++ more)
  | 0, k, k2, rest, rest2, s, s2, s', h1, h2, _, _, h3, h4, _, _, _, h => by
    rw [trainLoop, Outcome.ok.injEq, Prod.mk.injEq] at h
    obtain ⟨_, rfl⟩ := h
    exact ⟨s2, k, k2, [], rfl, h3, h4, by simp [h1], by simp [h2]⟩
  | n + 1, k, k2, rest, rest2, s, s2, s', h1, h2, hr, hr2, h3, h4, h5, h6, h7, h => by
    rw [trainLoop, bind_eq_ok] at h
    obtain ⟨⟨ls, constant, grads⟩, e1, e2⟩ := h
    obtain ⟨ls2, e1'⟩ := hstate _ _ _ _ _ hr h5 e1 s2.loss hr2
    simp only at e2
    by_cases hd : env.diverged constant = true
    · simp [hd, pure_eq] at e2
    · rw [if_neg hd, bind_eq_ok] at e2
      obtain ⟨⟨t, pos⟩, e3, e4⟩ := e2
      simp only [bind_eq_ok] at e4
      obtain ⟨⟨ss, sc⟩, e5, e6⟩ := e4
      have ht : Scorable env.columns (applyShrinkage env.rnd32 cfg.shrinkage t) :=
        hfit _ ⟨grads, t, s.pos, pos, hloss _ _ _ _ _ hr e1 h5, e3, rfl⟩
      obtain ⟨_, _, a1, a2, a3, a4⟩ := h6.add hcols constant ht h5
      rw [e5, Outcome.ok.injEq, Prod.mk.injEq] at a1
      obtain ⟨rfl, rfl⟩ := a1
      obtain ⟨ss2, sc2, b1, b2, b3, b4⟩ := h7.add hcols constant ht h5
      have hsc : sc = sc2 := by
        refine List.ext_getElem? (fun i => ?_)
        by_cases hi : i < env.numRows
        · obtain ⟨x, old, g1, g2, g3⟩ := a4 i hi
          obtain ⟨x', old', k1, k2, k3⟩ := b4 i hi
          rw [g1, Option.some.injEq] at k1
          rw [g2, Option.some.injEq] at k2
          rw [g3, k3, k1, k2]
        · rw [List.getElem?_eq_none (by omega), List.getElem?_eq_none (by omega)]
      subst hsc
      simp only [h1, List.cons_append, List.modify_zero_cons, addRootScore] at e6
      obtain ⟨s2', k', k2', more, c1, c2, c3, c4, c5⟩ := trainLoop_sim hcols hloss hstate hfit n
        (s := ⟨.node (env.rnd32 (k + constant)) none .absent .absent ::
          (rest ++ [applyShrinkage env.rnd32 cfg.shrinkage t]), ss, sc, ls, pos⟩)
        (s2 := ⟨.node (env.rnd32 (k2 + constant)) none .absent .absent ::
          (rest2 ++ [applyShrinkage env.rnd32 cfg.shrinkage t]), ss2, sc, ls2, pos⟩) rfl rfl (hr.step h5 e1) (hr2.step h5 e1') rfl rfl a3 a2 b2 e6
      refine ⟨s2', k', k2', applyShrinkage env.rnd32 cfg.shrinkage t :: more, ?_, c2, c3, by simp [c4], by simp [c5]⟩
      rw [trainLoop]
      simp only [← h3, ← h4, e1', ok_bind, hd, Bool.false_eq_true, if_false, e3, b1, h2, List.cons_append, List.modify_zero_cons, addRootScore]
      exact c1

theorem trainLoop_slices {env : TrainEnv D A} {G : Option StrCol → Prop} {loss : LossFunc S D} {features : List (String × Column A)}
    {cfg : TrainConfig D} (hcols : ∀ name c, env.columns name = some c → HasRows env.numRows c)
    (hloss : ∀ s f s' c g, LossReach env.numRows G loss s → loss.compute s f = ok (s', c, g) → f.length = env.numRows →
      g.length = env.numRows)
    (hfit : ∀ t1, FittedTree env features cfg t1 → Scorable env.columns t1) :
    ∀ (n : Nat) {s s' : TrainState S D A} {stopped : Bool}, LossReach env.numRows G loss s.loss →
      Slices env.numRows s.slices → s.f.length = env.numRows →
      trainLoop env loss features cfg 0 n s = ok (stopped, s') → Slices env.numRows s'.slices
  | 0, s, s', stopped, _, hs, _, h => by
    rw [trainLoop, Outcome.ok.injEq, Prod.mk.injEq] at h
    obtain ⟨_, rfl⟩ := h
    exact hs
  | n + 1, s, s', stopped, hr, hs, hf, h => by
    rw [trainLoop, bind_eq_ok] at h
    obtain ⟨⟨ls, constant, grads⟩, h1, h2⟩ := h
    simp only at h2
    by_cases hd : env.diverged constant = true
    · simp only [hd, if_true, pure_eq, Outcome.ok.injEq, Prod.mk.injEq] at h2
      obtain ⟨_, rfl⟩ := h2
      exact hs
    · rw [if_neg hd, bind_eq_ok] at h2
      obtain ⟨⟨t, pos⟩, h3, h4⟩ := h2
      simp only [bind_eq_ok] at h4
      obtain ⟨⟨ss, sc⟩, h5, h6⟩ := h4
      obtain ⟨_, _, a1, a2, a3, _⟩ := hs.add hcols constant
        (hfit _ ⟨grads, t, s.pos, pos, hloss _ _ _ _ _ hr h1 hf, h3, rfl⟩) hf
      rw [h5, Outcome.ok.injEq, Prod.mk.injEq] at a1
      obtain ⟨rfl, rfl⟩ := a1
      exact trainLoop_slices hcols hloss hfit n (s := ⟨_, ss, sc, ls, pos⟩) (hr.step hf h1) a2 a3 h6

theorem trainLoop_reach {env : TrainEnv D A} {G : Option StrCol → Prop} {loss : LossFunc S D} {features : List (String × Column A)}
    {cfg : TrainConfig D} (hcols : ∀ name c, env.columns name = some c → HasRows env.numRows c)
    (hloss : ∀ s f s' c g, LossReach env.numRows G loss s → loss.compute s f = ok (s', c, g) → f.length = env.numRows →
      g.length = env.numRows)
    (hfit : ∀ t1, FittedTree env features cfg t1 → Scorable env.columns t1) :
    ∀ (n : Nat) {s s' : TrainState S D A} {stopped : Bool}, LossReach env.numRows G loss s.loss →
      Slices env.numRows s.slices → s.f.length = env.numRows →
      trainLoop env loss features cfg 0 n s = ok (stopped, s') → LossReach env.numRows G loss s'.loss
  | 0, s, s', stopped, hr, _, _, h => by
    rw [trainLoop, Outcome.ok.injEq, Prod.mk.injEq] at h
    obtain ⟨_, rfl⟩ := h
    exact hr
  | n + 1, s, s', stopped, hr, hs, hf, h => by
    rw [trainLoop, bind_eq_ok] at h
    obtain ⟨⟨ls, constant, grads⟩, h1, h2⟩ := h
    simp only at h2
    by_cases hd : env.diverged constant = true
    · simp only [hd, if_true, pure_eq, Outcome.ok.injEq, Prod.mk.injEq] at h2
      obtain ⟨_, rfl⟩ := h2
      exact hr.step hf h1
    · rw [if_neg hd, bind_eq_ok] at h2
      obtain ⟨⟨t, pos⟩, h3, h4⟩ := h2
      simp only [bind_eq_ok] at h4
      obtain ⟨⟨ss, sc⟩, h5, h6⟩ := h4
      obtain ⟨_, _, a1, a2, a3, _⟩ := hs.add hcols constant
        (hfit _ ⟨grads, t, s.pos, pos, hloss _ _ _ _ _ hr h1 hf, h3, rfl⟩) hf
      rw [h5, Outcome.ok.injEq, Prod.mk.injEq] at a1
      obtain ⟨rfl, rfl⟩ := a1
      exact trainLoop_reach hcols hloss hfit n (s := ⟨_, ss, sc, ls, pos⟩) (hr.step hf h1) a2 a3 h6

theorem initWithBase_total {env : TrainEnv D A}
    (hcols : ∀ name c, env.columns name = some c → HasRows env.numRows c) :
    ∀ (base forest : List (Tree D A)) {slices : List (List Nat)} {f : List D},
      (∀ t ∈ base, Scorable env.columns t) → Slices env.numRows slices → f.length = env.numRows →
      ∃ forest1 slices1 f1, initWithBase env base forest slices f = ok (forest1, slices1, f1) ∧
        Slices env.numRows slices1 ∧ f1.length = env.numRows
  | [], forest, slices, f, _, hs, hf => ⟨forest, slices, f, rfl, hs, hf⟩
  | t :: ts, forest, slices, f, hb, hs, hf => by
    obtain ⟨ss, sc, a1, a2, a3, _⟩ := hs.add hcols 0 (hb t (by simp)) hf
    obtain ⟨fo, sl, f1, b1, b2⟩ := initWithBase_total hcols ts
      (if isSingleNode t then forest.modify 0 (addRootScore env.rnd32 (rootScore t)) else forest ++ [t])
      (fun x hx => hb x (by simp [hx])) a2 a3
    exact ⟨fo, sl, f1, by rw [initWithBase, a1, ok_bind]; exact b1, b2⟩

/-! ## The whole of training -/

theorem loadFeatures_mem {columns : String → Option (Column A)} : ∀ {names : List String} {features : List (String × Column A)},
    loadFeatures columns names = .ok features →
    features.map Prod.fst = names ∧ ∀ name c, (name, c) ∈ features → columns name = some c
  | [], features, h => by
    rw [loadFeatures, Except.ok.injEq] at h
    subst h
    exact ⟨rfl, by simp⟩
  | name :: names, features, h => by
    rw [loadFeatures] at h
    split at h
    · cases h
    · next c hc =>
      split at h
      · cases h
      · next cs hcs =>
        rw [Except.ok.injEq] at h
        subst h
        obtain ⟨h1, h2⟩ := loadFeatures_mem hcs
        refine ⟨by simp [h1], ?_⟩
        intro name' c' hm
        rcases List.mem_cons.mp hm with hm | hm
        · cases hm; exact hc
        · exact h2 _ _ hm

theorem groupOrDie_col {columns : String → Option (Column A)} {name : String} {g : Option StrCol}
    (h : groupOrDie columns name = ok g) : GroupCol columns g := by
  rintro c rfl
  unfold groupOrDie at h
  split at h
  · simp at h
  · split at h
    · next c' hc =>
      rw [Outcome.ok.injEq, Option.some.injEq] at h
      subst h
      exact ⟨name, hc⟩
    · cases h

/-- The stages of a run: it is over at one of the checks, or it gets past them. -/
theorem trainGBDT_stages {env : TrainEnv D A} {loss : LossFunc S D} {names : List String} {cfg : TrainConfig D}
    {base : Option (List (Tree D A))} {forest : List (Tree D A)} {p : Nat} {r : TrainResult D A}
    (h : trainGBDT env loss names cfg base forest p = ok r) :
    (r.forest = forest ∧ (r.code = checkConfig (env.ofNat 1) cfg ∧ r.code ≠ .ok ∨
      checkConfig (env.ofNat 1) cfg = .ok ∧ loadFeatures env.columns names = .error r.code ∨
      ∃ g, loss.init env.numRows g = ok (.error r.code))) ∨
    checkConfig (env.ofNat 1) cfg = .ok ∧ ∃ features group ls slices forest1 slices1 f1 stopped s,
      loadFeatures env.columns names = .ok features ∧
      groupOrDie env.columns cfg.groupColumn = ok group ∧ loss.init env.numRows group = ok (.ok ls) ∧
      scoreSlices env.numThreads env.numRows = ok slices ∧
      initWithBase env (base.getD []) (forest ++ [.node 0 none .absent .absent]) slices (List.replicate env.numRows 0) =
        ok (forest1, slices1, f1) ∧
      trainLoop env loss features cfg forest.length cfg.numTrees.toNat ⟨forest1, slices1, f1, ls, p⟩ = ok (stopped, s) ∧
      r = if stopped then ⟨.internal, s.forest, s.f, s.pos⟩ else ⟨.ok, s.forest.map clearInternal, s.f, s.pos⟩ := by
  unfold trainGBDT at h
  split at h
  · next hc =>
    rw [Outcome.ok.injEq] at h
    subst h
    exact Or.inl ⟨rfl, Or.inl ⟨rfl, hc⟩⟩
  · next hc =>
    rw [ne_eq, not_not] at hc
    split at h
    · next e he =>
      rw [Outcome.ok.injEq] at h
      subst h
      exact Or.inl ⟨rfl, Or.inr (Or.inl ⟨hc, he⟩)⟩
    · next features hf =>
      simp only [bind_eq_ok] at h
      obtain ⟨group, h1, init, h2, h3⟩ := h
      cases init with
      | error e =>
        simp only [pure_eq, Outcome.ok.injEq] at h3
        subst h3
        exact Or.inl ⟨rfl, Or.inr (Or.inr ⟨group, h2⟩)⟩
      | ok ls =>
        simp only [bind_eq_ok] at h3
        obtain ⟨slices, h4, ⟨forest1, slices1, f1⟩, h5, ⟨stopped, s⟩, h6, h7⟩ := h3
        refine Or.inr ⟨hc, features, group, ls, slices, forest1, slices1, f1, stopped, s, hf, h1, h2, h4, h5, h6, ?_⟩
        cases stopped <;> simp [pure_eq] at h7 ⊢ <;> exact h7.symm

end Gbdt
