import Verif.Lemmas.Train
import Verif.Props.FitTree

/-!
# C39-C42, C69-C71: training

The loss is an arbitrary function of the function values (with state).  `forest = []` on entry is what both callers do.
-/

set_option autoImplicit false
set_option linter.unusedSectionVars false

namespace Gbdt

open Outcome

section spec
variable {S D A : Type} [Dbl D] [LinearOrder A]

/-- The data, the loss and the base forest fit together: columns as the loaders build them, one row each per sample; the
base forest can be scored on the store; a status that is not OK has a code other than OK; the loss gives one gradient
per row (in every state it can get into); and there is a thread. -/
structure TrainData (env : TrainEnv D A) (loss : LossFunc S D) (base : List (Tree D A)) : Prop where
  rows : ∀ name c, env.columns name = some c → HasRows env.numRows c
  threads : 0 < env.numThreads
  scorable : ∀ t ∈ base, Scorable env.columns t
  features : HasFeatures env.columns base
  status : ∀ n g e, loss.init n g = ok (.error e) → e ≠ .ok
  grads : ∀ s f s' c g, LossReach env.numRows (GroupCol env.columns) loss s → loss.compute s f = ok (s', c, g) → f.length = env.numRows →
    g.length = env.numRows

/-- No internal index anywhere, and splits only at inner nodes. -/
def Stripped (t : Tree D A) : Prop :=
  ∀ path score s l r, t.at? path = some (.node score (some s) l r) →
    l.isSet = true ∧ ∀ cs, s.catSplit = some cs → cs.index = []

/-- The constants folded into the constant tree: each addition is rounded to `float`. -/
def constantOf (rnd32 : D → D) (ks : List D) : D := ks.foldl (fun a x => rnd32 (a + x)) 0

/-- What is added to the function value of a row: for each tree, the score of the row's leaf plus the constant. -/
def valueOf (columns : String → Option (Column A)) (i : Nat) (added : List (Tree D A × D)) (f : D) : Prop :=
  ∃ xs, added.mapM (fun x => scoreOf columns x.1 i) = some xs ∧
    f = (xs.zip (added.map Prod.snd)).foldl (fun a x => a + (x.1 + x.2)) 0

end spec

section general
variable {S D A : Type} [Dbl D] [LinearOrder A]

/-- **C41.** Shrinking leaves the routing of every row as it is, and multiplies the score of the leaf by the rate (in
`float` arithmetic). -/
theorem C41_shrinkage {P : Split D A → Prop} (columns : String → Option (Column A)) (rnd32 : D → D) (rate : D)
    (t : Tree D A) (ht : t.WellFormed P) (i : Nat) :
    leafOf columns (applyShrinkage rnd32 rate t) i =
      (leafOf columns t i).map (fun x => (x.1, rnd32 (x.2 * rate))) := by
  induction t with
  | absent => exact absurd ht (by simp [Tree.WellFormed])
  | node score split left right ihl ihr =>
    cases left with
    | absent => rfl
    | node a b c d =>
      obtain ⟨⟨s, rfl, _⟩, h3, h4⟩ := ht
      have e1 := ihl h3
      have e2 := ihr h4
      simp only [applyShrinkage] at e1 ⊢
      simp only [leafOf]
      cases columns s.feature with
      | none => rfl
      | some col =>
        simp only
        cases sendsLeft col s i with
        | none => rfl
        | some b =>
          cases b
          · simp only [e2, Option.map_map]; rfl
          · simp only [e1, Option.map_map]; rfl

/-- **C41 (exact arithmetic).** The contribution of any tree to any row is multiplied by the rate. -/
theorem C41_contribution_exact {K : Type} [Field K] [LinearOrder K] (columns : String → Option (Column A)) (rate : K)
    (t : Tree K A) (i : Nat) :
    scoreOf columns (applyShrinkage id rate t) i = (scoreOf columns t i).map (· * rate) := by
  have : leafOf columns (applyShrinkage id rate t) i = (leafOf columns t i).map (fun x => (x.1, x.2 * rate)) := by
    induction t with
    | absent => simp [applyShrinkage, leafOf]
    | node score split left right ihl ihr =>
      cases left with
      | absent => rfl
      | node a b c d =>
        cases split with
        | none => rfl
        | some s =>
          simp only [applyShrinkage] at ihl ⊢
          simp only [leafOf]
          cases columns s.feature with
          | none => rfl
          | some col =>
            simp only
            cases sendsLeft col s i with
            | none => rfl
            | some b =>
              cases b
              · simp only [ihr, Option.map_map]; rfl
              · simp only [ihl, Option.map_map]; rfl
  rw [scoreOf, scoreOf, this]
  simp [Option.map_map, Function.comp_def]

theorem at?_clearInternal (t : Tree D A) : ∀ path, (clearInternal t).at? path = (t.at? path).map clearInternal := by
  induction t with
  | absent => intro path; cases path <;> rfl
  | node score split left right ihl ihr =>
    intro path
    cases path with
    | nil => rfl
    | cons b path => cases b <;> simp [clearInternal, Tree.at?, ihl, ihr]

/-- **C42.** What training returns carries no training-internal data: no internal index at any node, and no split at
a node without children. -/
theorem C42_stripped (t : Tree D A) : Stripped (clearInternal t) := by
  intro path score s l r h
  rw [at?_clearInternal] at h
  cases hat : t.at? path with
  | none => rw [hat] at h; cases h
  | some x =>
    rw [hat] at h
    cases x with
    | absent => cases h
    | node a b c d =>
      simp only [Option.map_some, clearInternal, Option.some.injEq, Tree.node.injEq] at h
      obtain ⟨_, h2, rfl, rfl⟩ := h
      by_cases hc : c.isSet = true
      · rw [if_pos hc] at h2
        constructor
        · cases c with
          | absent => cases hc
          | node _ _ _ _ => rfl
        · intro cs hcs
          cases b with
          | none => cases h2
          | some s0 =>
            rw [Option.map_some, Option.some.injEq] at h2
            subst h2
            cases hs0 : s0.catSplit with
            | none => rw [clearIndex, hs0] at hcs; cases hcs
            | some c0 =>
              rw [clearIndex, hs0] at hcs
              cases hcs
              rfl
      · rw [if_neg hc] at h2
        cases h2

/-- Stripping removes nothing else: a stripped tree stays as it is. -/
theorem C42_nothing_else (t : Tree D A) (h : Stripped t) : clearInternal t = t := by
  induction t with
  | absent => rfl
  | node score split left right ihl ihr =>
    have hl : Stripped left := by
      intro path sc s l r hp
      exact h (false :: path) sc s l r (by simpa [Tree.at?] using hp)
    have hr : Stripped right := by
      intro path sc s l r hp
      exact h (true :: path) sc s l r (by simpa [Tree.at?] using hp)
    simp only [clearInternal, ihl hl, ihr hr]
    cases split with
    | none => simp
    | some s =>
      obtain ⟨h1, h2⟩ := h [] score s left right rfl
      rw [if_pos h1, Option.map_some]
      cases hs : s.catSplit with
      | none => rw [clearIndex, hs]; congr 2; cases s; cases hs; rfl
      | some cs =>
        have := h2 cs hs
        rw [clearIndex, hs, Option.map_some]
        congr 2
        cases s; cases cs
        simp only at hs this
        subst hs
        subst this
        rfl

/-- **C42 (routing).** Every row reaches the same leaf with the same score as before, in any store. -/
theorem C42_same_leaf (columns : String → Option (Column A)) (t : Tree D A) (i : Nat) :
    leafOf columns (clearInternal t) i = leafOf columns t i :=
  leafOf_clearInternal columns t i

/-- **C42 (predictions).** Before stripping, categories are compared through their codes; after, through their names.  The
predictions of any forest on any store are the same, bit for bit. -/
theorem C42_same_prediction {columns : String → Option (Column A)} {n : Nat}
    (hcols : ∀ name c, columns name = some c → HasRows n c) {numThreads : Int} (hnt : 0 < numThreads)
    (forest : List (Tree D A)) (hfeat : HasFeatures columns forest) (hf : ∀ t ∈ forest, Scorable columns t) :
    ∃ scores, evaluateForest columns n numThreads forest = ok (.ok, some scores) ∧
      evaluateForest columns n numThreads (forest.map clearInternal) = ok (.ok, some scores) := by
  obtain ⟨s1, a1, a2, a3⟩ := C37_prediction hcols hnt forest hfeat hf
  obtain ⟨s2, b1, b2, b3⟩ := C37_prediction hcols hnt (forest.map clearInternal)
    (fun name hn => by
      rw [forestFeatures, List.mem_flatMap] at hn
      obtain ⟨t, ht, hn⟩ := hn
      obtain ⟨t0, ht0, rfl⟩ := List.mem_map.mp ht
      exact hfeat name (by rw [forestFeatures, List.mem_flatMap]; exact ⟨t0, ht0, treeFeatures_clearInternal hn⟩))
    (fun t ht => by
      obtain ⟨t0, ht0, rfl⟩ := List.mem_map.mp ht
      exact scorable_clearInternal (hf t0 ht0))
  have : s1 = s2 := by
    refine List.ext_getElem? (fun i => ?_)
    by_cases hi : i < n
    · obtain ⟨xs, k1, k2⟩ := a3 i hi
      obtain ⟨ys, l1, l2⟩ := b3 i hi
      rw [List.mapM_map] at l1
      simp only [scoreOf, leafOf_clearInternal, Function.comp_def] at l1
      have : xs = ys := Option.some.inj (by rw [← k1, ← l1]; rfl)
      rw [k2, l2, this]
    · rw [List.getElem?_eq_none (by omega), List.getElem?_eq_none (by omega)]
  subst this
  exact ⟨s1, a1, b1⟩

end general

section training
variable {S D A : Type} [Dbl D] [LinearOrder A] [ThrOps A] [FpOrder D]

theorem FittedTree.shape {env : TrainEnv D A} {loss : LossFunc S D} {base : List (Tree D A)} (hd : TrainData env loss base)
    {names : List String} {features : List (String × Column A)} (hl : loadFeatures env.columns names = .ok features)
    {cfg : TrainConfig D} {t : Tree D A} (h : FittedTree env features cfg t) :
    1 ≤ t.countLeaves ∧ t.countLeaves ≤ max 1 cfg.numLeaves.toNat ∧
    t.WellFormed (fun s => Dbl.ltb 0 s.gain = true ∧ s.feature ∈ names ∧
      ∃ c, env.columns s.feature = some c ∧ SplitFits c s) := by
  obtain ⟨grads, t0, p, q, hg, hfit, rfl⟩ := h
  obtain ⟨hn, hs⟩ := loadFeatures_mem hl
  obtain ⟨h1, h2, h3⟩ := C33_shape (env := env.fit features grads) (columns := env.columns)
    ⟨fun name c hm => by
      have := hd.rows _ _ (hs _ _ hm)
      rw [← hg] at this
      exact this, fun name c hm => hs _ _ hm⟩ hfit
  rw [countLeaves_applyShrinkage]
  refine ⟨h1, h2, wellFormed_applyShrinkage _ _ (wellFormed_imp ?_ h3)⟩
  rintro s ⟨a, c, b, d⟩
  refine ⟨a, ?_, c, hs _ _ b, d⟩
  rw [← hn]
  exact List.mem_map.mpr ⟨_, b, rfl⟩

theorem FittedTree.scorable {env : TrainEnv D A} {loss : LossFunc S D} {base : List (Tree D A)} (hd : TrainData env loss base)
    {names : List String} {features : List (String × Column A)} (hl : loadFeatures env.columns names = .ok features)
    {cfg : TrainConfig D} {t : Tree D A} (h : FittedTree env features cfg t) : Scorable env.columns t :=
  scorable_of_wellFormed (wellFormed_imp (fun _ hs => hs.2.2) (h.shape hd hl).2.2)

/-- The value of a row from total scores. -/
theorem valueOf_scoreD {columns : String → Option (Column A)} {n i : Nat} (hi : i < n)
    (hcols : ∀ name c, columns name = some c → HasRows n c) :
    ∀ (l : List (Tree D A × D)), (∀ x ∈ l, Scorable columns x.1) →
      valueOf columns i l (l.foldl (fun a x => a + (scoreD columns i x.1 + x.2)) 0) := by
  have hsome : ∀ t : Tree D A, Scorable columns t → scoreOf columns t i = some (scoreD columns i t) := by
    intro t ht
    obtain ⟨ss, sc, _, _, _, h, _⟩ := addTreeScores_spec hcols 0 ht [[i]] (List.replicate n 0) (by simp) (by simp [hi]) (by simp)
    obtain ⟨x, _, hx, _⟩ := h i (by simp)
    rw [scoreD, hx]; rfl
  intro l hl
  refine ⟨l.map (fun x => scoreD columns i x.1), ?_, ?_⟩
  · induction l with
    | nil => rfl
    | cons x l ih =>
      rw [List.mapM_cons, hsome _ (hl x (by simp)), ih (fun y hy => hl y (by simp [hy]))]
      rfl
  · rw [List.zip_map', List.foldl_map]

theorem loadFeatures_error {columns : String → Option (Column A)} : ∀ {names : List String} {e : Code},
    loadFeatures columns names = .error e → e = .notFound
  | [], e, h => by simp [loadFeatures] at h
  | name :: names, e, h => by
    rw [loadFeatures] at h
    split at h
    · rw [Except.error.injEq] at h; exact h.symm
    · split at h
      · next e' he => rw [Except.error.injEq] at h; subst h; exact loadFeatures_error he
      · cases h

/-- **C39, C40 (in any arithmetic).** What a successful run returns: the constant tree, which holds the rounded sum of the
constants of the base forest and of the rounds; the other trees of the base forest in their order; one tree per round;
all stripped.  And the function values at the end: per row, for each tree of the base forest and each fitted tree, the
score of the row's leaf and the constant of the round. -/
theorem C39_function_values {env : TrainEnv D A} {loss : LossFunc S D} {names : List String} {cfg : TrainConfig D}
    {base : Option (List (Tree D A))} {p : Nat} {r : TrainResult D A} (hd : TrainData env loss (base.getD []))
    (h : trainGBDT env loss names cfg base [] p = ok r) (hok : r.code = .ok) :
    ∃ (fitted : List (Tree D A)) (constants : List D),
      r.forest = .node (constantOf env.rnd32 (((base.getD []).filter isSingleNode).map rootScore ++ constants)) none
          .absent .absent ::
        ((base.getD []).filter (fun t => !isSingleNode t) ++ fitted).map clearInternal ∧
      (fitted.length : Int) = cfg.numTrees ∧ fitted.length = constants.length ∧
      (∀ c ∈ constants, env.diverged c = false) ∧
      (∀ t ∈ fitted, 1 ≤ t.countLeaves ∧ (t.countLeaves : Int) ≤ cfg.numLeaves ∧
        t.WellFormed (fun s => Dbl.ltb 0 s.gain = true ∧ s.feature ∈ names ∧
          ∃ c, env.columns s.feature = some c ∧ SplitFits c s)) ∧
      r.f.length = env.numRows ∧ ∀ i < env.numRows, ∃ v, r.f[i]? = some v ∧
        valueOf env.columns i ((base.getD []).map (fun t => (t, 0)) ++ fitted.zip constants) v := by
  rcases trainGBDT_stages h with ⟨_, h1 | ⟨_, h1⟩ | ⟨g, h1⟩⟩ |
    ⟨hc, features, group, ls, slices, forest1, slices1, f1, stopped, s, hl, hg, hi, hsl, hb, htr, hr⟩
  · exact absurd hok h1.2
  · have := loadFeatures_error h1
    rw [hok] at this
    cases this
  · exact absurd hok (hd.status _ _ _ h1)
  · cases stopped with
    | true => subst hr; cases hok
    | false =>
      simp only [Bool.false_eq_true, if_false] at hr
      subst hr
      have hs : Slices env.numRows slices := by
        obtain ⟨sl, e1, e2⟩ := scoreSlices_ok hd.threads env.numRows
        rw [hsl, Outcome.ok.injEq] at e1
        subst e1
        exact e2
      have ha : Added env.columns env.numRows ([] : List (Tree D A × D)) (List.replicate env.numRows (0 : D)) :=
        ⟨by simp, fun i hi => by simp [hi]⟩
      obtain ⟨e1, e2, e3⟩ := initWithBase_spec hd.rows (base.getD []) (rest := []) hd.scorable hs ha hb
      subst e1
      obtain ⟨fitted, k1, k2, k3, k4⟩ := trainLoop_spec hd.rows (loadFeatures_mem hl).2 hd.grads
        (fun t ht => ht.scorable hd hl) cfg.numTrees.toNat rfl (.init (groupOrDie_col hg) hi) e2 e3 htr
      simp only [Bool.false_eq_true, if_false] at k4
      have hcfg : 0 < cfg.numTrees ∧ 0 < cfg.numLeaves := by
        unfold checkConfig at hc
        split at hc
        · cases hc
        · split at hc
          · cases hc
          · exact ⟨by omega, by omega⟩
      refine ⟨fitted.map Prod.fst, fitted.map Prod.snd, ?_, by simp; omega, by simp, ?_, ?_, k3.1, ?_⟩
      · simp only [k1, List.map_cons, clearInternal, List.nil_append]
        congr 2
        simp only [addConstants, constantOf, List.foldl_append]
      · intro c hc
        obtain ⟨x, hx, rfl⟩ := List.mem_map.mp hc
        exact (k2 x hx).2
      · intro t ht
        obtain ⟨x, hx, rfl⟩ := List.mem_map.mp ht
        obtain ⟨a, b, c⟩ := (k2 x hx).1.shape hd hl
        exact ⟨a, by omega, c⟩
      · intro i hi
        refine ⟨_, k3.2 i hi, ?_⟩
        have hz : (fitted.map Prod.fst).zip (fitted.map Prod.snd) = fitted := by
          rw [List.zip_map', List.map_id']
        rw [hz]
        refine valueOf_scoreD hi hd.rows _ ?_
        intro x hx
        simp only [List.mem_append, List.mem_map] at hx
        rcases hx with ⟨t, ht, rfl⟩ | hx
        · exact hd.scorable t ht
        · exact (k2 x hx).1.scorable hd hl

/-- **C39 (usable).** The returned forest can be scored on the training store: its features are there and its splits fit
them. -/
theorem C39_forest_usable {env : TrainEnv D A} {loss : LossFunc S D} {names : List String} {cfg : TrainConfig D}
    {base : Option (List (Tree D A))} {p : Nat} {r : TrainResult D A} (hd : TrainData env loss (base.getD []))
    (h : trainGBDT env loss names cfg base [] p = ok r) (hok : r.code = .ok) :
    HasFeatures env.columns r.forest ∧ ∀ t ∈ r.forest, Scorable env.columns t := by
  obtain ⟨fitted, constants, h1, h2, h3, _, h5, h6, h7⟩ := C39_function_values hd h hok
  constructor
  · intro name hn
    rw [h1, forestFeatures, List.mem_flatMap] at hn
    obtain ⟨t, ht, hn⟩ := hn
    rcases List.mem_cons.mp ht with rfl | ht
    · simp [treeFeatures] at hn
    · obtain ⟨t0, ht0, rfl⟩ := List.mem_map.mp ht
      rcases List.mem_append.mp ht0 with ht0 | ht0
      · refine hd.features name ?_
        rw [forestFeatures, List.mem_flatMap]
        exact ⟨t0, List.mem_of_mem_filter ht0, treeFeatures_clearInternal hn⟩
      · obtain ⟨s, ⟨_, _, c, hc, _⟩, rfl⟩ := treeFeatures_wellFormed (h5 t0 ht0).2.2 hn
        rw [hc]; simp
  · intro t ht
    rw [h1] at ht
    rcases List.mem_cons.mp ht with rfl | ht
    · trivial
    · obtain ⟨t0, ht0, rfl⟩ := List.mem_map.mp ht
      refine scorable_clearInternal ?_
      rcases List.mem_append.mp ht0 with ht0 | ht0
      · exact hd.scorable t0 (List.mem_of_mem_filter ht0)
      · exact scorable_of_wellFormed (wellFormed_imp (fun _ hs => hs.2.2) (h5 t0 ht0).2.2)

/-- **C40.** The constant tree, then the trees of the base forest that have children, stripped, then `num_trees` trees, each
with 1 to `num_leaves` leaves and splits of positive gain on the given features that fit their types. -/
theorem C40_shape {env : TrainEnv D A} {loss : LossFunc S D} {names : List String} {cfg : TrainConfig D}
    {base : Option (List (Tree D A))} {p : Nat} {r : TrainResult D A} (hd : TrainData env loss (base.getD []))
    (h : trainGBDT env loss names cfg base [] p = ok r) (hok : r.code = .ok) :
    ∃ k trees, r.forest = .node k none .absent .absent ::
        (((base.getD []).filter (fun t => !isSingleNode t)).map clearInternal ++ trees) ∧
      (trees.length : Int) = cfg.numTrees ∧
      ∀ t ∈ trees, Stripped t ∧ 1 ≤ t.countLeaves ∧ (t.countLeaves : Int) ≤ cfg.numLeaves ∧
        t.WellFormed (fun s => Dbl.ltb 0 s.gain = true ∧ s.feature ∈ names ∧
          ∃ c, env.columns s.feature = some c ∧ SplitFits c s) := by
  obtain ⟨fitted, constants, h1, h2, _, _, h3, _⟩ := C39_function_values hd h hok
  refine ⟨_, fitted.map clearInternal, by rw [h1, List.map_append], by simpa using h2, ?_⟩
  intro t ht
  obtain ⟨t0, ht0, rfl⟩ := List.mem_map.mp ht
  obtain ⟨a, b, c⟩ := h3 t0 ht0
  refine ⟨C42_stripped t0, by rw [countLeaves_clearInternal]; exact a, by rw [countLeaves_clearInternal]; exact b,
    wellFormed_clearInternal ?_ c⟩
  rintro s ⟨a, b, col, c, d⟩
  exact ⟨a, b, col, c, clearIndex_fits d⟩

/-- **C40 (base forest).** Base trees that training returned earlier are taken over as they are. -/
theorem C40_base_unchanged {env : TrainEnv D A} {loss : LossFunc S D} {names : List String} {cfg : TrainConfig D}
    {base : List (Tree D A)} {p : Nat} {r : TrainResult D A} (hd : TrainData env loss base)
    (hbase : ∀ t ∈ base, Stripped t)
    (h : trainGBDT env loss names cfg (some base) [] p = ok r) (hok : r.code = .ok) :
    ∃ k trees, r.forest = .node k none .absent .absent :: (base.filter (fun t => !isSingleNode t) ++ trees) ∧
      (trees.length : Int) = cfg.numTrees := by
  obtain ⟨k, trees, h1, h2, _⟩ := C40_shape hd h hok
  refine ⟨k, trees, ?_, h2⟩
  rw [h1, Option.getD_some]
  congr 2
  refine (List.map_congr_left (fun t ht => ?_)).trans (List.map_id' _)
  exact C42_nothing_else t (hbase t (List.mem_of_mem_filter ht))

/-- **C40 (errors).** A configuration that does not pass the check, then a feature that is not in the store, then a loss
that cannot be initialised is reported as such, and the forest is left as it was; nothing of the data is read. -/
theorem C40_errors (env : TrainEnv D A) (loss : LossFunc S D) (names : List String) (cfg : TrainConfig D)
    (base : Option (List (Tree D A))) (forest : List (Tree D A)) (p : Nat) :
    (cfg.numTrees ≤ 0 ∨ cfg.numLeaves ≤ 0 → ∃ r, trainGBDT env loss names cfg base forest p = ok r ∧
      r.code = .invalidArgument ∧ r.forest = forest) ∧
    (checkConfig (env.ofNat 1) cfg = .ok → (∃ name ∈ names, env.columns name = none) →
      ∃ r, trainGBDT env loss names cfg base forest p = ok r ∧ r.code = .notFound ∧ r.forest = forest) ∧
    (checkConfig (env.ofNat 1) cfg = .ok → (∀ name ∈ names, env.columns name ≠ none) →
      ∀ g e, groupOrDie env.columns cfg.groupColumn = ok g → loss.init env.numRows g = ok (.error e) →
      ∃ r, trainGBDT env loss names cfg base forest p = ok r ∧ r.code = e ∧ r.forest = forest) := by
  refine ⟨?_, ?_, ?_⟩
  · intro hc
    have : checkConfig (env.ofNat 1) cfg = .invalidArgument := by
      rw [checkConfig]
      by_cases h1 : cfg.numTrees ≤ 0
      · rw [if_pos h1]
      · rw [if_neg h1, if_pos (hc.resolve_left h1)]
    exact ⟨_, by rw [trainGBDT, if_pos (by rw [this]; simp), this], rfl, rfl⟩
  · intro hc hm
    exact ⟨_, by rw [trainGBDT, if_neg (by simp [hc]), loadFeatures_missing hm], rfl, rfl⟩
  · intro hc hm g e hg he
    obtain ⟨cs, hcs⟩ := loadFeatures_ok hm
    exact ⟨_, by rw [trainGBDT, if_neg (by simp [hc]), hcs]; simp only [hg, ok_bind, he, pure_eq]; rfl, rfl, rfl⟩

/-- **C40 (divergence).** If a loss gives a constant that is NaN or infinite whenever it is asked, training does not
succeed; if it never does, training does not end with the divergence status. -/
theorem C40_divergence {env : TrainEnv D A} {loss : LossFunc S D} {names : List String} {cfg : TrainConfig D}
    {base : Option (List (Tree D A))} {p : Nat} {r : TrainResult D A} (hd : TrainData env loss (base.getD []))
    (h : trainGBDT env loss names cfg base [] p = ok r) :
    ((∀ s f s' c g, loss.compute s f = ok (s', c, g) → env.diverged c = true) → r.code ≠ .ok) ∧
    ((∀ s f s' c g, loss.compute s f = ok (s', c, g) → env.diverged c = false) →
      (∀ n g, loss.init n g ≠ ok (.error .internal)) → r.code ≠ .internal) := by
  constructor
  · intro hdiv hok
    rcases trainGBDT_stages h with ⟨_, h1 | ⟨_, h1⟩ | ⟨g, h1⟩⟩ |
      ⟨hc, features, group, ls, slices, forest1, slices1, f1, stopped, s, hl, _, _, hsl, hb, htr, hr⟩
    · exact h1.2 hok
    · have := loadFeatures_error h1
      rw [hok] at this
      cases this
    · exact hd.status _ _ _ h1 hok
    · have hn : cfg.numTrees.toNat ≠ 0 := by
        have : 0 < cfg.numTrees := by
          unfold checkConfig at hc
          split at hc
          · cases hc
          · omega
        omega
      obtain ⟨m, hm⟩ := Nat.exists_eq_succ_of_ne_zero hn
      rw [hm, trainLoop, bind_eq_ok] at htr
      obtain ⟨⟨ls', c, g⟩, e1, e2⟩ := htr
      simp only [hdiv _ _ _ _ _ e1, if_true, pure_eq, Outcome.ok.injEq, Prod.mk.injEq] at e2
      rw [hr, ← e2.1] at hok
      cases hok
  · intro hdiv hinit hint
    rcases trainGBDT_stages h with ⟨_, h1 | ⟨_, h1⟩ | ⟨g, h1⟩⟩ |
      ⟨hc, features, group, ls, slices, forest1, slices1, f1, stopped, s, hl, _, _, hsl, hb, htr, hr⟩
    · rw [hint] at h1
      have := h1.1
      unfold checkConfig at this
      repeat' split at this
      all_goals cases this
    · have := loadFeatures_error h1
      rw [hint] at this
      cases this
    · rw [hint] at h1
      exact hinit _ _ h1
    · have key : ∀ n (s s' : TrainState S D A) st,
          trainLoop env loss features cfg ([] : List (Tree D A)).length n s = ok (st, s') → st = false := by
        intro n
        induction n with
        | zero => intro s s' st e; rw [trainLoop, Outcome.ok.injEq, Prod.mk.injEq] at e; exact e.1.symm
        | succ n ih =>
          intro s s' st e
          rw [trainLoop, bind_eq_ok] at e
          obtain ⟨⟨ls', c, g⟩, e1, e2⟩ := e
          simp only [hdiv _ _ _ _ _ e1, Bool.false_eq_true, if_false, bind_eq_ok] at e2
          obtain ⟨_, _, _, _, e3⟩ := e2
          exact ih _ _ _ e3
      rw [hr, key _ _ _ _ htr] at hint
      cases hint

/-! ## C69 -/

/-- What has to hold for training to be defined: columns as the loaders build them, without numbers above `FLT_MAX`;
`std::sort` and the queue as the standard says; at least one thread; rates that can be converted; a group column that is a
string column, if one is named; and a loss that is defined for the data. -/
structure TrainInput (env : TrainEnv D A) (loss : LossFunc S D) (names : List String) (cfg : TrainConfig D) : Prop where
  rows : ∀ name c, env.columns name = some c → TrainRows env.numRows c
  sort : SortSpec env.sort
  top : TopSpec env.top
  examples : env.toInt (cfg.exampleRate * env.ofNat env.numRows) ≠ none
  features : env.toInt (cfg.featureRate * env.ofNat names.length) ≠ none
  group : cfg.groupColumn = "" ∨ ∃ c, env.columns cfg.groupColumn = some (.str c)
  init : ∀ g, groupOrDie env.columns cfg.groupColumn = ok g → ∃ r, loss.init env.numRows g = ok r
  compute : ∀ s f, LossReach env.numRows (fun g => groupOrDie env.columns cfg.groupColumn = ok g) loss s →
    f.length = env.numRows → ∃ r, loss.compute s f = ok r

/-- **C69.** Training reads nothing out of bounds, never aborts and ends: it returns a status. -/
theorem C69_training_defined {env : TrainEnv D A} {loss : LossFunc S D} {names : List String} {cfg : TrainConfig D}
    {base : Option (List (Tree D A))} (hi : TrainInput env loss names cfg) (hd : TrainData env loss (base.getD []))
    (forest : List (Tree D A)) (p : Nat) : ∃ r, trainGBDT env loss names cfg base forest p = ok r := by
  rw [trainGBDT]
  split
  · exact ⟨_, rfl⟩
  · split
    · exact ⟨_, rfl⟩
    · next features hl =>
      obtain ⟨hn, hs⟩ := loadFeatures_mem hl
      have hg : ∃ g, groupOrDie env.columns cfg.groupColumn = ok g := by
        rw [groupOrDie]
        rcases hi.group with h | ⟨c, h⟩
        · exact ⟨_, if_pos h⟩
        · split
          · exact ⟨_, rfl⟩
          · rw [h]; exact ⟨_, rfl⟩
      obtain ⟨g, hg⟩ := hg
      obtain ⟨init, hinit⟩ := hi.init g hg
      simp only [hg, hinit, ok_bind]
      cases init with
      | error e => exact ⟨_, rfl⟩
      | ok ls =>
        obtain ⟨slices, e1, e2⟩ := scoreSlices_ok hd.threads env.numRows
        obtain ⟨forest1, slices1, f1, e3, e4, e5⟩ := initWithBase_total hd.rows (base.getD [])
          (forest ++ [.node 0 none .absent .absent]) hd.scorable e2 (f := List.replicate env.numRows 0) (by simp)
        have key : ∀ (n : Nat) (s : TrainState S D A),
            LossReach env.numRows (fun g => groupOrDie env.columns cfg.groupColumn = ok g) loss s.loss → Slices env.numRows s.slices →
            s.f.length = env.numRows → ∃ x, trainLoop env loss features cfg forest.length n s = ok x := by
          intro n
          induction n with
          | zero => intro s _ _ _; exact ⟨_, rfl⟩
          | succ n ih =>
            intro s h0 h1 h2
            obtain ⟨⟨ls', c, grads⟩, k1⟩ := hi.compute s.loss s.f h0 h2
            rw [trainLoop, k1]
            simp only [ok_bind]
            split
            · exact ⟨_, rfl⟩
            · have hgl := hd.grads _ _ _ _ _ (h0.mono (fun _ => groupOrDie_col)) k1 h2
              have hfd : FitData (env.fit features grads) env.columns :=
                ⟨fun name c hm => by
                  have := hd.rows _ _ (hs _ _ hm)
                  rw [← hgl] at this
                  exact this, fun name c hm => hs _ _ hm⟩
              have hfi : FitInput (env.fit features grads) cfg.fit :=
                { rows := fun name c hm => by
                    have := hi.rows _ _ (hs _ _ hm)
                    rw [← hgl] at this
                    exact this
                  sort := hi.sort
                  top := hi.top
                  threads := hd.threads
                  examples := by
                    have := hi.examples
                    rw [← hgl] at this
                    exact this
                  features := by
                    have := hi.features
                    rw [← hn, List.length_map] at this
                    exact this }
              obtain ⟨t, q, k2⟩ := C68_fit_defined hfi hfd s.pos
              obtain ⟨ss, sc, k3, k4, k5, _⟩ := h1.add hd.rows c (t := applyShrinkage env.rnd32 cfg.shrinkage t)
                (FittedTree.scorable hd hl ⟨grads, t, s.pos, q, hgl, k2, rfl⟩) h2
              simp only [k2, k3, ok_bind]
              exact ih _ (h0.step h2 k1) k4 k5
        obtain ⟨⟨stopped, s⟩, e6⟩ := key cfg.numTrees.toNat ⟨forest1, slices1, f1, ls, p⟩
          (.init hg hinit) e4 e5
        simp only [e1, e3, e6, ok_bind]
        cases stopped <;> exact ⟨_, rfl⟩

/-! ## C70 -/

/-- **C70.** Training with more trees returns, apart from the constant tree, the trees that training with fewer returns,
followed by others. -/
theorem C70_prefix {env : TrainEnv D A} {loss : LossFunc S D} {names : List String} {cfg : TrainConfig D}
    {base : Option (List (Tree D A))} {p : Nat} {m n : Int} (hmn : m ≤ n) {r1 r2 : TrainResult D A}
    (hd : TrainData env loss (base.getD []))
    (h1 : trainGBDT env loss names { cfg with numTrees := m } base [] p = ok r1) (hok1 : r1.code = .ok)
    (h2 : trainGBDT env loss names { cfg with numTrees := n } base [] p = ok r2) (hok2 : r2.code = .ok) :
    ∃ k1 k2 trees more, r1.forest = .node k1 none .absent .absent :: trees ∧
      r2.forest = .node k2 none .absent .absent :: (trees ++ more) ∧ (more.length : Int) = n - m := by
  obtain ⟨q1, t1, a1, a2, _⟩ := C40_shape hd h1 hok1
  obtain ⟨q2, t2, b1, b2, _⟩ := C40_shape hd h2 hok2
  rcases trainGBDT_stages h1 with ⟨_, e1 | ⟨_, e1⟩ | ⟨g, e1⟩⟩ |
    ⟨hc, features, group, ls, slices, forest1, slices1, f1, stopped, s, hl, hg, hi, hsl, hb, htr, hr⟩
  · exact absurd hok1 e1.2
  · have := loadFeatures_error e1
    rw [hok1] at this
    cases this
  · exact absurd hok1 (hd.status _ _ _ e1)
  rcases trainGBDT_stages h2 with ⟨_, e1 | ⟨_, e1⟩ | ⟨g, e1⟩⟩ |
    ⟨hc', features', group', ls', slices', forest1', slices1', f1', stopped', s', hl', hg', hi', hsl', hb', htr', hr'⟩
  · exact absurd hok2 e1.2
  · have := loadFeatures_error e1
    rw [hok2] at this
    cases this
  · exact absurd hok2 (hd.status _ _ _ e1)
  rw [hl, Except.ok.injEq] at hl'
  have hg2 : groupOrDie env.columns cfg.groupColumn = ok group := hg
  have hg3 : groupOrDie env.columns cfg.groupColumn = ok group' := hg'
  rw [hg2, Outcome.ok.injEq] at hg3
  subst hl' hg3
  rw [hi, Outcome.ok.injEq, Except.ok.injEq] at hi'
  rw [hsl, Outcome.ok.injEq] at hsl'
  subst hi' hsl'
  rw [hb, Outcome.ok.injEq, Prod.mk.injEq, Prod.mk.injEq] at hb'
  obtain ⟨rfl, rfl, rfl⟩ := hb'
  cases stopped with
  | true => subst hr; cases hok1
  | false =>
    cases stopped' with
    | true => subst hr'; cases hok2
    | false =>
      have hs : Slices env.numRows slices := by
        obtain ⟨sl, e1, e2⟩ := scoreSlices_ok hd.threads env.numRows
        rw [hsl, Outcome.ok.injEq] at e1
        subst e1
        exact e2
      have ha : Added env.columns env.numRows ([] : List (Tree D A × D)) (List.replicate env.numRows (0 : D)) :=
        ⟨by simp, fun i hi => by simp [hi]⟩
      obtain ⟨e1, e2, e3⟩ := initWithBase_spec hd.rows (base.getD []) (rest := []) hd.scorable hs ha hb
      simp only [Bool.false_eq_true, if_false] at hr hr'
      rw [trainLoop_numTrees] at htr htr'
      obtain ⟨d, hdd⟩ : ∃ d, n.toNat = m.toNat + d := ⟨n.toNat - m.toNat, by omega⟩
      have htr2 : trainLoop env loss features cfg ([] : List (Tree D A)).length n.toNat ⟨forest1, slices1, f1, ls, p⟩ =
        ok (false, s') := htr'
      have htr1 : trainLoop env loss features cfg ([] : List (Tree D A)).length m.toNat ⟨forest1, slices1, f1, ls, p⟩ =
        ok (false, s) := htr
      rw [hdd, trainLoop_add, htr1] at htr2
      have htr3 : trainLoop env loss features cfg ([] : List (Tree D A)).length d s = ok (false, s') := htr2
      subst e1
      obtain ⟨k', more0, c1⟩ := trainLoop_forest _ rfl htr1
      obtain ⟨k'', more, c2⟩ := trainLoop_forest _ c1 htr3
      have f1 : r1.forest = .node k' none .absent .absent ::
          (([] ++ (base.getD []).filter (fun t => !isSingleNode t)) ++ more0).map clearInternal := by
        rw [hr]; simp only [c1, List.map_cons, clearInternal]; rfl
      have f2 : r2.forest = .node k'' none .absent .absent ::
          ((([] ++ (base.getD []).filter (fun t => !isSingleNode t)) ++ more0).map clearInternal ++
            more.map clearInternal) := by
        rw [hr']; simp only [c2, List.map_cons, clearInternal, List.map_append]; rfl
      refine ⟨k', k'', _, more.map clearInternal, f1, f2, ?_⟩
      rw [b1] at f2
      rw [a1] at f1
      have l1 := congrArg List.length f1
      have l2 := congrArg List.length f2
      simp only [List.length_cons, List.length_append, List.length_map] at l1 l2
      simp only [List.length_map]
      have a2' : (t1.length : Int) = m := a2
      have b2' : (t2.length : Int) = n := b2
      omega

end training

section exact
variable {S K A : Type} [Field K] [LinearOrder K] [LinearOrder A] [ThrOps A]

theorem mapM_getD {B : Type} (f : B → Option K) : ∀ {l : List B} {xs : List K}, l.mapM f = some xs →
    xs = l.map (fun b => (f b).getD 0)
  | [], xs, h => by simp at h; simp [h]
  | b :: l, xs, h => by
    cases hb : f b with
    | none => simp [List.mapM_cons, hb] at h
    | some y =>
      cases hl : l.mapM f with
      | none => simp [List.mapM_cons, hb, hl] at h
      | some ys =>
        simp only [List.mapM_cons, hb, hl, Option.bind_eq_bind, Option.bind_some, Option.pure_def, Option.some.injEq] at h
        rw [← h, List.map_cons, hb, mapM_getD f hl]
        rfl

theorem foldl_pairs : ∀ (l : List (K × K)) (a : K),
    l.foldl (fun a x => a + (x.1 + x.2)) a = a + (l.map Prod.fst).sum + (l.map Prod.snd).sum
  | [], a => by simp
  | x :: l, a => by
    rw [List.foldl_cons, foldl_pairs l]
    simp only [List.map_cons, List.sum_cons]
    ring

theorem constantOf_id (ks : List K) : constantOf id ks = ks.sum := by
  have : ∀ (l : List K) (a : K), l.foldl (fun a x => id (a + x)) a = a + l.sum := by
    intro l
    induction l with
    | nil => intro a; simp
    | cons x l ih => intro a; rw [List.foldl_cons, ih, List.sum_cons, id, add_assoc]
  rw [constantOf, this, zero_add]

theorem sum_filter_split {B : Type} (q : B → Bool) (g h : B → K) (l : List B) (hq : ∀ b, q b = true → g b = h b) :
    ((l.filter q).map h).sum + ((l.filter (fun b => !q b)).map g).sum = (l.map g).sum := by
  induction l with
  | nil => simp
  | cons b l ih =>
    cases hb : q b
    · simp only [List.filter_cons, hb, Bool.not_false, if_true, List.map_cons, List.sum_cons, Bool.false_eq_true, if_false,
        ← ih]
      ring
    · simp only [List.filter_cons, hb, Bool.not_true, if_true, List.map_cons, List.sum_cons, Bool.false_eq_true, if_false,
        ← ih, hq b hb]
      ring

theorem scoreOf_single (columns : String → Option (Column A)) (i : Nat) (t : Tree K A) (h : isSingleNode t = true) :
    scoreOf columns t i = some (rootScore t) := by
  cases t with
  | absent => rfl
  | node a b c d =>
    cases c with
    | absent => rfl
    | node _ _ _ _ => cases h

/-- **C39.** When training succeeds, the function values that the loss was evaluated on at the end are the predictions of
the returned forest on the training data (exact arithmetic). -/
theorem C39_training_scores_are_predictions {env : TrainEnv K A} {loss : LossFunc S K} {names : List String}
    {cfg : TrainConfig K} {base : Option (List (Tree K A))} {p : Nat} {r : TrainResult K A}
    (hd : TrainData env loss (base.getD [])) (hexact : env.rnd32 = id)
    (h : trainGBDT env loss names cfg base [] p = ok r) (hok : r.code = .ok) {numThreads : Int} (hnt : 0 < numThreads) :
    evaluateForest env.columns env.numRows numThreads r.forest = ok (.ok, some r.f) := by
  obtain ⟨fitted, constants, h1, h2, h3, _, h5, h6, h7⟩ := C39_function_values hd h hok
  obtain ⟨u1, u2⟩ := C39_forest_usable hd h hok
  obtain ⟨scores, a1, a2, a3⟩ := C37_prediction_exact hd.rows hnt r.forest u1 u2
  suffices scores = r.f by rw [a1, this]
  refine List.ext_getElem? (fun i => ?_)
  by_cases hi : i < env.numRows
  · obtain ⟨xs, k1, k2⟩ := a3 i hi
    obtain ⟨v, k3, ys, k4, k5⟩ := h7 i hi
    rw [k2, k3, k5]
    congr 1
    have e1 := mapM_getD _ k1
    have e2 := mapM_getD _ k4
    have hlen : ys.length = (List.map Prod.snd ((base.getD []).map (fun t => (t, (0 : K))) ++ fitted.zip constants)).length := by
      rw [e2]; simp
    rw [foldl_pairs, List.map_fst_zip (le_of_eq hlen), List.map_snd_zip (le_of_eq hlen.symm), zero_add]
    rw [e1, e2, h1, hexact, constantOf_id]
    simp only [List.map_cons, List.map_append, List.map_map, List.sum_cons, List.sum_append, Function.comp_def,
      scoreOf, leafOf_clearInternal]
    have e3 : (fitted.zip constants).map Prod.snd = constants := List.map_snd_zip (le_of_eq h3.symm)
    have e4 : (fitted.zip constants).map (fun x => (Option.map Prod.snd (leafOf env.columns x.1 i)).getD 0) =
        fitted.map (fun t => (Option.map Prod.snd (leafOf env.columns t i)).getD 0) := by
      conv_rhs => rw [← List.map_fst_zip (le_of_eq h3), List.map_map]
      rfl
    rw [e3, e4]
    have e5 := sum_filter_split isSingleNode (fun t => (Option.map Prod.snd (leafOf env.columns t i)).getD 0) rootScore
      (base.getD []) (fun t ht => by
        have := scoreOf_single env.columns i t ht
        rw [scoreOf] at this
        rw [this]; rfl)
    rw [← e5]
    have e6 : ∀ l : List (Tree K A), (l.map (fun _ => (0 : K))).sum = 0 := by
      intro l
      induction l with
      | nil => rfl
      | cons _ l ih => rw [List.map_cons, List.sum_cons, ih, add_zero]
    simp only [leafOf, Option.map_some, Option.getD_some, e6]
    ring
  · rw [List.getElem?_eq_none (by omega), List.getElem?_eq_none (by omega)]

/-- **C71.** Continuing is the same as training for longer (exact arithmetic, a loss without state): training `m` trees and
then `n` more from the resulting forest gives the function values, hence the predictions on the training data, and the
new trees of training `m + n` trees at once; what differs is that single-node trees among the first `m` are folded into
the constant. -/
theorem C71_warm_start {env : TrainEnv K A} {loss : LossFunc S K} {names : List String} {cfg : TrainConfig K}
    {base : Option (List (Tree K A))} {p : Nat} {m n : Int} (hn : 0 < n) {r1 r3 : TrainResult K A}
    (hd : TrainData env loss (base.getD [])) (hexact : env.rnd32 = id)
    (hstate : ∀ s f s' c g, LossReach env.numRows (fun g => groupOrDie env.columns cfg.groupColumn = ok g) loss s → f.length = env.numRows → loss.compute s f = ok (s', c, g) →
      ∀ t, LossReach env.numRows (fun g => groupOrDie env.columns cfg.groupColumn = ok g) loss t → ∃ t', loss.compute t f = ok (t', c, g))
    (h1 : trainGBDT env loss names { cfg with numTrees := m } base [] p = ok r1) (hok1 : r1.code = .ok)
    (h3 : trainGBDT env loss names { cfg with numTrees := m + n } base [] p = ok r3) (hok3 : r3.code = .ok) :
    ∃ r2, trainGBDT env loss names { cfg with numTrees := n } (some r1.forest) [] r1.pos = ok r2 ∧ r2.code = .ok ∧
      r2.f = r3.f ∧ r2.pos = r3.pos ∧
      ∃ k1 k2 k3 trees more, r1.forest = .node k1 none .absent .absent :: trees ∧
        r2.forest = .node k2 none .absent .absent :: (trees.filter (fun t => !isSingleNode t) ++ more) ∧
        r3.forest = .node k3 none .absent .absent :: (trees ++ more) := by
  obtain ⟨u1, u2⟩ := C39_forest_usable hd h1 hok1
  obtain ⟨q1, t1, a1, a2, a3⟩ := C40_shape hd h1 hok1
  have hstripped : ∀ t ∈ r1.forest, clearInternal t = t := by
    intro t ht
    rw [a1] at ht
    rcases List.mem_cons.mp ht with rfl | ht
    · rfl
    · rcases List.mem_append.mp ht with ht | ht
      · obtain ⟨t0, _, rfl⟩ := List.mem_map.mp ht
        exact clearInternal_idem t0
      · exact C42_nothing_else t (a3 t ht).1
  have hpred := C39_training_scores_are_predictions hd hexact h1 hok1 hd.threads
  rcases trainGBDT_stages h1 with ⟨_, e1 | ⟨_, e1⟩ | ⟨g, e1⟩⟩ |
    ⟨hc, features, group, ls, slices, forest1, slices1, f1, stopped, s, hl, hg, hi, hsl, hb, htr, hr⟩
  · exact absurd hok1 e1.2
  · have := loadFeatures_error e1
    rw [hok1] at this
    cases this
  · exact absurd hok1 (hd.status _ _ _ e1)
  rcases trainGBDT_stages h3 with ⟨_, e1 | ⟨_, e1⟩ | ⟨g, e1⟩⟩ |
    ⟨hc', features', group', ls', slices', forest1', slices1', f1', stopped', s', hl', hg', hi', hsl', hb', htr', hr'⟩
  · exact absurd hok3 e1.2
  · have := loadFeatures_error e1
    rw [hok3] at this
    cases this
  · exact absurd hok3 (hd.status _ _ _ e1)
  rw [hl, Except.ok.injEq] at hl'
  have hg2 : groupOrDie env.columns cfg.groupColumn = ok group := hg
  have hg3 : groupOrDie env.columns cfg.groupColumn = ok group' := hg'
  rw [hg2, Outcome.ok.injEq] at hg3
  subst hl' hg3
  rw [hi, Outcome.ok.injEq, Except.ok.injEq] at hi'
  rw [hsl, Outcome.ok.injEq] at hsl'
  subst hi' hsl'
  rw [hb, Outcome.ok.injEq, Prod.mk.injEq, Prod.mk.injEq] at hb'
  obtain ⟨rfl, rfl, rfl⟩ := hb'
  cases stopped with
  | true => subst hr; cases hok1
  | false =>
    cases stopped' with
    | true => subst hr'; cases hok3
    | false =>
      have hs : Slices env.numRows slices := by
        obtain ⟨sl, e1, e2⟩ := scoreSlices_ok hd.threads env.numRows
        rw [hsl, Outcome.ok.injEq] at e1
        subst e1
        exact e2
      have ha : Added env.columns env.numRows ([] : List (Tree K A × K)) (List.replicate env.numRows (0 : K)) :=
        ⟨by simp, fun i hi => by simp [hi]⟩
      obtain ⟨e1, e2, e3⟩ := initWithBase_spec hd.rows (base.getD []) (rest := []) hd.scorable hs ha hb
      simp only [Bool.false_eq_true, if_false] at hr hr'
      rw [trainLoop_numTrees] at htr htr'
      have hm : 0 < m := by
        have hc2 := hc
        unfold checkConfig at hc2
        split at hc2
        · cases hc2
        · next hh =>
          have hh2 : ¬ m ≤ 0 := hh
          omega
      have htr2 : trainLoop env loss features cfg 0 (m + n).toNat ⟨forest1, slices1, f1, ls, p⟩ = ok (false, s') := htr'
      have htr1 : trainLoop env loss features cfg 0 m.toNat ⟨forest1, slices1, f1, ls, p⟩ = ok (false, s) := htr
      rw [show (m + n).toNat = m.toNat + n.toNat by omega, trainLoop_add, htr1] at htr2
      have htr3 : trainLoop env loss features cfg 0 n.toNat s = ok (false, s') := htr2
      subst e1
      have hfit : ∀ t, FittedTree env features cfg t → Scorable env.columns t := fun t ht => ht.scorable hd hl
      have hgr : ∀ s f s' c g, LossReach env.numRows (fun g => groupOrDie env.columns cfg.groupColumn = ok g) loss s →
          loss.compute s f = ok (s', c, g) → f.length = env.numRows → g.length = env.numRows :=
        fun s f s' c g h => hd.grads s f s' c g (h.mono (fun _ => groupOrDie_col))
      have hr0 : LossReach env.numRows (fun g => groupOrDie env.columns cfg.groupColumn = ok g) loss ls := .init hg2 hi
      obtain ⟨fitted, c1, _, c3, _⟩ := trainLoop_spec hd.rows (loadFeatures_mem hl).2 hgr hfit m.toNat rfl hr0 e2 e3 htr1
      have hr1 : LossReach env.numRows (fun g => groupOrDie env.columns cfg.groupColumn = ok g) loss s.loss := trainLoop_reach hd.rows hgr hfit _ hr0 e2 e3.1 htr1
      -- the second run
      obtain ⟨forest2, slices2, f2, d1, d2, d3⟩ := initWithBase_total hd.rows r1.forest
        [.node 0 none .absent .absent] u2 hs (f := List.replicate env.numRows (0 : K)) (by simp)
      obtain ⟨g1, g2, g3⟩ := initWithBase_spec hd.rows r1.forest (rest := []) u2 hs ha d1
      have hf2 : f2 = s.f := by
        obtain ⟨scores, p1, p2, p3⟩ := C37_prediction_exact hd.rows hd.threads r1.forest u1 u2
        rw [hpred, Outcome.ok.injEq, Prod.mk.injEq, Option.some.injEq] at p1
        have hrf : r1.f = s.f := by rw [hr]
        rw [← hrf, p1.2]
        refine List.ext_getElem? (fun i => ?_)
        by_cases hi : i < env.numRows
        · obtain ⟨xs, q1, q2⟩ := p3 i hi
          rw [g3.2 i hi, q2, mapM_getD _ q1]
          congr 1
          have : ∀ (l : List (Tree K A)) (a : K), (l.map (fun t => (t, (0 : K)))).foldl
              (fun a x => a + (scoreD env.columns i x.1 + x.2)) a = a + (l.map (fun t => (scoreOf env.columns t i).getD 0)).sum := by
            intro l
            induction l with
            | nil => intro a; simp
            | cons t l ih =>
              intro a
              rw [List.map_cons, List.foldl_cons, ih, List.map_cons, List.sum_cons, scoreD]
              ring
          rw [List.nil_append, this, zero_add]
        · rw [List.getElem?_eq_none (by omega), List.getElem?_eq_none (by omega)]
      have hss : Slices env.numRows s.slices := trainLoop_slices hd.rows hgr hfit _ hr0 e2 e3.1 htr1
      obtain ⟨s2, k', k2', more, m1, m2, m3, m4, m5⟩ := trainLoop_sim hd.rows hgr hstate hfit n.toNat
        (s2 := ⟨forest2, slices2, f2, ls, s.pos⟩) c1 g1 hr1 hr0 hf2.symm rfl c3.1 hss g2 htr3
      have hc2 : checkConfig (env.ofNat 1) { cfg with numTrees := n } = .ok := by
        have hmm : ¬ m ≤ 0 := by omega
        have hnn : ¬ n ≤ 0 := by omega
        simp only [checkConfig, hmm, hnn, if_false] at hc ⊢
        exact hc
      have hpos : r1.pos = s.pos := by rw [hr]
      refine ⟨⟨.ok, s2.forest.map clearInternal, s2.f, s2.pos⟩, ?_, rfl, ?_, ?_, ?_⟩
      · rw [trainGBDT, if_neg (by rw [hc2]; simp), hl]
        simp only [hg2, hi, ok_bind, hsl, Option.getD_some, List.nil_append, d1, trainLoop_numTrees]
        rw [hpos, show List.length ([] : List (Tree K A)) = 0 from rfl, m1]
        rfl
      · rw [hr']; exact m2.symm
      · rw [hr']; exact m3.symm
      · have hr1 : r1.forest = s.forest.map clearInternal := by rw [hr]
        rw [c1] at hr1
        simp only [List.map_cons, clearInternal, Tree.isSet, Bool.false_eq_true, if_false] at hr1
        refine ⟨_, k2', k', _, more.map clearInternal, hr1, ?_, ?_⟩
        · simp only [m5, List.map_cons, clearInternal, List.map_append, List.nil_append]
          rw [show (∀ x y : List (Tree K A), x = y → (Tree.node k2' (if (Tree.absent : Tree K A).isSet = true then
            Option.map clearIndex none else none) .absent .absent :: (x ++ more.map clearInternal)) =
            .node k2' none .absent .absent :: (y ++ more.map clearInternal)) from fun x y h => by rw [h]; rfl]
          have hmap : (r1.forest.filter (fun t => !isSingleNode t)).map clearInternal =
              r1.forest.filter (fun t => !isSingleNode t) :=
            (List.map_congr_left (fun t ht => hstripped t (List.mem_of_mem_filter ht))).trans (List.map_id' _)
          rw [hmap]
          conv_lhs => rw [hr1]
          simp [isSingleNode, Tree.isSet]
        · rw [hr']
          simp only [m4, List.map_cons, clearInternal, List.map_append]
          rfl

end exact

/-! ## Examples -/

section examples

/-- Training in the examples: the store and the machine of `fitEnv`. -/
def trainEnv : TrainEnv ℚ ℚ where
  columns := fitCols
  numRows := 5
  w := fun _ => 1
  sort := ratSort
  top := ratTop
  toInt := fun x => some x.floor
  ofNat := fun n => n
  draw := fun k => ((k * 7) % 10 : Nat) / 10
  rnd32 := id
  numThreads := 2
  diverged := fun _ => false

/-- The targets in the examples. -/
def trainTargets : List ℚ := [1, 2, 6, 3, 8]

/-- Squared error: the constant is the mean residual. -/
def trainLoss : LossFunc Unit ℚ where
  init := fun _ _ => ok (.ok ())
  compute := fun _ f =>
    let res := (trainTargets.zip f).map (fun x => x.1 - x.2)
    let c := res.sum / 5
    ok ((), c, res.map (fun r => ⟨r - c, 1⟩))

/-- The configuration in the examples. -/
def trainCfg : TrainConfig ℚ where
  l2Lambda := 1
  minHessian := 0
  minGain := 0
  tol := 1 / 1000000
  numTrees := 2
  numLeaves := 3
  shrinkage := 1 / 2
  exampleRate := 1
  featureRate := 1

/-- A base forest: two constants and a stump. -/
def trainBase : List (Tree ℚ ℚ) :=
  [.node 2 none .absent .absent,
   .node 0 (some { feature := "color", catSplit := some { category := ["b"] }, gain := 1 })
    (.node (-1) none .absent .absent) (.node 1 none .absent .absent),
   .node 1 none .absent .absent]

theorem trainBase_scorable : ∀ t ∈ trainBase, Scorable trainEnv.columns t := by
  intro t ht
  simp only [trainBase, List.mem_cons, List.not_mem_nil, or_false] at ht
  rcases ht with rfl | rfl | rfl
  · trivial
  · exact ⟨⟨_, .str _, rfl, rfl, _, rfl, Or.inl rfl⟩, trivial, trivial⟩
  · trivial

theorem trainData : TrainData trainEnv trainLoss trainBase where
  rows := fun _ _ h => (fitCols_rows h).hasRows
  threads := by decide
  scorable := trainBase_scorable
  features := by
    intro name hn
    simp only [trainBase, forestFeatures, treeFeatures, List.flatMap_cons, List.flatMap_nil, List.mem_append,
      List.mem_cons, List.not_mem_nil, or_false, false_or] at hn
    subst hn
    simp [trainEnv, fitCols]
  status := by intro n g e h; simp [trainLoss] at h
  grads := by
    intro s f s' c g _ h hf
    simp only [trainLoss, Outcome.ok.injEq, Prod.mk.injEq] at h
    rw [← h.2.2]
    have : f.length = 5 := hf
    simp [trainTargets, this, trainEnv]

theorem trainInput : TrainInput trainEnv trainLoss ["color", "size"] trainCfg where
  rows := fun _ _ h => fitCols_rows h
  sort := ratSort_spec
  top := ratTop_spec
  examples := by simp [trainEnv]
  features := by simp [trainEnv]
  group := Or.inl rfl
  init := fun _ _ => ⟨_, rfl⟩
  compute := fun _ _ _ _ => ⟨_, rfl⟩

/-- The single-node trees of the forest, function values and predictions of a run. -/
def trainSummary (cfg : TrainConfig ℚ) (base : Option (List (Tree ℚ ℚ))) (p : Nat) :
    Option (List Bool × List ℚ × Option (List ℚ)) :=
  match trainGBDT trainEnv trainLoss ["color", "size"] cfg base [] p with
  | .ok r => match evaluateForest fitCols 5 3 r.forest with
    | .ok x => some (r.forest.map isSingleNode, r.f, x.2)
    | _ => none
  | _ => none

/-- Two trees on top of the base forest, whose two constants join the constant tree. -/
example : trainSummary trainCfg (some trainBase) 0 = some ([true, false, false, false],
    [343/225, 793/225, 3383/600, 591/200, 2461/400],
    some [343/225, 793/225, 3383/600, 591/200, 2461/400]) := by decide +kernel

/-- Three trees at once, or one and then two (C70, C71). -/
example : (match trainGBDT trainEnv trainLoss ["color", "size"] { trainCfg with numTrees := 1 } none [] 0,
      trainGBDT trainEnv trainLoss ["color", "size"] { trainCfg with numTrees := 3 } none [] 0 with
    | .ok r1, .ok r3 => match
        trainGBDT trainEnv trainLoss ["color", "size"] { trainCfg with numTrees := 2 } (some r1.forest) [] r1.pos with
      | .ok r2 => decide (r2 = r3 ∧ r3.code = .ok ∧ r3.forest.length = 4 ∧ r1.forest.tail = (r3.forest.tail.take 1))
      | _ => false
    | _, _ => false) = true := by decide +kernel

/-- The loss of the examples has no state. -/
example : ∀ s f s' c g, trainLoss.compute s f = ok (s', c, g) → ∀ t, ∃ t', trainLoss.compute t f = ok (t', c, g) :=
  fun _ _ _ _ _ h t => ⟨t, h⟩

/-- Errors: no trees, an unknown feature. -/
example : (match trainGBDT trainEnv trainLoss ["color"] { trainCfg with numTrees := 0 } none [] 0,
      trainGBDT trainEnv trainLoss ["color", "weight"] trainCfg none [] 0 with
    | .ok r, .ok r' => decide (r = ⟨.invalidArgument, [], [], 0⟩ ∧ r' = ⟨.notFound, [], [], 0⟩)
    | _, _ => false) = true := by decide +kernel

/-- Divergence in the first round: the constant tree alone is in the forest. -/
example : (match trainGBDT { trainEnv with diverged := fun c => decide (3 < c) } trainLoss ["color"] trainCfg none [] 0 with
    | .ok r => decide (r = ⟨.internal, [.node 0 none .absent .absent], [0, 0, 0, 0, 0], 0⟩)
    | _ => false) = true := by decide +kernel

/-- Shrinking and stripping the tree fitted above. -/
example : (List.range 5).map (fun i => scoreOf fitCols (clearInternal (applyShrinkage id (1/10) fittedTree)) i) =
      [some (-1/8), some (-1/8), some (21/40), some (1/20), some (21/40)] ∧
    ¬ clearInternal fittedTree = fittedTree := by decide +kernel

end examples

end Gbdt
