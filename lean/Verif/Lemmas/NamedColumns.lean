import Verif.Props.PipelineCli

/-!
# Training looks only at the columns that are named

The features of fitted trees are among the features that tree fitting is given, so that columns with other names are never asked for.  (A
split that is not set has the name "".)
-/

set_option autoImplicit false
set_option linter.unusedSectionVars false

namespace Gbdt

open Outcome

section named
variable {D A : Type} [Dbl D] [LinearOrder A]

/-- Two ways of finding columns agree on these names, and on the empty one. -/
def AgreeOn (names : String → Prop) (cols cols' : String → Option (Column A)) : Prop :=
  ∀ name, (names name ∨ name = "") → cols name = cols' name

/-- All splits of a tree are on features of these names. -/
def SplitsOn (names : String → Prop) (t : Tree D A) : Prop := ∀ name ∈ treeFeatures t, names name

theorem SplitsOn.node {names : String → Prop} {score : D} {sp : Option (Split D A)} {l r : Tree D A}
    (hs : ∀ s, sp = some s → names s.feature) (hl : SplitsOn names l) (hr : SplitsOn names r) : SplitsOn names (.node score sp l r) := by
  intro name h
  simp only [treeFeatures, List.mem_append] at h
  rcases h with (h | h) | h
  · cases sp with
    | none => cases h
    | some s => simp only [List.mem_singleton] at h; exact h ▸ hs s rfl
  · exact hl name h
  · exact hr name h

theorem SplitsOn.parts {names : String → Prop} {score : D} {sp : Option (Split D A)} {l r : Tree D A}
    (h : SplitsOn names (.node score sp l r)) : (∀ s, sp = some s → names s.feature) ∧ SplitsOn names l ∧ SplitsOn names r := by
  refine ⟨?_, fun name hn => h name ?_, fun name hn => h name ?_⟩
  · rintro s rfl
    exact h _ (by simp [treeFeatures])
  · simp [treeFeatures, hn]
  · simp [treeFeatures, hn]

theorem addSampleScores_named {names : String → Prop} {cols cols' : String → Option (Column A)} (hc : AgreeOn names cols cols') (k : D) :
    ∀ (t : Tree D A), SplitsOn names t → ∀ S f, addSampleScores cols k t S f = addSampleScores cols' k t S f := by
  intro t
  induction t with
  | absent => intro _ S f; rfl
  | node score sp l r ih1 ih2 =>
    intro h S f
    obtain ⟨hs, hl, hr⟩ := h.parts
    have he : cols (Tree.node score sp l r).splitOf.feature = cols' (Tree.node score sp l r).splitOf.feature := by
      refine hc _ ?_
      cases sp with
      | none => exact Or.inr rfl
      | some s => exact Or.inl (hs s rfl)
    rw [addSampleScores, addSampleScores, he]
    simp only [ih1 hl, ih2 hr]

theorem addTreeScores_named {names : String → Prop} {cols cols' : String → Option (Column A)} (hc : AgreeOn names cols cols') (k : D)
    {t : Tree D A} (h : SplitsOn names t) : ∀ S f, addTreeScores cols t k S f = addTreeScores cols' t k S f
  | [], _ => rfl
  | s :: S, f => by
    rw [addTreeScores, addTreeScores, addSampleScores_named hc k t h]
    simp only [addTreeScores_named hc k h S]

theorem loadFeatures_named {cols cols' : String → Option (Column A)} : ∀ {names : List String},
    (∀ name ∈ names, cols name = cols' name) → loadFeatures cols names = loadFeatures cols' names
  | [], _ => rfl
  | name :: names, h => by
    rw [loadFeatures, loadFeatures, h name List.mem_cons_self, loadFeatures_named (fun n hn => h n (List.mem_cons_of_mem _ hn))]

theorem evaluateLoop_named {names : String → Prop} {cols cols' : String → Option (Column A)} (hc : AgreeOn names cols cols') :
    ∀ (ts : List (Tree D A)) (i : Nat) (points : List Int) S sc, (∀ t ∈ ts, SplitsOn names t) →
      evaluateLoop cols ts i points S sc = evaluateLoop cols' ts i points S sc := by
  intro ts
  induction ts with
  | nil => intro i points S sc _; cases points <;> rfl
  | cons t ts ih =>
    intro i points S sc h
    cases points with
    | nil => rfl
    | cons p ps =>
      rw [evaluateLoop, evaluateLoop, addTreeScores_named hc 0 (h t List.mem_cons_self)]
      simp only [ih _ _ _ _ (fun t ht => h t (List.mem_cons_of_mem _ ht))]

theorem splitsOn_forest (forest : List (Tree D A)) : ∀ t ∈ forest, SplitsOn (· ∈ forestFeatures forest) t := by
  intro t ht name hn
  rw [forestFeatures, List.mem_flatMap]
  exact ⟨t, ht, hn⟩

theorem evaluateCheckpoints_named {cols cols' : String → Option (Column A)} {forest : List (Tree D A)}
    (hc : AgreeOn (· ∈ forestFeatures forest) cols cols') (n : Nat) (nt : Int) (points : List Int) :
    evaluateCheckpoints cols n nt forest points = evaluateCheckpoints cols' n nt forest points := by
  unfold evaluateCheckpoints
  rw [loadFeatures_named (fun name hn => hc name (Or.inl hn))]
  simp only [evaluateLoop_named hc forest _ _ _ _ (splitsOn_forest forest)]

theorem addForestScores_named {names : String → Prop} {cols cols' : String → Option (Column A)} (hc : AgreeOn names cols cols') :
    ∀ (ts : List (Tree D A)) S sc, (∀ t ∈ ts, SplitsOn names t) → addForestScores cols ts S sc = addForestScores cols' ts S sc
  | [], _, _, _ => rfl
  | t :: ts, S, sc, h => by
    rw [addForestScores, addForestScores, addTreeScores_named hc 0 (h t List.mem_cons_self)]
    simp only [addForestScores_named hc ts _ _ (fun t ht => h t (List.mem_cons_of_mem _ ht))]

theorem evaluateForest_named {cols cols' : String → Option (Column A)} {forest : List (Tree D A)}
    (hc : AgreeOn (· ∈ forestFeatures forest) cols cols') (n : Nat) (nt : Int) :
    evaluateForest cols n nt forest = evaluateForest cols' n nt forest := by
  unfold evaluateForest
  rw [loadFeatures_named (fun name hn => hc name (Or.inl hn))]
  simp only [addForestScores_named hc forest _ _ (splitsOn_forest forest)]

/-! ## Growing a tree -/

variable [ThrOps A]

theorem nameCategories_feature {c : Column A} {s s1 : Split D A} (h : nameCategories c s = ok s1) : s1.feature = s.feature := by
  unfold nameCategories at h
  cases hs : s.catSplit with
  | none =>
    simp only [hs, Outcome.ok.injEq] at h
    rw [h]
  | some cs =>
    simp only [hs] at h
    cases c with
    | str c =>
      cases hn : cs.index.mapM c.catString with
      | ok names =>
        simp only [hn, ok_bind] at h
        cases h
        rfl
      | ub => simp only [hn] at h; cases h
      | fatal => simp only [hn] at h; cases h
    | bkt c => cases h
    | raw c => cases h

theorem bestFeature_feature {env : FitEnv D A} {cfg : FitConfig D} {S : List Nat} {total : GD D} {p : Nat}
    {s : Split D A} {c : Column A} {q : Nat} (h : bestFeature env cfg S total p = ok (some (s, c), q)) :
    s.feature ∈ env.features.map Prod.fst := by
  unfold bestFeature at h
  cases h1 : uniformSubsample env.toInt env.ofNat env.draw env.features.length cfg.featureRate p with
  | ub => rw [h1] at h; cases h
  | fatal => rw [h1] at h; cases h
  | ok r =>
    obtain ⟨chosen, p1⟩ := r
    rw [h1] at h
    simp only [ok_bind] at h
    obtain ⟨splits, _, h⟩ := bind_eq_ok.mp h
    obtain ⟨best, _, h⟩ := bind_eq_ok.mp h
    split at h
    · obtain ⟨s0, _, h⟩ := bind_eq_ok.mp h
      split at h
      · obtain ⟨j, _, h⟩ := bind_eq_ok.mp h
        obtain ⟨f, hf, h⟩ := bind_eq_ok.mp h
        obtain ⟨s1, hs1, h⟩ := bind_eq_ok.mp h
        cases h
        rw [nameCategories_feature hs1]
        exact List.mem_map.mpr ⟨f, List.mem_of_getElem? (vecGet_eq_ok.mp hf), rfl⟩
      · cases h
    · cases h

theorem newNode_splits {env : FitEnv D A} {cfg : FitConfig D} {S : List Nat} {total : GD D} {p q : Nat}
    {best : Option (Split D A × Column A)} (h : bestFeature env cfg S total p = ok (best, q)) (total' : GD D) :
    SplitsOn (· ∈ env.features.map Prod.fst) (newNode env cfg total' best) := by
  unfold newNode
  refine SplitsOn.node ?_ (fun name hn => by cases hn) (fun name hn => by cases hn)
  intro s hs
  cases best with
  | none => cases hs
  | some x =>
    obtain ⟨s1, c⟩ := x
    simp only at hs
    split at hs
    · cases hs
      exact bestFeature_feature h
    · cases hs

theorem graft_splits {names : String → Prop} {nl nr : Tree D A} (hl : SplitsOn names nl) (hr : SplitsOn names nr) :
    ∀ (t : Tree D A) (p : List Bool), SplitsOn names t → SplitsOn names (t.graft p nl nr) := by
  intro t
  induction t with
  | absent => intro p h; exact h
  | node score sp l r ih1 ih2 =>
    intro p h
    obtain ⟨h1, h2, h3⟩ := h.parts
    cases p with
    | nil => exact .node h1 hl hr
    | cons b p =>
      rw [Tree.graft]
      split
      · exact .node h1 h2 (ih2 p h3)
      · exact .node h1 (ih1 p h2) h3

theorem fitTree_splits {env : FitEnv D A} {cfg : FitConfig D} {p q : Nat} {t : Tree D A} (h : fitTree env cfg p = ok (t, q)) :
    SplitsOn (· ∈ env.features.map Prod.fst) t := by
  have step : ∀ (s s' : FitState D A) k e f, fitStep env cfg s k e f = ok s' → SplitsOn (· ∈ env.features.map Prod.fst) s.tree →
      SplitsOn (· ∈ env.features.map Prod.fst) s'.tree := by
    intro s s' k e f h hs
    unfold fitStep at h
    cases ht : s.tree.at? e.path with
    | none => simp only [ht] at h; cases h
    | some t =>
    simp only [ht, ok_bind] at h
    obtain ⟨⟨ls, rs⟩, _, h⟩ := bind_eq_ok.mp h
    obtain ⟨lt, _, h⟩ := bind_eq_ok.mp h
    obtain ⟨rt, _, h⟩ := bind_eq_ok.mp h
    obtain ⟨⟨lb, p1⟩, hb1, h⟩ := bind_eq_ok.mp h
    obtain ⟨⟨rb, p2⟩, hb2, h⟩ := bind_eq_ok.mp h
    cases h
    exact graft_splits (newNode_splits hb1 _) (newNode_splits hb2 _) _ _ hs
  have loop : ∀ (n : Nat) (s s' : FitState D A), fitLoop env cfg n s = ok s' → SplitsOn (· ∈ env.features.map Prod.fst) s.tree →
      SplitsOn (· ∈ env.features.map Prod.fst) s'.tree := by
    intro n
    induction n with
    | zero => intro s s' h hs; cases h; exact hs
    | succ n ih =>
      intro s s' h hs
      rw [fitLoop] at h
      split at h
      · obtain ⟨e, _, h⟩ := bind_eq_ok.mp h
        cases hf : e.feature with
        | none => simp only [hf] at h; cases h; exact hs
        | some f =>
          simp only [hf] at h
          obtain ⟨s1, hs1, h⟩ := bind_eq_ok.mp h
          exact ih s1 s' h (step _ _ _ _ _ hs1 hs)
      · cases h; exact hs
  unfold fitTree at h
  obtain ⟨s, hs, h⟩ := bind_eq_ok.mp h
  obtain ⟨s1, hs1, h⟩ := bind_eq_ok.mp h
  cases h
  refine loop _ _ _ hs1 ?_
  unfold fitStart at hs
  obtain ⟨⟨samples, p1⟩, _, hs⟩ := bind_eq_ok.mp hs
  obtain ⟨total, _, hs⟩ := bind_eq_ok.mp hs
  obtain ⟨⟨best, p2⟩, hb, hs⟩ := bind_eq_ok.mp hs
  cases hs
  exact newNode_splits hb _

theorem shrink_features (rnd32 : D → D) (rate : D) : ∀ t : Tree D A, treeFeatures (applyShrinkage rnd32 rate t) = treeFeatures t
  | .absent => rfl
  | .node score sp l r => by
    simp only [applyShrinkage, treeFeatures, shrink_features rnd32 rate l, shrink_features rnd32 rate r]

theorem loadFeatures_names {cols : String → Option (Column A)} : ∀ {names : List String} {features : List (String × Column A)},
    loadFeatures cols names = .ok features → features.map Prod.fst = names
  | [], _, h => by cases h; rfl
  | name :: names, features, h => by
    rw [loadFeatures] at h
    cases hc : cols name with
    | none => simp only [hc] at h; cases h
    | some c =>
      simp only [hc] at h
      cases hl : loadFeatures cols names with
      | error e => simp only [hl] at h; cases h
      | ok cs =>
        simp only [hl, Except.ok.injEq] at h
        subst h
        rw [List.map_cons, loadFeatures_names hl]

theorem trainLoop_named {S : Type} {names : String → Prop} {cols' : String → Option (Column A)} {env : TrainEnv D A}
    (hc : AgreeOn names env.columns cols') (loss : LossFunc S D) {features : List (String × Column A)}
    (hf : ∀ name ∈ features.map Prod.fst, names name) (cfg : TrainConfig D) (k : Nat) : ∀ (n : Nat) (s : TrainState S D A),
    trainLoop env loss features cfg k n s = trainLoop { env with columns := cols' } loss features cfg k n s
  | 0, _ => rfl
  | n + 1, s => by
    rw [trainLoop, trainLoop]
    refine bind_congr_ok ?_
    rintro ⟨ls, constant, grads⟩ _
    dsimp only
    split
    · rfl
    · refine bind_congr_ok (x := fitTree (env.fit features grads) cfg.fit s.pos) ?_
      rintro ⟨t, pos⟩ ht
      have h1 : SplitsOn names (applyShrinkage env.rnd32 cfg.shrinkage t) := by
        intro name hn
        rw [shrink_features] at hn
        exact hf name (fitTree_splits ht name hn)
      dsimp only
      rw [addTreeScores_named hc constant h1]
      simp only [trainLoop_named hc loss hf cfg k n]

theorem initWithBase_named {names : String → Prop} {cols' : String → Option (Column A)} {env : TrainEnv D A}
    (hc : AgreeOn names env.columns cols') : ∀ (base forest : List (Tree D A)) S f, (∀ t ∈ base, SplitsOn names t) →
    initWithBase env base forest S f = initWithBase { env with columns := cols' } base forest S f
  | [], _, _, _, _ => rfl
  | t :: ts, forest, S, f, h => by
    rw [initWithBase, initWithBase, addTreeScores_named hc 0 (h t List.mem_cons_self)]
    simp only [initWithBase_named hc ts _ _ _ (fun t ht => h t (List.mem_cons_of_mem _ ht))]

theorem trainGBDT_named {S : Type} {cols' : String → Option (Column A)} {env : TrainEnv D A} {features : List String}
    {cfg : TrainConfig D} {base : Option (List (Tree D A))}
    (hc : AgreeOn (fun name => name ∈ features ∨ name ∈ forestFeatures (base.getD [])) env.columns cols')
    (hg : cfg.groupColumn ≠ "" → env.columns cfg.groupColumn = cols' cfg.groupColumn) (loss : LossFunc S D)
    (forest : List (Tree D A)) (p : Nat) :
    trainGBDT env loss features cfg base forest p = trainGBDT { env with columns := cols' } loss features cfg base forest p := by
  have hgroup : groupOrDie env.columns cfg.groupColumn = groupOrDie cols' cfg.groupColumn := by
    unfold groupOrDie
    split
    · rfl
    · next h => rw [hg h]
  unfold trainGBDT
  rw [← loadFeatures_named (cols := env.columns) (cols' := cols') (fun name hn => hc name (Or.inl (Or.inl hn))), ← hgroup]
  dsimp only
  split
  · rfl
  · cases hl : loadFeatures env.columns features with
    | error e => rfl
    | ok fs =>
      dsimp only
      have hnames := loadFeatures_names hl
      simp only [initWithBase_named hc (base.getD []) _ _ _ (fun t ht name hn => Or.inr (splitsOn_forest _ t ht name hn)),
        trainLoop_named hc loss (features := fs) (fun name hn => Or.inl (hnames ▸ hn)) cfg]

/-- What the program trains depends on the named columns only. -/
theorem cliTrain_named (mc : Machine D A) (hlist : ∀ l, ∀ name ∈ mc.listing l, name ∈ l) {t t' : DataStore A} {c : Config D} {base : Option (List (Tree D A))}
    (hf : ∀ name ∈ featuresOf c, t.getColumn name = t'.getColumn name)
    (hb : ∀ name ∈ forestFeatures (base.getD []), t.getColumn name = t'.getColumn name)
    (hs : ∀ name ∈ [c.weightColumn, c.targetColumn, c.groupColumn], name ≠ "" → t.getColumn name = t'.getColumn name)
    (he : t.getColumn "" = t'.getColumn "") (hn : t.numRows = t'.numRows) (seed nt : Int) :
    cliTrain mc t c base seed nt = cliTrain mc t' c base seed nt := by
  have hw : sampleWeightsOrDie mc c t = sampleWeightsOrDie mc c t' := by
    unfold sampleWeightsOrDie DataStore.getRaw
    split
    · rfl
    · next h => rw [hs _ (by simp) h]
  have hy : targetsOrDie mc c t = targetsOrDie mc c t' := by
    unfold targetsOrDie DataStore.getRaw
    split
    · rfl
    · next h => rw [hs _ (by simp) h]
  have key : ∀ (S : Type) (loss : (w y : Nat → D) → LossFunc S D), (do
      let w ← sampleWeightsOrDie mc c t
      let y ← targetsOrDie mc c t
      let n ← t.numRows
      let r ← trainGBDT (mkEnv mc t n w seed nt) (loss w y) (mc.listing (featuresOf c)) (c.train mc 0) base [] 0
      if r.code = Code.ok then Outcome.ok r.forest else Outcome.fatal) = (do
      let w ← sampleWeightsOrDie mc c t'
      let y ← targetsOrDie mc c t'
      let n ← t'.numRows
      let r ← trainGBDT (mkEnv mc t' n w seed nt) (loss w y) (mc.listing (featuresOf c)) (c.train mc 0) base [] 0
      if r.code = Code.ok then Outcome.ok r.forest else Outcome.fatal) := by
    intro S loss
    rw [hw, hy, hn]
    refine bind_congr_ok fun w _ => bind_congr_ok fun y _ => bind_congr_ok fun n _ => ?_
    rw [trainGBDT_named (env := mkEnv mc t n w seed nt) (cols' := t'.getColumn) (loss := loss w y)]
    · rfl
    · rintro name ((h | h) | rfl)
      · exact hf name (hlist _ name h)
      · exact hb name h
      · exact he
    · intro h
      exact hs _ (by simp [Config.train]) h
  unfold cliTrain
  have : (fun (S : Type) (loss : (w y : Nat → D) → LossFunc S D) => (do
      let w ← sampleWeightsOrDie mc c t
      let y ← targetsOrDie mc c t
      let n ← t.numRows
      let r ← trainGBDT (mkEnv mc t n w seed nt) (loss w y) (mc.listing (featuresOf c)) (c.train mc 0) base [] 0
      if r.code = Code.ok then Outcome.ok r.forest else Outcome.fatal)) = (fun (S : Type) (loss : (w y : Nat → D) → LossFunc S D) => (do
      let w ← sampleWeightsOrDie mc c t'
      let y ← targetsOrDie mc c t'
      let n ← t'.numRows
      let r ← trainGBDT (mkEnv mc t' n w seed nt) (loss w y) (mc.listing (featuresOf c)) (c.train mc 0) base [] 0
      if r.code = Code.ok then Outcome.ok r.forest else Outcome.fatal)) := by
    funext S loss
    exact key S loss
  rw [this]

end named

end Gbdt
