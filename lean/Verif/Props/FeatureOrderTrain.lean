import Verif.Props.FeatureOrder
import Verif.Props.Boost

/-!
# C175 for whole runs of training
-/

set_option autoImplicit false
set_option linter.unusedSectionVars false

namespace Gbdt
open Outcome

section
variable {S D A : Type} [Dbl D] [LinearOrder A] [ThrOps A]

/-- No ties in a run of at most `n` rounds of boosting (`Boosts`, see C73): whenever it has come to some round, at none of the nodes of the tree that is
fitted next do two features offer the same gain. -/
def NoTiesInRun (env : TrainEnv D A) (loss : LossFunc S D) (features : List (String × Column A)) (cfg : TrainConfig D) (start : S) (p : Nat)
    (before : List (Tree D A × D)) (n : Nat) : Prop :=
  ∀ rounds s q f s1 c grads t q1 samples p1, Boosts env loss features cfg start p before rounds s q → rounds.length < n →
    ValuesOf env (before ++ rounds) f → loss.compute s f = ok (s1, c, grads) → env.diverged c = false →
    fitTree (env.fit features grads) cfg.fit q = ok (t, q1) →
    uniformSubsample env.toInt env.ofNat env.draw grads.length cfg.exampleRate q = ok (samples, p1) →
    NoTiesIn (env.fit features grads) cfg.fit env.columns samples t

variable [FpOrder D]

theorem trainLoop_reordered {env : TrainEnv D A} {G : Option StrCol → Prop} {loss : LossFunc S D} {features features' : List (String × Column A)}
    {cfg : TrainConfig D} (hcols : ∀ name c, env.columns name = some c → HasRows env.numRows c)
    (hstored : ∀ name c, (name, c) ∈ features → env.columns name = some c)
    (hloss : ∀ s f s' c g, LossReach env.numRows G loss s → loss.compute s f = ok (s', c, g) → f.length = env.numRows →
      g.length = env.numRows)
    (hfit : ∀ t1, FittedTree env features cfg t1 → Scorable env.columns t1) (hp : features.Perm features')
    (hdraw : ∀ k, Dbl.ltb (env.draw k) cfg.featureRate = true)
    (hint : env.toInt (cfg.featureRate * env.ofNat features.length) ≠ none) (at0 : Nat) :
    ∀ (n : Nat) {l : List (Tree D A × D)} {s : TrainState S D A} {r : Bool × TrainState S D A},
      LossReach env.numRows G loss s.loss → (∀ x ∈ l, Scorable env.columns x.1) →
      Slices env.numRows s.slices → Added env.columns env.numRows l s.f → NoTiesInRun env loss features cfg s.loss s.pos l n →
      trainLoop env loss features cfg at0 n s = ok r → trainLoop env loss features' cfg at0 n s = ok r
  | 0, l, s, r, hr, hsc, hs, ha, hn, h => h
  | n + 1, l, s, r, hr, hsc, hs, ha, hn, h => by
    have hv : ValuesOf env l s.f := ⟨ha.1, fun i hi => ⟨_, ha.2 i hi, valueOf_scoreD hi hcols _ hsc⟩⟩
    rw [trainLoop, bind_eq_ok] at h
    obtain ⟨⟨ls, constant, grads⟩, h1, h2⟩ := h
    have hg := hloss _ _ _ _ _ hr h1 ha.1
    rw [trainLoop, h1, ok_bind]
    simp only at h2 ⊢
    by_cases hd : env.diverged constant = true
    · rw [if_pos hd] at h2 ⊢
      exact h2
    · rw [if_neg hd, bind_eq_ok] at h2
      rw [if_neg hd]
      obtain ⟨⟨t, pos⟩, h3, h4⟩ := h2
      simp only [bind_eq_ok] at h4
      obtain ⟨⟨ss, sc⟩, h5, h6⟩ := h4
      have hfd : FitData (env.fit features grads) env.columns := by
        refine ⟨fun name c hm => ?_, fun name c hm => hstored _ _ hm⟩
        show HasRows grads.length c
        rw [hg]
        exact hcols _ _ (hstored _ _ hm)
      obtain ⟨_, _, samples, p1, _, _, _, e3, _⟩ := fitTree_ok hfd h3
      have hd' : env.diverged constant = false := by simpa using hd
      have hno := hn [] s.loss s.pos s.f ls constant grads t pos samples p1 (.done _ _ _) (by simp) (by simpa using hv) h1 hd' h3 e3
      have h3' : fitTree (env.fit features' grads) cfg.fit s.pos = ok (t, pos) :=
        fitTree_reordered (env := env.fit features grads) (cfg := cfg.fit) hfd hp hdraw hint h3 e3 hno
      have ht : FittedTree env features cfg (applyShrinkage env.rnd32 cfg.shrinkage t) := ⟨grads, t, s.pos, pos, hg, h3, rfl⟩
      obtain ⟨g1, g2⟩ := ha.add hcols hs (hfit _ ht) h5
      have hsc' : ∀ x ∈ l ++ [(applyShrinkage env.rnd32 cfg.shrinkage t, constant)], Scorable env.columns x.1 := by
        intro x hx
        rcases List.mem_append.mp hx with hx | hx
        · exact hsc x hx
        · rw [List.mem_singleton.mp hx]; exact hfit _ ht
      rw [h3', ok_bind]
      simp only
      rw [h5, ok_bind]
      refine trainLoop_reordered hcols hstored hloss hfit hp hdraw hint at0 n (hr.step ha.1 h1) hsc' g1 g2 ?_ h6
      intro rounds s2 q f s3 c g t2 q1 samples2 p2 hb hlen hval
      exact hn _ s2 q f s3 c g t2 q1 samples2 p2 (.round hv h1 hd' h3 hb) (by simpa using hlen) (by simpa using hval)

/-- The features loaded under the names in another order. -/
theorem loadFeatures_reordered {columns : String → Option (Column A)} {names names' : List String} (hp : names.Perm names')
    {features : List (String × Column A)} (h : loadFeatures columns names = .ok features) :
    ∃ features', loadFeatures columns names' = .ok features' ∧ features.Perm features' := by
  induction hp generalizing features with
  | nil => exact ⟨features, h, .refl _⟩
  | cons x _ ih =>
    rw [loadFeatures] at h ⊢
    cases hc : columns x with
    | none => rw [hc] at h; cases h
    | some c =>
      rw [hc] at h
      simp only at h ⊢
      split at h
      · cases h
      · next cs hcs =>
        cases h
        obtain ⟨cs', e1, e2⟩ := ih hcs
        rw [e1]
        exact ⟨_, rfl, e2.cons _⟩
  | swap x y l =>
    simp only [loadFeatures] at h ⊢
    cases hx : columns x with
    | none =>
      simp only [hx] at h
      split at h <;> cases h
    | some c =>
      cases hy : columns y with
      | none => simp only [hy] at h; cases h
      | some c' =>
        simp only [hx, hy] at h ⊢
        cases hl : loadFeatures columns l with
        | error e => simp only [hl] at h; cases h
        | ok cs =>
          simp only [hl] at h
          cases h
          exact ⟨_, rfl, .swap _ _ _⟩
  | trans _ _ ih1 ih2 =>
    obtain ⟨f1, e1, e2⟩ := ih1 h
    obtain ⟨f2, e3, e4⟩ := ih2 e1
    exact ⟨f2, e3, e2.trans e4⟩

/-- **C175 (partial).** When all features are used, and in no round of the run two of them offer the same gain for a node of the tree of that round,
training gives the same forest for every order of the features, function values and position of the generator included; if it ends because of
divergence, it does so in every order.  Any loss, any doubles.  Missing: what happens when there are ties, see `C175_refuted`. -/
theorem C175_train_partial {env : TrainEnv D A} {loss : LossFunc S D} {names names' : List String} {cfg : TrainConfig D}
    {base : Option (List (Tree D A))} {p : Nat} {r : TrainResult D A} (hd : TrainData env loss (base.getD [])) (hp : names.Perm names')
    (hdraw : ∀ k, Dbl.ltb (env.draw k) cfg.featureRate = true)
    (hint : env.toInt (cfg.featureRate * env.ofNat names.length) ≠ none)
    (hn : ∀ features group start, loadFeatures env.columns names = .ok features → groupOrDie env.columns cfg.groupColumn = ok group →
      loss.init env.numRows group = ok (.ok start) →
      NoTiesInRun env loss features cfg start p ((base.getD []).map (fun t => (t, 0))) cfg.numTrees.toNat)
    (h : trainGBDT env loss names cfg base [] p = ok r) : trainGBDT env loss names' cfg base [] p = ok r := by
  unfold trainGBDT at h ⊢
  by_cases hc : checkConfig (env.ofNat 1) cfg ≠ .ok
  · rw [if_pos hc] at h ⊢
    exact h
  · rw [if_neg hc] at h ⊢
    cases hl : loadFeatures env.columns names with
    | error e =>
      have hmiss : ∃ name ∈ names, env.columns name = none := by
        by_contra hno
        push Not at hno
        obtain ⟨cs, hcs⟩ := loadFeatures_ok hno
        rw [hl] at hcs
        cases hcs
      have he := loadFeatures_missing hmiss
      obtain ⟨name, h1, h2⟩ := hmiss
      rw [loadFeatures_missing ⟨name, hp.mem_iff.mp h1, h2⟩]
      rw [he] at h
      exact h
    | ok features =>
      obtain ⟨features', hl', hperm⟩ := loadFeatures_reordered hp hl
      rw [hl] at h
      rw [hl']
      simp only at h ⊢
      obtain ⟨group, hg, h⟩ := bind_eq_ok.mp h
      obtain ⟨init, hi, h⟩ := bind_eq_ok.mp h
      rw [hg, ok_bind, hi, ok_bind]
      cases init with
      | error e => exact h
      | ok ls =>
        simp only at h ⊢
        obtain ⟨slices, hsl, h⟩ := bind_eq_ok.mp h
        obtain ⟨⟨forest1, slices1, f1⟩, hb, h⟩ := bind_eq_ok.mp h
        simp only at h
        obtain ⟨⟨stopped, s⟩, htr, h⟩ := bind_eq_ok.mp h
        rw [hsl, ok_bind, hb, ok_bind]
        simp only
        have hs : Slices env.numRows slices := by
          obtain ⟨sl, e1, e2⟩ := scoreSlices_ok hd.threads env.numRows
          rw [hsl, Outcome.ok.injEq] at e1
          subst e1
          exact e2
        have ha : Added env.columns env.numRows ([] : List (Tree D A × D)) (List.replicate env.numRows (0 : D)) :=
          ⟨by simp, fun i hi => by simp [hi]⟩
        obtain ⟨_, e2, e3⟩ := initWithBase_spec hd.rows (base.getD []) (rest := []) hd.scorable hs ha hb
        rw [List.nil_append] at e3
        have hnames : features.length = names.length := by rw [← (loadFeatures_mem hl).1, List.length_map]
        rw [trainLoop_reordered hd.rows (loadFeatures_mem hl).2 hd.grads (fun t ht => ht.scorable hd hl) hperm hdraw (by rw [hnames]; exact hint) _
          _ (.init (groupOrDie_col hg) hi) (by intro x hx; obtain ⟨t, ht, rfl⟩ := List.mem_map.mp hx; exact hd.scorable t ht) e2 e3
          (hn _ _ _ hl hg hi) htr, ok_bind]
        exact h

end

/-! ## An example -/

/-- A loss with the gradients of `orderEnv`. -/
def orderLoss : LossFunc Unit ℚ where
  init := fun _ _ => ok (.ok ())
  compute := fun _ _ => ok ((), 2, orderEnv.grads)

/-- The surroundings. -/
def orderTrainEnv : TrainEnv ℚ ℚ where
  columns := orderColumns
  numRows := 3
  w := orderEnv.w
  sort := orderEnv.sort
  top := orderEnv.top
  toInt := orderEnv.toInt
  ofNat := orderEnv.ofNat
  draw := orderEnv.draw
  rnd32 := orderEnv.rnd32
  numThreads := orderEnv.numThreads
  diverged := fun _ => false

/-- The configuration: one tree. -/
def orderTrainCfg : TrainConfig ℚ where
  toSplitConfig := fitCfg.toSplitConfig
  numTrees := 1
  numLeaves := 3
  shrinkage := 1 / 2
  exampleRate := 1
  featureRate := 1

theorem orderColumns_rows {name : String} {c : Column ℚ} (h : orderColumns name = some c) : HasRows 3 c := by
  unfold orderColumns at h
  split at h
  · cases h
    exact (TrainRows.str (A := ℚ) [["x", "x", "z"]] (by decide) (by decide) : TrainRows 3 _).hasRows
  · split at h
    · cases h
      exact (TrainRows.str (A := ℚ) [["x", "z", "z"]] (by decide) (by decide) : TrainRows 3 _).hasRows
    · cases h

/-- `C175_train_partial`: a model with a tree of three leaves, the same when `team` is listed first. -/
example : ∃ r, trainGBDT orderTrainEnv orderLoss ["color", "team"] orderTrainCfg none [] 0 = ok r ∧ r.code = .ok ∧ r.forest.map Tree.countLeaves = [1, 3] ∧
    trainGBDT orderTrainEnv orderLoss ["team", "color"] orderTrainCfg none [] 0 = ok r := by
  have hsome : (match trainGBDT orderTrainEnv orderLoss ["color", "team"] orderTrainCfg none [] 0 with
    | .ok r => decide (r.code = .ok ∧ r.forest.map Tree.countLeaves = [1, 3])
    | _ => false) = true := by decide +kernel
  cases hr : trainGBDT orderTrainEnv orderLoss ["color", "team"] orderTrainCfg none [] 0 with
  | ub => rw [hr] at hsome; cases hsome
  | fatal => rw [hr] at hsome; cases hsome
  | ok r =>
    rw [hr] at hsome
    replace hsome := of_decide_eq_true hsome
    refine ⟨r, rfl, hsome.1, hsome.2, ?_⟩
    refine C175_train_partial ⟨fun _ _ h => orderColumns_rows h, by decide, by simp, ?_, ?_, ?_⟩ (.swap _ _ _) (fun k => ?_) ?_ ?_ hr
    · intro name h
      simp [forestFeatures] at h
    · intro n g e h
      cases h
    · intro s f s' c g _ h _
      cases h
      rfl
    · exact decide_eq_true (by
        have h : ((k * 7) % 10 : Nat) < 10 := Nat.mod_lt _ (by decide)
        show (((k * 7) % 10 : Nat) : ℚ) / 10 < 1
        rw [div_lt_iff₀ (by norm_num)]
        exact_mod_cast (by omega : (k * 7) % 10 < 10))
    · simp [orderTrainEnv, orderEnv, fitEnv]
    · intro features group start hl _ _ rounds s q f s1 c grads t q1 samples p1 hb hlen _ hcomp _ hfit hsub
      have hfe : features = orderFeatures := by
        have : loadFeatures orderColumns ["color", "team"] = .ok orderFeatures := rfl
        exact Except.ok.inj (hl.symm.trans this)
      subst hfe
      cases hcomp
      have hr0 : rounds = [] := by
        cases rounds with
        | nil => rfl
        | cons _ _ => simp [orderTrainCfg] at hlen
      subst hr0
      cases hb
      have hsam : samples = List.range 3 := by
        have e : uniformSubsample orderTrainEnv.toInt orderTrainEnv.ofNat orderTrainEnv.draw 3 (1 : ℚ) 0 = ok (List.range 3, 3) := by decide +kernel
        have := hsub.symm.trans e
        cases this
        rfl
      subst hsam
      have ht : orderTree = t := by
        unfold orderTree
        have : fitTree orderEnv fitCfg 0 = ok (t, q1) := hfit
        rw [this]
      subst ht
      exact order_noTies

end Gbdt
