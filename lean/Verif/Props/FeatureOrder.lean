import Verif.Lemmas.FeatureOrder
import Verif.Props.Useless
import Verif.Props.OtherStore

/-!
# C175: the order in which the features are listed

The features are kept in an `unordered_set<string>` (`gbdt_algo.cc:122-123`, `train_gbdt_py.cc:98`, `utils.cc:40-41, 151-152`), so the order is that of
the hash function of the C++ library.

Specification: `passes` (see C67) for the rows of a node, and `NoTies`, `NoTiesIn` (`Lemmas/FeatureOrder.lean`): among the splits found for the rows
of a node there are no two of different features that have the same gain.
-/

set_option autoImplicit false
set_option linter.unusedSectionVars false

namespace Gbdt
open Outcome

section order
variable {D A : Type} [Dbl D] [LinearOrder A] [ThrOps A] [FpOrder D]

theorem nameCategories_keeps_gain {c : Column A} {s s1 : Split D A} (h : nameCategories c s = ok s1) : s1.gain = s.gain := by
  unfold nameCategories at h
  cases hs : s.catSplit with
  | none =>
    simp only [hs, Outcome.ok.injEq] at h
    rw [h]
  | some cs =>
    simp only [hs] at h
    cases c with
    | str c =>
      cases hn : cs.index.mapM c.catString with
      | ok names =>
        simp only [hn, ok_bind] at h
        cases h
        rfl
      | ub => simp only [hn] at h; cases h
      | fatal => simp only [hn] at h; cases h
    | bkt c => cases h
    | raw c => cases h

/-- **C175 (partial).** When all features are used, and no two of them offer the same gain for any node of the fitted tree, the tree is the same for
every order of the features, and the generator is left at the same position.  Missing: what happens when there are ties, see `C175_refuted`. -/
theorem C175_no_ties_partial {env : FitEnv D A} {cfg : FitConfig D} {columns : String → Option (Column A)} (hd : FitData env columns)
    {features : List (String × Column A)} (hp : env.features.Perm features) (hdraw : ∀ k, Dbl.ltb (env.draw k) cfg.featureRate = true)
    (hint : env.toInt (cfg.featureRate * env.ofNat env.features.length) ≠ none) {p q : Nat} {t : Tree D A} (h : fitTree env cfg p = ok (t, q))
    {samples : List Nat} {p1 : Nat} (hs : uniformSubsample env.toInt env.ofNat env.draw env.grads.length cfg.exampleRate p = ok (samples, p1))
    (hn : NoTiesIn env cfg columns samples t) : fitTree { env with features := features } cfg p = ok (t, q) :=
  fitTree_reordered hd hp hdraw hint h hs hn

/-- **C175 (partial).** With ties or without: whether a node is split, and the gain, are the same in every order of the features. -/
theorem C175_gain_partial {env : FitEnv D A} {cfg : FitConfig D} {features : List (String × Column A)} (hp : env.features.Perm features)
    (hdraw : ∀ k, Dbl.ltb (env.draw k) cfg.featureRate = true) (hint : env.toInt (cfg.featureRate * env.ofNat env.features.length) ≠ none)
    {samples : List Nat} {total : GD D} {p p1 p2 : Nat} {b b' : Option (Split D A × Column A)}
    (h : bestFeature env cfg samples total p = ok (b, p1))
    (h' : bestFeature { env with features := features } cfg samples total p = ok (b', p2)) :
    p2 = p1 ∧ (b = none ↔ b' = none) ∧ ∀ s c s' c', b = some (s, c) → b' = some (s', c') →
      Dbl.ltb s.gain s'.gain = false ∧ Dbl.ltb s'.gain s.gain = false := by
  rw [bestFeature_all hdraw hint] at h
  rw [bestFeature_all (env := { env with features := features }) hdraw (by rw [← hp.length_eq]; exact hint)] at h'
  obtain ⟨splits, hs, h⟩ := bind_eq_ok.mp h
  obtain ⟨splits', hs', hz⟩ := mapM_zip_perm hp hs
  have hoffer : offerOf { env with features := features } cfg samples total = offerOf env cfg samples total := rfl
  rw [hoffer] at h'
  dsimp only at h'
  rw [hs', ok_bind] at h'
  obtain ⟨b1, hb, h⟩ := bind_eq_ok.mp h
  obtain ⟨b2, hb', h'⟩ := bind_eq_ok.mp h'
  cases h
  cases h'
  refine ⟨by rw [hp.length_eq], ?_⟩
  have hg := pickBest_perm_gain hz
  have htake : ∀ {x : Option (Offer D A)} {y : Option (Split D A × Column A)}, takeOffer x = ok y →
      (y = none ↔ x = none) ∧ ∀ s c o, y = some (s, c) → x = some o → s.gain = o.2.gain := by
    intro x y hxy
    unfold takeOffer at hxy
    cases x with
    | none => cases hxy; exact ⟨by simp, fun _ _ _ h => by cases h⟩
    | some o =>
      simp only at hxy
      obtain ⟨s1, hs1, hxy⟩ := bind_eq_ok.mp hxy
      cases hxy
      refine ⟨by simp, fun s c o' h1 h2 => ?_⟩
      cases h1
      cases h2
      exact (nameCategories_keeps_gain hs1).trans rfl
  obtain ⟨a1, a2⟩ := htake hb
  obtain ⟨c1, c2⟩ := htake hb'
  revert hg
  cases e1 : pickBest (env.features.zip splits) with
  | none =>
    cases e2 : pickBest (features.zip splits') with
    | none =>
      intro _
      have := a1.mpr e1
      have := c1.mpr e2
      subst b b'
      exact ⟨by simp, fun _ _ _ _ h => by cases h⟩
    | some y => intro h; exact h.elim
  | some x =>
    cases e2 : pickBest (features.zip splits') with
    | none => intro h; exact h.elim
    | some y =>
      intro hg
      simp only at hg
      refine ⟨?_, fun s c s' c' h1 h2 => ?_⟩
      · rw [a1, c1, e1, e2]
        simp
      · rw [a2 s c x h1 e1, c2 s' c' y h2 e2]
        exact hg

end order

/-- **C175 (in full).** Two builds that list the features in different orders and are alike in everything else train, from the same data,
configuration and seed, models that predict the same. -/
def C175_full : Prop :=
  ∀ (mc : Machine ℚ ℚ) (listing : List String → List String) (n : Nat) (t : DataStore ℚ) (c : Config ℚ) (y w : List (Fl ℚ)) (features : List String)
    (seed nt : Int) (f f' : List (Tree ℚ ℚ)) (row : String → Option (Cell ℚ)),
    MachineOk mc → MachineOk { mc with listing := listing } → GoodStore n t →
    pyTrain mc (some t) c y features w none seed nt = ok (.ok f) →
    pyTrain { mc with listing := listing } (some t) c y features w none seed nt = ok (.ok f') → forestValue row f = forestValue row f'

/-- A row that has another value in `twin` than in `color`. -/
def orderRow (name : String) : Option (Cell ℚ) :=
  if name = "color" then some (.str "d") else if name = "twin" then some (.str "a") else none

/-- The prediction for it. -/
def orderValue (mc : Machine ℚ ℚ) : Option ℚ :=
  match pyTrain mc (some uselessStore) pyCfg [] ["color", "twin"] [] none 1 2 with
  | .ok (.ok f) => forestValue orderRow f
  | _ => none

theorem orderValue_run {mc : Machine ℚ ℚ} {v : ℚ} (h : orderValue mc = some v) :
    ∃ f, pyTrain mc (some uselessStore) pyCfg [] ["color", "twin"] [] none 1 2 = ok (.ok f) ∧ forestValue orderRow f = some v := by
  unfold orderValue at h
  split at h
  · next f hf => exact ⟨f, hf, h⟩
  · cases h

/-- **C175 refuted.** `color` and `twin` hold the same in the training data.  Whichever is listed first is used for the splits; for a row in which
they differ the models predict 5.7 and 2.8125. -/
theorem C175_refuted : ¬ C175_full := by
  intro h
  obtain ⟨f, h1, h2⟩ := orderValue_run (mc := ratMachine) (v := 57 / 10) (by decide +kernel)
  obtain ⟨f', h3, h4⟩ := orderValue_run (mc := { ratMachine with listing := id }) (v := 45 / 16) (by decide +kernel)
  have := h ratMachine id 5 uselessStore pyCfg [] [] ["color", "twin"] 1 2 f f' orderRow ratMachine_fine
    ⟨ratMachine_fine.sort, ratMachine_fine.top, fun _ => .refl _, ratMachine_fine.toInt⟩ uselessStore_good h1 h3
  rw [h2, h4] at this
  norm_num at this

/-! ## An example without ties -/

/-- Three rows. -/
def orderColumns (name : String) : Option (Column ℚ) :=
  if name = "color" then some (.str (StrCol.build [["x", "x", "z"]]))
  else if name = "team" then some (.str (StrCol.build [["x", "z", "z"]]))
  else none

/-- The features. -/
def orderFeatures : List (String × Column ℚ) :=
  [("color", .str (StrCol.build [["x", "x", "z"]])), ("team", .str (StrCol.build [["x", "z", "z"]]))]

/-- The surroundings. -/
def orderEnv : FitEnv ℚ ℚ := { fitEnv with grads := [⟨-3, 1⟩, ⟨1, 1⟩, ⟨9, 1⟩], features := orderFeatures, w := fun _ => 1 }

/-- The tree. -/
def orderTree : Tree ℚ ℚ := match fitTree orderEnv fitCfg 0 with
  | .ok (t, _) => t
  | _ => .absent

/-- There are no ties for these samples. -/
def noTiesB (samples : List Nat) : Bool :=
  match weightedSum orderEnv.numThreads orderEnv.w orderEnv.grads samples with
  | .ok total =>
    match orderFeatures.map (fun f => findBestSplit orderEnv.sort f.2 orderEnv.w orderEnv.grads samples fitCfg.toSplitConfig total) with
    | [.ok (some s), .ok (some s')] => decide (s.gain ≠ s'.gain)
    | _ => true
  | _ => true

theorem noTiesB_sound {samples : List Nat} {total : GD ℚ} (h : noTiesB samples = true)
    (ht : weightedSum orderEnv.numThreads orderEnv.w orderEnv.grads samples = ok total) : NoTies orderEnv fitCfg samples total := by
  have key : ∀ s s', findBestSplit (A := ℚ) orderEnv.sort (.str (StrCol.build [["x", "x", "z"]])) orderEnv.w orderEnv.grads samples fitCfg.toSplitConfig total = ok (some s) →
      findBestSplit (A := ℚ) orderEnv.sort (.str (StrCol.build [["x", "z", "z"]])) orderEnv.w orderEnv.grads samples fitCfg.toSplitConfig total = ok (some s') →
      s.gain ≠ s'.gain := by
    intro s s' h1 h2
    unfold noTiesB at h
    rw [ht] at h
    simp only [orderFeatures, List.map_cons, List.map_nil, h1, h2] at h
    exact of_decide_eq_true h
  intro f hf g hg hne s s' h1 h2
  change f ∈ orderFeatures at hf
  change g ∈ orderFeatures at hg
  simp only [orderFeatures, List.mem_cons, List.not_mem_nil, or_false] at hf hg
  rcases hf with rfl | rfl <;> rcases hg with rfl | rfl
  · exact absurd rfl hne
  · rcases lt_or_gt_of_ne (key _ _ h1 h2) with h | h
    · exact Or.inl (decide_eq_true h)
    · exact Or.inr (decide_eq_true h)
  · rcases lt_or_gt_of_ne (key _ _ h2 h1) with h | h
    · exact Or.inr (decide_eq_true h)
    · exact Or.inl (decide_eq_true h)
  · exact absurd rfl hne

/-- The rows below a path. -/
def orderRows (path : List Bool) : List Nat := (List.range 3).filter (passes orderColumns orderTree path)

theorem order_noTies : NoTiesIn orderEnv fitCfg orderColumns (List.range 3) orderTree := by
  intro q members total hp ht
  refine noTiesB_sound ?_ ht
  have hfin : ∀ q : List Bool, (orderRows q).length ≤ 3 ∧ (∀ a ∈ orderRows q, a < 3) ∧
      (∀ a < 3, [a].isPerm (orderRows q) = true → noTiesB [a] = true) ∧
      (∀ a < 3, ∀ b < 3, [a, b].isPerm (orderRows q) = true → noTiesB [a, b] = true) ∧
      (∀ a < 3, ∀ b < 3, ∀ c < 3, [a, b, c].isPerm (orderRows q) = true → noTiesB [a, b, c] = true) := by
    intro q
    have h3 : ∀ (a b c : Bool) (r : List Bool), orderRows (a :: b :: c :: r) = [] := by
      intro a b c r
      have hl : ∀ i, passes orderColumns orderTree (a :: b :: c :: r) i = true → 3 ≤ (((leafOf orderColumns orderTree i).map (·.1)).getD []).length := by
        intro i hi
        unfold passes at hi
        split at hi
        · next path x hx =>
          rw [hx]
          have := (List.isPrefixOf_iff_prefix.mp hi).length_le
          simp only [List.length_cons] at this
          simpa using (by omega : 3 ≤ path.length)
        · cases hi
      have hs : ∀ i ∈ List.range 3, (((leafOf orderColumns orderTree i).map (·.1)).getD []).length < 3 := by decide +kernel
      unfold orderRows
      rw [List.filter_eq_nil_iff]
      intro i hi hi2
      have := hl i hi2
      have := hs i hi
      omega
    match q with
    | [] => decide +kernel
    | [a] => revert a; decide +kernel
    | [a, b] => revert a b; decide +kernel
    | a :: b :: c :: r =>
      rw [h3]
      decide +kernel
  obtain ⟨h0, hlt, h1, h2, h3⟩ := hfin q
  have hp' : members.isPerm (orderRows q) = true := List.isPerm_iff.mpr hp
  have hl : members.length ≤ 3 := le_trans (le_of_eq hp.length_eq) h0
  have hm : ∀ a ∈ members, a < 3 := fun a ha => hlt a (hp.mem_iff.mp ha)
  match members, hp', hl, hm with
  | [], _, _, _ => decide +kernel
  | [a], hp', _, hm => exact h1 a (hm a (by simp)) hp'
  | [a, b], hp', _, hm => exact h2 a (hm a (by simp)) b (hm b (by simp)) hp'
  | [a, b, c], hp', _, hm => exact h3 a (hm a (by simp)) b (hm b (by simp)) c (hm c (by simp)) hp'
  | a :: b :: c :: d :: r, _, hl, _ => simp at hl

/-- `C175_no_ties_partial`: a tree of three leaves, the same when `team` is listed first. -/
example : orderTree.countLeaves = 3 ∧ ∃ q, fitTree orderEnv fitCfg 0 = ok (orderTree, q) ∧
    fitTree { orderEnv with features := orderFeatures.reverse } fitCfg 0 = ok (orderTree, q) := by
  refine ⟨by decide +kernel, ?_⟩
  have hd : FitData orderEnv orderColumns := by
    refine ⟨fun name c h => ?_, fun name c h => ?_⟩ <;>
      (change (name, c) ∈ orderFeatures at h
       simp only [orderFeatures, List.mem_cons, List.not_mem_nil, or_false, Prod.mk.injEq] at h)
    · rcases h with ⟨rfl, rfl⟩ | ⟨rfl, rfl⟩
      · exact (TrainRows.str (A := ℚ) [["x", "x", "z"]] (by decide) (by decide) : TrainRows 3 _).hasRows
      · exact (TrainRows.str (A := ℚ) [["x", "z", "z"]] (by decide) (by decide) : TrainRows 3 _).hasRows
    · rcases h with ⟨rfl, rfl⟩ | ⟨rfl, rfl⟩ <;> rfl
  have hsome : (match fitTree orderEnv fitCfg 0 with
    | .ok _ => true
    | _ => false) = true := by decide +kernel
  cases hr : fitTree orderEnv fitCfg 0 with
  | ub => rw [hr] at hsome; cases hsome
  | fatal => rw [hr] at hsome; cases hsome
  | ok r =>
    obtain ⟨t, q⟩ := r
    have ht : orderTree = t := by unfold orderTree; rw [hr]
    refine ⟨q, by rw [ht], ?_⟩
    rw [ht]
    refine C175_no_ties_partial hd (List.reverse_perm _).symm (fun k => ?_) (by simp [orderEnv, fitEnv]) hr (samples := List.range 3) (p1 := 3)
      (by decide +kernel) (by rw [← ht]; exact order_noTies)
    exact decide_eq_true (by
      have h : ((k * 7) % 10 : Nat) < 10 := Nat.mod_lt _ (by decide)
      show (((k * 7) % 10 : Nat) : ℚ) / 10 < 1
      rw [div_lt_iff₀ (by norm_num)]
      exact_mod_cast (by omega : (k * 7) % 10 < 10))

/-- `C175_gain_partial`: two equal columns, either of which is picked when it is first; the gain is the same. -/
example : ∃ (s s' : Split ℚ ℚ) (c c' : Column ℚ) (p1 p2 : Nat), s.feature = "a" ∧ s'.feature = "b" ∧ s.gain = s'.gain ∧
    bestFeature { orderEnv with features := [("a", .str (StrCol.build [["x", "x", "z"]])), ("b", .str (StrCol.build [["x", "x", "z"]]))] } fitCfg
      [0, 1, 2] ⟨7, 3⟩ 0 = ok (some (s, c), p1) ∧
    bestFeature { orderEnv with features := [("b", .str (StrCol.build [["x", "x", "z"]])), ("a", .str (StrCol.build [["x", "x", "z"]]))] } fitCfg
      [0, 1, 2] ⟨7, 3⟩ 0 = ok (some (s', c'), p2) := by
  have h1 : (match bestFeature (A := ℚ) { orderEnv with features := [("a", .str (StrCol.build [["x", "x", "z"]])), ("b", .str (StrCol.build [["x", "x", "z"]]))] } fitCfg
      [0, 1, 2] ⟨7, 3⟩ 0 with
    | .ok (some (s, _), _) => decide (s.feature = "a")
    | _ => false) = true := by decide +kernel
  have h2 : (match bestFeature (A := ℚ) { orderEnv with features := [("b", .str (StrCol.build [["x", "x", "z"]])), ("a", .str (StrCol.build [["x", "x", "z"]]))] } fitCfg
      [0, 1, 2] ⟨7, 3⟩ 0 with
    | .ok (some (s, _), _) => decide (s.feature = "b")
    | _ => false) = true := by decide +kernel
  split at h1
  · next s c p1 e1 =>
    split at h2
    · next s' c' p2 e2 =>
      have := C175_gain_partial (env := { orderEnv with features := _ }) (features := [_, _]) (.swap _ _ _) (fun k => ?_) (by simp [orderEnv, fitEnv]) e1 e2
      · obtain ⟨_, _, hg⟩ := this
        obtain ⟨g1, g2⟩ := hg _ _ _ _ rfl rfl
        refine ⟨s, s', c, c', p1, p2, of_decide_eq_true h1, of_decide_eq_true h2, le_antisymm ?_ ?_, e1, e2⟩
        · exact not_lt.mp (of_decide_eq_false g2)
        · exact not_lt.mp (of_decide_eq_false g1)
      · exact decide_eq_true (by
          have h : ((k * 7) % 10 : Nat) < 10 := Nat.mod_lt _ (by decide)
          show (((k * 7) % 10 : Nat) : ℚ) / 10 < 1
          rw [div_lt_iff₀ (by norm_num)]
          exact_mod_cast (by omega : (k * 7) % 10 < 10))
    · cases h2
  · cases h1

end Gbdt
