import Verif.Props.Range

/-!
# C202: targets that are all equal

Specification: `forestValue`, what a forest says of a row given by its values (see C96), on whatever data.
-/

set_option autoImplicit false
set_option linter.unusedSectionVars false

namespace Gbdt
open Outcome

section exact
variable {K : Type} [Field K] [LinearOrder K] [IsStrictOrderedRing K] {A : Type} [LinearOrder A] [ThrOps A]

/-- Without gradients there is no split. -/
theorem noGradient_noSplit {n : Nat} {c : Column A} (hc : TrainRows n c) {sort : (Nat → K) → List Nat → List Nat} (hsort : SortSpec sort)
    (w : Nat → K) {grads : List (GD K)} (hg : grads.length = n) {samples : List Nat} (hin : ∀ i ∈ samples, i < n)
    (h0 : ∀ i, (weighted w grads i).g = 0) (cfg : SplitConfig K) (total : GD K) (s : Split K A) :
    findBestSplit sort c w grads samples cfg total ≠ ok (some s) := by
  have hval : ∀ (codes : List Nat) m, valuesOf codes m (weighted w grads) samples = [] := by
    intro codes m
    rw [valuesOf, List.filter_eq_nil_iff]
    intro k _
    have : (binOf codes (weighted w grads) samples k).g = 0 := by
      rw [binOf, sumOf_g]
      simp [h0]
    simp [countsBin, this]
  intro h
  cases hc with
  | raw c _ => simp [findBestSplit] at h
  | str blocks h1 h2 =>
    obtain ⟨codes, wf, hlen⟩ := strWF_build blocks (by omega)
    obtain ⟨values, hp, _, hr⟩ := findBestStringSplit_eq (A := A) hsort wf w grads samples cfg total
      (fun i hi => ⟨by rw [hlen, h1]; exact hin i hi, by rw [hg]; exact hin i hi⟩)
    rw [hval] at hp
    have hnil := hp.eq_nil
    subst hnil
    rcases hr with ⟨_, hr⟩ | ⟨p, _, hr, _⟩
    · rw [findBestSplit, hr] at h; cases h
    · simp at hr
  | bkt fmax nb blocks c h1 h2 h3 h4 h5 =>
    obtain ⟨codes, wf, hlen⟩ := bktWF_build (by omega) h3 h4 h5
    rcases findBestFloatSplit_eq wf w grads samples cfg total
      (fun i hi => ⟨by rw [hlen, h1]; exact hin i hi, by rw [hg]; exact hin i hi⟩) with ⟨_, hr⟩ | ⟨p, lc, rc, t, _, hr, _⟩
    · rw [findBestSplit, hr] at h; cases h
    · rw [hval] at hr; simp at hr

/-- A tree fitted to gradients that vanish is a leaf of score 0. -/
theorem fit_zero {env : TrainEnv K A} {cfg : TrainConfig K} {features : List (String × Column A)} {grads : List (GD K)} {p q : Nat} {t : Tree K A}
    (hrows : ∀ name c, env.columns name = some c → TrainRows env.numRows c) (hsort : SortSpec env.sort) {names : List String}
    (hl : loadFeatures env.columns names = .ok features) (hexact : env.rnd32 = id) (hlen : grads.length = env.numRows)
    (h0 : ∀ d ∈ grads, d.g = 0) (ht : fitTree (env.fit features grads) cfg.fit p = ok (t, q)) :
    t = .node 0 none .absent .absent := by
  have hfd : FitData (env.fit features grads) env.columns := by
    refine ⟨fun name c hmem => ?_, (loadFeatures_mem hl).2⟩
    show HasRows grads.length c
    rw [hlen]
    exact (hrows _ _ ((loadFeatures_mem hl).2 _ _ hmem)).hasRows
  have hw0 : ∀ i, (weighted env.w grads i).g = 0 := by
    intro i
    rw [weighted]
    split
    · next d hd => simp [GD.scale, h0 d (List.mem_of_getElem? hd)]
    · rfl
  obtain ⟨_, _, hwf⟩ := C33_shape hfd ht
  obtain ⟨_, _, samples, p1, _, _, _, h3, hall, _⟩ := fitTree_ok hfd ht
  cases t with
  | absent => exact absurd hwf (by simp [Tree.WellFormed])
  | node x sp l r =>
    have hroot : (Tree.node x sp l r).at? [] = some (.node x sp l r) := rfl
    obtain ⟨members, total, chosen, _, _, g1, _, _, _, g2⟩ := C67_splits_are_best hfd ht h3 hroot
    have hsp : sp = none := by
      cases sp with
      | none => rfl
      | some s =>
        obtain ⟨j, _, f, s0, k1, k2, _⟩ := g2 s rfl
        have hfm : (f.1, f.2) ∈ features := List.mem_of_getElem? k1
        have hin : ∀ i ∈ members, i < env.numRows := by
          intro i hi
          have := hall i (List.mem_of_mem_filter (g1.mem_iff.mp hi))
          rw [← hlen]
          exact this
        exact absurd k2 (noGradient_noSplit (hrows _ _ ((loadFeatures_mem hl).2 _ _ hfm)) hsort env.w hlen hin hw0 _ total s0)
    subst hsp
    have hleaf : l = .absent ∧ r = .absent := by
      cases l <;> cases r <;> simp [Tree.WellFormed] at hwf ⊢
    obtain ⟨rfl, rfl⟩ := hleaf
    obtain ⟨e1, e2, _⟩ := C35_newton_step hfd (fun y => by show env.rnd32 y = y; rw [hexact]; rfl) ht h3 hroot
    have hG : ∀ l : List Nat, (l.map (fun i => (weighted env.w grads i).g)).sum = 0 := fun l => by simp [hw0]
    have hx : x = 0 := by
      by_cases hz : ((samples.filter (passes env.columns (Tree.node x none .absent .absent) [])).map (fun i => (weighted env.w grads i).h)).sum + cfg.l2Lambda = 0
      · exact e2 hz
      · have := e1 hz
        rw [this]
        show (((samples.filter (passes env.columns (Tree.node x none .absent .absent) [])).map (fun i => (weighted env.w grads i).g)).sum) / _ = 0
        rw [hG, zero_div]
    rw [hx]

/-- Boosting from values that are all `k` towards targets that are all `y0`. -/
theorem boosts_same {env : TrainEnv K A} {cfg : TrainConfig K} {e : PointLoss K}
    (hrows : ∀ name c, env.columns name = some c → TrainRows env.numRows c) (hsort : SortSpec env.sort)
    (hloss : ∃ m : MathFns K, m.one = 1 ∧ e.lossFn = mseLoss m) (hweights : env.w = e.w) (hexact : env.rnd32 = id) (hW : totalWeight env ≠ 0) (habs : ∀ x, e.fabs x = |x|) {names : List String}
    {features : List (String × Column A)} (hl : loadFeatures env.columns names = .ok features) {y0 : K} (hy : ∀ i < env.numRows, e.y i = y0)
    {s s' : List (Nat × Nat)} {p q : Nat} {before rounds : List (Tree K A × K)}
    (h : Boosts env e.toLoss features cfg s p before rounds s' q) :
    pointInit e env.numRows none = ok (.ok s) → ∀ k, (∀ i < env.numRows, valD env.columns i before = k) → (k = y0 ∨ e.threshold < |y0 - k|) →
      (∀ x ∈ rounds, x.1 = .node 0 none .absent .absent) ∧ (rounds ≠ [] → (rounds.map Prod.snd).sum = y0 - k) := by
  induction h with
  | done => intro _ k _ _; exact ⟨by simp, by simp⟩
  | @round s s1 s2 p p1 p2 before after f c grads t h1 h2 h3 h4 h5 ih =>
    intro hinit k hk hthr
    have hs : s1 = s := by
      have h2' := h2
      simp only [PointLoss.toLoss, pointCompute, bind_eq_ok, pure_eq, Outcome.ok.injEq] at h2'
      obtain ⟨⟨_, _⟩, _, h2'⟩ := h2'
      simp only [Prod.mk.injEq] at h2'
      exact h2'.1.symm
    subst hs
    obtain ⟨m, hm1, hloss⟩ := hloss
    obtain ⟨hflen, hval⟩ := h1
    have hf : ∀ i < env.numRows, f.getD i 0 = k := by
      intro i hi
      obtain ⟨v, g1, g2⟩ := hval i hi
      rw [List.getD_eq_getElem?_getD, g1, Option.getD_some, valueOf_valD g2, hk i hi]
    have hinit' : pointInit e f.length none = ok (.ok s1) := by rw [hflen]; exact hinit
    have hw' : ((List.range f.length).map e.w).sum ≠ 0 := by
      rw [hflen, ← hweights]; exact hW
    obtain ⟨hc, c', hc', hgr⟩ := C48_mse hm1 hloss hw' hinit' h2
    rw [hflen] at hc hgr
    have hceq : c = y0 - k := by
      have : (List.range env.numRows).map (fun i => e.w i * (e.y i - f.getD i 0)) = (List.range env.numRows).map (fun i => e.w i * (y0 - k)) :=
        List.map_congr_left (fun i hi => by rw [hf i (by simpa using hi), hy i (by simpa using hi)])
      rw [hc, this, List.sum_map_mul_right]
      rw [hflen] at hw'
      field_simp
    have hc'c : c' = c := by
      rcases hc' with h | ⟨h, hle⟩
      · exact h
      · rcases hthr with rfl | hlt
        · rw [h, hceq, sub_self]
        · rw [habs, hceq] at hle
          exact absurd hle (not_le.mpr hlt)
    have hgr0 : ∀ d ∈ grads, d.g = 0 := by
      intro d hd
      rw [hgr] at hd
      obtain ⟨i, hi, rfl⟩ := List.mem_map.mp hd
      show e.y i - f.getD i 0 - c' = 0
      rw [hf i (by simpa using hi), hy i (by simpa using hi), hc'c, hceq, sub_self]
    have ht0 := fit_zero hrows hsort hl hexact (by rw [hgr]; simp) hgr0 h4
    have hsh : applyShrinkage env.rnd32 cfg.shrinkage t = .node 0 none .absent .absent := by
      rw [ht0, hexact]
      simp [applyShrinkage]
    obtain ⟨i1, i2⟩ := ih hinit y0 (by
      intro i hi
      have e1 := hk i hi
      rw [valD] at e1 ⊢
      rw [List.map_append, List.sum_append, e1, hsh, hceq]
      simp [scoreOf, leafOf]) (Or.inl rfl)
    refine ⟨?_, fun _ => ?_⟩
    · intro x hx
      rcases List.mem_cons.mp hx with rfl | hx
      · exact hsh
      · exact i1 x hx
    · rw [List.map_cons, List.sum_cons, hceq]
      by_cases ha : after = []
      · subst ha; simp
      · rw [i2 ha]; ring

/-- **C202.** Training with squared error (in exact arithmetic, weights whose sum is not zero, no base forest) on targets that are all equal to
a number above the threshold of the constant step (1e-4 in the code) in absolute value: no tree splits, and every row of any data is predicted exactly that number. -/
theorem C202_same_target {env : TrainEnv K A} {names : List String} {cfg : TrainConfig K} (hs : TrainStore env names cfg []) {e : PointLoss K}
    (he : 0 < e.numThreads) (hloss : ∃ m : MathFns K, m.one = 1 ∧ e.lossFn = mseLoss m) (hweights : env.w = e.w) (hexact : env.rnd32 = id) (hW : totalWeight env ≠ 0) (habs : ∀ x, e.fabs x = |x|) {p : Nat}
    {r : TrainResult K A} (h : trainGBDT env e.toLoss names cfg none [] p = ok r) (hok : r.code = .ok) {y0 : K}
    (hy : ∀ i < env.numRows, e.y i = y0) (hlarge : e.threshold < |y0|) :
    (∀ t ∈ r.forest, t.countLeaves = 1) ∧ ∀ row : String → Option (Cell A), forestValue row r.forest = some y0 := by
  have hd := pointTrainData (base := []) hs he
  obtain ⟨features, group, start, rounds, finish, b1, b2, b3, b4, b5, b6, b7⟩ := C73_rounds (base := none) hd h hok
  have hne : rounds ≠ [] := by
    have := trainGBDT_numTrees h hok
    intro h0
    rw [h0] at b5
    simp at b5
    omega
  obtain ⟨c1, c2⟩ := boosts_same hs.rows hs.sort hloss hweights hexact hW habs b1 hy b4 b3 0 (by intro i _; simp [valD]) (Or.inr (by rw [sub_zero]; exact hlarge))
  have hsum := c2 hne
  rw [sub_zero] at hsum
  have hconst : ∀ (l : List K) (a : K), l.foldl (fun a x => env.rnd32 (a + x)) a = a + l.sum := by
    intro l
    induction l with
    | nil => intro a; simp
    | cons x l ih => intro a; rw [List.foldl_cons, ih, List.sum_cons, hexact, id_eq]; ring
  have hforest : r.forest = .node y0 none .absent .absent :: rounds.map (fun _ => .node 0 none .absent .absent) := by
    rw [b7]
    simp only [Option.getD_none, List.filter_nil, List.map_nil, List.nil_append, constantOf, hconst, hsum, zero_add, List.map_map, List.cons.injEq, true_and]
    refine List.map_congr_left (fun x hx => ?_)
    simp only [Function.comp_apply, c1 x hx]
    rfl
  rw [hforest]
  constructor
  · intro t ht
    rcases List.mem_cons.mp ht with rfl | ht
    · rfl
    · obtain ⟨_, _, rfl⟩ := List.mem_map.mp ht
      rfl
  · intro row
    have hz : ∀ (l : List (Tree K A × K)), (l.map (fun _ => (Tree.node 0 none .absent .absent : Tree K A))).mapM (treeValue row) = some (l.map (fun _ => 0)) := by
      intro l
      induction l with
      | nil => rfl
      | cons x l ih => rw [List.map_cons, List.mapM_cons, ih]; rfl
    have hadd : ∀ (l : List (Tree K A × K)) (a : K), (l.map (fun _ => (0 : K))).foldl (fun a x => a + (x + 0)) a = a := by
      intro l
      induction l with
      | nil => intro a; rfl
      | cons x l ih => intro a; rw [List.map_cons, List.foldl_cons, add_zero, add_zero, ih]
    rw [forestValue, List.mapM_cons, hz]
    show some (sumScores (y0 :: rounds.map (fun _ => 0))) = some y0
    rw [sumScores, List.foldl_cons, hadd, zero_add, add_zero]

end exact

/-! ## Examples -/

/-- All targets are 7: the store, the loss and the weights are as the theorem asks. -/
example : TrainStore trainEnv ["color", "size"] smallCfg [] ∧ 0 < (errLoss (fun _ => 7)).numThreads ∧
    (∃ m : MathFns ℚ, m.one = 1 ∧ (errLoss (fun _ => 7)).lossFn = mseLoss m) ∧ trainEnv.w = (errLoss (fun _ => 7)).w ∧ trainEnv.rnd32 = id ∧
    totalWeight trainEnv = 5 ∧ (errLoss (fun _ => 7)).threshold < |7| :=
  ⟨smallStore _ rfl, by decide, ⟨ratMath, rfl, rfl⟩, rfl, rfl, by decide +kernel, by decide +kernel⟩

/-- What a forest trained on targets that are all `y` says of a row with unknown values. -/
def sameValue (y : ℚ) (n : Int) : Option (Option ℚ × List Nat) :=
  match trainGBDT trainEnv (errLoss (fun _ => y)).toLoss ["color", "size"] { smallCfg with numTrees := n } none [] 0 with
  | .ok r => if r.code = .ok then some (forestValue (fun name => if name = "color" then some (.str "new") else some (.num .nan)) r.forest,
      r.forest.map Tree.countLeaves) else none
  | _ => none

/-- It says 7; below the threshold, one tree says twice the target (see C85). -/
example : sameValue 7 3 = some (some 7, [1, 1, 1, 1]) ∧ sameValue (1 / 20000) 1 = some (some (1 / 10000), [1, 1]) := by decide +kernel

end Gbdt
