import Verif.Lemmas.Useless
import Verif.Props.Pipeline

/-!
# C152, C153: features that tell nothing
-/

set_option autoImplicit false
set_option linter.unusedSectionVars false

namespace Gbdt

open Outcome

section python
variable {D A : Type} [Dbl D] [FpOrder D] [EqOrder D] [LinearOrder A] [ThrOps A]

/-- The columns of strings and the bucketized columns among the named ones, as `train` hands them on. -/
def usedNames (t : DataStore A) (features : List String) : List String :=
  (t.namesOf .string).filter (fun n => features.contains n) ++ (t.namesOf .bucketized).filter (fun n => features.contains n)

theorem withLoss_mono {R : Type} {mc : Machine D A} {c : Config D} {seed nt : Int} {r : R}
    {k k' : ∀ S : Type, ((w y : Nat → D) → LossFunc S D) → Outcome R} (hk : ∀ S loss, k S loss = ok r → k' S loss = ok r)
    (h : withLoss mc c seed nt k = some (ok r)) : withLoss mc c seed nt k' = some (ok r) := by
  unfold withLoss at h ⊢
  split at h
  case h_7 =>
    rw [Option.some.injEq] at h ⊢
    simp only at h ⊢
    cases ht : lambdaTable (discountOf mc.math.log mc.ofNat (dcgBaseOf mc c)) with
    | ok t =>
      rw [ht, ok_bind] at h
      rw [ok_bind]
      exact hk _ _ h
    | ub => rw [ht] at h; cases h
    | fatal => rw [ht] at h; cases h
  case h_8 => cases h
  all_goals
    rw [Option.some.injEq] at h ⊢
    exact hk _ _ h

theorem withLoss_none {R : Type} {mc : Machine D A} {c : Config D} {seed nt : Int}
    {k k' : ∀ S : Type, ((w y : Nat → D) → LossFunc S D) → Outcome R} (h : withLoss mc c seed nt k = none) :
    withLoss mc c seed nt k' = none := by
  unfold withLoss at h ⊢
  split at h <;> first | rfl | cases h

theorem trainPyRun_useless {mc : Machine D A} (hm : MachineOk mc) {n : Nat} {t : DataStore A} (ht : GoodStore n t)
    (hcount : t.length < 2 ^ 31) {fs fs' names1 names2 : List String} {name : String} (hne : fs ≠ [])
    (hlist : mc.listing fs = names1 ++ names2) (hlist' : mc.listing fs' = names1 ++ name :: names2) (hlen : fs'.length ≤ t.length)
    (hfs : ∀ a ∈ fs, ∀ col r, t.getColumn a = some col → col ≠ .raw r)
    {col : Column A} (hcol : t.getColumn name = some col) (hu : ConstantColumn n col ∨ ∃ a ∈ names1, t.getColumn a = some col)
    {c : Config D} (hpos : Dbl.ltb 0 (mc.ofNat 1) = true) (hex : c.exampleRate.getD (mc.ofNat 1) = mc.ofNat 1 ∨ c.numTrees ≤ 1)
    (hfr : c.featureRate.getD (mc.ofNat 1) = mc.ofNat 1) {seed nt : Int} (hdraw : ∀ k, Dbl.ltb (mc.draw seed k) (mc.ofNat 1) = true)
    {w y : Nat → D} {base : Option (List (Tree D A))} {r : Except PyErr (List (Tree D A))}
    (h : trainPyRun mc t c w y base seed nt fs = ok r) : trainPyRun mc t c w y base seed nt fs' = ok r := by
  have hne' : fs' ≠ [] := by
    rintro rfl
    have := (hm.listing []).length_eq
    rw [hlist'] at this
    simp at this
  have htne : t ≠ [] := by
    rintro rfl
    cases hcol
  unfold trainPyRun at h ⊢
  split at h
  · next hw => simp only [withLoss_none hw]; exact h
  · next run hw =>
    subst h
    rw [withLoss_mono (k' := fun _ loss =>
      if fs' = [] then raise .invalidArgument .ub
      else do
        let n ← t.numRows
        let r ← trainGBDT (mkEnv mc t n w seed nt) (loss w y) (mc.listing fs') (c.train mc (mc.ofNat 1)) base [] 0
        if r.code = .ok then .ok (.ok r.forest) else raise r.code (.ok (.ok r.forest))) ?_ hw]
    intro S loss hk
    rw [if_neg hne] at hk
    rw [if_neg hne']
    rw [ht.numRows htne, ok_bind] at hk ⊢
    obtain ⟨res, hres, hk⟩ := bind_eq_ok.mp hk
    rw [hlist] at hres
    have hl : (names1 ++ names2).length + 1 = fs'.length := by
      have := (hm.listing fs').length_eq
      rw [hlist'] at this
      rw [← this]
      simp
      omega
    obtain ⟨q, hq⟩ := trainGBDT_useless (env := mkEnv mc t n w seed nt) (cfg := c.train mc (mc.ofNat 1)) (n := n) (loss w y)
      (name := name) (c := col) hcol (by
        intro h0
        have := (hm.listing fs).length_eq
        rw [hlist, h0] at this
        exact hne (List.eq_nil_of_length_eq_zero this.symm)) (by
        intro a ha col' hc'
        refine ⟨ht.col hc', fun r => hfs a ?_ col' r hc'⟩
        rw [← hlist] at ha
        exact (hm.listing fs).mem_iff.mp ha) hu hm.sort
      (fun k => by
        show Dbl.ltb (mc.draw seed k) (c.featureRate.getD (mc.ofNat 1)) = true
        rw [hfr]; exact hdraw k)
      (hex.imp (fun hex k => by
        show Dbl.ltb (mc.draw seed k) (c.exampleRate.getD (mc.ofNat 1)) = true
        rw [hex]; exact hdraw k) id)
      (fun m hmle => by
        show mc.toInt (c.featureRate.getD (mc.ofNat 1) * mc.ofNat m) ≠ none
        rw [hfr]
        exact hm.toInt _ m hpos (StrictLt.irrefl _) (by omega)) hres
    rw [hlist', hq, ok_bind]
    exact hk

theorem pyTrain_useless {mc : Machine D A} (hm : MachineOk mc) {n : Nat} {t : DataStore A} (ht : GoodStore n t)
    (hcount : t.length < 2 ^ 31) {features names1 names2 : List String} {name : String} (hne : features ≠ [])
    (hlist : mc.listing (usedNames t features) = names1 ++ names2)
    (hlist' : mc.listing (usedNames t (name :: features)) = names1 ++ name :: names2)
    {col : Column A} (hcol : t.getColumn name = some col)
    (hu : ConstantColumn n col ∨ ∃ other ∈ names1, t.getColumn other = some col)
    {c : Config D} (hpos : Dbl.ltb 0 (mc.ofNat 1) = true) (hex : c.exampleRate.getD (mc.ofNat 1) = mc.ofNat 1 ∨ c.numTrees ≤ 1)
    (hfr : c.featureRate.getD (mc.ofNat 1) = mc.ofNat 1) {seed nt : Int} (hdraw : ∀ k, Dbl.ltb (mc.draw seed k) (mc.ofNat 1) = true)
    {y w : List (Fl A)} {base : Option (List (Tree D A))} {r : Except PyErr (List (Tree D A))}
    (h : pyTrain mc (some t) c y features w base seed nt = ok r) :
    pyTrain mc (some t) c y (name :: features) w base seed nt = ok r := by
  have hmem : ∀ (fs : List String) ty a, a ∈ (t.namesOf ty).filter (fun n => fs.contains n) ↔
      a ∈ fs ∧ ∃ col, t.getColumn a = some col ∧ col.type = ty := by
    intro fs ty a
    have := mem_namesOfType (s := some t) (by exact ht.names) ty a
    rw [Option.getD_some] at this
    rw [List.mem_filter, List.contains_iff_mem, and_comm]
    exact and_congr_right (fun _ => this)
  have hany : ∀ (fs : List String), (fs.any (fun n => !(((t.namesOf .bucketized).filter (fun n => fs.contains n)).contains n ||
      ((t.namesOf .string).filter (fun n => fs.contains n)).contains n))) = true ↔
      ∃ a ∈ fs, ∀ col, t.getColumn a = some col → col.type ≠ .bucketized ∧ col.type ≠ .string := by
    intro fs
    rw [List.any_eq_true]
    refine exists_congr (fun a => and_congr_right (fun ha => ?_))
    rw [Bool.not_eq_true', Bool.or_eq_false_iff, ← Bool.not_eq_true, ← Bool.not_eq_true, List.contains_iff_mem, List.contains_iff_mem,
      hmem, hmem]
    constructor
    · rintro ⟨h1, h2⟩ col hcol
      exact ⟨fun h => h1 ⟨ha, col, hcol, h⟩, fun h => h2 ⟨ha, col, hcol, h⟩⟩
    · intro h
      exact ⟨fun ⟨_, col, hc, hty⟩ => (h col hc).1 hty, fun ⟨_, col, hc, hty⟩ => (h col hc).2 hty⟩
  have hother : ∀ a ∈ names1, ∀ col', t.getColumn a = some col' → ∀ r, col' ≠ .raw r := by
    intro a ha col' hc' r hr
    have : a ∈ usedNames t features := by
      rw [← (hm.listing _).mem_iff, hlist]
      exact List.mem_append_left _ ha
    unfold usedNames at this
    rw [List.mem_append, hmem, hmem, hc', hr] at this
    rcases this with ⟨_, c1, h1, h2⟩ | ⟨_, c1, h1, h2⟩ <;> (cases h1; cases h2)
  have hraw : ∀ r, col ≠ .raw r := by
    rcases hu with hu | ⟨a, ha, hac⟩
    · intro r hr
      rw [hr] at hu
      cases hu
    · exact hother a ha col hac
  unfold pyTrain at h ⊢
  dsimp only [namesOfType] at h ⊢
  by_cases hv : ∃ a ∈ features, ∀ col, t.getColumn a = some col → col.type ≠ .bucketized ∧ col.type ≠ .string
  · rw [if_pos ((hany features).mpr hv)] at h
    obtain ⟨a, ha, h1⟩ := hv
    rw [if_pos ((hany _).mpr ⟨a, List.mem_cons_of_mem _ ha, h1⟩)]
    exact h
  · rw [if_neg (fun hc => hv ((hany features).mp hc))] at h
    have hv' : ¬ ∃ a ∈ name :: features, ∀ col, t.getColumn a = some col → col.type ≠ .bucketized ∧ col.type ≠ .string := by
      rintro ⟨a, ha, h1⟩
      rcases List.mem_cons.mp ha with rfl | ha
      · have := h1 col hcol
        cases col with
        | str _ => exact this.2 rfl
        | bkt _ => exact this.1 rfl
        | raw r => exact hraw r rfl
      · exact hv ⟨a, ha, h1⟩
    rw [if_neg (fun hc => hv' ((hany _).mp hc))]
    have hc0 : ∀ (a b : List String) fs, trainPyFull mc (some t) { c with floatFeature := a, catFeature := b } y w base seed nt fs =
        trainPyFull mc (some t) c y w base seed nt fs := fun _ _ _ => rfl
    rw [hc0] at h ⊢
    unfold trainPyFull at h ⊢
    obtain ⟨wy, h1, h⟩ := bind_eq_ok.mp h
    rw [h1, ok_bind]
    split
    · next hy => rw [if_pos hy] at h; exact h
    · next hy =>
      rw [if_neg hy] at h
      obtain ⟨ww, h2, h⟩ := bind_eq_ok.mp h
      rw [h2, ok_bind]
      split
      · next hw => rw [if_pos hw] at h; exact h
      · next hw =>
        rw [if_neg hw] at h
        cases hy' : trainPyTargets mc (some t) c y with
        | ub => rw [hy'] at h; cases h
        | fatal => rw [hy'] at h; cases h
        | ok yo =>
          cases yo with
          | error e => rw [hy'] at h; exact h
          | ok yf =>
            rw [hy'] at h
            refine trainPyRun_useless hm ht hcount (fs := usedNames t features) (fs' := usedNames t (name :: features)) (name := name)
              ?_ hlist hlist' (features_length t _) ?_ hcol hu hpos hex hfr hdraw h
            · obtain ⟨a, ha⟩ := List.exists_mem_of_ne_nil _ hne
              have : a ∈ usedNames t features := by
                unfold usedNames
                rw [List.mem_append, hmem, hmem]
                by_contra hc
                refine hv ⟨a, ha, fun col' hcol' => ⟨fun hty => hc (Or.inr ⟨ha, col', hcol', hty⟩), fun hty => hc (Or.inl ⟨ha, col', hcol', hty⟩)⟩⟩
              exact List.ne_nil_of_mem this
            · intro a ha col' r hc' hr
              unfold usedNames at ha
              rw [List.mem_append, hmem, hmem, hc', hr] at ha
              rcases ha with ⟨_, c1, h1, h2⟩ | ⟨_, c1, h1, h2⟩ <;> (cases h1; cases h2)

/-- **C152.** When every row and every feature is sampled, a feature whose value is the same in every row, or which holds the same
as a feature that is listed before it, makes no difference: with it, `train` returns what it returns without it.  (The other
features are assumed to be listed in the same order.) -/
theorem C152_useless {mc : Machine D A} (hm : MachineOk mc) {n : Nat} {t : DataStore A} (ht : GoodStore n t)
    (hcount : t.length < 2 ^ 31) {features names1 names2 : List String} {name : String} (hne : features ≠ [])
    (hlist : mc.listing (usedNames t features) = names1 ++ names2)
    (hlist' : mc.listing (usedNames t (name :: features)) = names1 ++ name :: names2)
    {col : Column A} (hcol : t.getColumn name = some col)
    (hu : ConstantColumn n col ∨ ∃ other ∈ names1, t.getColumn other = some col)
    {c : Config D} (hpos : Dbl.ltb 0 (mc.ofNat 1) = true) (hex : c.exampleRate.getD (mc.ofNat 1) = mc.ofNat 1)
    (hfr : c.featureRate.getD (mc.ofNat 1) = mc.ofNat 1) {seed nt : Int} (hdraw : ∀ k, Dbl.ltb (mc.draw seed k) (mc.ofNat 1) = true)
    {y w : List (Fl A)} {base : Option (List (Tree D A))} {r : Except PyErr (List (Tree D A))}
    (h : pyTrain mc (some t) c y features w base seed nt = ok r) :
    pyTrain mc (some t) c y (name :: features) w base seed nt = ok r :=
  pyTrain_useless hm ht hcount hne hlist hlist' hcol hu hpos (Or.inl hex) hfr hdraw h

/-- **C153 (partial).** When rows are sampled, this holds for the first tree: its rows are drawn before anything about the features.
(What is missing is any further tree; see `C153_refuted`.) -/
theorem C153_partial {mc : Machine D A} (hm : MachineOk mc) {n : Nat} {t : DataStore A} (ht : GoodStore n t)
    (hcount : t.length < 2 ^ 31) {features names1 names2 : List String} {name : String} (hne : features ≠ [])
    (hlist : mc.listing (usedNames t features) = names1 ++ names2)
    (hlist' : mc.listing (usedNames t (name :: features)) = names1 ++ name :: names2)
    {col : Column A} (hcol : t.getColumn name = some col)
    (hu : ConstantColumn n col ∨ ∃ other ∈ names1, t.getColumn other = some col)
    {c : Config D} (hpos : Dbl.ltb 0 (mc.ofNat 1) = true) (hone : c.numTrees ≤ 1)
    (hfr : c.featureRate.getD (mc.ofNat 1) = mc.ofNat 1) {seed nt : Int} (hdraw : ∀ k, Dbl.ltb (mc.draw seed k) (mc.ofNat 1) = true)
    {y w : List (Fl A)} {base : Option (List (Tree D A))} {r : Except PyErr (List (Tree D A))}
    (h : pyTrain mc (some t) c y features w base seed nt = ok r) :
    pyTrain mc (some t) c y (name :: features) w base seed nt = ok r :=
  pyTrain_useless hm ht hcount hne hlist hlist' hcol hu hpos (Or.inr hone) hfr hdraw h

end python

/-! ## C153: the same when rows are sampled -/

/-- **C153 (in full).** The same, whatever share of the rows is sampled. -/
def C153_full : Prop :=
  ∀ (mc : Machine ℚ ℚ) (n : Nat) (t : DataStore ℚ) (features names1 names2 : List String) (name : String) (col : Column ℚ)
    (c : Config ℚ) (seed nt : Int) (y w : List (Fl ℚ)) (r : Except PyErr (List (Tree ℚ ℚ))),
    MachineOk mc → GoodStore n t → t.length < 2 ^ 31 → features ≠ [] →
    mc.listing (usedNames t features) = names1 ++ names2 →
    mc.listing (usedNames t (name :: features)) = names1 ++ name :: names2 → t.getColumn name = some col →
    (ConstantColumn n col ∨ ∃ other ∈ names1, t.getColumn other = some col) →
    (∀ k, mc.draw seed k < mc.ofNat 1) → c.featureRate = none →
    pyTrain mc (some t) c y features w none seed nt = ok r → pyTrain mc (some t) c y (name :: features) w none seed nt = ok r

/-- A store with a column `twin` that holds the same as `color`, and a column `same` with the same value in every row. -/
def uselessStore : DataStore ℚ :=
  [("twin", .str (StrCol.build [["b", "a", "d", "b", "c"]])), ("color", .str (StrCol.build [["b", "a", "d", "b", "c"]])),
   ("team", .str (StrCol.build [["u", "u"], ["v", "v", "v"]])), ("same", .str (StrCol.build [["k", "k"], ["k", "k", "k"]])),
   ("y", .raw { raw := [.num 1, .num 2, .num 6, .num 3, .num 8] })]

theorem uselessStore_good : GoodStore 5 uselessStore where
  names := by decide +kernel
  rows := by
    intro p hp
    simp only [uselessStore, List.mem_cons, List.not_mem_nil, or_false] at hp
    rcases hp with rfl | rfl | rfl | rfl | rfl
    · exact .str _ rfl (by decide)
    · exact .str _ rfl (by decide)
    · exact .str _ rfl (by decide)
    · exact .str _ rfl (by decide)
    · exact .raw _ rfl

theorem ratMachine_fine : MachineOk ratMachine where
  sort := ratSort_spec
  top := ratTop_spec
  listing := fun l => l.reverse_perm
  toInt := by intros; simp [ratMachine]

theorem ratMachine_draws (seed : Int) (k : Nat) : ratMachine.draw seed k < ratMachine.ofNat 1 := by
  have h : ((k * 7) % 10 : Nat) < 10 := Nat.mod_lt _ (by decide)
  show (((k * 7) % 10 : Nat) : ℚ) / 10 < ((1 : Nat) : ℚ)
  rw [div_lt_iff₀ (by norm_num)]
  exact_mod_cast h

theorem same_constant : ConstantColumn (A := ℚ) 5 (.str (StrCol.build [["k", "k"], ["k", "k", "k"]])) :=
  .str _ "k" rfl (by decide)

/-- The outcome of training on that store. -/
def uselessRun (c : Config ℚ) (features : List String) : PyRes (List (Tree ℚ ℚ)) :=
  pyTrain ratMachine (some uselessStore) c [] features [] none 1 2

/-- The conditions of C152 hold for `same` and for `twin`; the forest has trees of two and three leaves after the constant one. -/
example : ∃ f, uselessRun pyCfg ["color", "team"] = ok (.ok f) ∧ f.map (fun t => t.countLeaves) = [1, 2, 3] ∧
    uselessRun pyCfg ["same", "color", "team"] = ok (.ok f) ∧ uselessRun pyCfg ["twin", "color", "team"] = ok (.ok f) := by
  have h : (match uselessRun pyCfg ["color", "team"] with
    | .ok (.ok f) => decide (f.map (fun t => t.countLeaves) = [1, 2, 3])
    | _ => false) = true := by decide +kernel
  cases hr : uselessRun pyCfg ["color", "team"] with
  | ub => rw [hr] at h; cases h
  | fatal => rw [hr] at h; cases h
  | ok r =>
    cases r with
    | error e => rw [hr] at h; cases h
    | ok f =>
      rw [hr] at h
      refine ⟨f, rfl, by simpa using h, ?_, ?_⟩
      · exact C152_useless ratMachine_fine uselessStore_good (by decide) (names1 := []) (names2 := ["team", "color"]) (by decide)
          (by decide +kernel) (by decide +kernel) (col := .str (StrCol.build [["k", "k"], ["k", "k", "k"]])) rfl (Or.inl same_constant)
          (by decide +kernel) rfl rfl (fun k => decide_eq_true (ratMachine_draws 1 k)) hr
      · exact C152_useless ratMachine_fine uselessStore_good (by decide) (names1 := ["team", "color"]) (names2 := []) (by decide)
          (by decide +kernel) (by decide +kernel) (col := .str (StrCol.build [["b", "a", "d", "b", "c"]])) rfl
          (Or.inr ⟨"color", by decide, rfl⟩) (by decide +kernel) rfl rfl (fun k => decide_eq_true (ratMachine_draws 1 k)) hr

/-- **C153 refuted.** Half of the rows, two trees: with the column `same`, which can never be split, another forest is trained from the
same seed.  `UniformSubsample` draws a number for every feature even if all features are used (`subsampling.cc:37-41`), from the
generator that also samples the rows. -/
theorem C153_refuted : ¬ C153_full := by
  intro hfull
  have h : (match uselessRun { pyCfg with exampleRate := some (1 / 2) } ["color", "team"] with
    | .ok (.ok f) => decide (uselessRun { pyCfg with exampleRate := some (1 / 2) } ["same", "color", "team"] ≠ ok (.ok f))
    | _ => false) = true := by decide +kernel
  cases hr : uselessRun { pyCfg with exampleRate := some (1 / 2) } ["color", "team"] with
  | ub => rw [hr] at h; cases h
  | fatal => rw [hr] at h; cases h
  | ok r =>
    cases r with
    | error e => rw [hr] at h; cases h
    | ok f =>
      rw [hr] at h
      exact of_decide_eq_true h (hfull ratMachine 5 uselessStore ["color", "team"] [] ["team", "color"] "same" (.str (StrCol.build [["k", "k"], ["k", "k", "k"]])) _ 1 2 [] [] _
        ratMachine_fine uselessStore_good (by decide) (by decide) (by decide +kernel) (by decide +kernel)
        rfl (Or.inl same_constant) (ratMachine_draws 1) rfl hr)

/-- The conditions of `C153_partial` hold: one tree, half of the rows. -/
example : ∃ f, uselessRun { pyCfg with exampleRate := some (1 / 2), numTrees := 1 } ["color", "team"] = ok (.ok f) ∧
    f.map (fun t => t.countLeaves) = [1, 2] ∧
    uselessRun { pyCfg with exampleRate := some (1 / 2), numTrees := 1 } ["same", "color", "team"] = ok (.ok f) := by
  have h : (match uselessRun { pyCfg with exampleRate := some (1 / 2), numTrees := 1 } ["color", "team"] with
    | .ok (.ok f) => decide (f.map (fun t => t.countLeaves) = [1, 2])
    | _ => false) = true := by decide +kernel
  cases hr : uselessRun { pyCfg with exampleRate := some (1 / 2), numTrees := 1 } ["color", "team"] with
  | ub => rw [hr] at h; cases h
  | fatal => rw [hr] at h; cases h
  | ok r =>
    cases r with
    | error e => rw [hr] at h; cases h
    | ok f =>
      rw [hr] at h
      exact ⟨f, rfl, by simpa using h, C153_partial ratMachine_fine uselessStore_good (by decide) (names1 := [])
        (names2 := ["team", "color"]) (by decide) (by decide +kernel) (by decide +kernel)
        (col := .str (StrCol.build [["k", "k"], ["k", "k", "k"]])) rfl (Or.inl same_constant) (by decide +kernel) (by decide) rfl
        (fun k => decide_eq_true (ratMachine_draws 1 k)) hr⟩

/-- A bucketized column may be constant too: one bucket, and perhaps an unused one for missing values. -/
example : ∃ c, ConstantColumn (A := ℚ) 3 (.bkt c) := by
  have h : (match BktCol.build (1000 : ℚ) 6 [[.num 7, .num 7], [.num 7]] with | .ok _ => true | _ => false) = true := by decide +kernel
  cases hc : BktCol.build (1000 : ℚ) 6 [[.num 7, .num 7], [.num 7]] with
  | ub => rw [hc] at h; cases h
  | fatal => rw [hc] at h; cases h
  | ok c => exact ⟨c, .bkt 1000 6 _ (.num 7) c rfl (by decide) (by decide) hc (fun v hv => by cases hv; norm_num)⟩

end Gbdt
