import Verif.Props.Boost
import Verif.Props.OtherStore
import Verif.Props.PartialDependency
import Verif.Props.SplitWitness

/-!
# C201: values that training never saw

Specification: `forestValue` (`Verif/Props/OtherStore.lean`), `withFeature` (`Verif/Props/PartialDependency.lean`).
-/

set_option autoImplicit false
set_option linter.unusedSectionVars false

namespace Gbdt
open Outcome

section lemmas
variable {S D A : Type} [Dbl D] [LinearOrder A] [ThrOps A] [FpOrder D]

/-- Without data of missing values, they are not sent right. -/
theorem noMissing_left (cfg : SplitConfig D) (total : GD D) (data : List (GD D)) :
    (findBestSplitPoint cfg total none data).missingOnRight = false := by
  cases h : (findBestSplitPoint cfg total none data).leftPoint with
  | none => exact ((findBestSplitPoint_inv cfg total none data).none h).2
  | some p =>
    obtain ⟨⟨l, q, hc⟩, _⟩ := (findBestSplitPoint_inv cfg total none data).some p h
    cases hb : (findBestSplitPoint cfg total none data).missingOnRight with
    | false => rfl
    | true =>
      rw [hb] at hc
      obtain ⟨m, hm, _⟩ := candidate_true hc
      cases hm

/-- What a split found on some rows of a column says of these rows. -/
def SeenSplit (n : Nat) (c : Column A) (fs : Option (FloatSplit A)) (names : Option (List String)) : Prop :=
  match c with
  | .bkt b => (∀ i < n, b.ints.missing i = ok false) → ∀ f, fs = some f → f.missingToRight = false ∧
      ∃ i < n, ∃ j < n, ∃ x y, b.rowMax i = ok (.num x) ∧ b.rowMin j = ok (.num y) ∧ x < y ∧ f.threshold = ThrOps.mid x y
  | .str s => ∀ l, names = some l → ∀ x ∈ l, ∃ i < n, s.rowString i = ok x
  | .raw _ => True

theorem seenSplit_float {c : BktCol A} {codes : List Nat} (wf : BktWF c codes) (w : Nat → D) (grads : List (GD D)) (samples : List Nat)
    (cfg : SplitConfig D) (total : GD D) {n : Nat} (hc : codes.length = n) (hg : grads.length = n) (hin : ∀ i ∈ samples, i < n)
    {s : Split D A} (h : findBestFloatSplit c w grads samples cfg total = ok (some s)) (l : Option (List String)) :
    SeenSplit n (.bkt c) s.floatSplit l := by
  intro hm f hf
  have hcode : ∀ i, (hi : i < codes.length) → c.ints.code i = ok codes[i] := by
    intro i hi
    rw [IntCol.code, wf.data, ok_bind, vecGet_lt hi]
  have hne : ∀ i : Nat, codes[i]? ≠ some 0 := by
    intro i h0
    obtain ⟨hi, h1⟩ := List.getElem?_eq_some_iff.mp h0
    have := hm i (by omega)
    rw [IntCol.missing, hcode i hi, h1] at this
    simp at this
  rcases findBestFloatSplit_eq wf w grads samples cfg total (fun i hi => ⟨by rw [hc]; exact hin i hi, by rw [hg]; exact hin i hi⟩) with
    ⟨_, h1⟩ | ⟨p, lc, rc, t, h1, h2, h3, h4, h5⟩
  · rw [h1] at h; cases h
  · rw [h5] at h
    cases h
    cases hf
    have hmiss : missingOf codes (weighted w grads) samples = none := by
      rw [missingOf, binOf_none (fun i _ => hne i)]
      have : Dbl.eqb (GD.zero : GD D).g 0 = true := FpOrder.zero_not_nan
      have h' : Dbl.eqb (GD.zero : GD D).h 0 = true := FpOrder.zero_not_nan
      simp [this, h']
    have m1 := values_occur (List.mem_of_getElem? h2)
    have m2 := values_occur (List.mem_of_getElem? h3)
    have hlt := pairwise_get_lt (values_sorted _ _ _ _) (Nat.lt_succ_self p) h2 h3
    have hl0 : lc ≠ 0 := by
      rintro rfl
      obtain ⟨i, _, hi⟩ := m1.1
      exact hne i hi
    obtain ⟨t', ht', _, g2⟩ := thresholdOf_ok wf m1.2 m2.2 hlt
    rw [h4, Outcome.ok.injEq] at ht'
    subst ht'
    obtain ⟨x, y, k1, k2, k3⟩ := g2 hl0
    obtain ⟨⟨i, _, hi⟩, _⟩ := m1
    obtain ⟨⟨j, _, hj⟩, _⟩ := m2
    obtain ⟨hi1, hi2⟩ := List.getElem?_eq_some_iff.mp hi
    obtain ⟨hj1, hj2⟩ := List.getElem?_eq_some_iff.mp hj
    refine ⟨?_, i, by omega, j, by omega, x, y, ?_, ?_, ?_, k3⟩
    · rw [hmiss]
      exact noMissing_left _ _ _
    · rw [BktCol.rowMax, hcode i hi1, hi2, ok_bind]
      exact vecGet_eq_ok.mpr k1
    · rw [BktCol.rowMin, hcode j hj1, hj2, ok_bind]
      exact vecGet_eq_ok.mpr k2
    · exact wf.order lc (List.mem_of_getElem? hi) rc (List.mem_of_getElem? hj) hl0 hlt x y k1 k2

theorem mapM_mem {α β : Type} {f : α → Outcome β} : ∀ {l : List α} {ys : List β}, l.mapM f = ok ys → ∀ y ∈ ys, ∃ x ∈ l, f x = ok y
  | [], ys, h, y, hy => by
    rw [List.mapM_nil] at h
    cases h
    cases hy
  | a :: l, ys, h, y, hy => by
    rw [List.mapM_cons, bind_eq_ok] at h
    obtain ⟨b, h1, h2⟩ := h
    rw [bind_eq_ok] at h2
    obtain ⟨bs, h3, h4⟩ := h2
    cases h4
    rcases List.mem_cons.mp hy with rfl | hy
    · exact ⟨a, by simp, h1⟩
    · obtain ⟨x, hx, h5⟩ := mapM_mem h3 y hy
      exact ⟨x, by simp [hx], h5⟩

theorem seenSplit_string {c : StrCol} {codes : List Nat} (wf : StrWF c codes) {sort : (Nat → D) → List Nat → List Nat}
    (hsort : SortSpec sort) (w : Nat → D) (grads : List (GD D)) (samples : List Nat)
    (cfg : SplitConfig D) (total : GD D) {n : Nat} (hc : codes.length = n) (hg : grads.length = n) (hin : ∀ i ∈ samples, i < n)
    {s s1 : Split D A} (h : findBestStringSplit sort c w grads samples cfg total = ok (some s))
    (hidx : s1.catSplit.map CatSplit.index = s.catSplit.map CatSplit.index) (hfit : SplitFits (.str c) s1) (fs : Option (FloatSplit A)) :
    SeenSplit n (.str c) fs (s1.catSplit.map CatSplit.category) := by
  intro l hl x hx
  obtain ⟨values, hp, _, hr⟩ := findBestStringSplit_eq (A := A) hsort wf w grads samples cfg total
    (fun i hi => ⟨by rw [hc]; exact hin i hi, by rw [hg]; exact hin i hi⟩)
  rcases hr with ⟨_, h1⟩ | ⟨p, _, h2, h1⟩
  · rw [h1] at h; cases h
  · rw [h1] at h
    cases h
    obtain ⟨cs, hcs, hfit⟩ := hfit
    rw [hcs, Option.map_some, Option.some.injEq] at hl
    subst hl
    rw [hcs] at hidx
    simp only [Option.map_some, Option.some.injEq] at hidx
    have hsub : ∀ k ∈ cs.index, k ∈ values := by
      intro k hk
      rw [hidx] at hk
      split at hk
      · exact List.mem_of_mem_take hk
      · exact List.mem_of_mem_drop hk
    have hne : cs.index ≠ [] := by
      intro h0
      rw [hidx] at h0
      have := congrArg List.length h0
      split at this
      · rw [List.length_take, List.length_nil] at this; omega
      · rw [List.length_drop, List.length_nil] at this; omega
    rcases hfit with h0 | hmap
    · exact absurd h0 hne
    · obtain ⟨k, hk, hkx⟩ := mapM_mem hmap x hx
      obtain ⟨⟨i, _, hi⟩, _⟩ := values_occur (hp.mem_iff.mp (hsub k hk))
      obtain ⟨hi1, hi2⟩ := List.getElem?_eq_some_iff.mp hi
      refine ⟨i, by omega, ?_⟩
      rw [StrCol.rowString, IntCol.code, wf.data, ok_bind, vecGet_lt hi1, ok_bind, hi2]
      exact hkx

theorem at?_applyShrinkage (rnd32 : D → D) (rate : D) (t : Tree D A) : ∀ path,
    (applyShrinkage rnd32 rate t).at? path = (t.at? path).map (applyShrinkage rnd32 rate) := by
  induction t with
  | absent => intro path; cases path <;> rfl
  | node score split left right ihl ihr =>
    intro path
    cases path with
    | nil => rfl
    | cons b path => cases b <;> simp [applyShrinkage, Tree.at?, ihl, ihr]

/-- Every split of a fitted tree has been seen in training. -/
theorem FittedTree.seen {env : TrainEnv D A} (hrows : ∀ name c, env.columns name = some c → TrainRows env.numRows c)
    (hsort : SortSpec env.sort) {names : List String} {features : List (String × Column A)}
    (hl : loadFeatures env.columns names = .ok features) {cfg : TrainConfig D} {t : Tree D A} (h : FittedTree env features cfg t)
    {path : List Bool} {x : D} {s : Split D A} {l r : Tree D A} (hnode : t.at? path = some (.node x (some s) l r)) :
    ∃ c, env.columns s.feature = some c ∧ SeenSplit env.numRows c s.floatSplit (s.catSplit.map CatSplit.category) := by
  obtain ⟨grads, t0, p, q, hg, hfit, rfl⟩ := h
  obtain ⟨_, hs⟩ := loadFeatures_mem hl
  have hd : FitData (env.fit features grads) env.columns := ⟨fun name c hm => by
      have := (hrows _ _ (hs _ _ hm)).hasRows
      rw [← hg] at this
      exact this, fun name c hm => hs _ _ hm⟩
  rw [at?_applyShrinkage] at hnode
  cases hat : t0.at? path with
  | none => rw [hat] at hnode; cases hnode
  | some u =>
    rw [hat] at hnode
    cases u with
    | absent => cases hnode
    | node a b l0 r0 =>
      simp only [Option.map_some, applyShrinkage, Option.some.injEq, Tree.node.injEq] at hnode
      obtain ⟨_, rfl, _, _⟩ := hnode
      obtain ⟨_, _, all, p1, _, _, _, h3, hall, _⟩ := fitTree_ok hd hfit
      obtain ⟨members, total, chosen, _, _, g1, _, _, _, g2⟩ := C67_splits_are_best hd hfit h3 hat
      obtain ⟨j, _, f, s0, k1, k2, k3, _, k5, k6, k7, _⟩ := g2 s rfl
      have hfm : (f.1, f.2) ∈ features := List.mem_of_getElem? k1
      have hcol := hs _ _ hfm
      refine ⟨f.2, by rw [k3]; exact hcol, ?_⟩
      have hin : ∀ i ∈ members, i < env.numRows := by
        intro i hi
        have := hall i (List.mem_of_mem_filter (g1.mem_iff.mp hi))
        rw [← hg]
        exact this
      have htr := hrows _ _ hcol
      generalize f.2 = c at htr k2 k7
      cases htr with
      | raw c h => trivial
      | str blocks h1 h2 =>
        obtain ⟨codes, wf, hlen⟩ := strWF_build blocks (by omega)
        exact seenSplit_string wf hsort env.w grads members _ total (hlen.trans h1) hg hin k2 k6 k7 _
      | bkt fmax nb blocks c h1 h2 h3 h4 h5 =>
        obtain ⟨codes, wf, hlen⟩ := bktWF_build (by omega) h3 h4 h5
        rw [k5]
        exact seenSplit_float wf env.w grads members _ total (hlen.trans h1) hg hin k2 _

theorem trainGBDT_fitted {env : TrainEnv D A} {loss : LossFunc S D} {names : List String} {cfg : TrainConfig D} {p : Nat}
    {r : TrainResult D A} (hd : TrainData env loss []) (h : trainGBDT env loss names cfg none [] p = ok r) (hok : r.code = .ok) :
    ∃ features, loadFeatures env.columns names = .ok features ∧ ∀ t ∈ r.forest, (∃ k, t = .node k none .absent .absent) ∨
      ∃ t1, FittedTree env features cfg t1 ∧ t = clearInternal t1 := by
  rcases trainGBDT_stages h with ⟨_, h1 | ⟨_, h1⟩ | ⟨g, h1⟩⟩ |
    ⟨hc, features, group, ls, slices, forest1, slices1, f1, stopped, s, hl, hg, hi, hsl, hb, htr, hr⟩
  · exact absurd hok h1.2
  · have := loadFeatures_error h1
    rw [hok] at this
    cases this
  · exact absurd hok (hd.status _ _ _ h1)
  · have hs : Slices env.numRows slices := by
      obtain ⟨sl, e1, e2⟩ := scoreSlices_ok hd.threads env.numRows
      rw [hsl, Outcome.ok.injEq] at e1
      subst e1
      exact e2
    have ha : Added env.columns env.numRows ([] : List (Tree D A × D)) (List.replicate env.numRows (0 : D)) :=
      ⟨by simp, fun i hi => by simp [hi]⟩
    obtain ⟨e1, e2, e3⟩ := initWithBase_spec hd.rows [] (rest := []) hd.scorable hs ha hb
    subst e1
    obtain ⟨fitted, k1, k2, _⟩ := trainLoop_spec hd.rows (loadFeatures_mem hl).2 hd.grads (fun t ht => ht.scorable hd hl) cfg.numTrees.toNat rfl
      (.init (groupOrDie_col hg) hi) e2 e3 htr
    cases stopped with
    | true => subst hr; cases hok
    | false =>
      simp only [Bool.false_eq_true, if_false] at hr
      subst hr
      refine ⟨features, hl, ?_⟩
      intro t ht
      simp only [k1, List.map_cons, List.mem_cons, clearInternal] at ht
      rcases ht with rfl | ht
      · exact Or.inl ⟨_, rfl⟩
      · right
        obtain ⟨t1, h1, rfl⟩ := List.mem_map.mp ht
        simp only [List.filter_nil, List.append_nil, List.nil_append] at h1
        obtain ⟨x, hx, rfl⟩ := List.mem_map.mp h1
        exact ⟨_, (k2 x hx).1, rfl⟩

theorem trainGBDT_seen {env : TrainEnv D A} {loss : LossFunc S D} {names : List String} {cfg : TrainConfig D} {p : Nat}
    {r : TrainResult D A} (hrows : ∀ name c, env.columns name = some c → TrainRows env.numRows c) (hsort : SortSpec env.sort)
    (hd : TrainData env loss []) (h : trainGBDT env loss names cfg none [] p = ok r) (hok : r.code = .ok) {t : Tree D A} (ht : t ∈ r.forest)
    {path : List Bool} {x : D} {s : Split D A} {l r' : Tree D A} (hnode : t.at? path = some (.node x (some s) l r')) :
    ∃ c, env.columns s.feature = some c ∧ SeenSplit env.numRows c s.floatSplit (s.catSplit.map CatSplit.category) := by
  obtain ⟨features, hl, hf⟩ := trainGBDT_fitted hd h hok
  rcases hf t ht with ⟨k, rfl⟩ | ⟨t1, h1, rfl⟩
  · cases path with
    | nil => cases hnode
    | cons b path => cases b <;> cases path <;> cases hnode
  · rw [at?_clearInternal] at hnode
    cases hat : t1.at? path with
    | none => rw [hat] at hnode; cases hnode
    | some u =>
      rw [hat] at hnode
      cases u with
      | absent => cases hnode
      | node a b c d =>
        simp only [Option.map_some, clearInternal, Option.some.injEq, Tree.node.injEq] at hnode
        obtain ⟨_, h2, _, _⟩ := hnode
        split at h2
        · cases b with
          | none => cases h2
          | some s0 =>
            cases h2
            obtain ⟨c, k1, k2⟩ := h1.seen hrows hsort hl hat
            refine ⟨c, k1, ?_⟩
            have : ((clearIndex s0).catSplit.map CatSplit.category) = s0.catSplit.map CatSplit.category := by
              simp [clearIndex, Option.map_map, Function.comp_def]
            rw [this]
            exact k2
        · cases h2

/-- Two rows that go the same way at every split give the same value. -/
theorem treeValue_same {row row' : String → Option (Cell A)} : ∀ (t : Tree D A),
    (∀ path x s l r, t.at? path = some (.node x (some s) l r) → (row s.feature).bind (goesLeft s) = (row' s.feature).bind (goesLeft s)) →
    treeValue row t = treeValue row' t
  | .absent, _ => rfl
  | .node _ _ .absent _, _ => rfl
  | .node _ none (.node _ _ _ _) _, _ => rfl
  | .node x (some s) (.node sc sp l r) right, h => by
    have h1 := treeValue_same (.node sc sp l r) (fun path y s' l' r' hp => h (false :: path) y s' l' r' (by simpa [Tree.at?] using hp))
    have h2 := treeValue_same right (fun path y s' l' r' hp => h (true :: path) y s' l' r' (by simpa [Tree.at?] using hp))
    rw [treeValue, treeValue, h [] x s _ _ rfl, h1, h2]

theorem forestValue_same {row row' : String → Option (Cell A)} {forest : List (Tree D A)}
    (h : ∀ t ∈ forest, ∀ path x s l r, t.at? path = some (.node x (some s) l r) →
      (row s.feature).bind (goesLeft s) = (row' s.feature).bind (goesLeft s)) : forestValue row forest = forestValue row' forest := by
  have : forest.mapM (treeValue row) = forest.mapM (treeValue row') := by
    induction forest with
    | nil => rfl
    | cons t ts ih =>
      rw [List.mapM_cons, List.mapM_cons, treeValue_same t (h t (by simp)), ih (fun u hu => h u (by simp [hu]))]
  rw [forestValue, forestValue, this]

end lemmas

section props
variable {S D A : Type} [Dbl D] [LinearOrder A] [ThrOps A] [FpOrder D]

/-- **C201 (strings).** A trained forest does not tell apart two strings that no row of the training data has in the column. -/
theorem C201_unseen_strings {env : TrainEnv D A} {loss : LossFunc S D} {names : List String} {cfg : TrainConfig D} {p : Nat}
    {r : TrainResult D A} (hrows : ∀ name c, env.columns name = some c → TrainRows env.numRows c) (hsort : SortSpec env.sort)
    (hd : TrainData env loss []) (h : trainGBDT env loss names cfg none [] p = ok r) (hok : r.code = .ok)
    {feature : String} {c : StrCol} (hc : env.columns feature = some (.str c)) {x y : String}
    (hx : ∀ i < env.numRows, c.rowString i ≠ ok x) (hy : ∀ i < env.numRows, c.rowString i ≠ ok y) (row : String → Option (Cell A)) :
    forestValue (withFeature row feature (.str x)) r.forest = forestValue (withFeature row feature (.str y)) r.forest := by
  refine forestValue_same (fun t ht path a s l r' hn => ?_)
  by_cases hf : s.feature = feature
  · obtain ⟨c', k1, k2⟩ := trainGBDT_seen hrows hsort hd h hok ht hn
    rw [hf, hc, Option.some.injEq] at k1
    subst k1
    rw [hf]
    simp only [withFeature, if_true, Option.bind_some, goesLeft]
    cases hcs : s.catSplit with
    | none => rfl
    | some cs =>
      have hseen := k2 cs.category (by rw [hcs]; rfl)
      have hn : ∀ z, (∀ i < env.numRows, c.rowString i ≠ ok z) → cs.category.contains z = false := by
        intro z hz
        rw [Bool.eq_false_iff]
        intro hcon
        obtain ⟨i, hi, hiz⟩ := hseen z (by simpa using hcon)
        exact hz i hi hiz
      rw [Option.map_some, Option.map_some, hn x hx, hn y hy]
  · simp [withFeature, hf]

/-- **C201 (missing).** If a numeric column of the training data has no missing value, a trained forest treats a missing value like any number
that is not larger than any number of the training data. -/
theorem C201_unseen_missing {env : TrainEnv D A} {loss : LossFunc S D} {names : List String} {cfg : TrainConfig D} {p : Nat}
    {r : TrainResult D A} (hrows : ∀ name c, env.columns name = some c → TrainRows env.numRows c) (hsort : SortSpec env.sort)
    (hd : TrainData env loss []) (h : trainGBDT env loss names cfg none [] p = ok r) (hok : r.code = .ok)
    {feature : String} {c : BktCol A} (hc : env.columns feature = some (.bkt c)) (hthr : ThrSeparates c)
    (hm : ∀ i < env.numRows, c.ints.missing i = ok false) {v : A} (hv : ∀ i < env.numRows, ∀ x, c.rowMax i = ok (.num x) → v ≤ x)
    (row : String → Option (Cell A)) :
    forestValue (withFeature row feature (.num .nan)) r.forest = forestValue (withFeature row feature (.num (.num v))) r.forest := by
  refine forestValue_same (fun t ht path a s l r' hn => ?_)
  by_cases hf : s.feature = feature
  · obtain ⟨c', k1, k2⟩ := trainGBDT_seen hrows hsort hd h hok ht hn
    rw [hf, hc, Option.some.injEq] at k1
    subst k1
    rw [hf]
    simp only [withFeature, if_true, Option.bind_some, goesLeft]
    cases hfs : s.floatSplit with
    | none => rfl
    | some f =>
      obtain ⟨g1, i, hi, j, hj, x, y, g2, g3, g4, g5⟩ := k2 hm f hfs
      have hsep : ∃ m, ThrOps.mid x y = Fl.num m ∧ x < m ∧ m ≤ y := by
        rw [BktCol.rowMax, bind_eq_ok] at g2
        rw [BktCol.rowMin, bind_eq_ok] at g3
        obtain ⟨ki, e1, e2⟩ := g2
        obtain ⟨kj, e3, e4⟩ := g3
        rw [IntCol.code, bind_eq_ok] at e1 e3
        obtain ⟨codes, e5, e6⟩ := e1
        obtain ⟨codes', e7, e8⟩ := e3
        rw [e5, Outcome.ok.injEq] at e7
        subst e7
        exact hthr.mid codes e5 ki (List.mem_of_getElem? (vecGet_eq_ok.mp e6)) kj (List.mem_of_getElem? (vecGet_eq_ok.mp e8)) x y e2 e4 g4
      obtain ⟨m, h1, h2, _⟩ := hsep
      have : Fl.lt (.num v) f.threshold = true := by
        rw [g5, h1]
        have := lt_of_le_of_lt (hv i hi x g2) h2
        simpa [Fl.lt] using this
      simp [g1, this]
  · simp [withFeature, hf]

end props

/-! ## Examples -/

/-- The columns of the examples with no missing size. -/
def sizedCols (name : String) : Option (Column ℚ) :=
  if name = "color" then some (.str (StrCol.build [["b", "a"], ["__missing__", "b", "c"]]))
  else if name = "size" then
    match BktCol.build (1000 : ℚ) 10 [[.num 5, .num 6, .num 7, .num 9, .num 9]] with
    | .ok c => some (.bkt c)
    | _ => none
  else none

/-- The hypotheses on the store, the machine and the loss. -/
example : (∀ name c, sizedCols name = some c → TrainRows 5 c) ∧ SortSpec trainEnv.sort ∧
    TrainData { trainEnv with columns := sizedCols } trainLoss [] := by
  have hrows : ∀ name c, sizedCols name = some c → TrainRows 5 c := by
    intro name c h
    unfold sizedCols at h
    split at h
    · cases h
      exact TrainRows.str _ (by decide) (by decide)
    · split at h
      · split at h
        · next c' hb =>
          cases h
          refine TrainRows.bkt 1000 10 _ c' (by decide) (by decide) (by decide) hb ?_
          intro v hv
          simp only [List.flatten_cons, List.flatten_nil, List.append_nil, List.mem_cons, Fl.num.injEq, List.not_mem_nil,
            or_false] at hv
          rcases hv with rfl | rfl | rfl | rfl | rfl <;> decide +kernel
        · cases h
      · cases h
  refine ⟨hrows, ratSort_spec, fun name c h => (hrows name c h).hasRows, by decide, by simp, by intro _ h; simp [forestFeatures] at h, ?_, ?_⟩
  · intro n g e h; simp [trainLoss] at h
  · intro s f s' c g _ h hf
    simp only [trainLoss, Outcome.ok.injEq, Prod.mk.injEq] at h
    rw [← h.2.2]
    simp [hf, trainTargets, trainEnv]

/-- No size is missing, and 5 is the smallest. -/
example : (match sizedCols "size" with
    | some (.bkt c) => decide ((List.range 5).map c.ints.missing = List.replicate 5 (ok false) ∧
        (List.range 5).map c.rowMax = [5, 6, 7, 9, 9].map (fun x => ok (.num x)))
    | _ => false) = true := by decide +kernel

/-- A missing size counts as 5 or less, and two colours that do not occur count the same; other values do not. -/
example : (match trainGBDT { trainEnv with columns := sizedCols } trainLoss ["color", "size"] trainCfg none [] 0 with
    | .ok r =>
      let value := fun (color : String) (size : Fl ℚ) => forestValue (withFeature (withFeature (fun _ => none) "color" (.str color)) "size" (.num size)) r.forest
      decide (r.code = .ok ∧ value "b" .nan = value "b" (.num 5) ∧ value "b" .nan = value "b" (.num (-3)) ∧ value "b" .nan ≠ value "b" (.num 9) ∧
        value "red" (.num 9) = value "green" (.num 9) ∧ (value "b" .nan).isSome)
    | _ => false) = true := by decide +kernel

/-- Squared error, with other targets. -/
def missingLoss : LossFunc Unit ℚ where
  init := fun _ _ => ok (.ok ())
  compute := fun _ f =>
    let res := (([1, 9, 6, 8, 8] : List ℚ).zip f).map (fun x => x.1 - x.2)
    let c := res.sum / 5
    ok ((), c, res.map (fun r => ⟨r - c, 1⟩))

/-- With a missing size in the training data, missing values need not count as small numbers. -/
example : (match trainGBDT trainEnv missingLoss ["size"] trainCfg none [] 0 with
    | .ok r =>
      let value := fun (size : Fl ℚ) => forestValue (withFeature (fun _ => none) "size" (.num size)) r.forest
      decide (r.code = .ok ∧ value .nan ≠ value (.num 5) ∧ (value .nan).isSome)
    | _ => false) = true := by decide +kernel

end Gbdt
