import Verif.Props.Ranking
import Verif.Props.PipelineCli

/-!
# C114: what ranking uses of the targets

Specification: `InGroup` says which rows are compared with each other, `SameOrder` and `SameDifferences` what must agree in two lists of
targets.
-/

set_option autoImplicit false
set_option linter.unusedSectionVars false

namespace Gbdt

open Outcome

section order
variable {D A : Type} [Dbl D] [FpOrder D] [EqOrder D] [LinearOrder A] [ThrOps A]

/-- Rows are in one group if there is no group column, or if it has the same string for both. -/
def InGroup (t : DataStore A) (name : String) (i j : Nat) : Prop :=
  name = "" ∨ ∃ col x, t.getColumn name = some (.str col) ∧ col.rowString i = ok x ∧ col.rowString j = ok x

/-- Within each group, the two lists of targets put the rows in the same order, ties included. -/
def SameOrder (mc : Machine D A) (t : DataStore A) (name : String) (y y' : List (Fl A)) : Prop :=
  ∀ (i j : Nat) a b a' b', InGroup t name i j → y[i]? = some a → y[j]? = some b → y'[i]? = some a' → y'[j]? = some b' →
    Dbl.ltb (mc.toD a) (mc.toD b) = Dbl.ltb (mc.toD a') (mc.toD b') ∧
    Dbl.eqb (mc.toD a) (mc.toD b) = Dbl.eqb (mc.toD a') (mc.toD b')

/-- Within each group, the targets differ by the same amounts, as floats. -/
def SameDifferences (mc : Machine D A) (t : DataStore A) (name : String) (y y' : List (Fl A)) : Prop :=
  ∀ (i j : Nat) a b a' b', InGroup t name i j → y[i]? = some a → y[j]? = some b → y'[i]? = some a' → y'[j]? = some b' →
    mc.rnd32 (mc.toD a - mc.toD b) = mc.rnd32 (mc.toD a' - mc.toD b')

/-- `std::sort` sees keys only by comparing them (`group.cc:27-28`). -/
def ComparisonSort (sort : (Nat → D) → List Nat → List Nat) : Prop :=
  ∀ (key key' : Nat → D) (l : List Nat), (∀ a ∈ l, ∀ b ∈ l, Dbl.ltb (key a) (key b) = Dbl.ltb (key' a) (key' b)) →
    sort key l = sort key' l

/-! ## Groups -/

theorem blockLoop_congr {y y' : Nat → D} (n : Nat) : ∀ (rest : List Nat) (last i prev numPairs : Nat) (m : List (Nat × Nat × Nat)),
    (∀ a ∈ prev :: rest, ∀ b ∈ prev :: rest, Dbl.eqb (y a) (y b) = Dbl.eqb (y' a) (y' b)) →
    blockLoop y n last i prev rest numPairs m = blockLoop y' n last i prev rest numPairs m
  | [], _, _, _, _, _, _ => rfl
  | r :: rest, last, i, prev, numPairs, m, h => by
    have h1 : ∀ a ∈ r :: rest, ∀ b ∈ r :: rest, Dbl.eqb (y a) (y b) = Dbl.eqb (y' a) (y' b) := fun a ha b hb =>
      h a (List.mem_cons_of_mem _ ha) b (List.mem_cons_of_mem _ hb)
    unfold blockLoop
    rw [h prev (by simp) r (by simp)]
    split
    · exact blockLoop_congr n rest _ _ _ _ _ h1
    · exact blockLoop_congr n rest _ _ _ _ _ h1

theorem mkGroup_congr {sort : (Nat → D) → List Nat → List Nat} (hs : ComparisonSort sort) (hperm : DescSortSpec sort)
    {y y' : Nat → D} {l : List Nat}
    (h : ∀ a ∈ l, ∀ b ∈ l, Dbl.ltb (y a) (y b) = Dbl.ltb (y' a) (y' b) ∧ Dbl.eqb (y a) (y b) = Dbl.eqb (y' a) (y' b)) :
    mkGroup sort y l = mkGroup sort y' l := by
  have h1 : sort y l = sort y' l := hs _ _ _ (fun a ha b hb => (h a ha b hb).1)
  have h2 : l.any (fun i => !Dbl.eqb (y i) (y i)) = l.any (fun i => !Dbl.eqb (y' i) (y' i)) := by
    rw [Bool.eq_iff_iff, List.any_eq_true, List.any_eq_true]
    exact exists_congr (fun i => and_congr_right (fun hi => by rw [(h i hi i hi).2]))
  have hmem : ∀ a, a ∈ sort y l → a ∈ l := fun a ha => (hperm y l).1.mem_iff.mp ha
  unfold mkGroup sortDesc
  rw [h2, h1]
  rw [h1] at hmem
  split
  · rfl
  · simp only [ok_bind]
    cases hl : sort y' l with
    | nil => rfl
    | cons r rest =>
      simp only
      rw [blockLoop_congr (y' := y') _ rest _ _ _ _ _ (fun a ha b hb => (h a (hmem a (by rw [hl]; exact ha)) b
        (hmem b (by rw [hl]; exact hb))).2)]

theorem mapM_congr_mem {α β : Type} {f g : α → Outcome β} : ∀ {l : List α}, (∀ a ∈ l, f a = g a) → l.mapM f = l.mapM g
  | [], _ => rfl
  | a :: l, h => by
    rw [List.mapM_cons, List.mapM_cons, h a (by simp), mapM_congr_mem (fun b hb => h b (by simp [hb]))]

theorem mem_mapM {α β : Type} {f : α → Outcome β} {l : List α} {r : List β} (h : l.mapM f = ok r) {b : β} (hb : b ∈ r) :
    ∃ a ∈ l, f a = ok b := by
  induction l generalizing r with
  | nil =>
    rw [List.mapM_nil, pure_eq, Outcome.ok.injEq] at h
    subst h
    cases hb
  | cons a l ih =>
    simp only [List.mapM_cons, bind_eq_ok, pure_eq, Outcome.ok.injEq] at h
    obtain ⟨b1, h1, r1, h2, rfl⟩ := h
    rcases List.mem_cons.mp hb with rfl | hb
    · exact ⟨a, by simp, h1⟩
    · obtain ⟨a', h3, h4⟩ := ih h2 hb
      exact ⟨a', by simp [h3], h4⟩

/-- Rows of one group have the same string. -/
theorem rowGroups_same {t : DataStore A} {n : Nat} (hs : GoodStore n t) {name : String} {col : Option StrCol}
    (hcol : groupOrDie t.getColumn name = ok col) {groups : List (List Nat)} (hg : rowGroups n col = ok groups) :
    ∀ l ∈ groups, ∀ i ∈ l, i < n ∧ ∀ j ∈ l, InGroup t name i j := by
  unfold groupOrDie at hcol
  split at hcol
  · next hc =>
    rw [Outcome.ok.injEq] at hcol
    subst hcol
    rw [C56_no_column, Outcome.ok.injEq] at hg
    subst hg
    intro l hl i hi
    rw [List.mem_singleton.mp hl, List.mem_range] at hi
    exact ⟨hi, fun _ _ => Or.inl hc⟩
  · split at hcol
    · next sc hc =>
      rw [Outcome.ok.injEq] at hcol
      subst hcol
      cases hs.col hc with
      | str blocks hlen hsize =>
        have hrow := (C01_string_roundtrip blocks (by omega)).2
        by_cases hm : "__missing__" ∈ blocks.flatten
        · exfalso
          rw [rowGroups_missing (by omega) hm] at hg
          cases hg
        · obtain ⟨groups', k1, k2, _, k4⟩ := C56_groups blocks (by omega) hm n
          rw [k1, Outcome.ok.injEq] at hg
          subst hg
          intro l hl i hi
          have hin : ∀ i ∈ l, i < blocks.flatten.length := fun i hi =>
            List.mem_range.mp (k2.mem_iff.mp (List.mem_flatten.mpr ⟨l, hl, hi⟩))
          refine ⟨by rw [← hlen]; exact hin i hi, fun j hj => Or.inr ?_⟩
          obtain ⟨s, h1, h2⟩ := (k4 l hl i hi j).mp hj
          rw [List.getElem?_eq_getElem (hin j hj), Option.some.injEq] at h1
          rw [List.getElem?_eq_getElem (hin i hi), Option.some.injEq] at h2
          exact ⟨_, s, hc, by rw [hrow i (hin i hi), h2], by rw [hrow j (hin j hj), h1]⟩
    · cases hcol

/-! ## Gradients -/

/-- Two losses that differ in nothing but the targets. -/
abbrev PairLoss.withTargets (e : PairLoss D) (y' : Nat → D) : PairLoss D := { e with y := y' }

/-- What the gradients use of the targets: nothing, or their differences. -/
def UsesOf (e : PairLoss D) (y' : Nat → D) (g : Group) : Prop :=
  (e.byDelta = false ∧ ∀ dy dy' df, e.lossFn dy df = e.lossFn dy' df) ∨
    ∀ i ∈ g.rows, ∀ j ∈ g.rows, e.rnd32 (e.y i - e.y j) = e.rnd32 (y' i - y' j)

theorem pairStep_congr {e : PairLoss D} (hd : e.discount = none) {y' : Nat → D} {g : Group} (hu : UsesOf e y' g) (f : List D)
    (factor : D) (index : Nat) (grads : List (GD D)) :
    pairStep e f g factor index grads = pairStep (e.withTargets y') f g factor index grads := by
  unfold pairStep
  refine bind_congr_ok (fun ab _ => ?_)
  obtain ⟨a, b⟩ := ab
  refine bind_congr_ok (fun pos hpos => ?_)
  refine bind_congr_ok (fun neg hneg => ?_)
  have hp : pos ∈ g.rows := List.mem_of_getElem? (vecGet_eq_ok.mp hpos)
  have hn : neg ∈ g.rows := List.mem_of_getElem? (vecGet_eq_ok.mp hneg)
  have h1 : pairWeight e g a b = pairWeight (e.withTargets y') g a b := by
    unfold pairWeight
    simp only [hd]
    split
    · next hb =>
      rw [hpos, hneg]
      simp only [ok_bind]
      rcases hu with ⟨h, _⟩ | h
      · rw [h] at hb; cases hb
      · rw [h pos hp neg hn]
    · rfl
  have h2 : ∀ df, e.lossFn (e.rnd32 (e.y pos - e.y neg)) df = e.lossFn (e.rnd32 (y' pos - y' neg)) df := by
    intro df
    rcases hu with ⟨_, h⟩ | h
    · exact h _ _ _
    · rw [h pos hp neg hn]
  rw [h1]
  simp only [h2]

theorem pairLoop_congr {e : PairLoss D} (hd : e.discount = none) {y' : Nat → D} {g : Group} (hu : UsesOf e y' g) (f : List D)
    (factor : D) (draw : Nat → Nat) : ∀ (left i : Nat) (grads : List (GD D)),
    pairLoop e f g factor draw left i grads = pairLoop (e.withTargets y') f g factor draw left i grads
  | 0, _, _ => rfl
  | left + 1, i, grads => by
    unfold pairLoop
    rw [pairStep_congr hd hu]
    exact bind_congr_ok (fun r _ => pairLoop_congr hd hu f factor draw left (i + 1) r)

theorem pairGroup_keeps {e : PairLoss D} (hr : e.rerank = false) {s : PairState D} {f : List D} {index : Nat} {grads : List (GD D)}
    {r : Group × List (GD D)} (h : pairGroup e s f index grads = ok r) : s.groups[index]? = some r.1 := by
  simp only [pairGroup, hr, Bool.false_eq_true, if_false, pure_eq, ok_bind, bind_eq_ok, Outcome.ok.injEq] at h
  obtain ⟨g, h1, _, _, _, _, rfl⟩ := h
  exact vecGet_eq_ok.mp h1

theorem pairGroups_congr {e : PairLoss D} (hd : e.discount = none) (hr : e.rerank = false) {y' : Nat → D} (f : List D) :
    ∀ (order : List Nat) (s : PairState D) (grads : List (GD D)), (∀ g ∈ s.groups, UsesOf e y' g) →
    pairGroups e f order s grads = pairGroups (e.withTargets y') f order s grads ∧
      ∀ r, pairGroups e f order s grads = ok r → r.1.groups = s.groups
  | [], s, grads, _ => ⟨rfl, fun r h => by cases h; rfl⟩
  | index :: rest, s, grads, hu => by
    have h1 : pairGroup e s f index grads = pairGroup (e.withTargets y') s f index grads := by
      unfold pairGroup
      refine bind_congr_ok (fun g hg => ?_)
      have hmem : g ∈ s.groups := List.mem_of_getElem? (vecGet_eq_ok.mp hg)
      simp only [hr, Bool.false_eq_true, if_false, pure_eq, ok_bind]
      refine bind_congr_ok (fun m _ => ?_)
      rw [pairLoop_congr hd (hu g hmem)]
      rfl
    have hkeep : ∀ r, pairGroup e s f index grads = ok r → s.groups.set index r.1 = s.groups := by
      intro r hr'
      have := pairGroup_keeps hr hr'
      apply List.ext_getElem?
      intro k
      by_cases hk : index = k
      · subst hk
        rw [this, List.getElem?_set_self (List.getElem?_eq_some_iff.mp this).1]
      · rw [List.getElem?_set_ne hk]
    constructor
    · unfold pairGroups
      rw [← h1]
      refine bind_congr_ok (fun r hr' => ?_)
      simp only
      rw [hkeep r hr']
      exact (pairGroups_congr hd hr f rest _ _ hu).1
    · intro r h
      unfold pairGroups at h
      rw [bind_eq_ok] at h
      obtain ⟨r1, h2, h3⟩ := h
      simp only [hkeep r1 h2] at h3
      exact (pairGroups_congr hd hr f rest _ _ hu).2 r h3

theorem pairCompute_congr {e : PairLoss D} (hd : e.discount = none) (hr : e.rerank = false) {y' : Nat → D} {s : PairState D}
    (hu : ∀ g ∈ s.groups, UsesOf e y' g) (f : List D) :
    pairCompute e s f = pairCompute (e.withTargets y') s f ∧
      ∀ r, pairCompute e s f = ok r → r.1.groups = s.groups := by
  obtain ⟨h1, h2⟩ := pairGroups_congr hd hr f (s.slices.flatMap (fun sl => List.range' sl.1 (sl.2 - sl.1))) s
    (List.replicate f.length ⟨0, 0⟩) hu
  constructor
  · unfold pairCompute
    simp only [h1]
  · intro r h
    simp only [pairCompute, bind_eq_ok, pure_eq, Outcome.ok.injEq] at h
    obtain ⟨⟨s1, g1⟩, h3, rfl⟩ := h
    exact h2 _ h3

/-! ## Training -/

/-- The training loop asks the loss only about states that it can get into. -/
theorem trainLoop_congr_inv {S : Type} {env : TrainEnv D A} {loss loss' : LossFunc S D} (I : S → Prop)
    (hc : ∀ s f, I s → loss.compute s f = loss'.compute s f ∧ ∀ r, loss.compute s f = ok r → I r.1)
    (features : List (String × Column A)) (cfg : TrainConfig D) (ct : Nat) : ∀ (left : Nat) (s : TrainState S D A), I s.loss →
      trainLoop env loss features cfg ct left s = trainLoop env loss' features cfg ct left s
  | 0, _, _ => rfl
  | left + 1, s, hs => by
    obtain ⟨h1, h2⟩ := hc s.loss s.f hs
    unfold trainLoop
    rw [← h1]
    refine bind_congr_ok (fun r hr => ?_)
    simp only
    split
    · rfl
    · refine bind_congr_ok (fun r1 _ => ?_)
      refine bind_congr_ok (fun r2 _ => ?_)
      exact trainLoop_congr_inv I hc features cfg ct left _ (h2 r hr)

theorem trainGBDT_targets {env : TrainEnv D A} {e : PairLoss D} {y' : Nat → D} (hd : e.discount = none) (hr : e.rerank = false)
    (hsort : ComparisonSort e.sort) (hdesc : DescSortSpec e.sort) (cfg : TrainConfig D)
    (h : ∀ col groups, groupOrDie env.columns cfg.groupColumn = ok col → rowGroups env.numRows col = ok groups → ∀ l ∈ groups,
      (∀ a ∈ l, ∀ b ∈ l, Dbl.ltb (e.y a) (e.y b) = Dbl.ltb (y' a) (y' b) ∧ Dbl.eqb (e.y a) (e.y b) = Dbl.eqb (y' a) (y' b)) ∧
      ((e.byDelta = false ∧ ∀ dy dy' df, e.lossFn dy df = e.lossFn dy' df) ∨
        ∀ a ∈ l, ∀ b ∈ l, e.rnd32 (e.y a - e.y b) = e.rnd32 (y' a - y' b)))
    (names : List String) (base : Option (List (Tree D A))) (forest : List (Tree D A)) (p : Nat) :
    trainGBDT env e.toLoss names cfg base forest p = trainGBDT env (e.withTargets y').toLoss names cfg base forest p := by
  unfold trainGBDT
  split
  · rfl
  · split
    · rfl
    · refine bind_congr_ok (fun col hcol => ?_)
      have hinit : e.toLoss.init env.numRows col = (e.withTargets y').toLoss.init env.numRows col := by
        simp only [PairLoss.toLoss, pairInit]
        split
        · rfl
        · refine bind_congr_ok (fun groups hg => ?_)
          rw [mapM_congr_mem (fun l hl => mkGroup_congr hsort hdesc (h col groups hcol hg l hl).1)]
      rw [← hinit]
      refine bind_congr_ok (fun i hi => ?_)
      split
      · rfl
      · next ls =>
        have huse : ∀ g ∈ ls.groups, UsesOf e y' g := by
          have hi' : pairInit e env.numRows col = ok (.ok ls) := hi
          unfold pairInit at hi'
          split at hi'
          · cases hi'
          · simp only [bind_eq_ok, pure_eq, Outcome.ok.injEq, Except.ok.injEq] at hi'
            obtain ⟨rows, hrows, groups, hgroups, _, _, rfl⟩ := hi'
            intro g hg
            obtain ⟨l, hl, hmk⟩ := mem_mapM hgroups hg
            rcases (h col rows hcol hrows l hl).2 with h2 | h2
            · exact Or.inl h2
            · right
              have hperm := (mkGroup_ranks hdesc hmk).2
              exact fun a ha b hb => h2 a (hperm.mem_iff.mp ha) b (hperm.mem_iff.mp hb)
        refine bind_congr_ok (fun sl _ => ?_)
        refine bind_congr_ok (fun r _ => ?_)
        simp only
        rw [trainLoop_congr_inv (fun s : PairState D => ∀ g ∈ s.groups, UsesOf e y' g) (loss := e.toLoss)
          (loss' := (e.withTargets y').toLoss) ?_ _ _ _ _ _ huse]
        intro s f hs
        obtain ⟨h3, h4⟩ := pairCompute_congr hd hr hs f
        exact ⟨h3, fun r hr => by rw [h4 r hr]; exact hs⟩

theorem pyTrain_targets (mc : Machine D A) (t : DataStore A) (c : Config D) {y y' : List (Fl A)} (hlen : y.length = y'.length)
    (hne : y ≠ []) (features : List String) (w : List (Fl A)) (base : Option (List (Tree D A))) (seed nt : Int)
    (h : t ≠ [] → ∀ fl ca names wf, trainPyRun mc t { c with floatFeature := fl, catFeature := ca } wf (vecFn mc y) base seed nt names =
      trainPyRun mc t { c with floatFeature := fl, catFeature := ca } wf (vecFn mc y') base seed nt names) :
    pyTrain mc (some t) c y features w base seed nt = pyTrain mc (some t) c y' features w base seed nt := by
  have hne' : y' ≠ [] := by
    rintro rfl
    exact hne (List.length_eq_zero_iff.mp hlen)
  unfold pyTrain trainPyFull
  simp only
  split
  · rfl
  · have h1 : wrongLength (some t) y = wrongLength (some t) y' := by
      unfold wrongLength
      rw [if_neg hne, if_neg hne', hlen]
    rw [h1]
    refine bind_congr_ok (fun b hb => ?_)
    split
    · rfl
    · next hfalse =>
      have ht : t ≠ [] := by
        rintro rfl
        unfold wrongLength at hb
        rw [if_neg hne'] at hb
        have : (0 != y'.length) = b := by
          have h2 : (ok (0 != y'.length) : Outcome Bool) = ok b := hb
          cases h2
          rfl
        rw [← this] at hfalse
        simp only [bne_iff_ne, ne_eq, not_not] at hfalse
        exact hne' (List.length_eq_zero_iff.mp hfalse.symm)
      refine bind_congr_ok (fun b _ => ?_)
      split
      · rfl
      · unfold trainPyTargets
        rw [if_pos hne, if_pos hne']
        exact h ht _ _ _ _

theorem C114_of {mc : Machine D A} (hsort : ComparisonSort mc.descSort) (hdesc : DescSortSpec mc.descSort) {t : DataStore A} {n : Nat}
    (hs : GoodStore n t) {c : Config D} (hl : c.lossFunc ∈ ["auc", "pairwise_logloss", "gbrank"]) {y y' : List (Fl A)}
    (hy : y.length = n) (hy' : y'.length = n) (horder : SameOrder mc t c.groupColumn y y')
    (huse : (c.byDelta = false ∧ c.lossFunc ≠ "gbrank") ∨ SameDifferences mc t c.groupColumn y y') (w : List (Fl A))
    (features : List String) (base : Option (List (Tree D A))) (seed nt : Int) :
    pyTrain mc (some t) c y features w base seed nt = pyTrain mc (some t) c y' features w base seed nt := by
  by_cases hne : y = []
  · have : y' = [] := List.length_eq_zero_iff.mp (by rw [hy', ← hy, hne]; rfl)
    rw [hne, this]
  · refine pyTrain_targets mc t c (hy.trans hy'.symm) hne features w base seed nt (fun ht fl ca names wf => ?_)
    unfold trainPyRun
    rw [withLoss_pair mc seed nt (c := { c with floatFeature := fl, catFeature := ca }) hl,
      withLoss_pair mc seed nt (c := { c with floatFeature := fl, catFeature := ca }) hl]
    simp only
    split
    · rfl
    · rw [hs.numRows ht, ok_bind, ok_bind]
      congr 1
      refine trainGBDT_targets (e := mkPair mc { c with floatFeature := fl, catFeature := ca } seed nt wf (vecFn mc y) false
        (pairFormula mc c.lossFunc) none) rfl rfl hsort hdesc _ ?_ _ _ _ _
      intro col groups hcol hg l hmem
      have hin := rowGroups_same (name := c.groupColumn) hs hcol hg l hmem
      have hval : ∀ i ∈ l, ∃ a a', y[i]? = some a ∧ y'[i]? = some a' ∧ vecFn mc y i = mc.toD a ∧ vecFn mc y' i = mc.toD a' := by
        intro i hi
        have h1 := (hin i hi).1
        have g1 := List.getElem?_eq_getElem (l := y) (i := i) (by omega)
        have g2 := List.getElem?_eq_getElem (l := y') (i := i) (by omega)
        refine ⟨_, _, g1, g2, ?_, ?_⟩
        · simp [vecFn, List.getD_eq_getElem?_getD, g1]
        · simp [vecFn, List.getD_eq_getElem?_getD, g2]
      constructor
      · intro i hi j hj
        obtain ⟨a, a', h1, h2, h3, h4⟩ := hval i hi
        obtain ⟨b, b', k1, k2, k3, k4⟩ := hval j hj
        show Dbl.ltb (vecFn mc y i) (vecFn mc y j) = _ ∧ Dbl.eqb (vecFn mc y i) (vecFn mc y j) = _
        rw [h3, k3, h4, k4]
        exact horder i j a b a' b' ((hin i hi).2 j hj) h1 k1 h2 k2
      · rcases huse with ⟨u1, u2⟩ | u
        · left
          refine ⟨u1, fun dy dy' df => ?_⟩
          show pairFormula mc c.lossFunc dy df = pairFormula mc c.lossFunc dy' df
          unfold pairFormula
          split
          · rfl
          · split
            · rfl
            · simp only [List.mem_cons, List.not_mem_nil, or_false] at hl
              rcases hl with hl | hl | hl <;> contradiction
        · right
          intro i hi j hj
          obtain ⟨a, a', h1, h2, h3, h4⟩ := hval i hi
          obtain ⟨b, b', k1, k2, k3, k4⟩ := hval j hj
          show mc.rnd32 (vecFn mc y i - vecFn mc y j) = mc.rnd32 (vecFn mc y' i - vecFn mc y' j)
          rw [h3, k3, h4, k4]
          exact u i j a b a' b' ((hin i hi).2 j hj) h1 k1 h2 k2

/-- **C114 (order).** With auc or pairwise_logloss, unless pairs are weighted by the difference of their targets, `train` uses nothing of
the targets but the order of the rows within each group: two lists of targets that order the rows of each group alike lead to the
same forest, the same exception or the same crash, bit for bit in any arithmetic. -/
theorem C114_order_only {mc : Machine D A} (hsort : ComparisonSort mc.descSort) (hdesc : DescSortSpec mc.descSort) {t : DataStore A}
    {n : Nat} (hs : GoodStore n t) {c : Config D} (hl : c.lossFunc ∈ ["auc", "pairwise_logloss"]) (hdelta : c.byDelta = false)
    {y y' : List (Fl A)} (hy : y.length = n) (hy' : y'.length = n) (horder : SameOrder mc t c.groupColumn y y') (w : List (Fl A))
    (features : List String) (base : Option (List (Tree D A))) (seed nt : Int) :
    pyTrain mc (some t) c y features w base seed nt = pyTrain mc (some t) c y' features w base seed nt := by
  refine C114_of hsort hdesc hs (by simp only [List.mem_cons, List.not_mem_nil, or_false] at hl ⊢; tauto) hy hy' horder
    (Or.inl ⟨hdelta, ?_⟩) w features base seed nt
  rintro h
  rw [h] at hl
  revert hl
  decide

/-- **C114 (differences).** With any of the three losses for ranking and any option, `train` uses nothing of the targets but their
order and their differences, within each group. -/
theorem C114_differences_only {mc : Machine D A} (hsort : ComparisonSort mc.descSort) (hdesc : DescSortSpec mc.descSort)
    {t : DataStore A} {n : Nat} (hs : GoodStore n t) {c : Config D} (hl : c.lossFunc ∈ ["auc", "pairwise_logloss", "gbrank"])
    {y y' : List (Fl A)} (hy : y.length = n) (hy' : y'.length = n) (horder : SameOrder mc t c.groupColumn y y')
    (hdiff : SameDifferences mc t c.groupColumn y y') (w : List (Fl A)) (features : List String) (base : Option (List (Tree D A)))
    (seed nt : Int) :
    pyTrain mc (some t) c y features w base seed nt = pyTrain mc (some t) c y' features w base seed nt :=
  C114_of hsort hdesc hs hl hy hy' horder (Or.inr hdiff) w features base seed nt

end order

section exact
variable {K A : Type} [Field K] [LinearOrder K] [IsStrictOrderedRing K] [LinearOrder A] [ThrOps A]

/-- **C114 (shift).** In exact arithmetic, adding a number to all targets of a group, for each group its own, does not change what `train`
does with any of the three losses for ranking, whatever the options. -/
theorem C114_shift {mc : Machine K A} (hsort : ComparisonSort mc.descSort) (hdesc : DescSortSpec mc.descSort) {t : DataStore A} {n : Nat}
    (hs : GoodStore n t) {c : Config K} (hl : c.lossFunc ∈ ["auc", "pairwise_logloss", "gbrank"]) {y y' : List (Fl A)}
    (hy : y.length = n) (hy' : y'.length = n) (shift : Nat → K) (hgroup : ∀ i < n, ∀ j < n, InGroup t c.groupColumn i j → shift i = shift j)
    (hshift : ∀ (i : Nat) a a', y[i]? = some a → y'[i]? = some a' → mc.toD a' = mc.toD a + shift i) (w : List (Fl A))
    (features : List String) (base : Option (List (Tree K A))) (seed nt : Int) :
    pyTrain mc (some t) c y features w base seed nt = pyTrain mc (some t) c y' features w base seed nt := by
  have hlt : ∀ {i : Nat} {a : Fl A}, y[i]? = some a → i < n := fun h => by
    rw [← hy]
    exact (List.getElem?_eq_some_iff.mp h).1
  refine C114_differences_only hsort hdesc hs hl hy hy' ?_ ?_ w features base seed nt
  · intro i j a b a' b' hij ha hb ha' hb'
    rw [hshift i a a' ha ha', hshift j b b' hb hb', hgroup i (hlt ha) j (hlt hb) hij]
    simp
  · intro i j a b a' b' hij ha hb ha' hb'
    rw [hshift i a a' ha ha', hshift j b b' hb hb', hgroup i (hlt ha) j (hlt hb) hij]
    congr 1
    ring

end exact

/-! ## Examples -/

theorem ratDescSort_comparison : ComparisonSort ratDescSort := by
  intro key key' l h
  have hle : ∀ a ∈ l, ∀ b ∈ l, (key b ≤ key a ↔ key' b ≤ key' a) := by
    intro a ha b hb
    have := h a ha b hb
    simp only [Dbl.ltb, decide_eq_decide] at this
    rw [← not_lt, ← not_lt, this]
  unfold ratDescSort
  clear h
  induction l with
  | nil => rfl
  | cons x l ih =>
    rw [List.insertionSort_cons, List.insertionSort_cons,
      ih (fun a ha b hb => hle a (List.mem_cons_of_mem _ ha) b (List.mem_cons_of_mem _ hb))]
    have hmem : ∀ a ∈ l.insertionSort (fun a b => key' b ≤ key' a), a ∈ l := fun a ha =>
      (List.perm_insertionSort _ _).mem_iff.mp ha
    generalize l.insertionSort (fun a b => key' b ≤ key' a) = m at hmem
    induction m with
    | nil => rfl
    | cons z m ih2 =>
      rw [List.orderedInsert_cons, List.orderedInsert_cons]
      have hz := hle x (by simp) z (List.mem_cons_of_mem _ (hmem z (by simp)))
      by_cases hk : key z ≤ key x
      · rw [if_pos hk, if_pos (hz.mp hk)]
      · rw [if_neg hk, if_neg (fun h => hk (hz.mpr h)), ih2 (fun a ha => hmem a (by simp [ha]))]

/-- Targets for the five rows of C87, of which the first two are one team and the others another; and targets that order each team in the
same way, but not the rows of different teams. -/
def orderTargets : List (Fl ℚ) := [.num 1, .num 4, .num 2, .num 7, .num 3]
def orderTargets' : List (Fl ℚ) := [.num 10, .num 11, .num 20, .num 300, .num 25]

/-- Three more than `orderTargets` for one team, five less for the other. -/
def shiftTargets : List (Fl ℚ) := [.num 4, .num 7, .num (-3), .num 2, .num (-2)]

def orderCfg (loss : String) (delta : Bool) : Config ℚ := { rankCfg loss with byDelta := delta }

/-- What the group column says, as a test. -/
def teamTest (t : DataStore ℚ) : Bool :=
  match t.getColumn "team" with
  | some (.str g) => (List.range 5).all (fun i => (List.range 5).all (fun j => match g.rowString i, g.rowString j with
    | .ok a, .ok b => decide (a = b) == decide ((i < 2) ↔ (j < 2))
    | _, _ => false))
  | _ => false

example : (match pyDict id with | .ok (.ok (some t)) => teamTest t | _ => false) = true := by decide +kernel

theorem teamTest_spec {t : DataStore ℚ} (h : teamTest t = true) {i j : Nat} (hi : i < 5) (hj : j < 5) (hij : InGroup t "team" i j) :
    (i < 2) ↔ (j < 2) := by
  rcases hij with h0 | ⟨col, x, h1, h2, h3⟩
  · exact absurd h0 (by decide)
  · simp only [teamTest, h1, List.all_eq_true, List.mem_range] at h
    have := h i hi j hj
    simp only [h2, h3] at this
    simpa using this

theorem lt_five {l : List (Fl ℚ)} (hl : l.length = 5) {i : Nat} {a : Fl ℚ} (h : l[i]? = some a) : i < 5 := by
  rw [← hl]
  exact (List.getElem?_eq_some_iff.mp h).1

/-- The hypotheses of `C114_order_only` hold for those targets. -/
theorem orderTargets_same {t : DataStore ℚ} (h : teamTest t = true) : SameOrder rankMachine t "team" orderTargets orderTargets' := by
  intro i j a b a' b' hij ha hb ha' hb'
  have hi := lt_five (by decide) ha
  have hj := lt_five (by decide) hb
  have hg := teamTest_spec h hi hj hij
  have key : ∀ i < 5, ∀ j < 5, ((i < 2) ↔ (j < 2)) → (match orderTargets[i]?, orderTargets[j]?, orderTargets'[i]?, orderTargets'[j]? with
    | some a, some b, some a', some b' =>
      decide (Dbl.ltb (rankMachine.toD a) (rankMachine.toD b) = Dbl.ltb (rankMachine.toD a') (rankMachine.toD b') ∧
        Dbl.eqb (rankMachine.toD a) (rankMachine.toD b) = Dbl.eqb (rankMachine.toD a') (rankMachine.toD b'))
    | _, _, _, _ => false) = true := by decide +kernel
  have := key i hi j hj hg
  rw [ha, hb, ha', hb'] at this
  exact of_decide_eq_true this

example {t : DataStore ℚ} (h : pyDict id = ok (.ok (some t))) (ht : teamTest t = true) {loss : String}
    (hl : loss ∈ ["auc", "pairwise_logloss"]) (features : List String) (base : Option (List (Tree ℚ ℚ))) (seed nt : Int) :
    pyTrain rankMachine (some t) (orderCfg loss false) orderTargets features [] base seed nt =
      pyTrain rankMachine (some t) (orderCfg loss false) orderTargets' features [] base seed nt :=
  C114_order_only ratDescSort_comparison ratDescSort_spec (pyDict_store h).1 hl rfl rfl rfl (orderTargets_same ht) _ _ _ _ _

/-- The hypotheses of `C114_shift` hold for the shifted targets. -/
example {t : DataStore ℚ} (h : pyDict id = ok (.ok (some t))) (ht : teamTest t = true) {loss : String}
    (hl : loss ∈ ["auc", "pairwise_logloss", "gbrank"]) (features : List String) (base : Option (List (Tree ℚ ℚ))) (seed nt : Int) :
    pyTrain rankMachine (some t) (orderCfg loss true) orderTargets features [] base seed nt =
      pyTrain rankMachine (some t) (orderCfg loss true) shiftTargets features [] base seed nt := by
  refine C114_shift (n := 5) ratDescSort_comparison ratDescSort_spec (pyDict_store h).1 hl rfl rfl
    (fun i => if i < 2 then 3 else -5) ?_ ?_ _ _ _ _ _
  · intro i hi j hj hij
    exact if_congr (teamTest_spec ht hi hj hij) rfl rfl
  · intro i a a' ha ha'
    have hi := lt_five (by decide) ha
    have key : ∀ i < 5, (match orderTargets[i]?, shiftTargets[i]? with
      | some a, some a' => decide (rankMachine.toD a' = rankMachine.toD a + (if i < 2 then 3 else -5))
      | _, _ => false) = true := by decide +kernel
    have := key i hi
    rw [ha, ha'] at this
    exact of_decide_eq_true this

/-- The scores of the training rows. -/
def orderScores (loss : String) (delta : Bool) (y : List (Fl ℚ)) : List ℚ :=
  match pyDict id with
  | .ok (.ok (some t)) => match pyTrain rankMachine (some t) (orderCfg loss delta) y ["size", "color"] [] none 0 2 with
    | .ok (.ok forest) => match pyPredict (some t) forest 2 with
      | .ok (.ok scores) => scores
      | _ => []
    | _ => []
  | _ => []

/-- Training does learn from those targets; gbrank, and weighting pairs by the difference of their targets, do use more than the order. -/
example : orderScores "auc" false orderTargets = orderScores "auc" false orderTargets' ∧
    orderScores "auc" false orderTargets ≠ [0, 0, 0, 0, 0] ∧ (orderScores "auc" false orderTargets).length = 5 ∧
    orderScores "auc" true orderTargets ≠ orderScores "auc" true orderTargets' ∧
    orderScores "gbrank" false orderTargets ≠ orderScores "gbrank" false orderTargets' ∧
    orderScores "gbrank" true orderTargets = orderScores "gbrank" true shiftTargets := by decide +kernel

end Gbdt
