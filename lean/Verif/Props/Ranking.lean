import Verif.Props.Pipeline
import Verif.Props.PairCounts

/-!
# C112, C113: learning to rank from Python

Specification of C113: `rankSlopes` are the derivatives of the losses as functions of the difference of two scores, `RankRound`
says what the gradients of a round are, `RankBoosts` how trees are fitted to them.
-/

set_option autoImplicit false
set_option linter.unusedSectionVars false

namespace Gbdt

open Outcome

/-! ## The losses -/

section losses
variable {D A : Type} [Dbl D] [LinearOrder A]

/-- The formula of a pairwise loss, as `CreateLossFunc` chooses it. -/
def pairFormula (mc : Machine D A) (name : String) : D → D → D × D × D :=
  if name = "auc" then fun _ df => huberizedHinge mc.math mc.math.one df
  else if name = "pairwise_logloss" then fun _ df => logLoss mc.math mc.math.one df
  else squaredHinge mc.math

/-- The losses that look at pairs of rows, but for LambdaMART. -/
theorem withLoss_pair (mc : Machine D A) {c : Config D} (seed nt : Int) (hl : c.lossFunc ∈ ["auc", "pairwise_logloss", "gbrank"])
    {R : Type} (k : ∀ S : Type, ((w y : Nat → D) → LossFunc S D) → Outcome R) :
    withLoss mc c seed nt k =
      some (k _ (fun w y => (mkPair mc c seed nt w y false (pairFormula mc c.lossFunc) none).toLoss)) := by
  simp only [List.mem_cons, List.not_mem_nil, or_false] at hl
  rcases hl with h | h | h
  · simp [withLoss, h, pairFormula]
  · simp [withLoss, h, pairFormula]
  · simp [withLoss, h, pairFormula]

theorem pairInit_code {e : PairLoss D} {n : Nat} {g : Option StrCol} {code : Code} (h : pairInit e n g = ok (.error code)) :
    code = .invalidArgument ∧ Dbl.leb e.rate 0 = true := by
  unfold pairInit at h
  split at h
  · next hle => cases h; exact ⟨rfl, hle⟩
  · simp only [bind_eq_ok] at h
    obtain ⟨_, _, _, _, _, _, h⟩ := h
    simp [pure_eq] at h

theorem pairCompute_constant {e : PairLoss D} {s s' : PairState D} {f : List D} {c : D} {grads : List (GD D)}
    (h : pairCompute e s f = ok (s', c, grads)) : c = 0 := by
  rw [pairCompute, bind_eq_ok] at h
  obtain ⟨⟨s1, g1⟩, _, h2⟩ := h
  simp only [pure_eq, Outcome.ok.injEq, Prod.mk.injEq] at h2
  exact h2.2.1.symm

end losses

/-! ## What `train` comes down to, whatever the loss -/

section shape
variable {D A : Type} [Dbl D] [FpOrder D] [EqOrder D] [LinearOrder A] [ThrOps A]

/-- The configuration with the features that `train` puts into it. -/
def Config.withFeatures (c : Config D) (t : DataStore A) (features : List String) : Config D :=
  { c with
    floatFeature := (namesOfType (some t) .bucketized).filter (fun n => features.contains n)
    catFeature := (namesOfType (some t) .string).filter (fun n => features.contains n) }

/-- The features that `train` hands on. -/
def featureNames (t : DataStore A) (features : List String) : List String :=
  (namesOfType (some t) .string).filter (fun n => features.contains n) ++
    (namesOfType (some t) .bucketized).filter (fun n => features.contains n)

/-- A status other than success and divergence of `TrainPy` is an exception. -/
theorem raise_error {α : Type} (e : Code) (k : PyRes α) (he : e ∈ [Code.invalidArgument, .notFound, .internal]) :
    ∃ x, raise e k = ok (.error x) := by
  simp only [List.mem_cons, List.not_mem_nil, or_false] at he
  rcases he with rfl | rfl | rfl <;> exact ⟨_, rfl⟩

/-- `train` raises, or goes on to the loss with the targets and weights it was given. -/
theorem pyTrain_shape (mc : Machine D A) {t : DataStore A} {n : Nat} (hs : GoodStore n t) (c : Config D)
    (base : Option (List (Tree D A))) (nt : Int) (y w : List (Fl A)) (features : List String) (seed : Int) :
    (∃ e, pyTrain mc (some t) c y features w base seed nt = ok (.error e)) ∨
      (∀ name ∈ features, IsFeature (some t) name) ∧
      (y ≠ [] → t ≠ [] → y.length = n) ∧ (w ≠ [] → t ≠ [] → w.length = n) ∧
      pyTrain mc (some t) c y features w base seed nt = trainPyRun mc t (c.withFeatures t features) (weightFn mc w)
        (targetFn mc t c y) base seed nt (featureNames t features) := by
  unfold pyTrain
  simp only
  split
  · exact Or.inl ⟨_, rfl⟩
  · next hmiss =>
    have hknown : ∀ name ∈ features, IsFeature (some t) name := by
      rw [anyMissing_iff (s := some t) hs.names features] at hmiss
      intro name hname
      by_contra h
      exact hmiss ⟨name, hname, h⟩
    unfold trainPyFull
    rw [wrongLength_ok (len_of hs), ok_bind, wrongLength_ok (len_of hs)]
    generalize hm : (if t = [] then 0 else n) = m
    simp only [ok_bind]
    split
    · exact Or.inl (raise_error _ _ (by simp))
    · next h1 =>
      split
      · exact Or.inl (raise_error _ _ (by simp))
      · next h2 =>
        simp only [decide_eq_true_eq, not_and, not_not] at h1 h2
        have htarget : (∃ e, trainPyTargets mc (some t) (c.withFeatures t features) y = ok (.error e)) ∨
            trainPyTargets mc (some t) (c.withFeatures t features) y = ok (.ok (targetFn mc t c y)) := by
          unfold trainPyTargets targetFn
          split
          · exact Or.inr rfl
          · split
            · exact Or.inl (raise_error _ _ (by simp))
            · simp only
              show (∃ e, (match t.getRaw c.targetColumn with
                | none => raise .invalidArgument .ub
                | some col => ok (.ok (vecFn mc col.raw))) = _) ∨ (match t.getRaw c.targetColumn with
                | none => raise .invalidArgument .ub
                | some col => ok (.ok (vecFn mc col.raw))) = _
              cases hcol : t.getRaw c.targetColumn with
              | none => exact Or.inl (raise_error _ _ (by simp))
              | some col => exact Or.inr rfl
        rcases htarget with ⟨e, he⟩ | hok
        · left
          refine ⟨e, ?_⟩
          have : trainPyTargets mc (some t) { c with
              floatFeature := (namesOfType (some t) .bucketized).filter (fun n => features.contains n)
              catFeature := (namesOfType (some t) .string).filter (fun n => features.contains n) } y = ok (.error e) := he
          rw [this]
          rfl
        · right
          refine ⟨hknown, fun h h' => ?_, fun h h' => ?_, ?_⟩
          · have := h1 h; rw [if_neg h'] at hm; omega
          · have := h2 h; rw [if_neg h'] at hm; omega
          · have : trainPyTargets mc (some t) { c with
                floatFeature := (namesOfType (some t) .bucketized).filter (fun n => features.contains n)
                catFeature := (namesOfType (some t) .string).filter (fun n => features.contains n) } y =
                ok (.ok (targetFn mc t c y)) := hok
            rw [this]
            rfl

/-- With everything in order, `train` goes on to the loss. -/
theorem pyTrain_run (mc : Machine D A) {t : DataStore A} {n : Nat} (hs : GoodStore n t) {c : Config D} {y w : List (Fl A)}
    {features : List String} (hv : ValidCall mc t n { c with lossFunc := "mse" } y w features) (base : Option (List (Tree D A)))
    (seed nt : Int) :
    featureNames t features ≠ [] ∧ checkConfig (mc.ofNat 1) (c.train mc (mc.ofNat 1)) = .ok ∧
    pyTrain mc (some t) c y features w base seed nt = trainPyRun mc t (c.withFeatures t features) (weightFn mc w)
        (targetFn mc t c y) base seed nt (featureNames t features) := by
  have hfound : ¬ ∃ name ∈ features, ¬ IsFeature (some t) name := by
    rintro ⟨name, h1, h2⟩
    exact h2 (hv.known name h1)
  have hmiss := (anyMissing_iff (s := some t) hs.names features).not.mpr hfound
  obtain ⟨f0, hf0⟩ := List.exists_mem_of_ne_nil _ hv.some
  have hne' : t ≠ [] := by
    rintro rfl
    obtain ⟨c, h, _⟩ := hv.known f0 hf0
    cases h
  have hfsmem : ∀ name, name ∈ featureNames t features ↔ name ∈ features := fun name =>
    (mem_features (s := some t) hs.names).trans ⟨fun h => h.1, fun h => ⟨h, hv.known _ h⟩⟩
  have hne : featureNames t features ≠ [] := List.ne_nil_of_mem ((hfsmem f0).mpr hf0)
  refine ⟨hne, ?_, ?_⟩
  · unfold checkConfig
    rw [if_neg (by have := hv.trees; simp only [Config.train] at *; omega),
      if_neg (by have := hv.leaves; simp only [Config.train] at *; omega)]
    have e1 := hv.exampleRate
    have e2 := hv.featureRate
    simp only [Config.train, not_leb_of_pos e1.1, e1.2, not_leb_of_pos e2.1, e2.2, Bool.or_self, Bool.false_eq_true, if_false]
  · unfold pyTrain
    simp only
    rw [if_neg hmiss]
    unfold trainPyFull
    rw [wrongLength_ok (len_of hs), ok_bind, wrongLength_ok (len_of hs), if_neg hne']
    have h1 : ¬ (y ≠ [] ∧ n ≠ y.length) := by
      rintro ⟨h1, h2⟩
      rcases hv.targets with h | h
      · exact h2 h.2.symm
      · exact h1 h.1
    have h2 : ¬ (w ≠ [] ∧ n ≠ w.length) := by
      rintro ⟨h1, h2⟩
      rcases hv.weights with h | h
      · exact h1 h
      · exact h2 h.symm
    simp only [decide_eq_false h1, decide_eq_false h2, ok_bind, Bool.false_eq_true, if_false]
    have h3 : trainPyTargets mc (some t) { c with
        floatFeature := (namesOfType (some t) .bucketized).filter (fun n => features.contains n)
        catFeature := (namesOfType (some t) .string).filter (fun n => features.contains n) } y =
        ok (.ok (targetFn mc t c y)) := by
      unfold trainPyTargets targetFn
      rcases hv.targets with h | ⟨h, h4, h5⟩
      · rw [if_pos h.1, if_pos h.1]
      · have hy : ¬ (y ≠ []) := not_not.mpr h
        have h4' : ¬ c.targetColumn = "" := h4
        simp only
        rw [if_neg hy, if_neg h4', if_neg hy]
        cases hcol : t.getRaw c.targetColumn with
        | none => exact absurd hcol h5
        | some col => rfl
    rw [h3]
    rfl

end shape

/-! ## C112 -/

section rank
variable {K A : Type} [Field K] [LinearOrder K] [IsStrictOrderedRing K] [FloorSemiring K] [LinearOrder A] [ThrOps A]

/-- What C112 asks of a call of `train` with a loss for ranking: all that C87 asks, but for the loss; a machine that computes
exactly; a positive number of pairs per row, with fewer than 2^31 pairs in all; two rows of one group with different targets; and
no missing group. -/
structure RankInput (mc : Machine K A) (t : DataStore A) (n : Nat) (c : Config K) (y : List (Fl A))
    (base : Option (List (Tree K A))) (seed nt : Int) : Prop where
  rest : PyInput mc t n { c with lossFunc := "mse" } base nt
  loss : c.lossFunc ∈ ["auc", "pairwise_logloss", "gbrank"]
  descSort : DescSortSpec mc.descSort
  pairDraw : ∀ t g i n, 0 < n → mc.pairDraw seed t g i n < n
  ofNat : ∀ n : Nat, mc.ofNat n = n
  toU64 : ∀ x : K, 0 ≤ x → x < 18446744073709551616 → mc.toU64 x = some ⌊x⌋₊
  rate : 0 < c.pairRate
  bound : c.pairRate * n / 2 < 2147483648
  pair : ∃ i < n, ∃ j < n, targetFn mc t c y i < targetFn mc t c y j ∧ (c.groupColumn = "" ∨ ∃ col x,
    t.getColumn c.groupColumn = some (.str col) ∧ col.rowString i = ok x ∧ col.rowString j = ok x)
  missing : ∀ col, c.groupColumn ≠ "" → t.getColumn c.groupColumn = some (.str col) → ∀ i < n, col.rowString i ≠ ok "__missing__"

/-- The loss that `CreateLossFunc` makes. -/
abbrev rankLoss (mc : Machine K A) (c : Config K) (seed nt : Int) (w y : Nat → K) : PairLoss K :=
  mkPair mc c seed nt w y false (pairFormula mc c.lossFunc) none

theorem RankInput.pairInput {mc : Machine K A} {t : DataStore A} {n : Nat} {c : Config K} {y : List (Fl A)}
    {base : Option (List (Tree K A))} {seed nt : Int} (hi : RankInput mc t n c y base seed nt) (w : Nat → K) :
    PairInput (mkEnv mc t n w seed nt) (c.train mc (mc.ofNat 1)) (rankLoss mc c seed nt w (targetFn mc t c y)) where
  sort := hi.descSort
  draw := hi.pairDraw
  threads := hi.rest.threads
  ofNat := hi.ofNat
  toU64 := hi.toU64
  rate := hi.rate
  bound := hi.bound
  pair := hi.pair
  missing := hi.missing

theorem features_ne {t : DataStore A} {fs : List String} (h : featureNames t fs ≠ []) : t ≠ [] := by
  rintro rfl
  exact h rfl

/-- `train` raises, or comes down to a successful run of `TrainGBDT`. -/
theorem RankInput.cases {mc : Machine K A} {t : DataStore A} {n : Nat} {c : Config K} {y : List (Fl A)}
    {base : Option (List (Tree K A))} {seed nt : Int} (hi : RankInput mc t n c y base seed nt) (w : List (Fl A))
    (features : List String) :
    (∃ e, pyTrain mc (some t) c y features w base seed nt = ok (.error e)) ∨
    ∃ (r : TrainResult K A) (names : List String), t ≠ [] ∧
      pyTrain mc (some t) c y features w base seed nt = ok (.ok r.forest) ∧ r.code = .ok ∧
      (∀ name, name ∈ names ↔ name ∈ features) ∧
      TrainStore (mkEnv mc t n (weightFn mc w) seed nt) names (c.train mc (mc.ofNat 1)) (base.getD []) ∧
      trainGBDT (mkEnv mc t n (weightFn mc w) seed nt) (rankLoss mc c seed nt (weightFn mc w) (targetFn mc t c y)).toLoss names
        (c.train mc (mc.ofNat 1)) base [] 0 = ok r := by
  rcases pyTrain_shape mc hi.rest.store c base nt y w features seed with h | ⟨hk, _, _, h⟩
  · exact Or.inl h
  · rw [h]
    unfold trainPyRun
    rw [withLoss_pair mc seed nt (c := c.withFeatures t features) hi.loss]
    simp only
    by_cases hne : featureNames t features = []
    · rw [if_pos hne]
      exact Or.inl (raise_error _ _ (by simp))
    · rw [if_neg hne, hi.rest.store.numRows (features_ne hne), ok_bind]
      have hlen : (mc.listing (featureNames t features)).length < 2 ^ 31 := by
        rw [(hi.rest.machine.listing _).length_eq]
        exact lt_of_le_of_lt (features_length t features) hi.rest.columnCount
      show (∃ e, (trainGBDT (mkEnv mc t n (weightFn mc w) seed nt)
        (rankLoss mc c seed nt (weightFn mc w) (targetFn mc t c y)).toLoss (mc.listing (featureNames t features))
        (c.train mc (mc.ofNat 1)) base [] 0 >>= _) = _) ∨ ∃ r names, _ ∧ (trainGBDT (mkEnv mc t n (weightFn mc w) seed nt)
        (rankLoss mc c seed nt (weightFn mc w) (targetFn mc t c y)).toLoss (mc.listing (featureNames t features))
        (c.train mc (mc.ofNat 1)) base [] 0 >>= _) = _ ∧ _
      by_cases hc : checkConfig (mc.ofNat 1) (c.train mc (mc.ofNat 1)) = .ok
      · have hs := hi.rest.trainStore (weightFn mc w) seed hlen hc
        obtain ⟨r, hr⟩ := C77_pairwise (base := base) hs _ (hi.pairInput (weightFn mc w)) 0
        have hr' : trainGBDT (mkEnv mc t n (weightFn mc w) seed nt)
            (rankLoss mc c seed nt (weightFn mc w) (targetFn mc t c y)).toLoss (mc.listing (featureNames t features))
            (c.train mc (mc.ofNat 1)) base [] 0 = ok r := hr
        rw [hr', ok_bind]
        by_cases hok : r.code = .ok
        · refine Or.inr ⟨r, mc.listing (featureNames t features), features_ne hne, if_pos hok, hok, fun name => ?_, hs, hr'⟩
          rw [(hi.rest.machine.listing _).mem_iff]
          exact (mem_features (s := some t) hi.rest.store.names).trans ⟨fun h => h.1, fun h => ⟨h, hk _ h⟩⟩
        · left
          rw [if_neg hok]
          refine raise_error _ _ ?_
          rcases trainGBDT_stages hr' with ⟨_, g | ⟨_, g⟩ | ⟨g, hg⟩⟩ |
            ⟨_, features, group, ls, slices, forest1, slices1, f1, stopped, s, _, _, _, _, _, _, hr⟩
          · exact absurd (g.1.trans hc) g.2
          · rw [loadFeatures_error g]; simp
          · rw [(pairInit_code hg).1]; simp
          · rw [hr] at hok ⊢
            cases stopped
            · exact absurd rfl hok
            · simp
      · have hr : trainGBDT (mkEnv mc t n (weightFn mc w) seed nt)
            (rankLoss mc c seed nt (weightFn mc w) (targetFn mc t c y)).toLoss (mc.listing (featureNames t features))
            (c.train mc (mc.ofNat 1)) base [] 0 = ok ⟨checkConfig (mc.ofNat 1) (c.train mc (mc.ofNat 1)), [], [], 0⟩ := by
          unfold trainGBDT
          exact if_pos hc
        rw [hr, ok_bind, if_neg hc]
        left
        refine raise_error _ _ ?_
        revert hc
        unfold checkConfig
        repeat' split
        all_goals simp

/-- **C112.** In exact arithmetic, `train` with auc, pairwise_logloss or gbrank never crashes, whatever the features, the weights and
the configuration otherwise: it raises an exception or returns a forest; and with that forest `predict` gives one score per row, and
training can go on. -/
theorem C112_no_crash {mc : Machine K A} {t : DataStore A} {n : Nat} {c : Config K} {y : List (Fl A)}
    {base : Option (List (Tree K A))} {seed nt : Int} (hi : RankInput mc t n c y base seed nt) (w : List (Fl A))
    (features : List String) :
    (∃ e, pyTrain mc (some t) c y features w base seed nt = ok (.error e)) ∨
    ∃ forest, pyTrain mc (some t) c y features w base seed nt = ok (.ok forest) ∧ UsableForest t forest ∧
      ∀ nt' : Int, 0 < nt' → ∃ scores, pyPredict (some t) forest nt' = ok (.ok scores) ∧ scores.length = n ∧
        ∀ (i : Nat) (x : K), scores[i]? = some x → PredictsRow t forest i x := by
  rcases hi.cases w features with h | ⟨r, names, hne, h1, hok, _, hs, hr⟩
  · exact Or.inl h
  · right
    have hd := pairTrainData hs (e := rankLoss mc c seed nt (weightFn mc w) (targetFn mc t c y)) hi.descSort
    obtain ⟨u1, u2⟩ := C39_forest_usable hd hr hok
    refine ⟨r.forest, h1, ⟨u1, u2⟩, fun nt' hnt' => ?_⟩
    obtain ⟨scores, g1, g2, g3⟩ := C37_prediction (columns := t.getColumn) (n := n)
      (fun _ _ h => (hi.rest.store.col h).hasRows) hnt' r.forest u1 u2
    refine ⟨scores, ?_, g2, fun i x hx => ?_⟩
    · simp only [pyPredict, hi.rest.store.numRows hne, g1, if_true, Option.getD_some]
    · obtain ⟨xs, m1, m2⟩ := g3 i (by have := (List.getElem?_eq_some_iff.mp hx).1; omega)
      rw [hx, Option.some.injEq] at m2
      exact ⟨xs, m1, m2⟩

/-- **C112.** A call with everything in order returns a forest: ranking does not diverge. -/
theorem C112_trains {mc : Machine K A} {t : DataStore A} {n : Nat} {c : Config K} {y w : List (Fl A)} {features : List String}
    {base : Option (List (Tree K A))} {seed nt : Int} (hi : RankInput mc t n c y base seed nt)
    (hv : ValidCall mc t n { c with lossFunc := "mse" } y w features) (hzero : mc.diverged 0 = false) :
    ∃ forest, pyTrain mc (some t) c y features w base seed nt = ok (.ok forest) := by
  obtain ⟨hne, hc, hrun⟩ := pyTrain_run mc hi.rest.store hv base seed nt
  rcases hi.cases w features with ⟨x, hx⟩ | ⟨r, _, _, h1, _⟩
  · exfalso
    rw [hrun] at hx
    unfold trainPyRun at hx
    rw [withLoss_pair mc seed nt (c := c.withFeatures t features) hi.loss] at hx
    simp only at hx
    rw [if_neg hne, hi.rest.store.numRows (features_ne hne), ok_bind] at hx
    have hlen : (mc.listing (featureNames t features)).length < 2 ^ 31 := by
      rw [(hi.rest.machine.listing _).length_eq]
      exact lt_of_le_of_lt (features_length t features) hi.rest.columnCount
    have hs := hi.rest.trainStore (weightFn mc w) seed hlen hc
    obtain ⟨r, hr⟩ := C77_pairwise (base := base) hs _ (hi.pairInput (weightFn mc w)) 0
    have hd := pairTrainData hs (e := rankLoss mc c seed nt (weightFn mc w) (targetFn mc t c y)) hi.descSort
    have hr' : trainGBDT (mkEnv mc t n (weightFn mc w) seed nt)
        (rankLoss mc c seed nt (weightFn mc w) (targetFn mc t c y)).toLoss (mc.listing (featureNames t features))
        (c.train mc (mc.ofNat 1)) base [] 0 = ok r := hr
    have hx' : (trainGBDT (mkEnv mc t n (weightFn mc w) seed nt)
        (rankLoss mc c seed nt (weightFn mc w) (targetFn mc t c y)).toLoss (mc.listing (featureNames t features))
        (c.train mc (mc.ofNat 1)) base [] 0 >>= fun r => if r.code = .ok then ok (Except.ok r.forest) else
          raise r.code (ok (Except.ok r.forest))) = ok (.error x) := hx
    rw [hr', ok_bind] at hx'
    by_cases hok : r.code = .ok
    · rw [if_pos hok] at hx'
      cases hx'
    · rcases trainGBDT_stages hr' with ⟨_, g | ⟨_, g⟩ | ⟨g, hg⟩⟩ |
        ⟨_, _, _, _, _, _, _, _, stopped, _, _, _, _, _, _, _, hst⟩
      · exact g.2 (g.1.trans hc)
      · obtain ⟨cs, hcs⟩ := loadFeatures_ok (columns := t.getColumn) (names := mc.listing (featureNames t features)) (by
          intro name hname
          obtain ⟨_, col, hcol, _⟩ := (mem_features (s := some t) hi.rest.store.names).mp
            ((hi.rest.machine.listing _).mem_iff.mp hname)
          rw [Option.getD_some] at hcol
          rw [hcol]
          simp)
        rw [show (mkEnv mc t n (weightFn mc w) seed nt).columns = t.getColumn from rfl, hcs] at g
        cases g
      · have : Dbl.leb c.pairRate 0 = true := (pairInit_code hg).2
        rw [not_leb_of_pos (show Dbl.ltb 0 c.pairRate = true from decide_eq_true hi.rate)] at this
        cases this
      · have hcode : r.code = .internal := by
          cases stopped
          · rw [hst] at hok; exact absurd rfl hok
          · rw [hst]; rfl
        obtain ⟨_, _, _, _, _, _, x, _, _, _, _, _, _, _, hcomp, hdiv, _⟩ := C73_divergence hd
          (by intro n g hg; cases (pairInit_code hg).1) hr' hcode
        rw [pairCompute_constant hcomp] at hdiv
        rw [show (mkEnv mc t n (weightFn mc w) seed nt).diverged = mc.diverged from rfl, hzero] at hdiv
        cases hdiv
  · exact ⟨_, h1⟩

/-! ## C113: specification -/

/-- Rows are in one group if there is no group column, or if it has the same string for both. -/
def SameGroup (t : DataStore A) (c : Config K) (i j : Nat) : Prop :=
  c.groupColumn = "" ∨ ∃ col x, t.getColumn c.groupColumn = some (.str col) ∧ col.rowString i = ok x ∧ col.rowString j = ok x

/-- The rows, by groups. -/
structure GroupsOf (t : DataStore A) (c : Config K) (n : Nat) (groups : List (List Nat)) : Prop where
  all : groups.flatten.Perm (List.range n)
  same : ∀ rows ∈ groups, ∀ i ∈ rows, ∀ j, j ∈ rows ↔ j < n ∧ SameGroup t c i j

/-- The negative first and the second derivative of a loss by the difference `df` of two scores, for targets that differ by `dy`:
the huberized hinge, the logistic loss, and the squared hinge with margin `dy`. -/
def rankSlopes (exp : K → K) (name : String) (dy df : K) : K × K :=
  if name = "auc" then if 1 ≤ df then (0, 0) else if 0 ≤ df then (1 - df, 1) else (1, 0)
  else if name = "pairwise_logloss" then (exp (-df) / (1 + exp (-df)), exp (-df) / (1 + exp (-df)) ^ 2)
  else if df < dy then (dy - df, 1) else (0, 0)

/-- The weight of a pair of rows of a group: the weights of the rows, the difference of the targets if it is asked for, and a factor
that is inverse to the number of pairs of the group if groups are to weigh the same. -/
def rankWeight (c : Config K) (w y : Nat → K) (groups : List (List Nat)) (rows : List Nat) (p : Nat × Nat) : K :=
  w p.1 * w p.2 * (if c.byDelta then y p.1 - y p.2 else 1) *
    (if c.equalWeight then ((groups.map (pairCount y)).foldl max 1 : Nat) / (pairCount y rows : K) else 1)

/-- What a round does at the function values `f`: `pairs` are drawn from the groups, each of a row and one with a smaller target;
each pulls the better row up and the worse one down. -/
structure RankRound (exp : K → K) (c : Config K) (n : Nat) (w y : Nat → K) (groups : List (List Nat)) (f : List K)
    (pairs : List (List (Nat × Nat))) (grads : List (GD K)) : Prop where
  lists : pairs.length = groups.length
  count : ∀ (k : Nat) ps rows, pairs[k]? = some ps → groups[k]? = some rows →
    ps.length = ⌊(pairCount y rows : K) * (c.pairRate * n / totalPairs y groups / 2)⌋₊
  drawn : ∀ (k : Nat) ps rows, pairs[k]? = some ps → groups[k]? = some rows → ∀ p ∈ ps, p.1 ∈ rows ∧ p.2 ∈ rows ∧ y p.2 < y p.1
  rows : grads.length = n
  gradient : ∀ r, gOf grads r = ((pairs.zip groups).map (fun x => (x.1.map (fun p => rankWeight c w y groups x.2 p *
    (rankSlopes exp c.lossFunc (y p.1 - y p.2) (f.getD p.1 0 - f.getD p.2 0)).1 *
    ((if r = p.1 then 1 else 0) - (if r = p.2 then 1 else 0)))).sum)).sum
  hessian : ∀ r, hOf grads r = ((pairs.zip groups).map (fun x => (x.1.map (fun p => 2 * rankWeight c w y groups x.2 p *
    (rankSlopes exp c.lossFunc (y p.1 - y p.2) (f.getD p.1 0 - f.getD p.2 0)).2 *
    ((if r = p.1 then 1 else 0) + (if r = p.2 then 1 else 0)))).sum)).sum

/-- Rounds of boosting: at the values of the trees so far, gradients are found and a tree is fitted to them and shrunk. -/
inductive RankBoosts (env : TrainEnv K A) (round : List K → List (GD K) → Prop) (features : List (String × Column A))
    (cfg : TrainConfig K) : Nat → List (Tree K A × K) → List (Tree K A × K) → Prop
  | done (p : Nat) (before : List (Tree K A × K)) : RankBoosts env round features cfg p before []
  | round {p p1 : Nat} {before after : List (Tree K A × K)} {f : List K} {grads : List (GD K)} {t : Tree K A} :
      ValuesOf env before f → round f grads → fitTree (env.fit features grads) cfg.fit p = ok (t, p1) →
      RankBoosts env round features cfg p1 (before ++ [(applyShrinkage env.rnd32 cfg.shrinkage t, 0)]) after →
      RankBoosts env round features cfg p before ((applyShrinkage env.rnd32 cfg.shrinkage t, 0) :: after)

/-! ## C113: proof -/

theorem leb_exact (a b : K) : Dbl.leb a b = decide (a ≤ b) := by
  rw [Bool.eq_iff_iff]
  simp [Dbl.leb, le_iff_lt_or_eq]

theorem slopes_of {mc : Machine K A} (hone : mc.math.one = 1) (hneg : ∀ x, mc.math.neg x = -x) {name : String}
    (hname : name ∈ ["auc", "pairwise_logloss", "gbrank"]) {dy df l dg dh : K} (hdy : 0 < dy)
    (h : pairFormula mc name dy df = (l, dg, dh)) : rankSlopes mc.math.exp name dy df = (dg, dh) := by
  have h2 := congrArg Prod.snd h
  rw [← show (pairFormula mc name dy df).2 = (dg, dh) from h2]
  simp only [List.mem_cons, List.not_mem_nil, or_false] at hname
  rcases hname with rfl | rfl | rfl
  · simp only [rankSlopes, pairFormula, if_true, huberizedHinge, hone, one_mul, mul_one]
    by_cases h1 : 1 ≤ df
    · simp [h1, leb_exact]
    · by_cases h0 : 0 ≤ df
      · simp [h1, h0, leb_exact]
      · simp [h1, h0, leb_exact]
  · simp only [rankSlopes, pairFormula, if_true, logLoss, hone, hneg, one_mul, neg_mul, pow_two]
    simp
  · simp only [rankSlopes, pairFormula]
    simp only [show ¬ "gbrank" = "auc" by decide, show ¬ "gbrank" = "pairwise_logloss" by decide, if_false, squaredHinge, hone]
    by_cases h1 : df < dy
    · have : (0 : K) < (dy - df) * dy := mul_pos (by linarith) hdy
      simp [h1, this]
    · have : ¬ (0 : K) < (dy - df) * dy := not_lt.mpr (mul_nonpos_of_nonpos_of_nonneg (by linarith) hdy.le)
      simp [h1, this]

theorem sum_draws {F : Draw K → K} {G : List Nat → Nat × Nat → K} : ∀ {draws : List (List (Draw K))} {groups : List (List Nat)},
    draws.length = groups.length → (∀ (k : Nat) ds rows, draws[k]? = some ds → groups[k]? = some rows → ∀ d ∈ ds, F d = G rows (d.pos, d.neg)) →
    (draws.flatten.map F).sum =
      (((draws.map (List.map (fun d => (d.pos, d.neg)))).zip groups).map (fun x => (x.1.map (G x.2)).sum)).sum
  | [], [], _, _ => rfl
  | ds :: draws, rows :: groups, hl, h => by
    rw [List.flatten_cons, List.map_append, List.sum_append, sum_draws (groups := groups) (by simpa using hl)
      (fun k ds rows h1 h2 => h (k + 1) ds rows (by simpa using h1) (by simpa using h2)), List.map_cons, List.zip_cons_cons,
      List.map_cons, List.sum_cons]
    congr 1
    simp only [List.map_map]
    refine congrArg List.sum (List.map_congr_left (fun d hd => ?_))
    exact h 0 ds rows rfl rfl d hd

/-- The gradients of a round are as the specification says. -/
theorem rankRound_of {mc : Machine K A} {t : DataStore A} {n : Nat} {c : Config K} {y : List (Fl A)}
    {base : Option (List (Tree K A))} {seed nt : Int} (hi : RankInput mc t n c y base seed nt) (hone : mc.math.one = 1)
    (hneg : ∀ x, mc.math.neg x = -x) (hexact : mc.rnd32 = id) {w : Nat → K} {col : Option StrCol} {groups : List (List Nat)}
    (hg : rowGroups n col = ok groups) {s s' : PairState K} {f : List K} {k : K} {grads : List (GD K)} (hf : f.length = n)
    (hr : PairReach (rankLoss mc c seed nt w (targetFn mc t c y)) n col s)
    (h : pairCompute (rankLoss mc c seed nt w (targetFn mc t c y)) s f = ok (s', k, grads)) :
    ∃ pairs, RankRound mc.math.exp c n w (targetFn mc t c y) groups f pairs grads := by
  have he : ExactPair (rankLoss mc c seed nt w (targetFn mc t c y)) := ⟨hi.descSort, hi.ofNat, hi.toU64, hi.rate⟩
  obtain ⟨_, hlen, draws, d1, d2, d3⟩ := C75_gradients he.sort hr h
  have hd : RoundDraws (rankLoss mc c seed nt w (targetFn mc t c y)) s f draws := ⟨d1, d2⟩
  have hinv := hr.inv he.sort
  have hperm := List.forall₂_iff_get.mp (hinv.rows he.sort hg)
  obtain ⟨c1, _, c3⟩ := hr.counts he hg
  have hlg : draws.length = groups.length := by rw [d1, ← hperm.1]
  have hdraw : ∀ (k : Nat) ds rows, draws[k]? = some ds → groups[k]? = some rows → ∀ d ∈ ds,
      d.pos ∈ rows ∧ d.neg ∈ rows ∧ targetFn mc t c y d.neg < targetFn mc t c y d.pos ∧
      d.weight = rankWeight c w (targetFn mc t c y) groups rows (d.pos, d.neg) ∧
      rankSlopes mc.math.exp c.lossFunc (targetFn mc t c y d.pos - targetFn mc t c y d.neg) (f.getD d.pos 0 - f.getD d.neg 0) =
        (d.dg, d.dh) := by
    intro k ds rows h1 h2 d hdm
    obtain ⟨rows', g0', k1, k2, k3, _, _⟩ := hd.count he hr hg hi.bound h1
    rw [h2, Option.some.injEq] at k1
    subst k1
    obtain ⟨g0, hg0, hm⟩ := (d2 k ds h1).rows he.sort hinv.kept
    rw [k2, Option.some.injEq] at hg0
    subst hg0
    obtain ⟨m1, m2, _⟩ := hm d hdm
    obtain ⟨hlt, hge⟩ := List.getElem?_eq_some_iff.mp k2
    obtain ⟨hlt', hge'⟩ := List.getElem?_eq_some_iff.mp h2
    have hp := hperm.2 k hlt' hlt
    simp only [List.get_eq_getElem, hge, hge'] at hp
    rw [hp.mem_iff] at m1 m2
    obtain ⟨g1, g, e1, e2, e3, e4⟩ := d2 k ds h1
    rw [k2, Option.some.injEq] at e1
    subst e1
    obtain ⟨i, hii⟩ := List.getElem?_of_mem hdm
    obtain ⟨_, hlt2, ⟨fp, fn, l, f1, f2, hl⟩, a, b, ra, rb, _, _, _, _, hwt⟩ := e4 i d hii
    have hlt3 : targetFn mc t c y d.neg < targetFn mc t c y d.pos := of_decide_eq_true hlt2
    refine ⟨m1, m2, hlt3, ?_, ?_⟩
    · rw [hwt, k3, c3]
      simp only [weightOf, mkPair, hexact, id, rankWeight, hi.ofNat, Nat.cast_one]
    · have hl' : pairFormula mc c.lossFunc (targetFn mc t c y d.pos - targetFn mc t c y d.neg) (fp - fn) = (l, d.dg, d.dh) := by
        rw [← hl]
        simp only [mkPair, hexact, id]
      rw [List.getD_eq_getElem?_getD, List.getD_eq_getElem?_getD, f1, f2]
      exact slopes_of hone hneg hi.loss (by linarith) hl'
  refine ⟨draws.map (List.map (fun d => (d.pos, d.neg))), ?_, ?_, ?_, hlen.trans hf, ?_, ?_⟩
  · rw [List.length_map, hlg]
  · intro k ps rows h1 h2
    rw [List.getElem?_map, Option.map_eq_some_iff] at h1
    obtain ⟨ds, h1, rfl⟩ := h1
    obtain ⟨rows', g0', k1, _, _, k4, _⟩ := hd.count he hr hg hi.bound h1
    rw [h2, Option.some.injEq] at k1
    subst k1
    rw [List.length_map]
    exact k4
  · intro k ps rows h1 h2 p hp
    rw [List.getElem?_map, Option.map_eq_some_iff] at h1
    obtain ⟨ds, h1, rfl⟩ := h1
    obtain ⟨d, hdm, rfl⟩ := List.mem_map.mp hp
    obtain ⟨m1, m2, m3, _⟩ := hdraw k ds rows h1 h2 d hdm
    exact ⟨m1, m2, m3⟩
  · intro r
    rw [(d3 r).1]
    refine sum_draws hlg (G := fun rows p => rankWeight c w (targetFn mc t c y) groups rows p *
      (rankSlopes mc.math.exp c.lossFunc (targetFn mc t c y p.1 - targetFn mc t c y p.2) (f.getD p.1 0 - f.getD p.2 0)).1 *
      ((if r = p.1 then 1 else 0) - (if r = p.2 then 1 else 0))) ?_
    intro k ds rows h1 h2 d hdm
    obtain ⟨_, _, _, m4, m5⟩ := hdraw k ds rows h1 h2 d hdm
    simp only [m5, ← m4, pull]
    split <;> split <;> ring
  · intro r
    rw [(d3 r).2]
    refine sum_draws hlg (G := fun rows p => 2 * rankWeight c w (targetFn mc t c y) groups rows p *
      (rankSlopes mc.math.exp c.lossFunc (targetFn mc t c y p.1 - targetFn mc t c y p.2) (f.getD p.1 0 - f.getD p.2 0)).2 *
      ((if r = p.1 then 1 else 0) + (if r = p.2 then 1 else 0))) ?_
    intro k ds rows h1 h2 d hdm
    obtain ⟨_, _, _, m4, m5⟩ := hdraw k ds rows h1 h2 d hdm
    simp only [m5, ← m4, push, mkPair, hi.ofNat, Nat.cast_ofNat]
    split <;> split <;> ring

/-- The group column, as the loss sees it. -/
theorem groupsOf_of {mc : Machine K A} {t : DataStore A} {n : Nat} {c : Config K} {y : List (Fl A)}
    {base : Option (List (Tree K A))} {seed nt : Int} (hi : RankInput mc t n c y base seed nt) {col : Option StrCol}
    (hcol : groupOrDie t.getColumn c.groupColumn = ok col) :
    ∃ groups, rowGroups n col = ok groups ∧ GroupsOf t c n groups := by
  unfold groupOrDie at hcol
  split at hcol
  · next hc =>
    rw [Outcome.ok.injEq] at hcol
    subst hcol
    refine ⟨_, C56_no_column n, by simp, ?_⟩
    intro rows hrows i hir j
    rw [List.mem_singleton.mp hrows, List.mem_range]
    exact ⟨fun h => ⟨h, Or.inl hc⟩, fun h => h.1⟩
  · next hne =>
    split at hcol
    · next sc hc =>
      rw [Outcome.ok.injEq] at hcol
      subst hcol
      cases hi.rest.store.col hc with
      | str blocks hlen hsize =>
        have hrow := (C01_string_roundtrip blocks (by omega)).2
        have hmiss : "__missing__" ∉ blocks.flatten := by
          intro hm
          obtain ⟨i, hi', hx⟩ := List.mem_iff_getElem.mp hm
          apply hi.missing _ hne hc i (by omega)
          rw [hrow i hi', hx]
        obtain ⟨groups, k1, k2, _, k4⟩ := C56_groups blocks (by omega) hmiss n
        refine ⟨groups, k1, by rw [← hlen]; exact k2, ?_⟩
        intro rows hrows i hir j
        have hin : i < blocks.flatten.length := List.mem_range.mp (k2.mem_iff.mp (List.mem_flatten.mpr ⟨rows, hrows, hir⟩))
        rw [k4 rows hrows i hir j]
        constructor
        · rintro ⟨x, h1, h2⟩
          obtain ⟨hj, hjx⟩ := List.getElem?_eq_some_iff.mp h1
          obtain ⟨_, hix⟩ := List.getElem?_eq_some_iff.mp h2
          exact ⟨by omega, Or.inr ⟨_, x, hc, by rw [hrow i hin, hix], by rw [hrow j hj, hjx]⟩⟩
        · rintro ⟨hj, h | ⟨col, x, h1, h2, h3⟩⟩
          · exact absurd h hne
          · rw [hc] at h1
            cases h1
            rw [hrow i hin, Outcome.ok.injEq] at h2
            rw [hrow j (by omega), Outcome.ok.injEq] at h3
            exact ⟨x, List.getElem?_eq_some_iff.mpr ⟨by omega, h3⟩, List.getElem?_eq_some_iff.mpr ⟨hin, h2⟩⟩
    · cases hcol

/-- **C113.** In exact arithmetic, `train` with auc, pairwise_logloss or gbrank does what the configuration says: `num_trees` times, at
the scores of the trees so far, pairs of rows of one group with different targets are drawn, their number following from
`pair_sampling_rate`; with weights as the options say, each pulls its better row up and its worse row down by the slope of the loss;
and a tree is fitted to that, shrunk, and added.  No constants are added.  `predict` gives the sum of the trees. -/
theorem C113_rounds {mc : Machine K A} {t : DataStore A} {n : Nat} {c : Config K} {y : List (Fl A)}
    {base : Option (List (Tree K A))} {seed nt : Int} (hi : RankInput mc t n c y base seed nt) (hone : mc.math.one = 1)
    (hneg : ∀ x, mc.math.neg x = -x) (hexact : mc.rnd32 = id) {w : List (Fl A)} {features : List String}
    {forest : List (Tree K A)} (h : pyTrain mc (some t) c y features w base seed nt = ok (.ok forest)) :
    ∃ (names : List String) (cols : List (String × Column A)) (groups : List (List Nat)) (rounds : List (Tree K A × K)),
      (∀ name, name ∈ names ↔ name ∈ features) ∧ loadFeatures t.getColumn names = .ok cols ∧ GroupsOf t c n groups ∧
      RankBoosts (mkEnv mc t n (weightFn mc w) seed nt)
        (fun f grads => ∃ pairs, RankRound mc.math.exp c n (weightFn mc w) (targetFn mc t c y) groups f pairs grads) cols
        (c.train mc (mc.ofNat 1)) 0 ((base.getD []).map (fun t => (t, 0))) rounds ∧
      (rounds.length : Int) = c.numTrees ∧
      ∀ nt' : Int, 0 < nt' → ∃ scores, pyPredict (some t) forest nt' = ok (.ok scores) ∧
        ValuesOf (mkEnv mc t n (weightFn mc w) seed nt) ((base.getD []).map (fun t => (t, 0)) ++ rounds) scores := by
  rcases hi.cases w features with ⟨_, h'⟩ | ⟨r, names, hne, h1, hok, hn, hs, hr⟩
  · rw [h] at h'; cases h'
  · rw [h, Outcome.ok.injEq, Except.ok.injEq] at h1
    subst h1
    have hd := pairTrainData hs (e := rankLoss mc c seed nt (weightFn mc w) (targetFn mc t c y)) hi.descSort
    obtain ⟨cols, col, start, rounds, finish, k1, k2, k3, k4, k5, k6, k7⟩ := C73_rounds hd hr hok
    obtain ⟨groups, g1, g2⟩ := groupsOf_of hi (show groupOrDie t.getColumn c.groupColumn = ok col from k2)
    refine ⟨names, cols, groups, rounds, hn, k1, g2, ?_, k5, ?_⟩
    · have hreach : PairReach (rankLoss mc c seed nt (weightFn mc w) (targetFn mc t c y)) n col start := .init k3
      clear k7 k6 k5 k3 hr h
      generalize (base.getD []).map (fun t => (t, (0 : K))) = before at k4
      generalize (0 : Nat) = p at k4 ⊢
      generalize r.pos = q at k4
      induction k4 with
      | done => exact .done _ _
      | round v1 v2 v3 v4 v5 ih =>
        have hk := pairCompute_constant v2
        subst hk
        exact .round v1 (rankRound_of hi hone hneg hexact g1 v1.1 hreach v2) v4 (ih (.compute hreach v2))
    · intro nt' hnt'
      have := C39_training_scores_are_predictions hd hexact hr hok hnt'
      refine ⟨r.f, ?_, k6⟩
      have he : evaluateForest t.getColumn n nt' r.forest = ok (.ok, some r.f) := this
      simp only [pyPredict, hi.rest.store.numRows hne, he, if_true, Option.getD_some]

end rank

/-! ## Examples -/

/-- Ranking within teams, all options on. -/
def rankCfg (loss : String) : Config ℚ :=
  { pyCfg with lossFunc := loss, groupColumn := "team", byDelta := true, equalWeight := true, pairRate := 3 }

/-- An exact machine with a positive, increasing function in place of the exponential. -/
def rankMachine : Machine ℚ ℚ := { ratMachine with math := { ratMath with exp := fun x => if x < 0 then 1 / (1 - x) else 1 + x } }

theorem rankStr {t : DataStore ℚ} (h : pyDict id = ok (.ok (some t))) : ∃ col, t.getColumn "team" = some (.str col) := by
  obtain ⟨_, _, _, _, h4, _⟩ := C87_from_dict (1000 : ℚ) (by decide) (fun _ => List.Perm.refl _) (n := 5) (by decide)
    (by decide) (by
      intro p hp
      rw [List.mem_singleton.mp hp]
      exact ⟨rfl, below_of _ (by decide +kernel)⟩) (by decide) (by
      intro p hp
      simp only [List.mem_cons, List.not_mem_nil, or_false] at hp
      rcases hp with rfl | rfl
      · exact ⟨rfl, below_of _ (by decide +kernel)⟩
      · exact ⟨rfl, below_of _ (by decide +kernel)⟩) h
  exact h4 _ (List.mem_cons_of_mem _ (List.mem_cons_self ..))

theorem rankPy {t : DataStore ℚ} (h : pyDict id = ok (.ok (some t))) (loss : String) :
    PyInput rankMachine t 5 { rankCfg loss with lossFunc := "mse" } none 2 where
  machine :=
    { sort := ratSort_spec
      top := ratTop_spec
      listing := fun l => l.reverse_perm
      toInt := by intros; simp [rankMachine, ratMachine] }
  store := (pyDict_store h).1
  rowCount := by decide
  columnCount := by rw [(pyDict_store h).2.1]; decide
  loss := List.mem_cons_self ..
  exampleRate := by simp [NotNaN]
  featureRate := by simp [NotNaN]
  threads := by decide
  group := Or.inr (rankStr h)
  base := ⟨fun _ h => absurd h (by simp [forestFeatures]), fun _ h => absurd h (by simp)⟩

/-- What is asked of the data, as a test. -/
def rankTest (t : DataStore ℚ) : Bool :=
  match t.getRaw "y", t.getColumn "team" with
  | some col, some (.str g) => decide (vecFn rankMachine col.raw 2 < vecFn rankMachine col.raw 4) &&
      (match g.rowString 2, g.rowString 4 with | .ok a, .ok b => decide (a = b) | _, _ => false) &&
      (List.range 5).all (fun i => match g.rowString i with | .ok x => decide (x ≠ "__missing__") | _ => true)
  | _, _ => false

/-- The hypotheses of C112 and C113 hold for that data, and so do those of `C112_trains`. -/
theorem rankInput {t : DataStore ℚ} (h : pyDict id = ok (.ok (some t))) (htest : rankTest t = true) {loss : String}
    (hl : loss ∈ ["auc", "pairwise_logloss", "gbrank"]) :
    RankInput rankMachine t 5 (rankCfg loss) [] none 0 2 ∧
      ValidCall rankMachine t 5 { rankCfg loss with lossFunc := "mse" } [] [] ["size", "color"] := by
  obtain ⟨g, hg⟩ := rankStr h
  obtain ⟨_, _, s1, s2, _, s3, _⟩ := pyDict_store h
  cases hy : t.getRaw "y" with
  | none => exact absurd hy s3
  | some col =>
    simp only [rankTest, hy, hg, Bool.and_eq_true, decide_eq_true_eq, List.all_eq_true] at htest
    obtain ⟨⟨h1, h2⟩, h3⟩ := htest
    have htar : targetFn rankMachine t (rankCfg loss) [] = vecFn rankMachine col.raw := by
      simp only [targetFn, rankCfg, pyCfg, hy]
      rfl
    constructor
    · exact
        { rest := rankPy h loss
          loss := hl
          descSort := ratDescSort_spec
          pairDraw := fun _ _ _ _ h => Nat.mod_lt _ h
          ofNat := fun _ => rfl
          toU64 := fun x _ _ => by
            show some x.floor.toNat = some ⌊x⌋₊
            rw [← Int.floor_toNat]
            rfl
          rate := by simp only [rankCfg]; norm_num
          bound := by simp only [rankCfg]; norm_num
          pair := by
            refine ⟨2, by decide, 4, by decide, by rw [htar]; exact h1, Or.inr ?_⟩
            cases ha : g.rowString 2 with
            | ub => rw [ha] at h2; cases h2
            | fatal => rw [ha] at h2; cases h2
            | ok a =>
              cases hb : g.rowString 4 with
              | ub => rw [ha, hb] at h2; cases h2
              | fatal => rw [ha, hb] at h2; cases h2
              | ok b =>
                rw [ha, hb] at h2
                exact ⟨g, a, hg, ha, by rw [hb, of_decide_eq_true h2]⟩
          missing := by
            intro col' _ hc i hi hx
            have hc' : t.getColumn "team" = some (.str col') := hc
            rw [hg] at hc'
            cases hc'
            have := h3 i (List.mem_range.mpr hi)
            rw [hx] at this
            simp at this }
    · exact
        { trees := by show (0 : Int) < 2; decide
          leaves := by show (0 : Int) < 3; decide
          exampleRate := by
            show Dbl.ltb (0 : ℚ) (1 : Nat) = true ∧ Dbl.ltb ((1 : Nat) : ℚ) ((1 : Nat) : ℚ) = false
            simp
          featureRate := by
            show Dbl.ltb (0 : ℚ) (1 : Nat) = true ∧ Dbl.ltb ((1 : Nat) : ℚ) ((1 : Nat) : ℚ) = false
            simp
          some := by simp
          known := by
            intro name hname
            simp only [List.mem_cons, List.not_mem_nil, or_false] at hname
            rcases hname with rfl | rfl
            · exact s1
            · exact s2
          weights := Or.inl rfl
          targets := Or.inr ⟨rfl, by show "y" ≠ ""; decide, s3⟩
          binary := Or.inl rfl }

/-- The test is passed. -/
example : (match pyDict id with | .ok (.ok (some t)) => rankTest t | _ => false) = true := by decide +kernel

/-- The three losses on the data of C87: forests, and what they predict. -/
example : (["auc", "pairwise_logloss", "gbrank"].all (fun loss => match pyDict id with
    | .ok (.ok (some t)) => match pyTrain rankMachine (some t) (rankCfg loss) [] ["size", "color"] [] none 0 2 with
      | .ok (.ok forest) => match pyPredict (some t) forest 2 with
        | .ok (.ok scores) => decide (scores.length = 5 ∧ scores ≠ [0, 0, 0, 0, 0])
        | _ => false
      | _ => false
    | _ => false)) = true := by decide +kernel

end Gbdt
