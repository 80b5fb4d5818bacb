import Verif.Lemmas.Pipeline
import Verif.Props.TrainError

/-!
# C86, C87: `train` and `predict` as called from Python
-/

set_option autoImplicit false
set_option linter.unusedSectionVars false

namespace Gbdt

open Outcome

section general
variable {D A : Type} [Dbl D] [FpOrder D] [EqOrder D] [LinearOrder A] [ThrOps A]

/-! ## C86: the features -/

/-- The store has a column of the name that can be a feature: bucketized numbers or strings. -/
def IsFeature (s : Option (DataStore A)) (name : String) : Prop :=
  ∃ c, (s.getD []).getColumn name = some c ∧ (c.type = .bucketized ∨ c.type = .string)

/-- The features that `train` puts into the configuration are those that are asked for and exist. -/
theorem mem_features {s : Option (DataStore A)} (hk : ((s.getD []).map Prod.fst).Nodup) {features : List String} {name : String} :
    name ∈ (namesOfType s .string).filter (fun n => features.contains n) ++
      (namesOfType s .bucketized).filter (fun n => features.contains n) ↔ name ∈ features ∧ IsFeature s name := by
  simp only [List.mem_append, List.mem_filter, mem_namesOfType hk, List.contains_iff_mem, IsFeature]
  constructor
  · rintro (⟨⟨c, h1, h2⟩, h3⟩ | ⟨⟨c, h1, h2⟩, h3⟩)
    · exact ⟨h3, c, h1, Or.inr h2⟩
    · exact ⟨h3, c, h1, Or.inl h2⟩
  · rintro ⟨h3, c, h1, h2 | h2⟩
    · exact Or.inr ⟨⟨c, h1, h2⟩, h3⟩
    · exact Or.inl ⟨⟨c, h1, h2⟩, h3⟩

theorem anyMissing_iff {s : Option (DataStore A)} (hk : ((s.getD []).map Prod.fst).Nodup) (features : List String) :
    (features.any (fun n => !(((namesOfType s .bucketized).filter (fun n => features.contains n)).contains n ||
      ((namesOfType s .string).filter (fun n => features.contains n)).contains n))) = true ↔
      ∃ name ∈ features, ¬ IsFeature s name := by
  rw [List.any_eq_true]
  constructor
  · rintro ⟨n, hn, h⟩
    refine ⟨n, hn, fun hf => ?_⟩
    have := (mem_features hk).mpr ⟨hn, hf⟩
    rw [List.mem_append] at this
    simp only [Bool.not_eq_true', Bool.or_eq_false_iff] at h
    rcases this with hm | hm
    · rw [List.contains_iff_mem.mpr hm] at h; cases h.2
    · rw [List.contains_iff_mem.mpr hm] at h; cases h.1
  · rintro ⟨n, hn, h⟩
    refine ⟨n, hn, ?_⟩
    rw [Bool.not_eq_true', Bool.or_eq_false_iff]
    constructor
    · refine Bool.eq_false_iff.mpr (fun hm => ?_)
      exact h ((mem_features (features := features) hk).mp (List.mem_append.mpr (Or.inr (List.contains_iff_mem.mp hm)))).2
    · refine Bool.eq_false_iff.mpr (fun hm => ?_)
      exact h ((mem_features (features := features) hk).mp (List.mem_append.mpr (Or.inl (List.contains_iff_mem.mp hm)))).2

/-- **C86.** `train` raises `ValueError` exactly when some feature asked for is not a column of bucketized numbers or of
strings, whatever the configuration and the data. -/
theorem C86_value_error (mc : Machine D A) {s : Option (DataStore A)} (hk : ((s.getD []).map Prod.fst).Nodup) (c : Config D)
    (y w : List (Fl A)) (features : List String) (base : Option (List (Tree D A))) (seed nt : Int) :
    pyTrain mc s c y features w base seed nt = ok (.error .valueError) ↔ ∃ name ∈ features, ¬ IsFeature s name := by
  unfold pyTrain
  simp only
  rw [← anyMissing_iff hk]
  split
  · next h => simp only [true_iff]; exact h
  · next h =>
    refine ⟨fun hx => ?_, fun hx => absurd hx h⟩
    obtain ⟨e, he⟩ := trainPyFull_lib hx
    cases he

/-! ## C87: from data to predictions -/

/-- What is assumed of the machine and the standard library. -/
structure MachineOk (mc : Machine D A) : Prop where
  sort : SortSpec mc.sort
  top : TopSpec mc.top
  listing : ∀ l, (mc.listing l).Perm l
  toInt : ∀ (x : D) (n : Nat), Dbl.ltb 0 x = true → Dbl.ltb (mc.ofNat 1) x = false → n < 2 ^ 31 →
    mc.toInt (x * mc.ofNat n) ≠ none

/-- A forest that the store can be scored with. -/
structure UsableForest (t : DataStore A) (forest : List (Tree D A)) : Prop where
  features : HasFeatures t.getColumn forest
  scorable : ∀ tr ∈ forest, Scorable t.getColumn tr

/-- What C87 asks of a call of `train`: columns with `n` rows each and without numbers above `FLT_MAX`; a loss that looks at one
row at a time; rates that are numbers; a thread; a group column that is a column of strings, if any is named; and a base
forest that fits the store.  The configuration, the targets, the weights and the features are arbitrary otherwise. -/
structure PyInput (mc : Machine D A) (t : DataStore A) (n : Nat) (c : Config D) (base : Option (List (Tree D A))) (nt : Int) :
    Prop where
  machine : MachineOk mc
  store : GoodStore n t
  rowCount : n < 2 ^ 31
  columnCount : t.length < 2 ^ 31
  loss : c.lossFunc ∈ ["mse", "logloss", "huberized_hinge"]
  exampleRate : NotNaN (c.exampleRate.getD (mc.ofNat 1))
  featureRate : NotNaN (c.featureRate.getD (mc.ofNat 1))
  threads : 0 < nt
  group : c.groupColumn = "" ∨ ∃ col, t.getColumn c.groupColumn = some (.str col)
  base : UsableForest t (base.getD [])

theorem pos_of_not_leb {x : D} (hx : NotNaN x) (h : Dbl.leb x 0 = false) : Dbl.ltb 0 x = true := by
  simp only [Dbl.leb, Bool.or_eq_false_iff] at h
  rcases EqOrder.total x 0 hx FpOrder.zero_not_nan with h1 | h1 | h1
  · rw [h.1] at h1; cases h1
  · rw [h.2] at h1; cases h1
  · exact h1

theorem checkConfig_ok {one : D} {cfg : TrainConfig D} (h : checkConfig one cfg = .ok) :
    0 < cfg.numTrees ∧ 0 < cfg.numLeaves ∧ Dbl.leb cfg.exampleRate 0 = false ∧ Dbl.ltb one cfg.exampleRate = false ∧
      Dbl.leb cfg.featureRate 0 = false ∧ Dbl.ltb one cfg.featureRate = false := by
  unfold checkConfig at h
  split at h
  · cases h
  · split at h
    · cases h
    · split at h
      · cases h
      · split at h
        · cases h
        · next h1 h2 h3 h4 =>
          simp only [Bool.or_eq_true, not_or, Bool.not_eq_true] at h3 h4
          exact ⟨by omega, by omega, h3.1, h3.2, h4.1, h4.2⟩

theorem PyInput.trainStore {mc : Machine D A} {t : DataStore A} {n : Nat} {c : Config D} {base : Option (List (Tree D A))}
    {nt : Int} (hi : PyInput mc t n c base nt) (w : Nat → D) (seed : Int) {names : List String} (hlen : names.length < 2 ^ 31)
    (hc : checkConfig (mc.ofNat 1) (c.train mc (mc.ofNat 1)) = .ok) :
    TrainStore (mkEnv mc t n w seed nt) names (c.train mc (mc.ofNat 1)) (base.getD []) where
  rows := fun _ _ h => hi.store.col h
  threads := hi.threads
  sort := hi.machine.sort
  top := hi.machine.top
  examples := by
    obtain ⟨_, _, h1, h2, _, _⟩ := checkConfig_ok hc
    exact hi.machine.toInt _ _ (pos_of_not_leb hi.exampleRate h1) h2 hi.rowCount
  features := by
    obtain ⟨_, _, _, _, h1, h2⟩ := checkConfig_ok hc
    exact hi.machine.toInt _ _ (pos_of_not_leb hi.featureRate h1) h2 hlen
  group := hi.group
  scorable := hi.base.scorable
  baseFeatures := hi.base.features

/-- Training as `TrainPy` calls it: a status, whatever the weights, targets and features. -/
theorem PyInput.run {mc : Machine D A} {t : DataStore A} {n : Nat} {c : Config D} {base : Option (List (Tree D A))}
    {nt : Int} (hi : PyInput mc t n c base nt) (w : Nat → D) (seed : Int) {names : List String} (hlen : names.length < 2 ^ 31)
    {e : PointLoss D} (he : e.numThreads = nt) :
    ∃ r, trainGBDT (mkEnv mc t n w seed nt) e.toLoss names (c.train mc (mc.ofNat 1)) base [] 0 = ok r ∧
      r.code ∈ [.ok, .invalidArgument, .notFound, .internal] := by
  by_cases hc : checkConfig (mc.ofNat 1) (c.train mc (mc.ofNat 1)) = .ok
  · exact C77_pointwise (hi.trainStore w seed hlen hc) e (he ▸ hi.threads) 0
  · refine ⟨⟨checkConfig (mc.ofNat 1) (c.train mc (mc.ofNat 1)), [], [], 0⟩, ?_, ?_⟩
    · unfold trainGBDT
      exact if_pos hc
    · simp only
      unfold checkConfig
      repeat' split
      all_goals simp

theorem filter_length {s : Option (DataStore A)} {ty : ColType} {p : String → Bool} :
    ((namesOfType s ty).filter p).length ≤ ((s.getD []).filter (fun q => q.2.type == ty)).length := by
  cases s with
  | none => simp [namesOfType]
  | some t =>
    refine (List.length_filter_le _ _).trans ?_
    simp [namesOfType, DataStore.namesOf]

/-- There are no more features than columns. -/
theorem features_length (t : DataStore A) (features : List String) :
    ((namesOfType (some t) .string).filter (fun n => features.contains n) ++
      (namesOfType (some t) .bucketized).filter (fun n => features.contains n)).length ≤ t.length := by
  rw [List.length_append]
  have h1 := filter_length (s := some t) (ty := .string) (p := fun n => features.contains n)
  have h2 := filter_length (s := some t) (ty := .bucketized) (p := fun n => features.contains n)
  have h3 : ∀ l : DataStore A, (l.filter (fun q => q.2.type == ColType.string)).length +
      (l.filter (fun q => q.2.type == ColType.bucketized)).length ≤ l.length := by
    intro l
    induction l with
    | nil => simp
    | cons q l ih =>
      rcases q with ⟨_, _ | _ | _⟩
      · rw [List.filter_cons_of_pos (by rfl), List.filter_cons_of_neg (by intro h; cases h), List.length_cons, List.length_cons]
        omega
      · rw [List.filter_cons_of_neg (by intro h; cases h), List.filter_cons_of_pos (by rfl), List.length_cons, List.length_cons]
        omega
      · rw [List.filter_cons_of_neg (by intro h; cases h), List.filter_cons_of_neg (by intro h; cases h), List.length_cons]
        omega
  have := h3 t
  simp only [Option.getD_some] at h1 h2
  omega

/-- What `TrainPy` does from the loss on, for a loss that looks at one row at a time. -/
theorem trainPyRun_point {mc : Machine D A} {t : DataStore A} {n : Nat} {c : Config D} {base : Option (List (Tree D A))}
    {nt : Int} (hi : PyInput mc t n c base nt) (w y : Nat → D) (seed : Int) {features : List String} (hne : features ≠ [])
    (hne' : t ≠ []) (hlen : features.length < 2 ^ 31) :
    ∃ (e : PointLoss D) (r : TrainResult D A), PointOf mc c nt w y e ∧
      trainGBDT (mkEnv mc t n w seed nt) e.toLoss (mc.listing features) (c.train mc (mc.ofNat 1)) base [] 0 = ok r ∧
      (r.code = .ok → TrainStore (mkEnv mc t n w seed nt) (mc.listing features) (c.train mc (mc.ofNat 1)) (base.getD [])) ∧
      trainPyRun mc t c w y base seed nt features = (if r.code = .ok then ok (.ok r.forest) else raise r.code (.ok (.ok r.forest))) ∧
      r.code ∈ [.ok, .invalidArgument, .notFound, .internal] := by
  obtain ⟨e, he, hw⟩ := withLoss_point mc seed nt hi.loss
  have hlen' : (mc.listing features).length < 2 ^ 31 := by rw [(hi.machine.listing features).length_eq]; exact hlen
  obtain ⟨r, hr, hcode⟩ := hi.run w seed (names := mc.listing features) hlen' (he w y).numThreads
  refine ⟨e w y, r, he w y, hr, ?_, ?_, hcode⟩
  · intro hok
    refine hi.trainStore w seed hlen' ?_
    by_contra hc
    have hr' : trainGBDT (mkEnv mc t n w seed nt) (e w y).toLoss (mc.listing features) (c.train mc (mc.ofNat 1)) base [] 0 =
        ok ⟨checkConfig (mc.ofNat 1) (c.train mc (mc.ofNat 1)), [], [], 0⟩ := by
      unfold trainGBDT
      exact if_pos hc
    rw [hr', Outcome.ok.injEq] at hr
    subst hr
    exact hc hok
  · unfold trainPyRun
    rw [hw]
    simp only [if_neg hne, hi.store.numRows hne', ok_bind, hr]

/-- After training succeeded, `predict` gives a score for every row and the forest can be trained further. -/
theorem predict_after {mc : Machine D A} {t : DataStore A} {n : Nat} {c : Config D} {base : Option (List (Tree D A))}
    {nt : Int} (hi : PyInput mc t n c base nt) (hne' : t ≠ []) {w : Nat → D} {seed : Int} {names : List String} {e : PointLoss D}
    (he : e.numThreads = nt) {r : TrainResult D A}
    (hs : TrainStore (mkEnv mc t n w seed nt) names (c.train mc (mc.ofNat 1)) (base.getD []))
    (hr : trainGBDT (mkEnv mc t n w seed nt) e.toLoss names (c.train mc (mc.ofNat 1)) base [] 0 = ok r) (hok : r.code = .ok) :
    UsableForest t r.forest ∧ ∀ nt' : Int, 0 < nt' → ∃ scores, pyPredict (some t) r.forest nt' = ok (.ok scores) ∧ scores.length = n ∧
      ∀ i < n, ∃ xs, r.forest.mapM (fun tr => scoreOf t.getColumn tr i) = some xs ∧ scores[i]? = some (sumScores xs) := by
  have hd := pointTrainData hs (e := e) (he ▸ hi.threads)
  obtain ⟨u1, u2⟩ := C39_forest_usable hd hr hok
  refine ⟨⟨u1, u2⟩, fun nt' hnt' => ?_⟩
  obtain ⟨scores, h1, h2, h3⟩ := C37_prediction (columns := t.getColumn) (n := n) (fun _ _ h => (hi.store.col h).hasRows) hnt'
    r.forest u1 u2
  refine ⟨scores, ?_, h2, h3⟩
  simp only [pyPredict, hi.store.numRows hne', h1, if_true, Option.getD_some]

/-- The score of a row: the sum of the scores of the trees. -/
def PredictsRow (t : DataStore A) (forest : List (Tree D A)) (i : Nat) (x : D) : Prop :=
  ∃ xs, forest.mapM (fun tr => scoreOf t.getColumn tr i) = some xs ∧ x = sumScores xs

theorem len_of {t : DataStore A} {n : Nat} (h : GoodStore n t) : PyStore.len (some t) = ok (if t = [] then 0 else n) :=
  PyStore.numRows_of (fun p hp => PyStore.hasRows_size (h.rows p hp).hasRows)

/-- What `train` comes down to: an exception, or a successful run of `TrainGBDT` on the features that were asked for. -/
theorem pyTrain_cases {mc : Machine D A} {t : DataStore A} {n : Nat} {c : Config D} {base : Option (List (Tree D A))}
    {nt : Int} (hi : PyInput mc t n c base nt) (y w : List (Fl A)) (features : List String) (seed : Int) :
    (∃ e, pyTrain mc (some t) c y features w base seed nt = ok (.error e)) ∨
    ∃ (wf yf : Nat → D) (e : PointLoss D) (r : TrainResult D A) (names : List String), t ≠ [] ∧
      pyTrain mc (some t) c y features w base seed nt = ok (.ok r.forest) ∧ r.code = .ok ∧ PointOf mc c nt wf yf e ∧
      wf = (if w = [] then fun _ => mc.ofNat 1 else vecFn mc w) ∧
      (y ≠ [] ∧ yf = vecFn mc y ∨ ∃ col, t.getRaw c.targetColumn = some col ∧ yf = vecFn mc col.raw) ∧
      (∀ name ∈ names, name ∈ features ∧ IsFeature (some t) name) ∧
      TrainStore (mkEnv mc t n wf seed nt) names (c.train mc (mc.ofNat 1)) (base.getD []) ∧
      trainGBDT (mkEnv mc t n wf seed nt) e.toLoss names (c.train mc (mc.ofNat 1)) base [] 0 = ok r := by
  unfold pyTrain
  simp only
  split
  · exact Or.inl ⟨_, rfl⟩
  · set fs := (namesOfType (some t) .string).filter (fun n => features.contains n) ++
      (namesOfType (some t) .bucketized).filter (fun n => features.contains n) with hfs
    set c' : Config D := { c with
      floatFeature := (namesOfType (some t) .bucketized).filter (fun n => features.contains n)
      catFeature := (namesOfType (some t) .string).filter (fun n => features.contains n) } with hc'
    have hi' : PyInput mc t n c' base nt := ⟨hi.machine, hi.store, hi.rowCount, hi.columnCount, hi.loss, hi.exampleRate,
      hi.featureRate, hi.threads, hi.group, hi.base⟩
    have hraise : ∀ {α : Type} (e : Code) (k : PyRes α), e ∈ [Code.invalidArgument, .notFound, .internal] →
        ∃ x, raise e k = ok (.error x) := by
      intro α e k he
      simp only [List.mem_cons, List.not_mem_nil, or_false] at he
      rcases he with rfl | rfl | rfl <;> exact ⟨_, rfl⟩
    unfold trainPyFull
    rw [wrongLength_ok (len_of hi.store), ok_bind, wrongLength_ok (len_of hi.store)]
    generalize (if t = [] then 0 else n) = m
    simp only [ok_bind]
    split
    · exact Or.inl (hraise _ _ (by simp))
    · split
      · exact Or.inl (hraise _ _ (by simp))
      · have htarget : (∃ e, trainPyTargets mc (some t) c' y = ok (.error e)) ∨ ∃ yf, trainPyTargets mc (some t) c' y = ok (.ok yf) ∧
            (y ≠ [] ∧ yf = vecFn mc y ∨ ∃ col, t.getRaw c.targetColumn = some col ∧ yf = vecFn mc col.raw) := by
          unfold trainPyTargets
          split
          · next h => exact Or.inr ⟨_, rfl, Or.inl ⟨h, rfl⟩⟩
          · split
            · exact Or.inl (hraise _ _ (by simp))
            · simp only
              split
              · exact Or.inl (hraise _ _ (by simp))
              · next col hcol => exact Or.inr ⟨_, rfl, Or.inr ⟨col, hcol, rfl⟩⟩
        rcases htarget with ⟨e, he⟩ | ⟨yf, hyf, hy⟩
        · exact Or.inl ⟨e, by rw [he]; rfl⟩
        · rw [hyf]
          simp only [PyRes.andThen, Option.getD_some]
          by_cases hne : fs = []
          · left
            obtain ⟨e, _, hw⟩ := withLoss_point mc seed nt hi'.loss
            unfold trainPyRun
            rw [hw]
            simp only [if_pos hne]
            exact hraise _ _ (by simp)
          · have hne' : t ≠ [] := by
              rintro rfl
              exact hne rfl
            obtain ⟨e, r, h1, h5, h6, h7, h8⟩ := trainPyRun_point hi'
              (if w = [] then fun _ => mc.ofNat 1 else vecFn mc w) yf seed hne hne'
              (lt_of_le_of_lt (features_length t features) hi.columnCount)
            rw [h7]
            by_cases hok : r.code = .ok
            · right
              refine ⟨_, yf, e, r, _, hne', by rw [if_pos hok], hok, ⟨h1.1, h1.2, h1.3, h1.4, h1.5, h1.6⟩, rfl, hy, ?_, h6 hok, h5⟩
              intro name hname
              have := (hi.machine.listing fs).mem_iff.mp hname
              exact (mem_features (s := some t) hi.store.names).mp this
            · left
              rw [if_neg hok]
              refine hraise _ _ ?_
              simp only [List.mem_cons, List.not_mem_nil, or_false] at h8 ⊢
              exact h8.resolve_left hok

/-- **C87.** `train` with mse, logloss or huberized hinge on a store never crashes, whatever the targets, the weights, the
features and the configuration: it raises an exception or returns a forest; and with that forest `predict` never crashes
on the store and gives one score per row, and training can go on. -/
theorem C87_no_crash {mc : Machine D A} {t : DataStore A} {n : Nat} {c : Config D} {base : Option (List (Tree D A))}
    {nt : Int} (hi : PyInput mc t n c base nt) (y w : List (Fl A)) (features : List String) (seed : Int) :
    (∃ e, pyTrain mc (some t) c y features w base seed nt = ok (.error e)) ∨
    ∃ forest, pyTrain mc (some t) c y features w base seed nt = ok (.ok forest) ∧ UsableForest t forest ∧
      (forest.length : Int) ≤ (base.getD []).length + c.numTrees + 1 ∧
      ∀ nt' : Int, 0 < nt' → ∃ scores, pyPredict (some t) forest nt' = ok (.ok scores) ∧ scores.length = n ∧
        ∀ (i : Nat) (x : D), scores[i]? = some x → PredictsRow t forest i x := by
  rcases pyTrain_cases hi y w features seed with h | ⟨wf, yf, e, r, names, hne, h1, hok, he, _, _, _, hs, hr⟩
  · exact Or.inl h
  · right
    obtain ⟨hu, hp⟩ := predict_after hi hne he.numThreads hs hr hok
    refine ⟨r.forest, h1, hu, ?_, fun nt' hnt' => ?_⟩
    · obtain ⟨fitted, constants, g1, g2, _⟩ := C39_function_values (pointTrainData hs (e := e) (he.numThreads ▸ hi.threads)) hr hok
      have hnt : (c.train mc (mc.ofNat 1)).numTrees = c.numTrees := rfl
      rw [hnt] at g2
      rw [g1, List.length_cons, List.length_map, List.length_append]
      have := List.length_filter_le (fun tr => !isSingleNode tr) (base.getD [])
      push_cast
      omega
    · obtain ⟨scores, k1, k2, k3⟩ := hp nt' hnt'
      refine ⟨scores, k1, k2, fun i x hx => ?_⟩
      have hi' : i < n := by
        have := (List.getElem?_eq_some_iff.mp hx).1
        omega
      obtain ⟨xs, m1, m2⟩ := k3 i hi'
      rw [hx, Option.some.injEq] at m2
      exact ⟨xs, m1, m2⟩

/-- **C86.** A forest that `train` returns asks only for features that were named in the call, and for those of the base
forest. -/
theorem C86_only_named {mc : Machine D A} {t : DataStore A} {n : Nat} {c : Config D} {base : Option (List (Tree D A))}
    {nt : Int} (hi : PyInput mc t n c base nt) {y w : List (Fl A)} {features : List String} {seed : Int}
    {forest : List (Tree D A)} (h : pyTrain mc (some t) c y features w base seed nt = ok (.ok forest)) :
    ∀ name ∈ forestFeatures forest, name ∈ features ∨ name ∈ forestFeatures (base.getD []) := by
  rcases pyTrain_cases hi y w features seed with ⟨_, h'⟩ | ⟨wf, yf, e, r, names, hne, h1, hok, he, _, _, hn, hs, hr⟩
  · rw [h] at h'; cases h'
  · rw [h] at h1
    simp only [Outcome.ok.injEq, Except.ok.injEq] at h1
    subst h1
    obtain ⟨fitted, constants, g1, _, _, _, g5, _⟩ := C39_function_values (pointTrainData hs (e := e) (he.numThreads ▸ hi.threads)) hr hok
    intro name hname
    rw [g1, forestFeatures, List.mem_flatMap] at hname
    obtain ⟨tr, htr, hname⟩ := hname
    rcases List.mem_cons.mp htr with rfl | htr
    · simp [treeFeatures] at hname
    · obtain ⟨t0, ht0, rfl⟩ := List.mem_map.mp htr
      rcases List.mem_append.mp ht0 with ht0 | ht0
      · right
        rw [forestFeatures, List.mem_flatMap]
        exact ⟨t0, List.mem_of_mem_filter ht0, treeFeatures_clearInternal hname⟩
      · left
        obtain ⟨s, ⟨_, hs', _⟩, rfl⟩ := treeFeatures_wellFormed (g5 t0 ht0).2.2 hname
        exact (hn _ hs').1

/-- The targets that training uses: those given, or the target column. -/
def targetFn (mc : Machine D A) (t : DataStore A) (c : Config D) (y : List (Fl A)) : Nat → D :=
  if y ≠ [] then vecFn mc y
  else match t.getRaw c.targetColumn with
    | some col => vecFn mc col.raw
    | none => vecFn mc []

/-- The weights that training uses: those given, or 1. -/
def weightFn (mc : Machine D A) (w : List (Fl A)) : Nat → D := if w = [] then fun _ => mc.ofNat 1 else vecFn mc w

/-- A call with everything in order: some trees and leaves, rates in (0, 1], features that exist, as many weights and targets as
rows (or none, and a target column), and targets 1 and -1 for the losses that need them. -/
structure ValidCall (mc : Machine D A) (t : DataStore A) (n : Nat) (c : Config D) (y w : List (Fl A)) (features : List String) :
    Prop where
  trees : 0 < c.numTrees
  leaves : 0 < c.numLeaves
  exampleRate : Dbl.ltb 0 (c.exampleRate.getD (mc.ofNat 1)) = true ∧ Dbl.ltb (mc.ofNat 1) (c.exampleRate.getD (mc.ofNat 1)) = false
  featureRate : Dbl.ltb 0 (c.featureRate.getD (mc.ofNat 1)) = true ∧ Dbl.ltb (mc.ofNat 1) (c.featureRate.getD (mc.ofNat 1)) = false
  some : features ≠ []
  known : ∀ name ∈ features, IsFeature (.some t) name
  weights : w = [] ∨ w.length = n
  targets : y ≠ [] ∧ y.length = n ∨ y = [] ∧ c.targetColumn ≠ "" ∧ t.getRaw c.targetColumn ≠ none
  binary : c.lossFunc = "mse" ∨
    ∀ i < n, Dbl.eqb (targetFn mc t c y i) mc.math.one = true ∨ Dbl.eqb (targetFn mc t c y i) mc.minusOne = true

theorem not_leb_of_pos {x : D} (h : Dbl.ltb 0 x = true) : Dbl.leb x 0 = false := by
  simp only [Dbl.leb, Bool.or_eq_false_iff]
  constructor
  · cases h1 : Dbl.ltb x 0 with
    | false => rfl
    | true =>
      have := StrictLt.trans _ _ _ h h1
      rw [StrictLt.irrefl] at this
      cases this
  · cases h1 : Dbl.eqb x 0 with
    | false => rfl
    | true =>
      rw [EqOrder.eq_not_lt _ _ h1] at h
      cases h

/-- With everything in order, `train` runs `TrainGBDT` and the run gets past the checks. -/
theorem pyTrain_valid {mc : Machine D A} {t : DataStore A} {n : Nat} {c : Config D} {base : Option (List (Tree D A))}
    {nt : Int} (hi : PyInput mc t n c base nt) {y w : List (Fl A)} {features : List String}
    (hv : ValidCall mc t n c y w features) (seed : Int) :
    ∃ (e : PointLoss D) (r : TrainResult D A) (names : List String), t ≠ [] ∧ PointOf mc c nt (weightFn mc w) (targetFn mc t c y) e ∧
      (∀ name, name ∈ names ↔ name ∈ features) ∧
      TrainStore (mkEnv mc t n (weightFn mc w) seed nt) names (c.train mc (mc.ofNat 1)) (base.getD []) ∧
      trainGBDT (mkEnv mc t n (weightFn mc w) seed nt) e.toLoss names (c.train mc (mc.ofNat 1)) base [] 0 = ok r ∧
      (r.code = .ok ∧ pyTrain mc (some t) c y features w base seed nt = ok (.ok r.forest) ∨
        r.code = .internal ∧ pyTrain mc (some t) c y features w base seed nt = ok (.error (.lib .logicError))) := by
  have hfound : ¬ ∃ name ∈ features, ¬ IsFeature (some t) name := by
    rintro ⟨name, h1, h2⟩
    exact h2 (hv.known name h1)
  have hmiss := (anyMissing_iff (s := some t) hi.store.names features).not.mpr hfound
  obtain ⟨f0, hf0⟩ := List.exists_mem_of_ne_nil _ hv.some
  have hne' : t ≠ [] := by
    rintro rfl
    obtain ⟨c, h, _⟩ := hv.known f0 hf0
    cases h
  set fs := (namesOfType (some t) .string).filter (fun n => features.contains n) ++
    (namesOfType (some t) .bucketized).filter (fun n => features.contains n) with hfs
  have hfsmem : ∀ name, name ∈ fs ↔ name ∈ features := fun name =>
    (mem_features (s := some t) hi.store.names).trans ⟨fun h => h.1, fun h => ⟨h, hv.known _ h⟩⟩
  have hne : fs ≠ [] := List.ne_nil_of_mem ((hfsmem f0).mpr hf0)
  set c' : Config D := { c with
    floatFeature := (namesOfType (some t) .bucketized).filter (fun n => features.contains n)
    catFeature := (namesOfType (some t) .string).filter (fun n => features.contains n) } with hc'
  have hi' : PyInput mc t n c' base nt := ⟨hi.machine, hi.store, hi.rowCount, hi.columnCount, hi.loss, hi.exampleRate,
    hi.featureRate, hi.threads, hi.group, hi.base⟩
  have hrun : pyTrain mc (some t) c y features w base seed nt =
      trainPyRun mc t c' (weightFn mc w) (targetFn mc t c y) base seed nt fs := by
    unfold pyTrain
    simp only
    rw [if_neg hmiss]
    unfold trainPyFull
    rw [wrongLength_ok (len_of hi.store), ok_bind, wrongLength_ok (len_of hi.store), if_neg hne']
    have h1 : ¬ (y ≠ [] ∧ n ≠ y.length) := by
      rintro ⟨h1, h2⟩
      rcases hv.targets with h | h
      · exact h2 h.2.symm
      · exact h1 h.1
    have h2 : ¬ (w ≠ [] ∧ n ≠ w.length) := by
      rintro ⟨h1, h2⟩
      rcases hv.weights with h | h
      · exact h1 h
      · exact h2 h.symm
    simp only [decide_eq_false h1, decide_eq_false h2, ok_bind, Bool.false_eq_true, if_false]
    have h3 : trainPyTargets mc (some t) c' y = ok (.ok (targetFn mc t c y)) := by
      unfold trainPyTargets targetFn
      rcases hv.targets with h | ⟨h, h4, h5⟩
      · rw [if_pos h.1, if_pos h.1]
      · have hy : ¬ (y ≠ []) := not_not.mpr h
        have h4' : ¬ c'.targetColumn = "" := h4
        rw [if_neg hy, if_neg h4', if_neg hy]
        show (match t.getRaw c.targetColumn with
          | none => raise .invalidArgument .ub
          | some col => ok (.ok (vecFn mc col.raw))) = _
        cases hcol : t.getRaw c.targetColumn with
        | none => exact absurd hcol h5
        | some col => rfl
    rw [h3]
    rfl
  obtain ⟨e, r, h1, h5, h6, h7, h8⟩ := trainPyRun_point hi' (weightFn mc w) (targetFn mc t c y) seed hne hne'
    (lt_of_le_of_lt (features_length t features) hi.columnCount)
  have hcheck : checkConfig (mc.ofNat 1) (c.train mc (mc.ofNat 1)) = .ok := by
    unfold checkConfig
    rw [if_neg (by have := hv.trees; simp only [Config.train]; omega),
      if_neg (by have := hv.leaves; simp only [Config.train]; omega)]
    simp only [Config.train, not_leb_of_pos hv.exampleRate.1, hv.exampleRate.2, not_leb_of_pos hv.featureRate.1,
      hv.featureRate.2, Bool.or_self, Bool.false_eq_true, if_false]
  have hlen' : (mc.listing fs).length < 2 ^ 31 := by
    rw [(hi.machine.listing fs).length_eq]
    exact lt_of_le_of_lt (features_length t features) hi.columnCount
  refine ⟨e, r, mc.listing fs, hne', ⟨h1.1, h1.2, h1.3, h1.4, h1.5, h1.6⟩, fun name =>
    ((hi.machine.listing fs).mem_iff).trans (hfsmem name), hi.trainStore _ seed hlen' hcheck, h5, ?_⟩
  rw [hrun, h7]
  have hcode : r.code = .ok ∨ r.code = .internal := by
    rcases trainGBDT_stages h5 with ⟨_, g | ⟨_, g⟩ | ⟨g, hg⟩⟩ |
      ⟨_, features, group, ls, slices, forest1, slices1, f1, stopped, s, _, _, _, _, _, _, hr⟩
    · exact absurd (g.1.trans hcheck) g.2
    · exfalso
      obtain ⟨cs, hcs⟩ := loadFeatures_ok (columns := t.getColumn) (names := mc.listing fs) (by
        intro name hname
        obtain ⟨col, hcol, _⟩ := hv.known name ((hfsmem name).mp ((hi.machine.listing fs).mem_iff.mp hname))
        rw [Option.getD_some] at hcol
        rw [hcol]
        simp)
      rw [show (mkEnv mc t n (weightFn mc w) seed nt).columns = t.getColumn from rfl, hcs] at g
      cases g
    · exfalso
      simp only [PointLoss.toLoss, pointInit] at hg
      split at hg
      · next hb =>
        rw [Bool.and_eq_true, List.any_eq_true] at hb
        obtain ⟨hb, i, hir, hx⟩ := hb
        rw [h1.targets, h1.one, h1.minusOne] at hx
        rcases hv.binary with hm | hbin
        · rw [h1.mse hm] at hb
          cases hb
        · rcases hbin i (List.mem_range.mp hir) with h | h <;> simp [h] at hx
      · rw [bind_eq_ok] at hg
        obtain ⟨_, _, hg⟩ := hg
        simp [pure_eq] at hg
    · rw [hr]
      cases stopped <;> simp
  rcases hcode with h | h
  · exact Or.inl ⟨h, by rw [if_pos h]⟩
  · exact Or.inr ⟨h, by rw [if_neg (by rw [h]; decide), h]; rfl⟩

/-- **C87.** A call with everything in order returns a forest, unless the learning diverges: the only exception is the one
that says so. -/
theorem C87_trains {mc : Machine D A} {t : DataStore A} {n : Nat} {c : Config D} {base : Option (List (Tree D A))}
    {nt : Int} (hi : PyInput mc t n c base nt) {y w : List (Fl A)} {features : List String}
    (hv : ValidCall mc t n c y w features) (seed : Int) :
    (∃ forest, pyTrain mc (some t) c y features w base seed nt = ok (.ok forest)) ∨
      pyTrain mc (some t) c y features w base seed nt = ok (.error (.lib .logicError)) ∧ ∃ x, mc.diverged x = true := by
  obtain ⟨e, r, names, _, he, _, hs, hr, h | h⟩ := pyTrain_valid hi hv seed
  · exact Or.inl ⟨_, h.2⟩
  · right
    refine ⟨h.2, ?_⟩
    have hd := pointTrainData hs (e := e) (he.numThreads ▸ hi.threads)
    obtain ⟨_, _, _, _, _, _, x, _, _, _, _, _, _, _, _, hx, _⟩ := C73_divergence hd (by
      intro n g hg
      simp only [PointLoss.toLoss, pointInit] at hg
      split at hg
      · cases hg
      · rw [bind_eq_ok] at hg
        obtain ⟨_, _, hg⟩ := hg
        simp [pure_eq] at hg) hr h.1
    exact ⟨x, hx⟩

/-- **C87 (stores from dictionaries).** The store that `from_dict` returns, for columns of one length without numbers above
`FLT_MAX`, is one that `train` and `predict` work on: the bucketized and string columns are features, the raw columns can be
targets. -/
theorem C87_from_dict (fmax : A) {nb : Nat} (hnb : nb < 2 ^ 32) {place : DataStore A → DataStore A}
    (hplace : ∀ l, (place l).Perm l) {n : Nat} (hn : n < 2 ^ 31)
    {bucketized raw : List (String × List (Fl A))} {strs : List (String × List String)}
    (hnames : (bucketized.map Prod.fst ++ (strs.map Prod.fst ++ raw.map Prod.fst)).Nodup)
    (hb : ∀ p ∈ bucketized, p.2.length = n ∧ ∀ v, Fl.num v ∈ p.2 → v ≤ fmax) (hs : ∀ p ∈ strs, p.2.length = n)
    (hr : ∀ p ∈ raw, p.2.length = n ∧ ∀ v, Fl.num v ∈ p.2 → v ≤ fmax)
    {t : DataStore A} (hd : PyStore.fromDict fmax nb place bucketized strs raw = ok (.ok (some t))) :
    GoodStore n t ∧ t.length = bucketized.length + strs.length + raw.length ∧
      (∀ p ∈ bucketized, IsFeature (some t) p.1) ∧ (∀ p ∈ strs, IsFeature (some t) p.1) ∧
      (∀ p ∈ strs, ∃ c, t.getColumn p.1 = some (.str c)) ∧ ∀ p ∈ raw, t.getRaw p.1 ≠ none := by
  unfold PyStore.fromDict at hd
  obtain ⟨h1, h2, _, h4⟩ := addAll_good (fmax := fmax) hnb hplace hn
    (by simpa [List.map_append, Function.comp_def] using hnames) (by
      intro l hl
      simp only [List.mem_append, List.mem_map] at hl
      rcases hl with ⟨p, hp, rfl⟩ | ⟨p, hp, rfl⟩ | ⟨p, hp, rfl⟩
      · refine ⟨by simpa using (hb p hp).1, ?_, ?_⟩
        · intro x hx
          obtain ⟨v, _, rfl⟩ := List.mem_map.mp hx
          trivial
        · intro v hv
          obtain ⟨u, hu, hx⟩ := List.mem_map.mp hv
          cases hx
          exact (hb p hp).2 v hu
      · refine ⟨by simpa using hs p hp, ?_, ?_⟩
        · intro x hx
          obtain ⟨v, _, rfl⟩ := List.mem_map.mp hx
          trivial
        · intro v hv
          obtain ⟨u, hu, hx⟩ := List.mem_map.mp hv
          cases hx
      · refine ⟨by simpa using (hr p hp).1, ?_, ?_⟩
        · intro x hx
          obtain ⟨v, _, rfl⟩ := List.mem_map.mp hx
          trivial
        · intro v hv
          obtain ⟨u, hu, hx⟩ := List.mem_map.mp hv
          cases hx
          exact (hr p hp).2 v hu) hd
  simp only [Option.getD_some] at h1 h2 h4
  have hstr : ∀ p ∈ strs, ∃ c, t.getColumn p.1 = some (.str c) := by
    intro p hp
    obtain ⟨c, g1, g2⟩ := h4 (p.1, .string, p.2.map Cell.str) (by
      simp only [List.mem_append, List.mem_map]; exact Or.inr (Or.inl ⟨p, hp, rfl⟩))
    cases c with
    | str c => exact ⟨c, g1⟩
    | bkt c => cases g2
    | raw c => cases g2
  refine ⟨h1, ?_, ?_, ?_, hstr, ?_⟩
  · rw [h2]
    simp only [List.length_append, List.length_map]
    omega
  · intro p hp
    obtain ⟨c, g1, g2⟩ := h4 (p.1, .bucketized, p.2.map Cell.num) (by
      simp only [List.mem_append, List.mem_map]; exact Or.inl ⟨p, hp, rfl⟩)
    exact ⟨c, g1, Or.inl g2⟩
  · intro p hp
    obtain ⟨c, hc⟩ := hstr p hp
    exact ⟨_, hc, Or.inr rfl⟩
  · intro p hp
    obtain ⟨c, g1, g2⟩ := h4 (p.1, .raw, p.2.map Cell.num) (by
      simp only [List.mem_append, List.mem_map]; exact Or.inr (Or.inr ⟨p, hp, rfl⟩))
    simp only at g1
    unfold DataStore.getRaw
    rw [g1]
    cases c with
    | str c => cases g2
    | bkt c => cases g2
    | raw c => simp

end general

section exact
variable {K A : Type} [Field K] [LinearOrder K] [IsStrictOrderedRing K] [LinearOrder A] [ThrOps A]

/-- **C87 (squared error, exact arithmetic).** `train` with mse and without sampling of rows returns a forest, `predict` gives a
score for each row, and the squared error on the training data is not above that of the predictions of the base forest (of 0, if
there is none). -/
theorem C87_mse {mc : Machine K A} {t : DataStore A} {n : Nat} {c : Config K} {base : Option (List (Tree K A))}
    {nt : Int} (hi : PyInput mc t n c base nt) {y w : List (Fl A)} {features : List String}
    (hv : ValidCall mc t n c y w features) (seed : Int) (hloss : c.lossFunc = "mse")
    (hone : mc.math.one = 1) (hexact : mc.rnd32 = id) (hdiv : ∀ x, mc.diverged x = false)
    (hrows : ∀ k, mc.draw seed k < c.exampleRate.getD (mc.ofNat 1)) (hw : ∀ i < n, 0 ≤ weightFn mc w i)
    (hlambda : 0 ≤ c.l2Lambda) (hs0 : 0 ≤ c.shrinkage) (hs1 : c.shrinkage ≤ 1) {nt' : Int} (hnt' : 0 < nt') :
    ∃ forest before after, pyTrain mc (some t) c y features w base seed nt = ok (.ok forest) ∧
      pyPredict (some t) (base.getD []) nt' = ok (.ok before) ∧ pyPredict (some t) forest nt' = ok (.ok after) ∧
      before.length = n ∧ after.length = n ∧
      sqError (weightFn mc w) (targetFn mc t c y) n after ≤ sqError (weightFn mc w) (targetFn mc t c y) n before := by
  obtain ⟨e, r, names, hne, he, _, hs, hr, h | h⟩ := pyTrain_valid hi hv seed
  · have hm : MseInput (mkEnv mc t n (weightFn mc w) seed nt) (c.train mc (mc.ofNat 1)) e :=
      { loss := ⟨mc.math, hone, by rw [he.mse hloss]; rfl⟩
        weights := he.weights.symm
        nonneg := hw
        exact := hexact
        allRows := hrows
        lambda := hlambda
        shrink0 := hs0
        shrink1 := hs1 }
    obtain ⟨f0, f1, g1, g2, g3⟩ := C84_no_worse_than_base hs (he.numThreads ▸ hi.threads) hm hr h.1 hnt'
    change evaluateForest t.getColumn n nt' _ = _ at g1
    change evaluateForest t.getColumn n nt' _ = _ at g2
    have hd := pointTrainData hs (e := e) (he.numThreads ▸ hi.threads)
    obtain ⟨u1, u2⟩ := C39_forest_usable hd hr h.1
    obtain ⟨s0, k1, k2, _⟩ := C37_prediction (columns := t.getColumn) (n := n) (fun _ _ h => (hi.store.col h).hasRows) hnt'
      (base.getD []) hi.base.features hi.base.scorable
    obtain ⟨s1, k3, k4, _⟩ := C37_prediction (columns := t.getColumn) (n := n) (fun _ _ h => (hi.store.col h).hasRows) hnt'
      r.forest u1 u2
    rw [g1] at k1
    rw [g2] at k3
    cases k1
    cases k3
    refine ⟨r.forest, f0, f1, h.2, ?_, ?_, k2, k4, ?_⟩
    · simp only [pyPredict, hi.store.numRows hne, g1, if_true, Option.getD_some]
    · simp only [pyPredict, hi.store.numRows hne, g2, if_true, Option.getD_some]
    · rw [he.targets] at g3
      exact g3
  · exfalso
    rcases C87_trains hi hv seed with ⟨_, h'⟩ | ⟨_, x, hx⟩
    · rw [h.2] at h'; cases h'
    · rw [hdiv] at hx; cases hx

end exact

/-! ## Examples -/

/-- A machine that computes exactly. -/
def ratMachine : Machine ℚ ℚ where
  toD := fun x => match x with
    | .num v => v
    | .nan => 0
  math := ratMath
  minusOne := -1
  fabs := fun x => if x < 0 then -x else x
  rnd32 := id
  ofNat := fun n => n
  toInt := fun x => some x.floor
  toU64 := fun x => some x.floor.toNat
  diverged := fun _ => false
  threshold := 1 / 10000
  tol := 1 / 1000000
  sort := ratSort
  descSort := ratDescSort
  top := ratTop
  listing := fun l => l.reverse
  draw := fun _ k => ((k * 7) % 10 : Nat) / 10
  pairDraw := fun _ t _ i n => (t + i) % n

/-- The data of the examples. -/
def pyDict (place : DataStore ℚ → DataStore ℚ) : PyRes (Option (DataStore ℚ)) :=
  PyStore.fromDict 1000 6 place [("size", [.num 5, .nan, .num 7, .num 9, .num 9])]
    [("color", ["b", "a", "d", "b", "c"]), ("team", ["u", "u", "v", "v", "v"])]
    [("y", [.num 1, .num 2, .num 6, .num 3, .num 8]), ("sign", [.num 1, .num (-1), .num 1, .num 1, .num (-1)])]

/-- A configuration; the sampling rates are left out. -/
def pyCfg : Config ℚ where
  numTrees := 2
  numLeaves := 3
  shrinkage := 1 / 2
  minGain := 0
  l2Lambda := 1
  minHessian := 0
  exampleRate := none
  featureRate := none
  lossFunc := "mse"
  pairRate := 2
  dcgBase := 0
  targetColumn := "y"

theorem below_of (l : List (Fl ℚ)) (h : l.all (fun x => match x with | .num v => decide (v ≤ 1000) | .nan => true) = true)
    (v : ℚ) (hv : Fl.num v ∈ l) : v ≤ 1000 := by
  have := List.all_eq_true.mp h _ hv
  simpa using this

/-- What C87 says of the store. -/
theorem pyDict_store {t : DataStore ℚ} (h : pyDict id = ok (.ok (some t))) : GoodStore 5 t ∧ t.length = 5 ∧
    IsFeature (some t) "size" ∧ IsFeature (some t) "color" ∧ IsFeature (some t) "team" ∧ t.getRaw "y" ≠ none ∧
    t.getRaw "sign" ≠ none := by
  obtain ⟨h1, h2, h3, h4, _, h5⟩ := C87_from_dict (1000 : ℚ) (by decide) (fun _ => List.Perm.refl _) (n := 5) (by decide)
    (by decide) (by
      intro p hp
      rw [List.mem_singleton.mp hp]
      exact ⟨rfl, below_of _ (by decide +kernel)⟩) (by decide) (by
      intro p hp
      simp only [List.mem_cons, List.not_mem_nil, or_false] at hp
      rcases hp with rfl | rfl
      · exact ⟨rfl, below_of _ (by decide +kernel)⟩
      · exact ⟨rfl, below_of _ (by decide +kernel)⟩) h
  exact ⟨h1, h2, h3 _ (List.mem_singleton.mpr rfl), h4 _ (List.mem_cons_self ..), h4 _ (List.mem_cons_of_mem _ (List.mem_cons_self ..)),
    h5 _ (List.mem_cons_self ..), h5 _ (List.mem_cons_of_mem _ (List.mem_cons_self ..))⟩

/-- The hypotheses of C87 hold for that data. -/
theorem pyInput {t : DataStore ℚ} (h : pyDict id = ok (.ok (some t))) {c : Config ℚ}
    (hl : c.lossFunc ∈ ["mse", "logloss", "huberized_hinge"]) (hg : c.groupColumn = "") :
    PyInput ratMachine t 5 c none 2 where
  machine :=
    { sort := ratSort_spec
      top := ratTop_spec
      listing := fun l => l.reverse_perm
      toInt := by intros; simp [ratMachine] }
  store := (pyDict_store h).1
  rowCount := by decide
  columnCount := by rw [(pyDict_store h).2.1]; decide
  loss := hl
  exampleRate := by simp [NotNaN]
  featureRate := by simp [NotNaN]
  threads := by decide
  group := Or.inl hg
  base := ⟨fun _ h => absurd h (by simp [forestFeatures]), fun _ h => absurd h (by simp)⟩

/-- A call that is in order: all conditions of `C87_trains` and `C87_mse` hold together. -/
theorem pyValid {t : DataStore ℚ} (h : pyDict id = ok (.ok (some t))) :
    ValidCall ratMachine t 5 pyCfg [] [] ["color", "size"] where
  trees := by decide
  leaves := by decide
  exampleRate := by decide +kernel
  featureRate := by decide +kernel
  some := by decide
  known := by
    obtain ⟨_, _, h1, h2, _⟩ := pyDict_store h
    intro name hn
    simp only [List.mem_cons, List.not_mem_nil, or_false] at hn
    rcases hn with rfl | rfl
    · exact h2
    · exact h1
  weights := Or.inl rfl
  targets := Or.inr ⟨rfl, by decide, (pyDict_store h).2.2.2.2.2.1⟩
  binary := Or.inl rfl

/-- The outcome of a call on the data, and the predictions. -/
def pyRun (c : Config ℚ) (y : List (Fl ℚ)) (features : List String) (w : List (Fl ℚ)) : PyRes (List ℚ) :=
  (pyDict id).andThen (fun s => (pyTrain ratMachine s c y features w none 1 2).andThen (fun forest => pyPredict s forest 3))

/-- The store exists; training on two features, with targets from the store or from the call, fits better and better. -/
example : (match pyDict id with | .ok (.ok (some _)) => true | _ => false) = true ∧
    (match pyRun pyCfg [] ["color", "size"] [] with
    | .ok (.ok l) => decide (l.length = 5 ∧ sqError (fun _ => 1) (fun i => trainTargets.getD i 0) 5 l < 34)
    | _ => false) = true ∧
    (match pyRun { pyCfg with lossFunc := "huberized_hinge", targetColumn := "sign" } [] ["color", "size"] [] with
    | .ok (.ok l) => decide (l.length = 5 ∧ l ≠ [0, 0, 0, 0, 0])
    | _ => false) = true := by
  decide +kernel

/-- An unknown feature, a raw column, targets that are not 1 and -1, too few weights, no features, an unknown loss: each
raises. -/
example : pyRun pyCfg [] ["color", "sizes"] [] = ok (.error .valueError) ∧ pyRun pyCfg [] ["y"] [] = ok (.error .valueError) ∧
    pyRun { pyCfg with lossFunc := "logloss" } [] ["color"] [] = ok (.error (.lib .invalidArgument)) ∧
    pyRun pyCfg [] ["color"] [.num 1] = ok (.error (.lib .invalidArgument)) ∧
    pyRun pyCfg [] [] [] = ok (.error (.lib .invalidArgument)) ∧
    pyRun { pyCfg with lossFunc := "rmse" } [] ["color"] [] = ok (.error (.lib .iosFailure)) := by
  decide +kernel

end Gbdt
