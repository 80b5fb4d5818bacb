import Mathlib.Data.String.Basic
import Verif.Props.Pipeline

/-!
# C88, C89: the command line and Python
-/

set_option autoImplicit false
set_option linter.unusedSectionVars false

namespace Gbdt

open Outcome

section general
variable {D A : Type} [Dbl D] [FpOrder D] [EqOrder D] [LinearOrder A] [ThrOps A]

/-- Creating a loss function has one of four outcomes, which do not depend on what is done with it. -/
theorem withLoss_shape (mc : Machine D A) (c : Config D) (seed nt : Int) :
    (∀ {R : Type} (k : ∀ S : Type, ((w y : Nat → D) → LossFunc S D) → Outcome R), withLoss mc c seed nt k = none) ∨
    (∀ {R : Type} (k : ∀ S : Type, ((w y : Nat → D) → LossFunc S D) → Outcome R), withLoss mc c seed nt k = some ub) ∨
    (∀ {R : Type} (k : ∀ S : Type, ((w y : Nat → D) → LossFunc S D) → Outcome R), withLoss mc c seed nt k = some fatal) ∨
    ∃ (S : Type) (loss : (w y : Nat → D) → LossFunc S D),
      (∀ w y n g e, (loss w y).init n g = ok (.error e) → e = .invalidArgument) ∧
      ∀ {R : Type} (k : ∀ S : Type, ((w y : Nat → D) → LossFunc S D) → Outcome R), withLoss mc c seed nt k = some (k S loss) := by
  have hp : ∀ (e : PointLoss D) (n : Nat) (g : Option StrCol) (x : Code), e.toLoss.init n g = ok (.error x) →
      x = .invalidArgument := by
    intro e n g x h
    simp only [PointLoss.toLoss, pointInit] at h
    split at h
    · rw [Outcome.ok.injEq, Except.error.injEq] at h; exact h.symm
    · rw [bind_eq_ok] at h
      obtain ⟨_, _, h⟩ := h
      simp [pure_eq] at h
  have hq : ∀ (e : PairLoss D) (n : Nat) (g : Option StrCol) (x : Code), e.toLoss.init n g = ok (.error x) →
      x = .invalidArgument := by
    intro e n g x h
    simp only [PairLoss.toLoss, pairInit] at h
    split at h
    · rw [Outcome.ok.injEq, Except.error.injEq] at h; exact h.symm
    · simp only [bind_eq_ok] at h
      obtain ⟨_, _, _, _, _, _, h⟩ := h
      simp [pure_eq] at h
  by_cases h1 : c.lossFunc = "mse"
  · exact Or.inr (Or.inr (Or.inr ⟨_, fun w y => (mkPoint mc nt w y false (mseLoss mc.math)).toLoss,
      fun _ _ => hp _, fun k => by simp [withLoss, h1]⟩))
  by_cases h2 : c.lossFunc = "logloss"
  · exact Or.inr (Or.inr (Or.inr ⟨_, fun w y => (mkPoint mc nt w y true (logLoss mc.math)).toLoss,
      fun _ _ => hp _, fun k => by simp [withLoss, h2]⟩))
  by_cases h3 : c.lossFunc = "huberized_hinge"
  · exact Or.inr (Or.inr (Or.inr ⟨_, fun w y => (mkPoint mc nt w y true (huberizedHinge mc.math)).toLoss,
      fun _ _ => hp _, fun k => by simp [withLoss, h3]⟩))
  by_cases h4 : c.lossFunc = "auc"
  · exact Or.inr (Or.inr (Or.inr ⟨_, fun w y => (mkPair mc c seed nt w y false
      (fun _ df => huberizedHinge mc.math mc.math.one df) none).toLoss, fun _ _ => hq _, fun k => by simp [withLoss, h4]⟩))
  by_cases h5 : c.lossFunc = "pairwise_logloss"
  · exact Or.inr (Or.inr (Or.inr ⟨_, fun w y => (mkPair mc c seed nt w y false
      (fun _ df => logLoss mc.math mc.math.one df) none).toLoss, fun _ _ => hq _, fun k => by simp [withLoss, h5]⟩))
  by_cases h6 : c.lossFunc = "gbrank"
  · exact Or.inr (Or.inr (Or.inr ⟨_, fun w y => (mkPair mc c seed nt w y false (squaredHinge mc.math) none).toLoss,
      fun _ _ => hq _, fun k => by simp [withLoss, h6]⟩))
  by_cases h7 : c.lossFunc = "lambdamart"
  · right
    cases ht : lambdaTable (discountOf mc.math.log mc.ofNat (dcgBaseOf mc c)) with
    | ub => exact Or.inl (fun k => by simp [withLoss, h7, ht])
    | fatal => exact Or.inr (Or.inl (fun k => by simp [withLoss, h7, ht]))
    | ok table =>
      exact Or.inr (Or.inr ⟨_, fun w y => (mkPair mc c seed nt w y true (fun _ df => logLoss mc.math mc.math.one df)
        (some (tableDiscount (discountOf mc.math.log mc.ofNat (dcgBaseOf mc c)) table))).toLoss, fun _ _ => hq _,
        fun k => by simp [withLoss, h7, ht]⟩)
  · left
    intro R k
    unfold withLoss
    split <;> simp_all

/-- The statuses of `TrainGBDT`. -/
theorem trainGBDT_code {S : Type} {env : TrainEnv D A} {loss : LossFunc S D} {names : List String} {cfg : TrainConfig D}
    {base : Option (List (Tree D A))} {forest : List (Tree D A)} {p : Nat} {r : TrainResult D A}
    (hl : ∀ n g e, loss.init n g = ok (.error e) → e = .invalidArgument)
    (h : trainGBDT env loss names cfg base forest p = ok r) : r.code ∈ [Code.ok, .invalidArgument, .notFound, .internal] := by
  rcases trainGBDT_stages h with ⟨_, ⟨h1, h2⟩ | ⟨_, h1⟩ | ⟨g, h1⟩⟩ | ⟨_, _, _, _, _, _, _, _, stopped, s, _, _, _, _, _, _, h1⟩
  · rw [h1]
    unfold checkConfig
    split_ifs <;> simp
  · rw [loadFeatures_error h1]; simp
  · rw [hl _ _ _ h1]; simp
  · rw [h1]
    cases stopped <;> simp

/-! ## C88: the same forest -/

/-- A call of `train` that asks for what the configuration file says: the features of the file, both rates written down, the
target column, and the weight column passed as `w`. -/
structure SameCall (t : DataStore A) (n : Nat) (c : Config D) (features : List String) (w : List (Fl A)) : Prop where
  store : GoodStore n t
  rows : 0 < n
  named : ∀ name, name ∈ features ↔ name ∈ c.floatFeature ∨ name ∈ c.catFeature
  some : features ≠ []
  known : ∀ name ∈ features, IsFeature (.some t) name
  rates : c.exampleRate ≠ none ∧ c.featureRate ≠ none
  target : c.targetColumn ≠ "" ∧ t.getRaw c.targetColumn ≠ none
  weights : c.weightColumn = "" ∧ w = [] ∨ c.weightColumn ≠ "" ∧ ∃ col, t.getRaw c.weightColumn = .some col ∧ w = col.raw ∧ w.length = n

/-- Both ways come down to the same call of `TrainGBDT`, if both find the weights and targets on which the loss does the same. -/
theorem cli_py_agree {mc : Machine D A} (hset : ∀ l l' : List String, l.Nodup → l.Perm l' → mc.listing l = mc.listing l')
    {t : DataStore A} {n : Nat} {c : Config D} {features : List String} {y w : List (Fl A)}
    (h : SameCall t n c features w) (base : Option (List (Tree D A))) (seed nt : Int) {yp yc : Nat → D}
    (hyl : wrongLength (some t) y = ok false)
    (hyp : trainPyTargets mc (some t) { c with
        floatFeature := (namesOfType (some t) .bucketized).filter (fun n => features.contains n)
        catFeature := (namesOfType (some t) .string).filter (fun n => features.contains n) } y = ok (.ok yp))
    (hy : targetsOrDie mc c t = ok yc)
    (hagree : ∀ {R : Type} (F : Outcome (TrainResult D A) → Outcome R),
      withLoss mc c seed nt (fun _ loss => F (trainGBDT (mkEnv mc t n (if w = [] then fun _ => mc.ofNat 1 else vecFn mc w) seed nt)
          (loss (if w = [] then fun _ => mc.ofNat 1 else vecFn mc w) yp) (mc.listing (featuresOf c))
          (c.train mc (mc.ofNat 1)) base [] 0)) =
      withLoss mc c seed nt (fun _ loss => F (trainGBDT (mkEnv mc t n (if w = [] then fun _ => mc.ofNat 1 else vecFn mc w) seed nt)
          (loss (if w = [] then fun _ => mc.ofNat 1 else vecFn mc w) yc) (mc.listing (featuresOf c))
          (c.train mc (mc.ofNat 1)) base [] 0))) :
    (∀ forest, cliTrain mc t c base seed nt = ok forest ↔
      pyTrain mc (some t) c y features w base seed nt = ok (.ok forest)) ∧
    (cliTrain mc t c base seed nt = ub ↔ pyTrain mc (some t) c y features w base seed nt = ub) ∧
    (cliTrain mc t c base seed nt = fatal ↔ pyTrain mc (some t) c y features w base seed nt = fatal ∨
      ∃ e, pyTrain mc (some t) c y features w base seed nt = ok (.error (.lib e))) := by
  have hne' : t ≠ [] := by
    rintro rfl
    exact h.target.2 rfl
  have hmiss := (anyMissing_iff (s := some t) h.store.names features).not.mpr (by
    rintro ⟨name, h1, h2⟩
    exact h2 (h.known name h1))
  set fs := (namesOfType (some t) .string).filter (fun n => features.contains n) ++
    (namesOfType (some t) .bucketized).filter (fun n => features.contains n) with hfs
  have hfsmem : ∀ name, name ∈ fs ↔ name ∈ features := fun name =>
    (mem_features (s := some t) h.store.names).trans ⟨fun h => h.1, fun h' => ⟨h', h.known _ h'⟩⟩
  have hfsne : fs ≠ [] := by
    obtain ⟨f0, hf0⟩ := List.exists_mem_of_ne_nil _ h.some
    exact List.ne_nil_of_mem ((hfsmem f0).mpr hf0)
  have hnd : fs.Nodup := by
    have hsub : ∀ ty, (namesOfType (some t) ty).Nodup := fun ty =>
      h.store.names.sublist ((List.filter_sublist (l := t)).map Prod.fst)
    rw [hfs, List.nodup_append]
    refine ⟨(hsub _).filter _, (hsub _).filter _, ?_⟩
    intro a ha b hb hab
    subst hab
    obtain ⟨c1, g1, g2⟩ := (mem_namesOfType (s := some t) h.store.names _ _).mp (List.mem_of_mem_filter ha)
    obtain ⟨c2, g3, g4⟩ := (mem_namesOfType (s := some t) h.store.names _ _).mp (List.mem_of_mem_filter hb)
    rw [g1, Option.some.injEq] at g3
    subst g3
    rw [g2] at g4
    cases g4
  have hlist : mc.listing fs = mc.listing (featuresOf c) := by
    refine hset _ _ hnd ((List.perm_ext_iff_of_nodup hnd (List.nodup_dedup _)).mpr (fun name => ?_))
    rw [hfsmem, h.named, List.mem_dedup, List.mem_append]
  have hw : sampleWeightsOrDie mc c t = ok (if w = [] then fun _ => mc.ofNat 1 else vecFn mc w) := by
    unfold sampleWeightsOrDie
    rcases h.weights with ⟨h1, h2⟩ | ⟨h1, col', h2, h3, hl⟩
    · rw [if_pos h1, if_pos h2]
    · have : w ≠ [] := by
        have := h.rows
        intro hw
        rw [hw, List.length_nil] at hl
        omega
      rw [if_neg h1, h2, if_neg this, h3]
  have hwl : wrongLength (some t) w = ok false := by
    rw [wrongLength_ok (len_of h.store), if_neg hne']
    rcases h.weights with ⟨_, h2⟩ | ⟨_, col', h2, h3, hl⟩
    · simp [h2]
    · simp [hl]
  have hpy : pyTrain mc (some t) c y features w base seed nt =
      match withLoss mc c seed nt (fun _ loss => (do
        let r ← trainGBDT (mkEnv mc t n (if w = [] then fun _ => mc.ofNat 1 else vecFn mc w) seed nt)
          (loss (if w = [] then fun _ => mc.ofNat 1 else vecFn mc w) yp) (mc.listing (featuresOf c))
          (c.train mc (mc.ofNat 1)) base [] 0
        if r.code = .ok then (ok (.ok r.forest) : PyRes (List (Tree D A))) else raise r.code (.ok (.ok r.forest)) : Outcome _)) with
      | none => raise .notFound .ub
      | some run => run := by
    unfold pyTrain
    simp only
    rw [if_neg hmiss]
    unfold trainPyFull
    rw [hyl, ok_bind, hwl]
    simp only [Bool.false_eq_true, if_false, ok_bind]
    rw [hyp]
    simp only [PyRes.andThen, Option.getD_some]
    unfold trainPyRun
    simp only [if_neg hfsne, h.store.numRows hne', ok_bind, ← hfs, hlist]
    rfl
  have hcli : cliTrain mc t c base seed nt =
      match withLoss mc c seed nt (fun _ loss => (do
        let r ← trainGBDT (mkEnv mc t n (if w = [] then fun _ => mc.ofNat 1 else vecFn mc w) seed nt)
          (loss (if w = [] then fun _ => mc.ofNat 1 else vecFn mc w) yc) (mc.listing (featuresOf c))
          (c.train mc (mc.ofNat 1)) base [] 0
        if r.code = .ok then ok r.forest else fatal)) with
      | none => fatal
      | some run => run := by
    have hcfg : c.train mc 0 = c.train mc (mc.ofNat 1) := by
      obtain ⟨x, hx⟩ := Option.ne_none_iff_exists'.mp h.rates.1
      obtain ⟨y, hy⟩ := Option.ne_none_iff_exists'.mp h.rates.2
      simp only [Config.train, hx, hy, Option.getD_some]
    unfold cliTrain
    simp only [hw, hy, ok_bind, h.store.numRows hne', hcfg]
    rfl
  rw [hpy, hcli, hagree (fun o => (do
        let r ← o
        if r.code = .ok then (ok (.ok r.forest) : PyRes (List (Tree D A))) else raise r.code (.ok (.ok r.forest)) : Outcome _))]
  rcases withLoss_shape mc c seed nt with hl | hl | hl | ⟨S, loss, hcode, hl⟩
  · simp [hl, raise, throwException]
  · simp [hl]
  · simp [hl]
  · simp only [hl]
    generalize hr : trainGBDT (mkEnv mc t n (if w = [] then fun _ => mc.ofNat 1 else vecFn mc w) seed nt)
          (loss (if w = [] then fun _ => mc.ofNat 1 else vecFn mc w) yc) (mc.listing (featuresOf c))
          (c.train mc (mc.ofNat 1)) base [] 0 = res
    cases res with
    | ub => simp
    | fatal => simp
    | ok r =>
      have := trainGBDT_code (fun n g e => hcode _ _ n g e) hr
      simp only [ok_bind]
      by_cases hok : r.code = .ok
      · simp [hok]
      · rw [if_neg hok, if_neg hok]
        simp only [List.mem_cons, List.not_mem_nil, or_false] at this
        rcases this with h | h | h | h
        · exact absurd h hok
        all_goals simp [h, raise, throwException]

/-- **C88.** The command line and `train` on the same store, with the same configuration, seed, number of threads and base
forest, give the same forest; where one crashes, so does the other; and where the command line stops with a message, `train`
raises an exception (or stops likewise). -/
theorem C88_same {mc : Machine D A} (hset : ∀ l l' : List String, l.Nodup → l.Perm l' → mc.listing l = mc.listing l')
    {t : DataStore A} {n : Nat} {c : Config D} {features : List String} {w : List (Fl A)}
    (h : SameCall t n c features w) (hbin : c.binarize = false) (base : Option (List (Tree D A))) (seed nt : Int) :
    (∀ forest, cliTrain mc t c base seed nt = ok forest ↔
      pyTrain mc (some t) c [] features w base seed nt = ok (.ok forest)) ∧
    (cliTrain mc t c base seed nt = ub ↔ pyTrain mc (some t) c [] features w base seed nt = ub) ∧
    (cliTrain mc t c base seed nt = fatal ↔ pyTrain mc (some t) c [] features w base seed nt = fatal ∨
      ∃ e, pyTrain mc (some t) c [] features w base seed nt = ok (.error (.lib e))) := by
  obtain ⟨col, hcol⟩ := Option.ne_none_iff_exists'.mp h.target.2
  refine cli_py_agree hset h base seed nt (yp := vecFn mc col.raw) (yc := vecFn mc col.raw) rfl ?_ ?_ (fun F => rfl)
  · simp only [trainPyTargets, ne_eq, not_true_eq_false, if_false, if_neg h.target.1, hcol]
  · simp only [targetsOrDie, if_neg h.target.1, hcol, hbin, Bool.false_eq_true, if_false]

/-! ### Binarized targets -/

/-- The names of the losses that look at one row at a time. -/
theorem withLoss_mkPoint (mc : Machine D A) {c : Config D} (seed nt : Int)
    (hl : c.lossFunc ∈ ["mse", "logloss", "huberized_hinge"]) :
    ∃ (binary : Bool) (lossFn : D → D → D × D × D),
      ∀ {R : Type} (k : ∀ S : Type, ((w y : Nat → D) → LossFunc S D) → Outcome R),
        withLoss mc c seed nt k = some (k _ (fun w y => (mkPoint mc nt w y binary lossFn).toLoss)) := by
  simp only [List.mem_cons, List.not_mem_nil, or_false] at hl
  rcases hl with h | h | h
  · exact ⟨false, mseLoss mc.math, fun k => by simp [withLoss, h]⟩
  · exact ⟨true, logLoss mc.math, fun k => by simp [withLoss, h]⟩
  · exact ⟨true, huberizedHinge mc.math, fun k => by simp [withLoss, h]⟩

theorem pointSlice_congr {e : PointLoss D} {y' : Nat → D} {f : List D} (hy : ∀ i < f.length, e.y i = y' i) (c : D) :
    ∀ (left i : Nat) (grads : List (GD D)) (total : GD D),
      pointSlice e f c left i grads total = pointSlice { e with y := y' } f c left i grads total
  | 0, _, _, _ => rfl
  | left + 1, i, grads, total => by
    unfold pointSlice
    by_cases hi : i < f.length
    · rw [vecGet_lt hi, ok_bind, ok_bind]
      simp only [hy i hi]
      split
      · exact pointSlice_congr hy c left (i + 1) _ _
      · rfl
    · rw [show vecGet f i = ub from by simp [vecGet, List.getElem?_eq_none (Nat.le_of_not_lt hi)], ub_bind, ub_bind]

theorem pointSlices_congr {e : PointLoss D} {y' : Nat → D} {f : List D} (hy : ∀ i < f.length, e.y i = y' i) (c : D) :
    ∀ (slices : List (Nat × Nat)) (grads : List (GD D)),
      pointSlices e f c slices grads = pointSlices { e with y := y' } f c slices grads
  | [], _ => rfl
  | sl :: slices, grads => by
    unfold pointSlices
    rw [pointSlice_congr hy]
    congr 1
    funext r
    simp only
    rw [pointSlices_congr hy c slices]

theorem pointLoop_congr {e : PointLoss D} {y' : Nat → D} {f : List D} (hy : ∀ i < f.length, e.y i = y' i)
    (slices : List (Nat × Nat)) : ∀ (left : Nat) (c : D) (grads : List (GD D)),
      pointLoop e slices f left c grads = pointLoop { e with y := y' } slices f left c grads
  | 0, _, _ => rfl
  | left + 1, c, grads => by
    unfold pointLoop
    rw [pointSlices_congr hy]
    congr 1
    funext r
    simp only
    split
    · exact pointLoop_congr hy slices left _ _
    · rfl

theorem bind_congr_ok {α β : Type} {x : Outcome α} {f g : α → Outcome β} (h : ∀ a, x = ok a → f a = g a) :
    (x >>= f) = (x >>= g) := by
  cases x with
  | ok a => exact h a rfl
  | ub => rfl
  | fatal => rfl

omit [FpOrder D] [EqOrder D] [ThrOps A] in
theorem addToAll_length (k : D) : ∀ (samples : List Nat) (f : List D) {r : List D}, addToAll k samples f = ok r →
    r.length = f.length
  | [], f, r, h => by
    simp only [addToAll, List.foldlM_nil, pure_eq, Outcome.ok.injEq] at h
    rw [h]
  | i :: samples, f, r, h => by
    simp only [addToAll, List.foldlM_cons, bind_eq_ok, pure_eq, Outcome.ok.injEq] at h
    obtain ⟨f1, ⟨old, _, rfl⟩, h2⟩ := h
    have := addToAll_length k samples _ h2
    rwa [List.length_set] at this

omit [FpOrder D] [EqOrder D] [ThrOps A] in
theorem addSampleScores_length (columns : String → Option (Column A)) (k : D) : ∀ (t : Tree D A) (samples : List Nat)
    (f : List D) {r : List Nat × List D}, addSampleScores columns k t samples f = ok r → r.2.length = f.length
  | .absent, samples, f, r, h => by
    simp only [addSampleScores, bind_eq_ok, pure_eq, Outcome.ok.injEq] at h
    obtain ⟨sc, h1, rfl⟩ := h
    exact addToAll_length _ _ _ h1
  | .node score split left right, samples, f, r, h => by
    unfold addSampleScores at h
    split at h
    · split at h
      · cases h
      · simp only [bind_eq_ok, pure_eq, Outcome.ok.injEq] at h
        obtain ⟨⟨ls, rs⟩, _, ⟨l1, f1⟩, h1, ⟨l2, f2⟩, h2, rfl⟩ := h
        have g1 := addSampleScores_length columns k left _ _ h1
        have g2 := addSampleScores_length columns k right _ _ h2
        exact g2.trans g1
    · simp only [bind_eq_ok, pure_eq, Outcome.ok.injEq] at h
      obtain ⟨sc, h1, rfl⟩ := h
      exact addToAll_length _ _ _ h1

omit [FpOrder D] [EqOrder D] [ThrOps A] in
theorem addTreeScores_length (columns : String → Option (Column A)) (k : D) (t : Tree D A) : ∀ (slices : List (List Nat))
    (f : List D) {r : List (List Nat) × List D}, addTreeScores columns t k slices f = ok r → r.2.length = f.length
  | [], f, r, h => by
    simp only [addTreeScores, Outcome.ok.injEq] at h
    rw [← h]
  | sl :: slices, f, r, h => by
    simp only [addTreeScores, bind_eq_ok, pure_eq, Outcome.ok.injEq] at h
    obtain ⟨⟨s1, f1⟩, h1, ⟨s2, f2⟩, h2, rfl⟩ := h
    exact (addTreeScores_length columns k t slices f1 h2).trans (addSampleScores_length columns k t sl f h1)

omit [FpOrder D] [EqOrder D] [ThrOps A] in
theorem initWithBase_length (env : TrainEnv D A) : ∀ (base forest : List (Tree D A)) (slices : List (List Nat)) (f : List D)
    {r : List (Tree D A) × List (List Nat) × List D}, initWithBase env base forest slices f = ok r → r.2.2.length = f.length
  | [], forest, slices, f, r, h => by
    simp only [initWithBase, Outcome.ok.injEq] at h
    rw [← h]
  | t :: base, forest, slices, f, r, h => by
    simp only [initWithBase, bind_eq_ok] at h
    obtain ⟨⟨s1, f1⟩, h1, h2⟩ := h
    exact (initWithBase_length env base _ s1 f1 h2).trans (addTreeScores_length _ _ t slices f h1)

/-- The training loop asks the loss only about values for all rows. -/
theorem trainLoop_congr {S : Type} {env : TrainEnv D A} {loss loss' : LossFunc S D} {n : Nat}
    (hc : ∀ s f, f.length = n → loss.compute s f = loss'.compute s f) (features : List (String × Column A))
    (cfg : TrainConfig D) (ct : Nat) : ∀ (left : Nat) (s : TrainState S D A), s.f.length = n →
      trainLoop env loss features cfg ct left s = trainLoop env loss' features cfg ct left s
  | 0, _, _ => rfl
  | left + 1, s, hs => by
    unfold trainLoop
    rw [hc _ _ hs]
    refine bind_congr_ok (fun r _ => ?_)
    simp only
    split
    · rfl
    · refine bind_congr_ok (fun r1 _ => ?_)
      refine bind_congr_ok (fun r2 h2 => ?_)
      exact trainLoop_congr hc features cfg ct left _ ((addTreeScores_length _ _ _ _ _ h2).trans hs)

theorem trainGBDT_congr {env : TrainEnv D A} {e : PointLoss D} {y' : Nat → D} (hy : ∀ i < env.numRows, e.y i = y' i)
    (names : List String) (cfg : TrainConfig D) (base : Option (List (Tree D A))) (forest : List (Tree D A)) (p : Nat) :
    trainGBDT env e.toLoss names cfg base forest p = trainGBDT env ({ e with y := y' } : PointLoss D).toLoss names cfg base forest p := by
  have hinit : ∀ g, e.toLoss.init env.numRows g = ({ e with y := y' } : PointLoss D).toLoss.init env.numRows g := by
    intro g
    have : (List.range env.numRows).any (fun i => !Dbl.eqb (e.y i) e.one && !Dbl.eqb (e.y i) e.minusOne) =
        (List.range env.numRows).any (fun i => !Dbl.eqb (y' i) e.one && !Dbl.eqb (y' i) e.minusOne) := by
      rw [Bool.eq_iff_iff, List.any_eq_true, List.any_eq_true]
      exact exists_congr (fun i => and_congr_right (fun hi => by rw [hy i (List.mem_range.mp hi)]))
    simp only [PointLoss.toLoss, pointInit, this]
  have hcomp : ∀ s f, f.length = env.numRows → e.toLoss.compute s f = ({ e with y := y' } : PointLoss D).toLoss.compute s f := by
    intro s f hf
    simp only [PointLoss.toLoss, pointCompute]
    rw [pointLoop_congr (by rw [hf]; exact hy)]
  unfold trainGBDT
  split
  · rfl
  · split
    · rfl
    · refine bind_congr_ok (fun g _ => ?_)
      rw [hinit]
      refine bind_congr_ok (fun i _ => ?_)
      split
      · rfl
      · refine bind_congr_ok (fun sl _ => ?_)
        refine bind_congr_ok (fun r hr => ?_)
        have := initWithBase_length _ _ _ _ _ hr
        rw [List.length_replicate] at this
        simp only
        rw [trainLoop_congr hcomp _ _ _ _ _ this]

/-- **C88 (binarized targets).** With `binarize_target`, for a loss that looks at one row at a time, the command line does what `train`
does when it is given the targets 1 where the target column is positive and -1 elsewhere. -/
theorem C88_binarize {mc : Machine D A} (hset : ∀ l l' : List String, l.Nodup → l.Perm l' → mc.listing l = mc.listing l')
    {t : DataStore A} {n : Nat} {c : Config D} {features : List String} {w : List (Fl A)}
    (h : SameCall t n c features w) (hbin : c.binarize = true) (hl : c.lossFunc ∈ ["mse", "logloss", "huberized_hinge"])
    {col : RawCol A} (hcol : t.getRaw c.targetColumn = some col) {plus minus : Fl A} (hp : mc.toD plus = mc.math.one)
    (hm : mc.toD minus = mc.minusOne) {y : List (Fl A)} (hyn : y.length = n)
    (hy : ∀ (i : Nat) v, y[i]? = some v → ∃ x, col.raw[i]? = some x ∧ v = if Dbl.ltb 0 (mc.toD x) then plus else minus)
    (base : Option (List (Tree D A))) (seed nt : Int) :
    (∀ forest, cliTrain mc t c base seed nt = ok forest ↔
      pyTrain mc (some t) c y features w base seed nt = ok (.ok forest)) ∧
    (cliTrain mc t c base seed nt = ub ↔ pyTrain mc (some t) c y features w base seed nt = ub) ∧
    (cliTrain mc t c base seed nt = fatal ↔ pyTrain mc (some t) c y features w base seed nt = fatal ∨
      ∃ e, pyTrain mc (some t) c y features w base seed nt = ok (.error (.lib e))) := by
  have hy0 : y ≠ [] := by
    have := h.rows
    rintro rfl
    simp only [List.length_nil] at hyn
    omega
  have hne' : t ≠ [] := by
    rintro rfl
    exact h.target.2 rfl
  refine cli_py_agree hset h base seed nt (yp := vecFn mc y)
    (yc := fun i => if Dbl.ltb 0 (vecFn mc col.raw i) then mc.math.one else mc.minusOne) ?_ ?_ ?_ ?_
  · rw [wrongLength_ok (len_of h.store), if_neg hne']
    simp [hyn]
  · simp only [trainPyTargets, ne_eq, hy0, not_false_eq_true, if_true]
  · simp only [targetsOrDie, if_neg h.target.1, hcol, hbin, if_true]
  · intro R F
    obtain ⟨binary, lossFn, hwl⟩ := withLoss_mkPoint mc seed nt hl
    rw [hwl, hwl]
    congr 2
    refine trainGBDT_congr (e := mkPoint mc nt _ _ binary lossFn) (fun i hi => ?_) _ _ _ _ _
    have hi' : i < y.length := by rw [hyn]; exact hi
    obtain ⟨x, hx, hv⟩ := hy i _ (List.getElem?_eq_getElem hi')
    simp only [mkPoint, vecFn, List.getD_eq_getElem?_getD, hx, List.getElem?_eq_getElem hi', Option.getD_some, hv]
    split
    · exact hp
    · exact hm

/-! ## C89: the same configuration means the same -/

/-- The full statement: one configuration gives the same forest from the command line and from Python, nothing being passed
but the store, the configuration and its features. -/
def C89_full (D A : Type) [Dbl D] [LinearOrder A] [ThrOps A] : Prop :=
  ∀ (mc : Machine D A), (∀ l l' : List String, l.Nodup → l.Perm l' → mc.listing l = mc.listing l') → (∀ l, (mc.listing l).Perm l) →
  ∀ (t : DataStore A) (n : Nat) (c : Config D), GoodStore n t → 0 < n → c.floatFeature ++ c.catFeature ≠ [] →
  (∀ name ∈ c.floatFeature ++ c.catFeature, IsFeature (some t) name) → c.exampleRate ≠ none ∧ c.featureRate ≠ none →
  c.targetColumn ≠ "" ∧ t.getRaw c.targetColumn ≠ none → (c.weightColumn ≠ "" → t.getRaw c.weightColumn ≠ none) →
  ∀ (base : Option (List (Tree D A))) (seed nt : Int) (forest : List (Tree D A)), cliTrain mc t c base seed nt = ok forest ↔
    pyTrain mc (some t) c [] (c.floatFeature ++ c.catFeature) [] base seed nt = ok (.ok forest)

/-- **C89 (partial).** It holds of configurations without `weight_column` and `binarize_target`.  Missing: those two, which
`train` ignores. -/
theorem C89_partial {mc : Machine D A} (hset : ∀ l l' : List String, l.Nodup → l.Perm l' → mc.listing l = mc.listing l')
    {t : DataStore A} {n : Nat} {c : Config D} (hs : GoodStore n t) (hn : 0 < n) (hne : c.floatFeature ++ c.catFeature ≠ [])
    (hf : ∀ name ∈ c.floatFeature ++ c.catFeature, IsFeature (some t) name) (hr : c.exampleRate ≠ none ∧ c.featureRate ≠ none)
    (ht : c.targetColumn ≠ "" ∧ t.getRaw c.targetColumn ≠ none) (hw : c.weightColumn = "") (hb : c.binarize = false)
    (base : Option (List (Tree D A))) (seed nt : Int) (forest : List (Tree D A)) :
    cliTrain mc t c base seed nt = ok forest ↔
      pyTrain mc (some t) c [] (c.floatFeature ++ c.catFeature) [] base seed nt = ok (.ok forest) :=
  (C88_same hset ⟨hs, hn, fun _ => List.mem_append, hne, hf, hr, ht, Or.inl ⟨hw, rfl⟩⟩ hb base seed nt).1 forest

end general

/-! ## Witnesses -/

/-- A machine that lists sets in order. -/
def cliMachine : Machine ℚ ℚ := { ratMachine with listing := fun l => l.insertionSort (fun a b => decide (a ≤ b)) }

theorem cliMachine_perm (l : List String) : (cliMachine.listing l).Perm l := List.perm_insertionSort _ l

theorem cliMachine_set (l l' : List String) (h : l.Perm l') : cliMachine.listing l = cliMachine.listing l' := by
  refine List.Perm.eq_of_pairwise (le := fun a b => a ≤ b) (fun a b _ _ h1 h2 => le_antisymm h1 h2) ?_ ?_
    ((cliMachine_perm l).trans (h.trans (cliMachine_perm l').symm))
  · have := List.pairwise_insertionSort (fun a b : String => a ≤ b) l
    simpa [cliMachine] using this
  · have := List.pairwise_insertionSort (fun a b : String => a ≤ b) l'
    simpa [cliMachine] using this

/-- Data with labels 0 and 1 and with weights. -/
def cliDict : PyRes (Option (DataStore ℚ)) :=
  PyStore.fromDict 1000 6 id [("size", [.num 5, .nan, .num 7, .num 9, .num 9])] [("color", ["b", "a", "d", "b", "c"])]
    [("clicked", [.num 1, .num 0, .num 1, .num 1, .num 0]), ("weight", [.num 1, .num 2, .num 1, .num 3, .num 1])]

/-- A configuration file. -/
def cliCfg : Config ℚ where
  numTrees := 2
  numLeaves := 3
  shrinkage := 1 / 2
  minGain := 0
  l2Lambda := 1
  minHessian := 0
  exampleRate := some 1
  featureRate := some 1
  lossFunc := "mse"
  pairRate := 2
  dcgBase := 0
  floatFeature := ["size"]
  targetColumn := "clicked"

theorem cliDict_store {t : DataStore ℚ} (h : cliDict = ok (.ok (some t))) : GoodStore 5 t ∧ IsFeature (some t) "size" ∧
    t.getRaw "clicked" ≠ none ∧ t.getRaw "weight" ≠ none := by
  obtain ⟨h1, h2, h3, h4, _, h5⟩ := C87_from_dict (1000 : ℚ) (by decide) (fun _ => List.Perm.refl _) (n := 5) (by decide)
    (by decide) (by
      intro p hp
      rw [List.mem_singleton.mp hp]
      exact ⟨rfl, below_of _ (by decide +kernel)⟩) (by decide) (by
      intro p hp
      simp only [List.mem_cons, List.not_mem_nil, or_false] at hp
      rcases hp with rfl | rfl
      · exact ⟨rfl, below_of _ (by decide +kernel)⟩
      · exact ⟨rfl, below_of _ (by decide +kernel)⟩) h
  exact ⟨h1, h3 _ (List.mem_singleton.mpr rfl), h5 _ (List.mem_cons_self ..), h5 _ (List.mem_cons_of_mem _ (List.mem_cons_self ..))⟩

/-- What both ways of training give for a configuration and weights. -/
def bothWays (c : Config ℚ) (w : List (Fl ℚ)) : Outcome (List (Tree ℚ ℚ)) × PyRes (List (Tree ℚ ℚ)) :=
  match cliDict with
  | .ok (.ok (some t)) => (cliTrain cliMachine t c none 1 2, pyTrain cliMachine (some t) c [] (c.floatFeature ++ c.catFeature) w none 1 2)
  | _ => (.fatal, .fatal)

/-- Whether both give the same forest. -/
def bothSame (r : Outcome (List (Tree ℚ ℚ)) × PyRes (List (Tree ℚ ℚ))) : Bool :=
  match r with
  | (.ok f, .ok (.ok g)) => decide (f = g)
  | _ => false

/-- With the weight column passed as `w`, or without weights, the forests are the same; all hypotheses of C88 hold. -/
example : bothSame (bothWays cliCfg []) = true ∧
    bothSame (bothWays { cliCfg with weightColumn := "weight" } [.num 1, .num 2, .num 1, .num 3, .num 1]) = true := by
  decide +kernel

/-- With `binarize_target`, the command line trains as `train` does with targets 1 and -1. -/
example : (match cliDict with
    | .ok (.ok (some t)) => bothSame (cliTrain cliMachine t { cliCfg with binarize := true, lossFunc := "huberized_hinge" } none 1 2,
        pyTrain cliMachine (some t) { cliCfg with binarize := true, lossFunc := "huberized_hinge" }
          [.num 1, .num (-1), .num 1, .num 1, .num (-1)] ["size"] [] none 1 2)
    | _ => false) = true := by
  decide +kernel

example {t : DataStore ℚ} (h : cliDict = ok (.ok (some t))) : SameCall t 5 cliCfg ["size"] [] where
  store := (cliDict_store h).1
  rows := by decide
  named := by simp [cliCfg]
  some := by decide
  known := by
    intro name hn
    rw [List.mem_singleton.mp hn]
    exact (cliDict_store h).2.1
  rates := by decide
  target := ⟨by decide, (cliDict_store h).2.2.1⟩
  weights := Or.inl ⟨rfl, rfl⟩

/-- What the full statement would give for the data. -/
theorem bothWays_full (h : C89_full ℚ ℚ) {c : Config ℚ} (hf : c.floatFeature = ["size"]) (hc : c.catFeature = [])
    (hr : c.exampleRate ≠ none ∧ c.featureRate ≠ none) (ht : c.targetColumn = "clicked")
    (hw : c.weightColumn = "" ∨ c.weightColumn = "weight") (forest : List (Tree ℚ ℚ)) :
    (bothWays c []).1 = ok forest ↔ (bothWays c []).2 = ok (.ok forest) := by
  unfold bothWays
  split
  · next t hd =>
    obtain ⟨h1, h2, h3, h4⟩ := cliDict_store hd
    refine h cliMachine (fun l l' _ => cliMachine_set l l') cliMachine_perm t 5 c h1 (by decide) ?_ ?_ hr ?_ ?_ none 1 2 forest
    · rw [hf]; simp
    · rw [hf, hc]
      intro name hn
      rw [List.append_nil] at hn
      rw [List.mem_singleton.mp hn]
      exact h2
    · rw [ht]; exact ⟨by decide, h3⟩
    · rcases hw with hw | hw
      · exact fun hx => absurd hw hx
      · rw [hw]; exact fun _ => h4
  · simp

/-- **C89 (refuted).** With `weight_column` in the configuration, the command line and Python train different forests. -/
theorem C89_refuted_weight : ¬ C89_full ℚ ℚ := by
  intro h
  have hb : (match bothWays { cliCfg with weightColumn := "weight" } [] with
      | (.ok f, .ok (.ok g)) => decide (f ≠ g)
      | _ => false) = true := by decide +kernel
  have hx := bothWays_full h (c := { cliCfg with weightColumn := "weight" }) rfl rfl (by decide) rfl (Or.inr rfl)
  generalize bothWays { cliCfg with weightColumn := "weight" } [] = r at hb hx
  split at hb
  · next f g =>
    have := (hx f).mp rfl
    simp only [Outcome.ok.injEq, Except.ok.injEq] at this
    rw [this] at hb
    simp at hb
  · cases hb

/-- **C89 (refuted).** With `binarize_target` and labels 0 and 1, the command line trains, and Python raises an exception. -/
theorem C89_refuted_binarize : ¬ C89_full ℚ ℚ := by
  intro h
  have hb : (match bothWays { cliCfg with binarize := true, lossFunc := "huberized_hinge" } [] with
      | (.ok _, .ok (.error (.lib .invalidArgument))) => true
      | _ => false) = true := by decide +kernel
  have hx := bothWays_full h (c := { cliCfg with binarize := true, lossFunc := "huberized_hinge" }) rfl rfl (by decide) rfl (Or.inl rfl)
  generalize bothWays { cliCfg with binarize := true, lossFunc := "huberized_hinge" } [] = r at hb hx
  split at hb
  · next f => 
    have := (hx f).mp rfl
    cases this
  · cases hb

end Gbdt
