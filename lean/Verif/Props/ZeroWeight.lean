import Verif.Props.Threads

/-!
# C104: rows of weight zero
-/

set_option autoImplicit false
set_option linter.unusedSectionVars false

namespace Gbdt
open Outcome

/-! ## Trees depend on weighted gradients -/

section fit
variable {D A : Type} [Dbl D] [LinearOrder A] [ThrOps A]

/-- The gradients are the same once multiplied by the weights. -/
def SameWeighted (w : Nat → D) (g g' : List (GD D)) : Prop :=
  ∀ i : Nat, (g[i]?).map (GD.scale (w i)) = (g'[i]?).map (GD.scale (w i))

theorem SameWeighted.length_eq {w : Nat → D} {g g' : List (GD D)} (h : SameWeighted w g g') : g.length = g'.length := by
  have key : ∀ (a b : List (GD D)), SameWeighted w a b → a.length ≤ b.length := by
    intro a b hab
    by_contra hc
    push Not at hc
    have := hab b.length
    rw [List.getElem?_eq_none (le_refl _), List.getElem?_eq_getElem hc] at this
    cases this
  exact le_antisymm (key g g' h) (key g' g (fun i => (h i).symm))

theorem sliceSum_weighted {w : Nat → D} {g g' : List (GD D)} (h : SameWeighted w g g') : sliceSum w g = sliceSum w g' := by
  have hf : (fun (total : GD D) (i : Nat) => do
      let d ← Outcome.vecGet g i
      pure (total.add (d.scale (w i)))) = (fun (total : GD D) (i : Nat) => do
      let d ← Outcome.vecGet g' i
      pure (total.add (d.scale (w i))) : GD D → Nat → Outcome (GD D)) := by
    funext total i
    have := h i
    unfold vecGet
    cases h1 : g[i]? with
    | none =>
      rw [h1] at this
      cases h2 : g'[i]? with
      | none => rfl
      | some d' => rw [h2] at this; cases this
    | some d =>
      rw [h1] at this
      cases h2 : g'[i]? with
      | none => rw [h2] at this; cases this
      | some d' =>
        rw [h2, Option.map_some, Option.map_some, Option.some.injEq] at this
        simp only [ok_bind, this]
  funext slice
  unfold sliceSum
  rw [hf]

theorem weightedSum_weighted {w : Nat → D} {g g' : List (GD D)} (h : SameWeighted w g g') (nt : Int) :
    weightedSum nt w g = weightedSum nt w g' := by
  funext samples
  simp only [weightedSum, sliceSum_weighted h]

theorem histogramOf_weighted {w : Nat → D} {g g' : List (GD D)} (h : SameWeighted w g g') (codes : List Nat) (m : Nat) :
    histogramOf codes m w g = histogramOf codes m w g' := by
  have hf : histStep codes w g = histStep codes w g' := by
    funext b i
    unfold histStep
    refine bind_congr_ok (fun c _ => bind_congr_ok (fun x _ => ?_))
    have := h i
    unfold vecGet
    cases h1 : g[i]? with
    | none =>
      rw [h1] at this
      cases h2 : g'[i]? with
      | none => rfl
      | some d' => rw [h2] at this; cases this
    | some d =>
      rw [h1] at this
      cases h2 : g'[i]? with
      | none => rw [h2] at this; cases this
      | some d' =>
        rw [h2, Option.map_some, Option.map_some, Option.some.injEq, GD.scale, GD.scale, GD.mk.injEq] at this
        simp only [ok_bind, this.1, this.2]
  funext samples
  simp only [histogramOf, hf]

theorem findBestSplit_weighted {w : Nat → D} {g g' : List (GD D)} (h : SameWeighted w g g')
    (sort : (Nat → D) → List Nat → List Nat) (c : Column A) (samples : List Nat) (cfg : SplitConfig D) (total : GD D) :
    findBestSplit sort c w g samples cfg total = findBestSplit sort c w g' samples cfg total := by
  cases c with
  | str c => simp only [findBestSplit, findBestStringSplit, histogramOf_weighted h]
  | bkt c => simp only [findBestSplit, findBestFloatSplit, histogramOf_weighted h]
  | raw c => rfl

theorem bestFeature_weighted {env : FitEnv D A} {g : List (GD D)} (h : SameWeighted env.w env.grads g) (cfg : FitConfig D)
    (samples : List Nat) (total : GD D) (p : Nat) :
    bestFeature env cfg samples total p = bestFeature { env with grads := g } cfg samples total p := by
  simp only [bestFeature, findBestSplit_weighted h]

/-- The tree fitted depends only on the weighted gradients. -/
theorem fitTree_weighted {env : FitEnv D A} {g : List (GD D)} (h : SameWeighted env.w env.grads g) (cfg : FitConfig D) (p : Nat) :
    fitTree env cfg p = fitTree { env with grads := g } cfg p := by
  have hnew : ∀ total best, newNode env cfg total best = newNode { env with grads := g } cfg total best := fun _ _ => rfl
  have hstep : ∀ s k e f, fitStep env cfg s k e f = fitStep { env with grads := g } cfg s k e f := by
    intro s k e f
    simp only [fitStep, weightedSum_weighted h, bestFeature_weighted h, hnew]
  have hloop : ∀ (fuel : Nat) (s : FitState D A), fitLoop env cfg fuel s = fitLoop { env with grads := g } cfg fuel s := by
    intro fuel
    induction fuel with
    | zero => intro s; rfl
    | succ fuel ih =>
      intro s
      rw [fitLoop, fitLoop]
      simp only [hstep, ih]
  have hstart : fitStart env cfg p = fitStart { env with grads := g } cfg p := by
    simp only [fitStart, weightedSum_weighted h, bestFeature_weighted h, hnew, h.length_eq]
  simp only [fitTree, hstart, hloop]

end fit

/-! ## Losses -/

section loss
variable {D A : Type} [Dbl D] [LinearOrder A] [ThrOps A]

/-- Replacing the target of a row by another makes no difference to its weighted gradients. -/
def TargetIgnored (e : PointLoss D) (y' : Nat → D) : Prop :=
  ∀ i f, GD.scale (e.w i) ⟨(e.lossFn (e.y i) f).2.1, (e.lossFn (e.y i) f).2.2⟩ =
    GD.scale (e.w i) ⟨(e.lossFn (y' i) f).2.1, (e.lossFn (y' i) f).2.2⟩

/-- Both are undefined, or both abort, or both give results that are related. -/
inductive OutRel {α β : Type} (r : α → β → Prop) : Outcome α → Outcome β → Prop where
  | ok {a b} : r a b → OutRel r (.ok a) (.ok b)
  | ub : OutRel r .ub .ub
  | fatal : OutRel r .fatal .fatal

theorem OutRel.bind {α β γ δ : Type} {r : α → β → Prop} {q : γ → δ → Prop} {x : Outcome α} {y : Outcome β} {f : α → Outcome γ}
    {g : β → Outcome δ} (h : OutRel r x y) (hf : ∀ a b, r a b → OutRel q (f a) (g b)) : OutRel q (x >>= f) (y >>= g) := by
  cases h with
  | ok h => exact hf _ _ h
  | ub => exact .ub
  | fatal => exact .fatal

theorem OutRel.of_eq {α : Type} {r : α → α → Prop} (hr : ∀ a, r a a) {x y : Outcome α} (h : x = y) : OutRel r x y := by
  subst h
  cases x with
  | ok a => exact .ok (hr a)
  | ub => exact .ub
  | fatal => exact .fatal

theorem OutRel.eq {α : Type} {x y : Outcome α} (h : OutRel (fun a b => a = b) x y) : x = y := by
  cases h with
  | ok h => rw [h]
  | ub => rfl
  | fatal => rfl

theorem pointSlice_ignored {e : PointLoss D} {y' : Nat → D} (hy : TargetIgnored e y') (f : List D) (c : D) : ∀ (left i : Nat)
    (g g' : List (GD D)) (total : GD D), SameWeighted e.w g g' →
      OutRel (fun a b => SameWeighted e.w a.1 b.1 ∧ a.2 = b.2) (pointSlice e f c left i g total)
        (pointSlice { e with y := y' } f c left i g' total)
  | 0, _, _, _, _, h => .ok ⟨h, rfl⟩
  | left + 1, i, g, g', total, h => by
    rw [pointSlice, pointSlice]
    refine OutRel.bind (r := fun a b => a = b) (OutRel.of_eq (fun _ => rfl) rfl) ?_
    rintro v _ rfl
    simp only
    rw [h.length_eq]
    split
    · have hs := hy i (v + c)
      rw [hs]
      refine pointSlice_ignored hy f c left (i + 1) _ _ _ ?_
      intro k
      rw [List.getElem?_set, List.getElem?_set, h.length_eq]
      split
      · next hk =>
        subst hk
        exact congrArg some hs
      · exact h k
    · exact .ub

theorem pointSlices_ignored {e : PointLoss D} {y' : Nat → D} (hy : TargetIgnored e y') (f : List D) (c : D) :
    ∀ (slices : List (Nat × Nat)) (g g' : List (GD D)), SameWeighted e.w g g' →
      OutRel (fun a b => SameWeighted e.w a.1 b.1 ∧ a.2 = b.2) (pointSlices e f c slices g)
        (pointSlices { e with y := y' } f c slices g')
  | [], _, _, h => .ok ⟨h, rfl⟩
  | sl :: slices, g, g', h => by
    rw [pointSlices, pointSlices]
    refine OutRel.bind (pointSlice_ignored hy f c _ _ g g' GD.zero h) ?_
    rintro ⟨g1, t1⟩ ⟨g2, t2⟩ ⟨h1, h2⟩
    refine OutRel.bind (pointSlices_ignored hy f c slices g1 g2 h1) ?_
    rintro ⟨g3, t3⟩ ⟨g4, t4⟩ ⟨h3, h4⟩
    simp only at h2 h4
    subst h2 h4
    exact .ok ⟨h3, rfl⟩

theorem pointLoop_ignored {e : PointLoss D} {y' : Nat → D} (hy : TargetIgnored e y') (slices : List (Nat × Nat)) (f : List D) :
    ∀ (left : Nat) (c : D) (g g' : List (GD D)), SameWeighted e.w g g' →
      OutRel (fun a b => a.1 = b.1 ∧ SameWeighted e.w a.2 b.2) (pointLoop e slices f left c g)
        (pointLoop { e with y := y' } slices f left c g')
  | 0, _, _, _, h => .ok ⟨rfl, h⟩
  | left + 1, c, g, g', h => by
    rw [pointLoop, pointLoop]
    refine OutRel.bind (pointSlices_ignored hy f c slices g g' h) ?_
    rintro ⟨g1, t1⟩ ⟨g2, t2⟩ ⟨h1, h2⟩
    simp only at h2
    subst h2
    simp only
    split
    · exact pointLoop_ignored hy slices f left _ _ _ h1
    · exact .ok ⟨rfl, h1⟩

theorem trainLoop_ignored {env : TrainEnv D A} {e : PointLoss D} (hw : e.w = env.w) {y' : Nat → D} (hy : TargetIgnored e y')
    (features : List (String × Column A)) (cfg : TrainConfig D) (ct : Nat) : ∀ (left : Nat) (s : TrainState (List (Nat × Nat)) D A),
      trainLoop env e.toLoss features cfg ct left s = trainLoop env ({ e with y := y' } : PointLoss D).toLoss features cfg ct left s
  | 0, _ => rfl
  | left + 1, s => by
    refine OutRel.eq ?_
    unfold trainLoop
    have hc : OutRel (fun a b => a.1 = b.1 ∧ a.2.1 = b.2.1 ∧ SameWeighted e.w a.2.2 b.2.2) (e.toLoss.compute s.loss s.f)
        (({ e with y := y' } : PointLoss D).toLoss.compute s.loss s.f) := by
      simp only [PointLoss.toLoss, pointCompute]
      refine OutRel.bind (pointLoop_ignored hy s.loss s.f 10 0 _ _ (fun _ => rfl)) ?_
      rintro ⟨c1, g1⟩ ⟨c2, g2⟩ ⟨h1, h2⟩
      exact .ok ⟨rfl, h1, h2⟩
    refine OutRel.bind hc ?_
    rintro ⟨l1, c1, g1⟩ ⟨l2, c2, g2⟩ ⟨h1, h2, h3⟩
    simp only at h1 h2 h3
    subst h1 h2
    simp only
    split
    · exact .ok rfl
    · have hfit : fitTree (env.fit features g1) cfg.fit s.pos = fitTree (env.fit features g2) cfg.fit s.pos :=
        fitTree_weighted (env := env.fit features g1) (g := g2) (by rw [hw] at h3; exact h3) cfg.fit s.pos
      rw [hfit]
      refine OutRel.of_eq (fun _ => rfl) (bind_congr_ok (fun r1 _ => bind_congr_ok (fun r2 _ => ?_)))
      exact trainLoop_ignored hw hy features cfg ct left _

/-- Training does not look at targets that make no difference to weighted gradients. -/
theorem trainGBDT_ignored {env : TrainEnv D A} {e : PointLoss D} (hw : e.w = env.w) {y' : Nat → D} (hy : TargetIgnored e y')
    (hv : e.binary = true → ∀ i < env.numRows, (Dbl.eqb (e.y i) e.one || Dbl.eqb (e.y i) e.minusOne) =
      (Dbl.eqb (y' i) e.one || Dbl.eqb (y' i) e.minusOne))
    (names : List String) (cfg : TrainConfig D) (base : Option (List (Tree D A))) (forest : List (Tree D A)) (p : Nat) :
    trainGBDT env e.toLoss names cfg base forest p = trainGBDT env ({ e with y := y' } : PointLoss D).toLoss names cfg base forest p := by
  have hinit : ∀ g, e.toLoss.init env.numRows g = ({ e with y := y' } : PointLoss D).toLoss.init env.numRows g := by
    intro g
    have : (e.binary && (List.range env.numRows).any (fun i => !Dbl.eqb (e.y i) e.one && !Dbl.eqb (e.y i) e.minusOne)) =
        (e.binary && (List.range env.numRows).any (fun i => !Dbl.eqb (y' i) e.one && !Dbl.eqb (y' i) e.minusOne)) := by
      cases hb : e.binary with
      | false => rfl
      | true =>
        simp only [Bool.true_and]
        rw [Bool.eq_iff_iff, List.any_eq_true, List.any_eq_true]
        refine exists_congr (fun i => and_congr_right (fun hi => ?_))
        rw [← Bool.not_or, ← Bool.not_or, hv hb i (List.mem_range.mp hi)]
    simp only [PointLoss.toLoss, pointInit, this]
  unfold trainGBDT
  split
  · rfl
  · split
    · rfl
    · refine bind_congr_ok (fun g _ => ?_)
      rw [hinit]
      refine bind_congr_ok (fun i _ => ?_)
      split
      · rfl
      · refine bind_congr_ok (fun sl _ => ?_)
        refine bind_congr_ok (fun r hr => ?_)
        simp only
        rw [trainLoop_ignored hw hy]

end loss

/-! ## C104 -/

section python
variable {D A : Type} [Dbl D] [FpOrder D] [EqOrder D] [LinearOrder A] [ThrOps A]

/-- The target is one that the losses for two classes accept. -/
def TwoClass (mc : Machine D A) (y : Fl A) : Bool := Dbl.eqb (mc.toD y) mc.math.one || Dbl.eqb (mc.toD y) mc.minusOne

/-- **C104 (any arithmetic).** Targets do not matter to `train` where the weight times what the loss makes of them is the same. -/
theorem C104_ignored {mc : Machine D A} {t : DataStore A} {c : Config D} (hl : c.lossFunc ∈ ["mse", "logloss", "huberized_hinge"])
    {y y' w : List (Fl A)} (hlen : y.length = y'.length)
    (h : ∀ loss, (c.lossFunc, loss) ∈ [("mse", mseLoss mc.math), ("logloss", logLoss mc.math), ("huberized_hinge", huberizedHinge mc.math)] →
      ∀ (i : Nat) v v' (f k : D), y[i]? = some v →
      y'[i]? = some v' → (w = [] ∧ k = mc.ofNat 1 ∨ w ≠ [] ∧ k = mc.toD (w.getD i .nan)) →
        k * (loss (mc.toD v) f).2.1 = k * (loss (mc.toD v') f).2.1 ∧ k * (loss (mc.toD v) f).2.2 = k * (loss (mc.toD v') f).2.2)
    (hv : c.lossFunc = "mse" ∨ ∀ (i : Nat) v v', y[i]? = some v → y'[i]? = some v' → TwoClass mc v = TwoClass mc v')
    (features : List String) (base : Option (List (Tree D A))) (seed nt : Int) :
    pyTrain mc (some t) c y features w base seed nt = pyTrain mc (some t) c y' features w base seed nt := by
  by_cases hne : y = []
  · have : y' = [] := by
      rw [hne] at hlen
      exact List.length_eq_zero_iff.mp hlen.symm
    rw [hne, this]
  · have hne' : y' ≠ [] := by
      rintro rfl
      exact hne (List.length_eq_zero_iff.mp hlen)
    have hcases : ∀ i : Nat, vecFn mc y i = vecFn mc y' i ∨ ∃ v v', y[i]? = some v ∧ y'[i]? = some v' ∧
        vecFn mc y i = mc.toD v ∧ vecFn mc y' i = mc.toD v' := by
      intro i
      by_cases hi : i < y.length
      · right
        refine ⟨y[i], y'[i], List.getElem?_eq_getElem hi, List.getElem?_eq_getElem (hlen ▸ hi), ?_, ?_⟩
        · simp [vecFn, List.getElem?_eq_getElem hi]
        · simp [vecFn, List.getElem?_eq_getElem (hlen ▸ hi)]
      · left
        simp only [vecFn, List.getD_eq_getElem?_getD, List.getElem?_eq_none (Nat.le_of_not_lt hi),
          List.getElem?_eq_none (hlen ▸ Nat.le_of_not_lt hi)]
    unfold pyTrain
    simp only
    split
    · rfl
    · generalize hc' : ({ c with
        floatFeature := (namesOfType (some t) .bucketized).filter (fun n => features.contains n)
        catFeature := (namesOfType (some t) .string).filter (fun n => features.contains n) } : Config D) = c'
      have hl' : c'.lossFunc = c.lossFunc := by rw [← hc']
      unfold trainPyFull
      have hwl : wrongLength (some t) y = wrongLength (some t) y' := by
        simp only [wrongLength, if_neg hne, if_neg hne', hlen]
      rw [hwl]
      refine bind_congr_ok (fun _ _ => ?_)
      split
      · rfl
      · refine bind_congr_ok (fun _ _ => ?_)
        split
        · rfl
        · have ht : ∀ z : List (Fl A), z ≠ [] → trainPyTargets mc (some t) c' z = ok (.ok (vecFn mc z)) := by
            intro z hz
            rw [trainPyTargets, if_pos hz]
          rw [ht y hne, ht y' hne']
          unfold PyRes.andThen
          simp only
          have hloss : ∃ (binary : Bool) (lossFn : D → D → D × D × D),
              (c.lossFunc, lossFn) ∈ [("mse", mseLoss mc.math), ("logloss", logLoss mc.math), ("huberized_hinge", huberizedHinge mc.math)] ∧
              (c.lossFunc = "mse" → binary = false) ∧
              ∀ {R : Type} (k : ∀ S : Type, ((w y : Nat → D) → LossFunc S D) → Outcome R),
                withLoss mc c' seed nt k = some (k _ (fun w y => (mkPoint mc nt w y binary lossFn).toLoss)) := by
            simp only [List.mem_cons, List.not_mem_nil, or_false] at hl
            rcases hl with h | h | h
            · exact ⟨false, mseLoss mc.math, by simp [h], fun _ => rfl, fun k => by simp [withLoss, hl', h]⟩
            · exact ⟨true, logLoss mc.math, by simp [h], fun h' => (by rw [h'] at h; exact absurd h (by decide +kernel)),
                fun k => by simp [withLoss, hl', h]⟩
            · exact ⟨true, huberizedHinge mc.math, by simp [h], fun h' => (by rw [h'] at h; exact absurd h (by decide +kernel)),
                fun k => by simp [withLoss, hl', h]⟩
          obtain ⟨binary, lossFn, hmem, hb, hw⟩ := hloss
          unfold trainPyRun
          simp only [hw]
          split
          · rfl
          · refine bind_congr_ok (fun n _ => ?_)
            have := trainGBDT_ignored
              (env := mkEnv mc t n (if w = [] then fun _ => mc.ofNat 1 else vecFn mc w) seed nt)
              (e := mkPoint mc nt (if w = [] then fun _ => mc.ofNat 1 else vecFn mc w) (vecFn mc y) binary lossFn)
              (y' := vecFn mc y') rfl
              (by
                intro i f
                show GD.scale _ ⟨(lossFn (vecFn mc y i) f).2.1, (lossFn (vecFn mc y i) f).2.2⟩ =
                  GD.scale _ ⟨(lossFn (vecFn mc y' i) f).2.1, (lossFn (vecFn mc y' i) f).2.2⟩
                rcases hcases i with h1 | ⟨v, v', h1, h2, h3, h4⟩
                · rw [h1]
                · rw [h3, h4]
                  obtain ⟨g1, g2⟩ := h lossFn hmem i v v' f
                    ((if w = [] then fun _ => mc.ofNat 1 else vecFn mc w : Nat → D) i) h1 h2 (by
                      by_cases hw : w = []
                      · simp [hw]
                      · simp [hw, vecFn])
                  simp only [GD.scale, GD.mk.injEq]
                  exact ⟨g1, g2⟩)
              (by
                intro hbin i _
                rcases hcases i with h1 | ⟨v, v', h1, h2, h3, h4⟩
                · show (Dbl.eqb (vecFn mc y i) _ || _) = (Dbl.eqb (vecFn mc y' i) _ || _)
                  rw [← h1]
                  rfl
                · rcases hv with hv | hv
                  · have : binary = true := hbin
                    rw [hb hv] at this
                    cases this
                  · have := hv i v v' h1 h2
                    rw [TwoClass, TwoClass, ← h3, ← h4] at this
                    exact this)
              (mc.listing ((namesOfType (some t) .string).filter (fun n => features.contains n) ++
                (namesOfType (some t) .bucketized).filter (fun n => features.contains n))) (c'.train mc (mc.ofNat 1)) base [] 0
            simp only [Option.getD_some]
            rw [this]
            rfl

end python

/-- **C104.** In exact arithmetic, the targets of rows with weight zero do not matter to `train` with mse, logloss or huberized hinge,
whether it returns a forest or raises: out-of-bag predictions of a bag are made without the targets of its rows.  (The losses
for two classes check the targets of all rows.) -/
theorem C104_zero_weights {K A : Type} [Field K] [LinearOrder K] [IsStrictOrderedRing K] [LinearOrder A] [ThrOps A]
    {mc : Machine K A} {t : DataStore A} {c : Config K} (hl : c.lossFunc ∈ ["mse", "logloss", "huberized_hinge"])
    {y y' w : List (Fl A)} (hlen : y.length = y'.length)
    (h : ∀ (i : Nat) v v', y[i]? = some v → y'[i]? = some v' → v = v' ∨ ∃ x, w[i]? = some x ∧ mc.toD x = 0)
    (hv : c.lossFunc = "mse" ∨ ∀ (i : Nat) v v', y[i]? = some v → y'[i]? = some v' → TwoClass mc v = TwoClass mc v')
    (features : List String) (base : Option (List (Tree K A))) (seed nt : Int) :
    pyTrain mc (some t) c y features w base seed nt = pyTrain mc (some t) c y' features w base seed nt := by
  refine C104_ignored hl hlen ?_ hv features base seed nt
  intro loss _ i v v' f k h1 h2 hk
  rcases h i v v' h1 h2 with rfl | ⟨x, hx, h0⟩
  · exact ⟨rfl, rfl⟩
  · have hw : w ≠ [] := by rintro rfl; simp at hx
    rcases hk with ⟨hk, _⟩ | ⟨_, rfl⟩
    · exact absurd hk hw
    · rw [List.getD_eq_getElem?_getD, hx, Option.getD_some, h0, zero_mul, zero_mul, zero_mul, zero_mul]
      exact ⟨rfl, rfl⟩

/-- Training on five rows of which the third and the last have weight zero. -/
def bagRun (y3 y5 w5 : ℚ) : PyRes (List ℚ) :=
  (pyDict id).andThen (fun s => (pyTrain ratMachine s pyCfg [.num 1, .num 2, .num y3, .num 3, .num y5] ["size", "color"]
    [.num 1, .num 2, .num 0, .num 1, .num w5] none 1 2).andThen (fun f => pyPredict s f 1))

/-- The targets of rows with weight zero do not matter; with another weight they do. -/
example : (match bagRun 6 8 0, bagRun (-70) 900 0, bagRun 6 8 1, bagRun 6 900 1 with
    | .ok (.ok a), .ok (.ok b), .ok (.ok c), .ok (.ok d) => decide (a = b ∧ c ≠ d ∧ a.length = 5 ∧ a[0]? ≠ a[3]?)
    | _, _, _, _ => false) = true := by decide +kernel

end Gbdt
