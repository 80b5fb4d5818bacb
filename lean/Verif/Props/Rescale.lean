import Verif.Spec.Rescale
import Verif.Lemmas.Stretch
import Verif.Model.Importance
import Verif.Props.Importance
import Verif.Spec.Ieee
import Verif.Props.Threads

/-!
# C131 to C135: other units and other signs
-/

set_option autoImplicit false
set_option linter.unusedSectionVars false

namespace Gbdt
open Outcome

variable {D A : Type} [Dbl D] [LinearOrder A] [ThrOps A]

/-! ## Laws -/

theorem Rescaling.mulBoth {up : D → D} (h : Rescaling up) (a b : D) : up a * up b = up (up (a * b)) := by
  rw [h.mul_left, h.mul_right]

/-- Weights. -/
theorem Rescaling.weights {up : D → D} (h : Rescaling up) : (⟨up, up, up, id⟩ : Stretch D).Ok where
  grad_zero := h.zero
  grad_add := h.add
  grad_sub := h.sub
  grad_eq := h.eq_zero
  hess_zero := h.zero
  hess_add := h.add
  hess_sub := h.sub
  hess_eq := h.eq_zero
  hess_lt := h.lt
  gain_zero := h.zero
  gain_add := h.add
  gain_sub := h.sub
  gain_lt := h.lt
  energy := fun g k _ => by
    show up g * up g / up k = up (g * g / k)
    rw [h.mulBoth, h.ratio, h.div]
  newton := fun g k _ => h.ratio g k
  score_zero := rfl
  score_add := fun _ _ => rfl
  score_mul := fun _ _ => rfl

/-- Targets. -/
theorem Rescaling.targets {up : D → D} (h : Rescaling up) : (⟨up, id, fun x => up (up x), up⟩ : Stretch D).Ok where
  grad_zero := h.zero
  grad_add := h.add
  grad_sub := h.sub
  grad_eq := h.eq_zero
  hess_zero := rfl
  hess_add := fun _ _ => rfl
  hess_sub := fun _ _ => rfl
  hess_eq := fun _ => rfl
  hess_lt := fun _ _ => rfl
  gain_zero := by simp only [h.zero]
  gain_add := fun a b => by simp only [h.add]
  gain_sub := fun a b => by simp only [h.sub]
  gain_lt := fun a b => by simp only [h.lt]
  energy := fun g k _ => by
    show up g * up g / k = up (up (g * g / k))
    rw [h.mulBoth, h.div, h.div]
  newton := fun g k _ => h.div g k
  score_zero := h.zero
  score_add := h.add
  score_mul := fun a b => (h.mul_left a b).symm

/-- Signs. -/
theorem Negation.targets {neg : D → D} (h : Negation neg) : (⟨neg, id, id, neg⟩ : Stretch D).Ok where
  grad_zero := h.zero
  grad_add := h.add
  grad_sub := h.sub
  grad_eq := h.eq_zero
  hess_zero := rfl
  hess_add := fun _ _ => rfl
  hess_sub := fun _ _ => rfl
  hess_eq := fun _ => rfl
  hess_lt := fun _ _ => rfl
  gain_zero := rfl
  gain_add := fun _ _ => rfl
  gain_sub := fun _ _ => rfl
  gain_lt := fun _ _ => rfl
  energy := fun g k _ => by
    show neg g * neg g / k = g * g / k
    rw [h.mul_both]
  newton := fun g k _ => h.div g k
  score_zero := h.zero
  score_add := h.add
  score_mul := fun a b => (h.mul_left a b).symm

omit [Dbl D] [LinearOrder A] [ThrOps A] in
theorem stretch_renumber (m : Stretch D) : ∀ t : Tree D A, m.tree t = renumber m.score m.gain t
  | .absent => rfl
  | .node x split left right => by
    rw [Stretch.tree, renumber, stretch_renumber m left, stretch_renumber m right]

omit [Dbl D] [LinearOrder A] [ThrOps A] in
theorem stretch_renumber_list (m : Stretch D) (f : List (Tree D A)) : f.map m.tree = f.map (renumber m.score m.gain) :=
  List.map_congr_left (fun t _ => stretch_renumber m t)

omit [ThrOps A] [Dbl D] in
/-- The same failure, the same exception, or results that have more in common. -/
theorem SameAnswer.imp {α β : Type} {r q : α → β → Prop} {x : PyRes α} {y : PyRes β} (h : SameAnswer r x y) (hi : ∀ a b, r a b → q a b) :
    SameAnswer q x y := by
  cases h with
  | ub => exact .ub
  | fatal => exact .fatal
  | ok h =>
    cases h with
    | error => exact .ok .error
    | ok h => exact .ok (.ok (hi _ _ h))

omit [ThrOps A] [Dbl D] in
theorem SameAnswer.of_eq {α : Type} {x y : PyRes α} (h : SameAnswer (fun a b => b = a) x y) : y = x := by
  cases h with
  | ub => rfl
  | fatal => rfl
  | ok h =>
    cases h with
    | error => rfl
    | ok h => rw [h]

omit [Dbl D] [ThrOps A] in
theorem wrongLength_false {t : DataStore A} {n : Nat} (hn : t.numRows = ok n) {l : List (Fl A)} (h : l = [] ∨ l.length = n) :
    wrongLength (some t) l = ok false := by
  unfold wrongLength
  split
  · rfl
  · next hl =>
    rcases h with h | h
    · exact absurd h hl
    · simp [PyStore.len, hn, h]

omit [Dbl D] [ThrOps A] in
theorem wrongLength_of_length {t : DataStore A} {l l' : List (Fl A)} (h : l'.length = l.length) :
    wrongLength (some t) l' = wrongLength (some t) l := by
  have : l' = [] ↔ l = [] := by rw [← List.length_eq_zero_iff, h, List.length_eq_zero_iff]
  simp only [wrongLength, this, h]

omit [LinearOrder A] [ThrOps A] in
theorem vecFn_weightAt (mc : Machine D A) (w : List (Fl A)) : (if w = [] then fun _ => mc.ofNat 1 else vecFn mc w) = weightAt mc w := by
  funext i
  unfold weightAt
  split <;> rfl

omit [LinearOrder A] [ThrOps A] in
theorem pointFn_of_mem (math : MathFns D) {name : String} (h : name ∈ ["mse", "logloss", "huberized_hinge"]) :
    ∃ b fn, pointFn math name = some (b, fn) := by
  simp only [List.mem_cons, List.not_mem_nil, or_false] at h
  rcases h with h | h | h <;> simp [pointFn, h]

omit [LinearOrder A] [ThrOps A] in
theorem max_of_not_lt {a b : D} (h : Dbl.ltb a b = false) : Dbl.max a b = a := by
  unfold Dbl.max
  rw [h]
  rfl

/-! ## Weights -/

/-- Importance of features: the sort by value looks at values by comparing only. -/
def ImportanceByComparison (sort : List (String × D) → List (String × D)) : Prop :=
  ∀ φ : D → D, (∀ a b, Dbl.ltb (φ a) (φ b) = Dbl.ltb a b) →
    ∀ l, sort (l.map (fun e => (e.1, φ e.2))) = (sort l).map (fun e => (e.1, φ e.2))

omit [LinearOrder A] [ThrOps A] in
theorem addGain_up {up : D → D} (h : Rescaling up) (name : String) (g : D) : ∀ l : List (String × D),
    addGain name (up g) (l.map (fun e => (e.1, up e.2))) = (addGain name g l).map (fun e => (e.1, up e.2))
  | [] => by simp [addGain, h.add, h.zero]
  | (n, v) :: l => by
    simp only [List.map_cons, addGain]
    split
    · simp [h.add]
    · simp [addGain_up h name g l]

theorem treeImportance_up {up : D → D} (h : Rescaling up) : ∀ (t : Tree D A) (l : List (String × D)),
    treeImportance (renumber id up t) (l.map (fun e => (e.1, up e.2))) = (treeImportance t l).map (fun e => (e.1, up e.2))
  | .absent, l => rfl
  | .node x split left right, l => by
    have hs : (renumber id up left).isSet = left.isSet := by cases left <;> rfl
    have h1 := h.weights.splitOf (A := A) (.node x split left right)
    rw [stretch_renumber, renumber] at h1
    rw [renumber, treeImportance, treeImportance, hs]
    split
    · simp only
      rw [h1]
      show treeImportance _ (treeImportance _ (addGain (Tree.node x split left right).splitOf.feature
        (up (Tree.node x split left right).splitOf.gain) _)) = _
      rw [addGain_up h, treeImportance_up h left, treeImportance_up h right]
    · rfl

theorem featureImportance_up {up : D → D} (h : Rescaling up) {sort : List (String × D) → List (String × D)}
    (hs : ImportanceByComparison sort) (f : List (Tree D A)) : featureImportance sort (f.map (renumber id up)) = featureImportance sort f := by
  have key : ∀ (f : List (Tree D A)) (l : List (String × D)), (f.map (renumber id up)).foldl (fun m t => treeImportance t m)
      (l.map (fun e => (e.1, up e.2))) = (f.foldl (fun m t => treeImportance t m) l).map (fun e => (e.1, up e.2)) := by
    intro f
    induction f with
    | nil => intro l; rfl
    | cons t f ih => intro l; rw [List.map_cons, List.foldl_cons, treeImportance_up h, ih, List.foldl_cons]
  have := key f []
  rw [List.map_nil] at this
  unfold featureImportance
  rw [this, hs up h.lt]
  cases sort (f.foldl (fun m t => treeImportance t m) []) with
  | nil => rfl
  | cons e l => simp [h.ratio]

/-- Both forests say the same about every store and every feature; the second has other gains. -/
structure SameModel (up : D → D) (f f' : List (Tree D A)) : Prop where
  trees : f' = f.map (renumber id up)
  predictions : ∀ s nt, pyPredict s f' nt = pyPredict s f nt
  importance : ∀ sort, ImportanceByComparison sort → featureImportance sort f' = featureImportance sort f

theorem sameModel_of {up : D → D} (h : Rescaling up) (f : List (Tree D A)) : SameModel up f (f.map (renumber id up)) where
  trees := rfl
  predictions := by
    intro s nt
    cases s with
    | none => rfl
    | some t =>
      have := stretch_pyPredict h.weights t f nt
      rw [stretch_renumber_list] at this
      refine SameAnswer.of_eq (SameAnswer.imp this ?_)
      intro a b hab
      rw [hab]
      exact List.map_id a
  importance := fun sort hs => featureImportance_up h hs f

/-- What becomes of the limits when weights are changed by `up`. -/
def Config.changed (c : Config D) (up : D → D) : Config D :=
  { c with l2Lambda := up c.l2Lambda, minHessian := up c.minHessian, minGain := up c.minGain }

theorem weights_stretch {up : D → D} (hup : Rescaling up) {mc mc' : Machine D A} (hmc : ByComparison mc)
    (hmc' : mc' = { mc with tol := mc'.tol }) {t : DataStore A} {n : Nat}
    (hn : t.numRows = ok n) {c : Config D} (hl : c.lossFunc ∈ ["mse", "logloss", "huberized_hinge"])
    (hgain : Dbl.max (up c.minGain) mc'.tol = up (Dbl.max c.minGain mc.tol)) {w w' : List (Fl A)}
    (hw : WeightsChanged mc up n w w') (y : List (Fl A)) (features : List String) (seed nt : Int) :
    SameAnswer (SameModel up) (pyTrain mc (some t) c y features w none seed nt)
      (pyTrain mc' (some t) (c.changed up) y features w' none seed nt) := by
  obtain ⟨b, fn, hfn⟩ := pointFn_of_mem mc.math hl
  have hmach : StretchMachine ⟨up, up, up, id⟩ mc mc' :=
    ⟨by rw [hmc'], fun _ => rfl, hmc.top up hup.lt, fun _ => rfl, hmc.listing⟩
  have hcfg : StretchConfig ⟨up, up, up, id⟩ mc.tol mc'.tol c (c.changed up) := ⟨rfl, rfl, rfl, hgain⟩
  have h1 := wrongLength_false hn hw.given
  have h2 := wrongLength_false hn (Or.inr hw.length)
  have hvec : vecFn mc' = vecFn mc := by unfold vecFn; rw [hmc']
  have htar : SameAnswer (fun a b => b = a) (trainPyTargets mc (some t) c y) (trainPyTargets mc' (some t) (c.changed up) y) := by
    have : trainPyTargets mc' (some t) (c.changed up) y = trainPyTargets mc (some t) c y := by
      unfold trainPyTargets
      rw [hvec]
      rfl
    rw [this]
    generalize trainPyTargets mc (some t) c y = r
    cases r with
    | ub => exact .ub
    | fatal => exact .fatal
    | ok r =>
      cases r with
      | error e => exact .ok .error
      | ok r => exact .ok (.ok rfl)
  have := stretch_pyTrain hup.weights hmach t hcfg hfn (w := w) (w' := w') (y := y) (y' := y) seed nt (h2.trans h1.symm) rfl htar
    (fun _ _ n' hn' yf yf' hy => by
      rw [hn] at hn'
      cases hn'
      subst hy
      rw [vecFn_weightAt, vecFn_weightAt]
      have hwt : ∀ i < n, weightAt mc' w' i = up (weightAt mc w i) := by
        intro i hi
        have h3 : weightAt mc' w' i = mc.toD (w'.getD i .nan) := by
          unfold weightAt
          rw [if_neg, hmc']
          rintro rfl
          have := hw.length
          simp only [List.length_nil] at this
          omega
        rw [h3, hw.each i hi]
      exact
        { init := by
            unfold pointInit mkPoint
            rw [hmc']
          row := by
            intro i hi f
            show weightAt mc' w' i * (fn (yf' i) f).2.1 = up (weightAt mc w i * (fn (yf' i) f).2.1) ∧
              weightAt mc' w' i * (fn (yf' i) f).2.2 = up (weightAt mc w i * (fn (yf' i) f).2.2)
            rw [hwt i hi, hup.mul_left, hup.mul_left]
            exact ⟨rfl, rfl⟩
          blank := by
            intro i hi
            show weightAt mc' w' i * 0 = up (weightAt mc w i * 0) ∧ weightAt mc' w' i * 0 = up (weightAt mc w i * 0)
            rw [hwt i hi, hup.mul_left]
            exact ⟨rfl, rfl⟩
          converged := by
            intro x
            show Dbl.ltb mc'.threshold (mc'.fabs x) = Dbl.ltb mc.threshold (mc.fabs x)
            rw [hmc'] })
    features (fun _ key l => rfl) none
  refine SameAnswer.imp this (fun f f' hf => ?_)
  rw [hf, stretch_renumber_list]
  exact sameModel_of hup f

/-- **C131.** Only the proportions of the weights matter to `train`, if the limits are changed with them: with weights, L2
regularization, least hessian and least gain all multiplied by the same number, the forest has the same splits and the same scores,
and so the same predictions and the same importance of features; only the gains written in it are multiplied.  This is for the
losses that look at one row at a time, and for least gains that are not below the tolerance of the code. -/
theorem C131_weights {up : D → D} (hup : Rescaling up) {mc : Machine D A} (hmc : ByComparison mc) {t : DataStore A} {n : Nat}
    (hn : t.numRows = ok n) {c : Config D} (hl : c.lossFunc ∈ ["mse", "logloss", "huberized_hinge"])
    (hgain : Dbl.ltb c.minGain mc.tol = false) (hgain' : Dbl.ltb (up c.minGain) mc.tol = false) {w w' : List (Fl A)}
    (hw : WeightsChanged mc up n w w') (y : List (Fl A)) (features : List String) (seed nt : Int) :
    SameAnswer (SameModel up) (pyTrain mc (some t) c y features w none seed nt)
      (pyTrain mc (some t) (c.changed up) y features w' none seed nt) :=
  weights_stretch hup hmc rfl hn hl (by rw [max_of_not_lt hgain, max_of_not_lt hgain']) hw y features seed nt

/-- **C132 in part.** With the tolerance changed like the weights the least gain may be anything: the tolerance is the only thing in
the way of C132. -/
theorem C132_partial {up : D → D} (hup : Rescaling up) {mc : Machine D A} (hmc : ByComparison mc) {t : DataStore A} {n : Nat}
    (hn : t.numRows = ok n) {c : Config D} (hl : c.lossFunc ∈ ["mse", "logloss", "huberized_hinge"]) {w w' : List (Fl A)}
    (hw : WeightsChanged mc up n w w') (y : List (Fl A)) (features : List String) (seed nt : Int) :
    SameAnswer (SameModel up) (pyTrain mc (some t) c y features w none seed nt)
      (pyTrain { mc with tol := up mc.tol } (some t) (c.changed up) y features w' none seed nt) :=
  weights_stretch hup hmc rfl hn hl (by
    unfold Dbl.max
    simp only [hup.lt]
    split <;> rfl) hw y features seed nt

/-! ## Signs -/

omit [LinearOrder A] [ThrOps A] in
/-- What the three losses make of negated targets and values. -/
theorem pointFn_neg {neg : D → D} (h : Negation neg) {math : MathFns D} (hm : math.neg = neg) {name : String} {b : Bool}
    {fn : D → D → D × D × D} (hf : pointFn math name = some (b, fn)) (y f : D) :
    (fn (neg y) (neg f)).2.1 = neg (fn y f).2.1 ∧ (fn (neg y) (neg f)).2.2 = (fn y f).2.2 := by
  unfold pointFn at hf
  split at hf
  · cases hf
    exact ⟨(h.sub y f).symm, rfl⟩
  · split at hf
    · cases hf
      simp only [logLoss, hm, h.mul_both]
      rw [h.mul_left, h.div]
      exact ⟨rfl, trivial⟩
    · split at hf
      · cases hf
        simp only [huberizedHinge, h.mul_both]
        split
        · exact ⟨h.zero.symm, rfl⟩
        · split
          · exact ⟨h.mul_right _ _, rfl⟩
          · exact ⟨rfl, rfl⟩
      · cases hf

omit [LinearOrder A] [ThrOps A] in
theorem any_range_congr {n : Nat} {p q : Nat → Bool} (h : ∀ i < n, p i = q i) : (List.range n).any p = (List.range n).any q := by
  induction n with
  | zero => rfl
  | succ n ih =>
    rw [List.range_succ, List.any_append, List.any_append, ih (fun i hi => h i (by omega))]
    simp [h n (by omega)]

/-- Both forests have the same splits and opposite scores, and so opposite predictions. -/
structure OppositeModel (neg : D → D) (f f' : List (Tree D A)) : Prop where
  trees : f' = f.map (renumber neg id)
  predictions : ∀ s nt, SameAnswer (fun p p' => p' = p.map neg) (pyPredict s f nt) (pyPredict s f' nt)

/-- **C133.** Negating all targets negates all predictions, bit for bit, whatever the losses of single rows, the weights, the
sampling, the regularization, as long as there are no string features. -/
theorem C133_signs {neg : D → D} (hneg : Negation neg) {mc : Machine D A} (hlist : ∀ l x, x ∈ mc.listing l → x ∈ l) (hsym : Symmetric mc neg)
    {t : DataStore A} {c : Config D} (hl : c.lossFunc ∈ ["mse", "logloss", "huberized_hinge"]) {y y' : List (Fl A)}
    (hy : TargetsChanged mc neg y y') {features : List String}
    (hfeat : ∀ name ∈ features, ∀ col, t.getColumn name = some col → col.type ≠ .string) (w : List (Fl A)) (seed nt : Int) :
    SameAnswer (OppositeModel neg) (pyTrain mc (some t) c y features w none seed nt) (pyTrain mc (some t) c y' features w none seed nt) := by
  obtain ⟨b, fn, hfn⟩ := pointFn_of_mem mc.math hl
  have hy' : y' ≠ [] := by
    rw [← List.length_pos_iff, hy.length, List.length_pos_iff]
    exact hy.given
  have hmach : StretchMachine ⟨neg, id, id, neg⟩ mc mc :=
    ⟨rfl, hsym.rnd32, fun n g => by rw [List.map_id_fun]; rfl, hsym.diverged, hlist⟩
  have hcfg : StretchConfig ⟨neg, id, id, neg⟩ mc.tol mc.tol c c := ⟨rfl, rfl, rfl, rfl⟩
  have htar : SameAnswer (fun a b => a = vecFn mc y ∧ b = vecFn mc y') (trainPyTargets mc (some t) c y) (trainPyTargets mc (some t) c y') := by
    unfold trainPyTargets
    rw [if_pos hy.given, if_pos hy']
    exact .ok (.ok ⟨rfl, rfl⟩)
  have := stretch_pyTrain hneg.targets hmach t hcfg hfn (w := w) (w' := w) (y := y) (y' := y') seed nt rfl (wrongLength_of_length hy.length)
    htar (fun _ hly n hn yf yf' h => by
      obtain ⟨rfl, rfl⟩ := h
      have hlen : y.length = n := by
        unfold wrongLength at hly
        rw [if_neg hy.given] at hly
        simp only [PyStore.len, hn, ok_bind, pure_eq, Outcome.ok.injEq, bne_eq_false_iff_eq] at hly
        exact hly.symm
      have heach : ∀ i < n, vecFn mc y' i = neg (vecFn mc y i) := fun i hi => hy.each i (by omega)
      exact
        { init := by
            funext g
            show (if (b && (List.range n).any (fun i => !Dbl.eqb (vecFn mc y' i) mc.math.one && !Dbl.eqb (vecFn mc y' i) mc.minusOne)) = true
              then _ else _) = (if (b && (List.range n).any (fun i => !Dbl.eqb (vecFn mc y i) mc.math.one &&
                !Dbl.eqb (vecFn mc y i) mc.minusOne)) = true then _ else _)
            have : (List.range n).any (fun i => !Dbl.eqb (vecFn mc y' i) mc.math.one && !Dbl.eqb (vecFn mc y' i) mc.minusOne) =
                (List.range n).any (fun i => !Dbl.eqb (vecFn mc y i) mc.math.one && !Dbl.eqb (vecFn mc y i) mc.minusOne) := by
              refine any_range_congr (fun i hi => ?_)
              rw [heach i hi, hsym.one, hsym.minusOne, Bool.and_comm]
            rw [this]
            rfl
          row := by
            intro i hi f
            obtain ⟨h1, h2⟩ := pointFn_neg hneg hsym.negative hfn (vecFn mc y i) f
            generalize (if w = [] then fun _ => mc.ofNat 1 else vecFn mc w) = wf
            show wf i * (fn (vecFn mc y' i) (neg f)).2.1 = neg (wf i * (fn (vecFn mc y i) f).2.1) ∧
              wf i * (fn (vecFn mc y' i) (neg f)).2.2 = wf i * (fn (vecFn mc y i) f).2.2
            rw [heach i hi, h1, h2, hneg.mul_right]
            exact ⟨rfl, rfl⟩
          blank := by
            intro i hi
            generalize (if w = [] then fun _ => mc.ofNat 1 else vecFn mc w) = wf
            show wf i * 0 = neg (wf i * 0) ∧ wf i * 0 = wf i * 0
            rw [← hneg.mul_right, hneg.zero]
            exact ⟨rfl, rfl⟩
          converged := by
            intro x
            show Dbl.ltb mc.threshold (mc.fabs (neg x)) = Dbl.ltb mc.threshold (mc.fabs x)
            rw [hsym.fabs] })
    features (by
      rintro ⟨name, hname, col, hcol, hty⟩
      exact absurd hty (hfeat name hname col hcol)) none
  refine SameAnswer.imp this (fun f f' hf => ?_)
  rw [stretch_renumber_list] at hf
  refine ⟨hf, ?_⟩
  intro s nt
  cases s with
  | none =>
    have hn : ∀ f : List (Tree D A), pyPredict none f nt = raise .notFound .ub := fun _ => rfl
    rw [hn, hn]
    exact sameAnswer_raise _ .ub
  | some t =>
    have := stretch_pyPredict hneg.targets t f nt
    rw [stretch_renumber_list] at this
    rw [hf]
    exact this

/-! ## Units of the target -/

/-- Both forests have the same splits; scores and predictions of the second are those of the first in the other unit. -/
structure ScaledModel (up : D → D) (f f' : List (Tree D A)) : Prop where
  trees : f' = f.map (renumber up (fun x => up (up x)))
  predictions : ∀ s nt, SameAnswer (fun p p' => p' = p.map up) (pyPredict s f nt) (pyPredict s f' nt)

/-- **C135 in part.** With squared error the unit of the targets does not matter, but for two constants of the code: if the threshold of
the convergence test is in the unit of the targets, and the tolerance for gains and the least gain are in its square, then the
predictions are the same in the other unit.  (`rnd32` stands for the rounding of scores to `float`.) -/
theorem C135_partial {up : D → D} (hup : Rescaling up) {mc : Machine D A} (hmc : ByComparison mc)
    (hrnd : ∀ x, mc.rnd32 (up x) = up (mc.rnd32 x)) (hdiv : ∀ x, mc.diverged (up x) = mc.diverged x)
    (habs : ∀ x, mc.fabs (up x) = up (mc.fabs x)) {t : DataStore A} {c : Config D} (hl : c.lossFunc = "mse") {y y' : List (Fl A)}
    (hy : TargetsChanged mc up y y') (features : List String) (w : List (Fl A)) (seed nt : Int) :
    SameAnswer (ScaledModel up) (pyTrain mc (some t) c y features w none seed nt)
      (pyTrain { mc with threshold := up mc.threshold, tol := up (up mc.tol) } (some t) { c with minGain := up (up c.minGain) } y' features w
        none seed nt) := by
  have hfn : pointFn mc.math c.lossFunc = some (false, mseLoss mc.math) := by simp [pointFn, hl]
  have hy' : y' ≠ [] := by
    rw [← List.length_pos_iff, hy.length, List.length_pos_iff]
    exact hy.given
  have hlt2 : ∀ a b, Dbl.ltb (up (up a)) (up (up b)) = Dbl.ltb a b := fun a b => by rw [hup.lt, hup.lt]
  have hmach : StretchMachine ⟨up, id, fun x => up (up x), up⟩ mc { mc with threshold := up mc.threshold, tol := up (up mc.tol) } :=
    ⟨rfl, hrnd, hmc.top _ hlt2, hdiv, hmc.listing⟩
  have hcfg : StretchConfig ⟨up, id, fun x => up (up x), up⟩ mc.tol (up (up mc.tol)) c { c with minGain := up (up c.minGain) } :=
    ⟨rfl, rfl, rfl, by
      show Dbl.max (up (up c.minGain)) (up (up mc.tol)) = up (up (Dbl.max c.minGain mc.tol))
      unfold Dbl.max
      rw [hlt2]
      split <;> rfl⟩
  have htar : SameAnswer (fun a b => a = vecFn mc y ∧ b = vecFn mc y') (trainPyTargets mc (some t) c y)
      (trainPyTargets { mc with threshold := up mc.threshold, tol := up (up mc.tol) } (some t) { c with minGain := up (up c.minGain) } y') := by
    unfold trainPyTargets
    rw [if_pos hy.given, if_pos hy']
    exact .ok (.ok ⟨rfl, rfl⟩)
  have := stretch_pyTrain hup.targets hmach t hcfg hfn (w := w) (w' := w) (y := y) (y' := y') seed nt rfl (wrongLength_of_length hy.length)
    htar (fun _ hly n hn yf yf' h => by
      obtain ⟨rfl, rfl⟩ := h
      have hlen : y.length = n := by
        unfold wrongLength at hly
        rw [if_neg hy.given] at hly
        simp only [PyStore.len, hn, ok_bind, pure_eq, Outcome.ok.injEq, bne_eq_false_iff_eq] at hly
        exact hly.symm
      have heach : ∀ i < n, vecFn mc y' i = up (vecFn mc y i) := fun i hi => hy.each i (by omega)
      have hwf : (if w = [] then fun _ => ({ mc with threshold := up mc.threshold, tol := up (up mc.tol) } : Machine D A).ofNat 1
          else vecFn { mc with threshold := up mc.threshold, tol := up (up mc.tol) } w) =
          (if w = [] then fun _ => mc.ofNat 1 else vecFn mc w) := rfl
      rw [hwf]
      generalize (if w = [] then fun _ => mc.ofNat 1 else vecFn mc w) = wf
      exact
        { init := rfl
          row := by
            intro i hi f
            show wf i * (vecFn mc y' i - up f) = up (wf i * (vecFn mc y i - f)) ∧ wf i * mc.math.one = wf i * mc.math.one
            rw [heach i hi, ← hup.sub, hup.mul_right]
            exact ⟨rfl, rfl⟩
          blank := by
            intro i hi
            show wf i * 0 = up (wf i * 0) ∧ wf i * 0 = wf i * 0
            rw [← hup.mul_right, hup.zero]
            exact ⟨rfl, rfl⟩
          converged := by
            intro x
            show Dbl.ltb (up mc.threshold) (mc.fabs (up x)) = Dbl.ltb mc.threshold (mc.fabs x)
            rw [habs, hup.lt] })
    features (fun _ => hmc.sort up hup.lt) none
  refine SameAnswer.imp this (fun f f' hf => ?_)
  rw [stretch_renumber_list] at hf
  refine ⟨hf, ?_⟩
  intro s nt
  cases s with
  | none =>
    have hn : ∀ f : List (Tree D A), pyPredict none f nt = raise .notFound .ub := fun _ => rfl
    rw [hn, hn]
    exact sameAnswer_raise _ .ub
  | some t =>
    have := stretch_pyPredict hup.targets t f nt
    rw [stretch_renumber_list] at this
    rw [hf]
    exact this

/-! ## Exact arithmetic and doubles -/

/-- Multiplication by a positive number in exact arithmetic. -/
theorem rescaling_of_pos {K : Type} [Field K] [LinearOrder K] [IsStrictOrderedRing K] {k : K} (hk : 0 < k) : Rescaling (fun x : K => k * x) where
  zero := mul_zero k
  add := mul_add k
  sub := mul_sub k
  eq_zero := fun a => by simp [hk.ne']
  lt := fun a b => by simp [hk]
  mul_left := fun a b => by ring
  mul_right := fun a b => by ring
  div := fun a b => by ring
  ratio := fun a b => mul_div_mul_left a b hk.ne'

/-- Negation in exact arithmetic. -/
theorem negation_exact {K : Type} [Field K] [LinearOrder K] [IsStrictOrderedRing K] : Negation (fun x : K => -x) where
  zero := neg_zero
  add := fun a b => by ring
  sub := fun a b => by ring
  eq_zero := fun a => by simp
  mul_left := fun a b => by ring
  mul_right := fun a b => by ring
  mul_both := fun a b => by ring
  div := fun a b => by ring

theorem roundRat_neg (p sub : Nat) (q : ℚ) : roundRat p sub (-q) = -roundRat p sub q := by
  unfold roundRat
  simp only [Rat.neg_num, Int.natAbs_neg, Rat.neg_den]
  by_cases h0 : q.num.natAbs = 0
  · simp [h0]
  · simp only [h0, if_false]
    have hne : q.num ≠ 0 := fun h => h0 (by simp [h])
    by_cases hneg : q.num < 0
    · have : ¬ (-q.num < 0) := by omega
      rw [if_neg this, if_pos hneg, neg_neg]
    · have : -q.num < 0 := by omega
      rw [if_pos this, if_neg hneg]

theorem F64.round_neg (q : ℚ) : F64.round (-q) = (F64.round q).neg := by
  unfold F64.round
  simp only [roundRat_neg]
  generalize roundRat 53 1074 q = v
  have hb : (0 : ℚ) < 2 ^ 1024 := pow_pos (by norm_num) _
  generalize (2 : ℚ) ^ 1024 = b at hb
  by_cases h1 : b ≤ v
  · have h2 : ¬ b ≤ -v := fun h => by linarith
    have h3 : -v ≤ -b := by linarith
    rw [if_pos h1, if_neg h2, if_pos h3]
    rfl
  · by_cases h2 : v ≤ -b
    · have h3 : b ≤ -v := by linarith
      rw [if_neg h1, if_pos h2, if_pos h3]
      rfl
    · have h3 : ¬ b ≤ -v := fun h => h2 (by linarith)
      have h4 : ¬ -v ≤ -b := fun h => h1 (by linarith)
      rw [if_neg h1, if_neg h2, if_neg h3, if_neg h4]
      rfl

theorem F64.round32_neg (x : F64) : F64.round32 x.neg = (F64.round32 x).neg := by
  rcases x with _ | s | q
  · rfl
  · rfl
  show F64.round32 (.num (-q)) = _
  unfold F64.round32
  simp only [roundRat_neg]
  generalize roundRat 24 149 q = v
  have hb : (0 : ℚ) < 2 ^ 128 := pow_pos (by norm_num) _
  generalize (2 : ℚ) ^ 128 = b at hb
  by_cases h1 : b ≤ v
  · have h2 : ¬ b ≤ -v := fun h => by linarith
    have h3 : -v ≤ -b := by linarith
    rw [if_pos h1, if_neg h2, if_pos h3]
    rfl
  · by_cases h2 : v ≤ -b
    · have h3 : b ≤ -v := by linarith
      rw [if_neg h1, if_pos h2, if_pos h3]
      rfl
    · have h3 : ¬ b ≤ -v := fun h => h2 (by linarith)
      have h4 : ¬ -v ≤ -b := fun h => h1 (by linarith)
      rw [if_neg h1, if_neg h2, if_neg h3, if_neg h4]
      rfl

theorem F64.neg_neg (a : F64) : a.neg.neg = a := by
  rcases a with _ | s | q <;> simp [F64.neg]

theorem F64.neg_add (a b : F64) : (F64.add a b).neg = F64.add a.neg b.neg := by
  rcases a with _ | s | q <;> rcases b with _ | s' | q' <;> simp only [F64.add, F64.neg]
  · by_cases h : s = s'
    · simp [h]
    · have : ¬ (!s) = !s' := by simpa using h
      simp [h]
  · show (F64.round (q + q')).neg = F64.round (-q + -q')
    rw [← F64.round_neg, _root_.neg_add]

theorem F64.neg_mul (a b : F64) : F64.mul a.neg b = (F64.mul a b).neg := by
  rcases a with _ | s | q <;> rcases b with _ | s' | q' <;> simp only [F64.mul, F64.neg]
  · simp
  · split <;> simp
  · by_cases h : q = 0
    · simp [h]
    · rcases lt_or_gt_of_ne h with h1 | h1
      · have h2 : ¬ (-q < 0) := by linarith
        have h3 : -q ≠ 0 := by linarith
        simp [h, h1, h2]
      · have h2 : -q < 0 := by linarith
        have h3 : ¬ q < 0 := by linarith
        simp [h, h3, h2]
  · show F64.round (-q * q') = (F64.round (q * q')).neg
    rw [← F64.round_neg, _root_.neg_mul]

theorem F64.mul_comm (a b : F64) : F64.mul a b = F64.mul b a := by
  rcases a with _ | s | q <;> rcases b with _ | s' | q' <;> simp only [F64.mul]
  · simp [bne_comm]
  · rw [_root_.mul_comm]

theorem F64.neg_div (a b : F64) : F64.div a.neg b = (F64.div a b).neg := by
  rcases a with _ | s | q <;> rcases b with _ | s' | q' <;> simp only [F64.div, F64.neg]
  · simp
  · simp
  · by_cases h : q' = 0
    · simp only [h, if_true]
      by_cases h0 : q = 0
      · simp [h0]
      · rcases lt_or_gt_of_ne h0 with h1 | h1
        · have h2 : ¬ (-q < 0) := by linarith
          simp [h0, h1, h2]
        · have h2 : -q < 0 := by linarith
          have h3 : ¬ q < 0 := by linarith
          simp [h0, h3, h2]
    · simp only [h, if_false]
      show F64.round (-q / q') = (F64.round (q / q')).neg
      rw [← F64.round_neg, _root_.neg_div]

/-- **Doubles.** Negation obeys the laws. -/
theorem negation_f64 : Negation F64.neg where
  zero := by decide
  add := F64.neg_add
  sub := fun a b => F64.neg_add a b.neg
  eq_zero := fun a => by
    rcases a with _ | s | q
    · rfl
    · rfl
    · show decide (-q = 0) = decide (q = 0)
      simp
  mul_left := F64.neg_mul
  mul_right := fun a b => by
    show F64.mul a b.neg = (F64.mul a b).neg
    rw [F64.mul_comm, F64.neg_mul, F64.mul_comm]
  mul_both := fun a b => by
    show F64.mul a.neg b.neg = F64.mul a b
    rw [F64.neg_mul, F64.mul_comm, F64.neg_mul, F64.neg_neg, F64.mul_comm]
  div := F64.neg_div

/-! ## Counterexamples and examples -/

theorem ratSort_map (key : Nat → ℚ) {φ : ℚ → ℚ} (h : ∀ a b, Dbl.ltb (φ a) (φ b) = Dbl.ltb a b) (l : List Nat) :
    ratSort (fun v => φ (key v)) l = ratSort key l := by
  have hle : ∀ a b, φ (key a) ≤ φ (key b) ↔ key a ≤ key b := by
    intro a b
    have := h (key b) (key a)
    rw [exact_ltb, exact_ltb, decide_eq_decide] at this
    rw [← not_lt, ← not_lt, this]
  have hins : ∀ (a : Nat) (l : List Nat), l.orderedInsert (fun a b => φ (key a) ≤ φ (key b)) a =
      l.orderedInsert (fun a b => key a ≤ key b) a := by
    intro a l
    cases l <;> simp only [List.orderedInsert, hle]
  unfold ratSort
  induction l with
  | nil => rfl
  | cons a l ih =>
    rw [List.insertionSort_cons, List.insertionSort_cons, ih]
    exact hins a _

theorem ratTop_map {φ : ℚ → ℚ} (h : ∀ a b, Dbl.ltb (φ a) (φ b) = Dbl.ltb a b) : ∀ (n : Nat) (l : List ℚ), ratTop n (l.map φ) = ratTop n l
  | _, [] => rfl
  | n, a :: l => by
    have hle : ∀ a b, φ a ≤ φ b ↔ a ≤ b := by
      intro a b
      have := h b a
      rw [exact_ltb, exact_ltb, decide_eq_decide] at this
      rw [← not_lt, ← not_lt, this]
    rw [List.map_cons, ratTop, ratTop, ratTop_map h 0 l]
    simp only [List.mem_map, forall_exists_index, and_imp, forall_apply_eq_imp_iff₂, hle]

theorem ratMachine_byComparison : ByComparison ratMachine where
  sort := fun _ h key l => ratSort_map key h l
  top := fun _ h n gains => ratTop_map h n gains
  listing := fun _ _ hx => List.mem_reverse.mp hx

/-- The predictions for the same data after training with other weights, targets or configurations. -/
def twoRuns (s : PyRes (Option (DataStore ℚ))) (c c' : Config ℚ) (features : List String) (y w y' w' : List (Fl ℚ))
    (check : Nat → List ℚ → List ℚ → Bool) : Bool :=
  match s with
  | .ok (.ok (some t)) => match t.numRows with
    | .ok n => match pyTrain ratMachine (some t) c y features w none 1 2, pyTrain ratMachine (some t) c' y' features w' none 1 2 with
      | .ok (.ok f), .ok (.ok f') => match pyPredict (some t) f 2, pyPredict (some t) f' 2 with
        | .ok (.ok p), .ok (.ok p') => check n p p'
        | _, _ => false
      | _, _ => false
    | _ => false
  | _ => false

theorem twoRuns_elim {s : PyRes (Option (DataStore ℚ))} {c c' : Config ℚ} {features : List String} {y w y' w' : List (Fl ℚ)}
    {check : Nat → List ℚ → List ℚ → Bool} (h : twoRuns s c c' features y w y' w' check = true) :
    ∃ t n f f' p p', t.numRows = ok n ∧ pyTrain ratMachine (some t) c y features w none 1 2 = ok (.ok f) ∧
      pyTrain ratMachine (some t) c' y' features w' none 1 2 = ok (.ok f') ∧ pyPredict (some t) f 2 = ok (.ok p) ∧
      pyPredict (some t) f' 2 = ok (.ok p') ∧ check n p p' = true := by
  unfold twoRuns at h
  split at h
  · next t =>
    split at h
    · next n hn =>
      split at h
      · next f f' hf hf' =>
        split at h
        · next p p' hp hp' => exact ⟨t, n, f, f', p, p', hn, hf, hf', hp, hp', h⟩
        · cases h
      · cases h
    · cases h
  · cases h

/-- **C132 in full.** Without regularization and limits, only the proportions of the weights matter. -/
def C132_full : Prop :=
  ∀ (k : ℚ), 0 < k → ∀ (t : DataStore ℚ) (n : Nat) (c : Config ℚ) (w w' y : List (Fl ℚ)) (features : List String) (seed nt : Int),
    t.numRows = ok n → c.lossFunc ∈ ["mse", "logloss", "huberized_hinge"] → c.l2Lambda = 0 → c.minHessian = 0 → c.minGain = 0 →
    WeightsChanged ratMachine (fun x => k * x) n w w' →
    SameAnswer (fun f f' => ∀ s nt, pyPredict s f' nt = pyPredict s f nt) (pyTrain ratMachine (some t) c y features w none seed nt)
      (pyTrain ratMachine (some t) c y features w' none seed nt)

/-- **C132 refuted.** With small weights, such as weights that add up to 1 over many rows, gains stay below `kFloatTolerance`
(`split_algo.cc:33, 193`) and no tree is split. -/
theorem C132_refuted : ¬ C132_full := by
  intro hfull
  have hrun : twoRuns (pyDict id) { pyCfg with l2Lambda := 0 } { pyCfg with l2Lambda := 0 } ["color", "size"] [] [] []
      (List.replicate 5 (.num (1 / 10000000))) (fun n p p' => decide (n = 5 ∧ p ≠ p')) = true := by
    decide +kernel
  obtain ⟨t, n, f, f', p, p', hn, hf, hf', hp, hp', hc⟩ := twoRuns_elim hrun
  obtain ⟨rfl, hne⟩ := of_decide_eq_true hc
  have := hfull (1 / 10000000) (by norm_num) t 5 { pyCfg with l2Lambda := 0 } [] (List.replicate 5 (.num (1 / 10000000))) [] ["color", "size"]
    1 2 hn (by decide) rfl rfl rfl ⟨Or.inl rfl, rfl, by decide +kernel⟩
  rw [hf, hf'] at this
  cases this with
  | ok h =>
    cases h with
    | ok h =>
      have := h (some t) 2
      rw [hp, hp'] at this
      cases this
      exact hne rfl

/-- **C134 in full.** Negating all targets negates all predictions, whatever the features. -/
def C134_full : Prop :=
  ∀ (t : DataStore ℚ) (c : Config ℚ) (w y y' : List (Fl ℚ)) (features : List String) (seed nt : Int),
    c.lossFunc ∈ ["mse", "logloss", "huberized_hinge"] → TargetsChanged ratMachine (fun x => -x) y y' →
    SameAnswer (fun f f' => ∀ s nt, SameAnswer (fun p p' => p' = p.map (fun x => -x)) (pyPredict s f nt) (pyPredict s f' nt))
      (pyTrain ratMachine (some t) c y features w none seed nt) (pyTrain ratMachine (some t) c y' features w none seed nt)

/-- Three categories. -/
def threeColors : PyRes (Option (DataStore ℚ)) :=
  PyStore.fromDict 1000 6 id [] [("color", ["a", "b", "c"])] []

/-- **C134 refuted.** Categories are sorted by their mean gradient and the first of several best splits is taken: between equally good
splits, negated targets lead to another choice. -/
theorem C134_refuted : ¬ C134_full := by
  intro hfull
  have hrun : twoRuns threeColors { pyCfg with l2Lambda := 0, numLeaves := 2, numTrees := 1 } { pyCfg with l2Lambda := 0, numLeaves := 2, numTrees := 1 }
      ["color"] [.num (-1), .num 0, .num 1] [] [.num 1, .num 0, .num (-1)] []
      (fun _ p p' => decide (p' ≠ p.map (fun x => -x))) = true := by
    decide +kernel
  obtain ⟨t, n, f, f', p, p', hn, hf, hf', hp, hp', hc⟩ := twoRuns_elim hrun
  have hne := of_decide_eq_true hc
  have := hfull t { pyCfg with l2Lambda := 0, numLeaves := 2, numTrees := 1 } [] [.num (-1), .num 0, .num 1] [.num 1, .num 0, .num (-1)] ["color"]
    1 2 (by decide) ⟨by decide, rfl, by decide +kernel⟩
  rw [hf, hf'] at this
  cases this with
  | ok h =>
    cases h with
    | ok h =>
      have := h (some t) 2
      rw [hp, hp'] at this
      cases this with
      | ok h =>
        cases h with
        | ok h => exact hne h

/-- **C135 in full.** With squared error and no least gain, the unit of the targets does not matter. -/
def C135_full : Prop :=
  ∀ (k : ℚ), 0 < k → ∀ (t : DataStore ℚ) (c : Config ℚ) (w y y' : List (Fl ℚ)) (features : List String) (seed nt : Int),
    c.lossFunc = "mse" → c.minGain = 0 → TargetsChanged ratMachine (fun x => k * x) y y' →
    SameAnswer (fun f f' => ∀ s nt, SameAnswer (fun p p' => p' = p.map (fun x => k * x)) (pyPredict s f nt) (pyPredict s f' nt))
      (pyTrain ratMachine (some t) c y features w none seed nt) (pyTrain ratMachine (some t) c y' features w none seed nt)

/-- **C135 refuted.** Targets as small as rates of 1 in 10000 are not fitted at all: all gains are below `kFloatTolerance`. -/
theorem C135_refuted : ¬ C135_full := by
  intro hfull
  have hrun : twoRuns (pyDict id) pyCfg pyCfg ["color", "size"] [.num 1, .num 2, .num 6, .num 3, .num 8] []
      [.num (1 / 10000), .num (2 / 10000), .num (6 / 10000), .num (3 / 10000), .num (8 / 10000)] []
      (fun _ p p' => decide (p' ≠ p.map (fun x => 1 / 10000 * x))) = true := by
    decide +kernel
  obtain ⟨t, n, f, f', p, p', hn, hf, hf', hp, hp', hc⟩ := twoRuns_elim hrun
  have hne := of_decide_eq_true hc
  have := hfull (1 / 10000) (by norm_num) t pyCfg [] [.num 1, .num 2, .num 6, .num 3, .num 8]
    [.num (1 / 10000), .num (2 / 10000), .num (6 / 10000), .num (3 / 10000), .num (8 / 10000)] ["color", "size"]
    1 2 (by decide) rfl ⟨by decide, rfl, by decide +kernel⟩
  rw [hf, hf'] at this
  cases this with
  | ok h =>
    cases h with
    | ok h =>
      have := h (some t) 2
      rw [hp, hp'] at this
      cases this with
      | ok h =>
        cases h with
        | ok h => exact hne h

/-- C131 on data: all weights, the regularization and the limits times three; the forests split. -/
example : twoRuns (pyDict id) { pyCfg with minGain := 1 / 100 } ({ pyCfg with minGain := 1 / 100 }.changed (fun x => 3 * x)) ["color", "size"]
    [] [.num 1, .num 2, .num 1, .num 3, .num 1] [] [.num 3, .num 6, .num 3, .num 9, .num 3] (fun _ p p' => decide (p' = p ∧ p ≠ List.replicate 5 4)) = true ∧
    WeightsChanged ratMachine (fun x => 3 * x) 5 [.num 1, .num 2, .num 1, .num 3, .num 1] [.num 3, .num 6, .num 3, .num 9, .num 3] ∧
    WeightsChanged ratMachine (fun x => 3 * x) 5 [] (List.replicate 5 (.num 3)) := by
  refine ⟨by decide +kernel, ⟨Or.inr rfl, rfl, by decide +kernel⟩, ⟨Or.inl rfl, rfl, by decide +kernel⟩⟩

/-- The hypotheses of C131 for that configuration. -/
example {t : DataStore ℚ} (hn : t.numRows = ok 5) (y : List (Fl ℚ)) (features : List String) : SameAnswer (SameModel (fun x => 3 * x))
    (pyTrain ratMachine (some t) { pyCfg with minGain := 1 / 100 } y features [] none 1 2)
    (pyTrain ratMachine (some t) ({ pyCfg with minGain := 1 / 100 }.changed (fun x => 3 * x)) y features (List.replicate 5 (.num 3)) none 1 2) :=
  C131_weights (rescaling_of_pos (by norm_num)) ratMachine_byComparison hn (by decide) (by decide +kernel) (by decide +kernel)
    ⟨Or.inl rfl, rfl, by decide +kernel⟩ y features 1 2

theorem ratMachine_symmetric : Symmetric ratMachine (fun x => -x) where
  negative := rfl
  fabs := by
    intro x
    show (if -x < 0 then - -x else -x) = (if x < 0 then -x else x)
    rcases lt_trichotomy x 0 with h | h | h
    · have : ¬ (-x < 0) := by linarith
      rw [if_neg this, if_pos h]
    · rw [h]; simp
    · have h1 : -x < 0 := by linarith
      have h2 : ¬ x < 0 := by linarith
      rw [if_pos h1, if_neg h2, neg_neg]
  rnd32 := fun _ => rfl
  diverged := fun _ => rfl
  one := fun x => by
    show decide (-x = 1) = decide (x = -1)
    rw [decide_eq_decide, neg_eq_iff_eq_neg]
  minusOne := fun x => by
    show decide (-x = -1) = decide (x = 1)
    rw [decide_eq_decide, neg_inj]

/-- C133 on data, and its hypotheses; with logistic loss the same in any arithmetic. -/
example : twoRuns (pyDict id) pyCfg pyCfg ["size"] [.num 1, .num 2, .num 6, .num 3, .num 8] [] [.num (-1), .num (-2), .num (-6), .num (-3), .num (-8)] []
    (fun _ p p' => decide (p' = p.map (fun x => -x) ∧ p ≠ List.replicate 5 4)) = true ∧
    TargetsChanged ratMachine (fun x => -x) [.num 1, .num 2, .num 6, .num 3, .num 8] [.num (-1), .num (-2), .num (-6), .num (-3), .num (-8)] := by
  refine ⟨by decide +kernel, ⟨by decide, rfl, by decide +kernel⟩⟩

/-- C135 on data: a unit in which all is well in spite of the constants. -/
example : twoRuns (pyDict id) pyCfg pyCfg ["color", "size"] [.num 1, .num 2, .num 6, .num 3, .num 8] [] [.num 10, .num 20, .num 60, .num 30, .num 80] []
    (fun _ p p' => decide (p' = p.map (fun x => 10 * x) ∧ p ≠ List.replicate 5 4)) = true := by
  decide +kernel

/-- Ten times as much. -/
def tenfold (x : ℚ) : ℚ := 10 * x

/-- The hypotheses of `C135_partial` hold of exact arithmetic. -/
example {t : DataStore ℚ} (features : List String) : SameAnswer (ScaledModel tenfold)
    (pyTrain ratMachine (some t) pyCfg [.num 1, .num 2] features [] none 1 2)
    (pyTrain { ratMachine with threshold := tenfold ratMachine.threshold, tol := tenfold (tenfold ratMachine.tol) } (some t)
      { pyCfg with minGain := tenfold (tenfold pyCfg.minGain) } [.num 10, .num 20] features [] none 1 2) := by
  have hup : Rescaling tenfold := rescaling_of_pos (k := 10) (by norm_num)
  have habs : ∀ x, ratMachine.fabs (tenfold x) = tenfold (ratMachine.fabs x) := by
    intro x
    show (if 10 * x < 0 then -(10 * x) else 10 * x) = 10 * (if x < 0 then -x else x)
    by_cases h : x < 0
    · rw [if_pos h, if_pos (by linarith)]; ring
    · rw [if_neg h, if_neg (by linarith)]
  have hy : TargetsChanged ratMachine tenfold [.num 1, .num 2] [.num 10, .num 20] := ⟨by decide, rfl, by decide +kernel⟩
  have hrnd : ∀ x, ratMachine.rnd32 (tenfold x) = tenfold (ratMachine.rnd32 x) := fun _ => rfl
  have hdiv : ∀ x, ratMachine.diverged (tenfold x) = ratMachine.diverged x := fun _ => rfl
  have hl : pyCfg.lossFunc = "mse" := rfl
  generalize hc : pyCfg = c at hl ⊢
  generalize hm : ratMachine = m at habs hy hrnd hdiv ⊢
  exact C135_partial hup (hm ▸ ratMachine_byComparison) hrnd hdiv habs hl hy features [] 1 2

/-- Doubles and floats treat signs alike. -/
theorem f64Machine_symmetric : Symmetric f64Machine F64.neg where
  negative := rfl
  fabs := by
    intro x
    show (if Dbl.ltb x.neg 0 then x.neg.neg else x.neg) = (if Dbl.ltb x 0 then x.neg else x)
    rcases x with _ | s | q
    · rfl
    · cases s <;> rfl
    · show (if decide (-q < 0) = true then F64.num (- -q) else .num (-q)) = (if decide (q < 0) = true then .num (-q) else .num q)
      rcases lt_trichotomy q 0 with h | h | h
      · have : ¬ (-q < 0) := by linarith
        simp [h, this]
      · subst h; simp
      · have h1 : -q < 0 := by linarith
        have h2 : ¬ q < 0 := by linarith
        simp [h1, h2]
  rnd32 := F64.round32_neg
  diverged := fun x => by cases x <;> rfl
  one := fun x => by
    rcases x with _ | s | q
    · rfl
    · rfl
    · show decide (-q = 1) = decide (q = -1)
      rw [decide_eq_decide, neg_eq_iff_eq_neg]
  minusOne := fun x => by
    rcases x with _ | s | q
    · rfl
    · rfl
    · show decide (-q = -1) = decide (q = 1)
      rw [decide_eq_decide, neg_inj]

/-- C133 for IEEE doubles. -/
example {t : DataStore ℚ} {c : Config F64} (hl : c.lossFunc ∈ ["mse", "logloss", "huberized_hinge"]) {features : List String}
    (hfeat : ∀ name ∈ features, ∀ col, t.getColumn name = some col → col.type ≠ .string) :
    SameAnswer (OppositeModel F64.neg) (pyTrain f64Machine (some t) c [.num 1, .num 2, .num (-3)] features [] none 1 2)
      (pyTrain f64Machine (some t) c [.num (-1), .num (-2), .num 3] features [] none 1 2) :=
  C133_signs negation_f64 (fun _ _ h => h) f64Machine_symmetric hl
    (y := [.num 1, .num 2, .num (-3)]) (y' := [.num (-1), .num (-2), .num 3]) ⟨by decide, rfl, by decide +kernel⟩ hfeat [] 1 2

end Gbdt
