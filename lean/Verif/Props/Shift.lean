import Verif.Lemmas.Shift
import Verif.Props.Rescale

/-!
# C140, C141: a constant added to all targets

Specification: `ShiftedModel`; `weightedMean` and `weightAt` are what the names say.
-/

set_option autoImplicit false
set_option linter.unusedSectionVars false

namespace Gbdt
open Outcome

variable {K A : Type} [Field K] [LinearOrder K] [IsStrictOrderedRing K] [LinearOrder A] [ThrOps A]

/-- The sum of the weights of the rows that have a target. -/
def weightTotal (mc : Machine K A) (y w : List (Fl A)) : K := ((List.range y.length).map (weightAt mc w)).sum

/-- The weighted mean of the targets. -/
def weightedMean (mc : Machine K A) (y w : List (Fl A)) : K :=
  ((List.range y.length).map (fun i => weightAt mc w i * mc.toD (y.getD i .nan))).sum / weightTotal mc y w

/-- The second forest is the first with `s` added to the score of the constant tree; all its predictions are larger by `s`. -/
structure ShiftedModel (s : K) (f f' : List (Tree K A)) : Prop where
  trees : ∃ k rest, f = .node k none .absent .absent :: rest ∧ f' = .node (k + s) none .absent .absent :: rest
  predictions : ∀ t nt, SameAnswer (fun p p' => p' = p.map (· + s)) (pyPredict t f nt) (pyPredict t f' nt)

/-- **C140.** In exact arithmetic, if `s` is added to all targets, squared error gives the same forest but for the constant, and all
predictions are larger by `s`: as long as neither mean target is so small that the code takes it for zero. -/
theorem C140_shift {mc : Machine K A} (hrnd : ∀ x, mc.rnd32 x = x) (hdiv : ∀ x, mc.diverged x = false) (hone : mc.math.one = 1)
    {t : DataStore A} {c : Config K} (hl : c.lossFunc = "mse") {s : K} {y y' w : List (Fl A)} (hy : TargetsChanged mc (· + s) y y')
    (hw : weightTotal mc y w ≠ 0) (hm : mc.threshold < mc.fabs (weightedMean mc y w))
    (hm' : mc.threshold < mc.fabs (weightedMean mc y w + s)) (features : List String) (seed nt : Int) :
    SameAnswer (ShiftedModel s) (pyTrain mc (some t) c y features w none seed nt) (pyTrain mc (some t) c y' features w none seed nt) := by
  have hfn : ∀ c' : Config K, c'.lossFunc = "mse" → pointFn mc.math c'.lossFunc = some (false, mseLoss mc.math) := by
    intro c' h
    simp [pointFn, h]
  have hy' : y' ≠ [] := by
    rw [← List.length_pos_iff, hy.length, List.length_pos_iff]
    exact hy.given
  have hfin : SameAnswer (ShiftForest s) (pyTrain mc (some t) c y features w none seed nt)
      (pyTrain mc (some t) c y' features w none seed nt) := by
    unfold pyTrain
    simp only
    split
    · exact .ok .error
    · generalize hcat : (namesOfType (some t) .string).filter (fun n => features.contains n) = cat
      generalize hflo : (namesOfType (some t) .bucketized).filter (fun n => features.contains n) = flo
      generalize hc1 : ({ c with floatFeature := flo, catFeature := cat } : Config K) = c1
      have hl1 : c1.lossFunc = "mse" := by rw [← hc1]; exact hl
      unfold trainPyFull
      rw [wrongLength_of_length hy.length]
      cases hwy : wrongLength (some t) y with
      | ub => exact .ub
      | fatal => exact .fatal
      | ok b1 =>
        simp only [ok_bind]
        cases b1 with
        | true =>
          simp only [if_true]
          exact sameAnswer_raise _ .ub
        | false =>
          simp only [Bool.false_eq_true, if_false]
          cases hww : wrongLength (some t) w with
          | ub => exact .ub
          | fatal => exact .fatal
          | ok b2 =>
            simp only [ok_bind]
            cases b2 with
            | true =>
              simp only [if_true]
              exact sameAnswer_raise _ .ub
            | false =>
              simp only [Bool.false_eq_true, if_false]
              have htar : SameAnswer (fun a b => a = vecFn mc y ∧ b = vecFn mc y') (trainPyTargets mc (some t) c1 y)
                  (trainPyTargets mc (some t) c1 y') := by
                unfold trainPyTargets
                rw [if_pos hy.given, if_pos hy']
                exact .ok (.ok ⟨rfl, rfl⟩)
              refine SameAnswer.andThen htar ?_
              rintro _ _ ⟨rfl, rfl⟩
              unfold trainPyRun
              rw [withLoss_fn mc seed nt (hfn c1 hl1), withLoss_fn mc seed nt (hfn c1 hl1)]
              simp only [Option.getD_some]
              split
              · exact sameAnswer_raise _ .ub
              · cases hn : t.numRows with
                | ub => exact .ub
                | fatal => exact .fatal
                | ok n =>
                  have hlen : y.length = n := by
                    unfold wrongLength at hwy
                    rw [if_neg hy.given] at hwy
                    simp only [PyStore.len, hn, ok_bind, pure_eq, Outcome.ok.injEq, bne_eq_false_iff_eq] at hwy
                    exact hwy.symm
                  have hwf : (if w = [] then fun _ => mc.ofNat 1 else vecFn mc w) = weightAt mc w := by
                    funext i
                    unfold weightAt vecFn
                    split <;> rfl
                  rw [hwf]
                  simp only [ok_bind]
                  have hloss : ShiftLoss s n (mkPoint mc nt (weightAt mc w) (vecFn mc y) false (mseLoss mc.math))
                      (mkPoint mc nt (weightAt mc w) (vecFn mc y') false (mseLoss mc.math)) :=
                    { rest := rfl
                      mse := ⟨mc.math, hone, rfl⟩
                      plain := rfl
                      y := fun i hi => hy.each i (by omega) }
                  have hw1 : ((List.range n).map (weightAt mc w)).sum ≠ 0 := by rw [← hlen]; exact hw
                  have hmean : rowMean (weightAt mc w) (vecFn mc y) n = weightedMean mc y w := by
                    rw [← hlen]
                    rfl
                  refine OutRel.bind (shift_trainGBDT (env := mkEnv mc t n (weightAt mc w) seed nt) hloss hrnd hdiv hw1
                    (by show mc.threshold < mc.fabs (rowMean (weightAt mc w) (vecFn mc y) n); rw [hmean]; exact hm)
                    (by show mc.threshold < mc.fabs (rowMean (weightAt mc w) (vecFn mc y) n + s); rw [hmean]; exact hm')
                    (mc.listing _) (c1.train mc (mc.ofNat 1)) 0) ?_
                  rintro r r' ⟨h1, h2⟩
                  rw [h1]
                  rcases h2 with ⟨hok, h2⟩ | h2
                  · rw [if_pos hok, if_pos hok]
                    exact .ok (.ok h2)
                  · split
                    · next hok =>
                      rw [hok] at h2
                      cases h2
                    · unfold raise
                      cases hx : throwException r.code with
                      | none =>
                        rw [hx] at h2
                        cases h2
                      | some x => exact .ok .error
  refine SameAnswer.imp hfin (fun f f' h => ⟨h, fun st nt => ?_⟩)
  cases st with
  | none =>
    have hn : ∀ f : List (Tree K A), pyPredict none f nt = raise .notFound .ub := fun _ => rfl
    rw [hn, hn]
    exact sameAnswer_raise _ .ub
  | some t => exact shift_pyPredict h t nt

/-- **C141 in full.** If a constant is added to all targets, the predictions are larger by it, whatever the targets. -/
def C141_full : Prop :=
  ∀ (t : DataStore ℚ) (c : Config ℚ) (s : ℚ) (y y' : List (Fl ℚ)) (features : List String) (seed nt : Int), c.lossFunc = "mse" →
    TargetsChanged ratMachine (· + s) y y' →
    SameAnswer (ShiftedModel s) (pyTrain ratMachine (some t) c y features [] none seed nt)
      (pyTrain ratMachine (some t) c y' features [] none seed nt)

/-- **C141 refuted.** A mean target of less than 1 in 10000 becomes the constant, but the trees are fitted to targets from which it has not been
taken, so that it counts twice. -/
theorem C141_refuted : ¬ C141_full := by
  intro hfull
  have hrun : twoRuns (pyDict id) pyCfg pyCfg ["color", "size"] [.num (-3), .num (-2), .num 2, .num (-1), .num (40004 / 10000)] []
      [.num (-2), .num (-1), .num 3, .num 0, .num (50004 / 10000)] []
      (fun _ p p' => decide (p' ≠ p.map (· + 1))) = true := by
    decide +kernel
  obtain ⟨t, n, f, f', p, p', hn, hf, hf', hp, hp', hc⟩ := twoRuns_elim hrun
  have hne := of_decide_eq_true hc
  have := hfull t pyCfg 1 [.num (-3), .num (-2), .num 2, .num (-1), .num (40004 / 10000)]
    [.num (-2), .num (-1), .num 3, .num 0, .num (50004 / 10000)] ["color", "size"] 1 2 rfl ⟨by decide, rfl, by decide +kernel⟩
  rw [hf, hf'] at this
  cases this with
  | ok h =>
    cases h with
    | ok h =>
      have := h.predictions (some t) 2
      rw [hp, hp'] at this
      cases this with
      | ok h =>
        cases h with
        | ok h => exact hne h

/-- C140 on data: the forests split, and the predictions are larger by 10. -/
example : twoRuns (pyDict id) pyCfg pyCfg ["color", "size"] [.num 1, .num 2, .num 6, .num 3, .num 8] [.num 1, .num 2, .num 1, .num 3, .num 1]
    [.num 11, .num 12, .num 16, .num 13, .num 18] [.num 1, .num 2, .num 1, .num 3, .num 1]
    (fun _ p p' => decide (p' = p.map (· + 10) ∧ p ≠ List.replicate 5 (p.headD 0))) = true := by
  decide +kernel

/-- The hypotheses of C140 for those targets. -/
example {t : DataStore ℚ} (features : List String) : SameAnswer (ShiftedModel (10 : ℚ))
    (pyTrain ratMachine (some t) pyCfg [.num 1, .num 2, .num 6, .num 3, .num 8] features [] none 1 2)
    (pyTrain ratMachine (some t) pyCfg [.num 11, .num 12, .num 16, .num 13, .num 18] features [] none 1 2) := by
  have hy : TargetsChanged ratMachine (· + 10) [.num 1, .num 2, .num 6, .num 3, .num 8] [.num 11, .num 12, .num 16, .num 13, .num 18] :=
    ⟨by decide, rfl, by decide +kernel⟩
  have hw : weightTotal ratMachine [.num 1, .num 2, .num 6, .num 3, .num 8] [] ≠ 0 := by decide +kernel
  have hm : ratMachine.threshold < ratMachine.fabs (weightedMean ratMachine [.num 1, .num 2, .num 6, .num 3, .num 8] []) := by decide +kernel
  have hm' : ratMachine.threshold < ratMachine.fabs (weightedMean ratMachine [.num 1, .num 2, .num 6, .num 3, .num 8] [] + 10) := by
    decide +kernel
  have hrnd : ∀ x, ratMachine.rnd32 x = x := fun _ => rfl
  have hdiv : ∀ x, ratMachine.diverged x = false := fun _ => rfl
  have hone : ratMachine.math.one = 1 := rfl
  have hl : pyCfg.lossFunc = "mse" := rfl
  generalize pyCfg = c at hl ⊢
  generalize ratMachine = m at *
  exact C140_shift hrnd hdiv hone hl hy hw hm hm' features 1 2

end Gbdt
