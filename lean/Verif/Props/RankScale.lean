import Verif.Props.Rescale
import Verif.Props.PairFall
import Verif.Lemmas.Shift

/-!
# C208, C209: multiplying all row weights of a ranking

Specification: `renumber` (Spec/Rescale) replaces scores and gains of a tree; `heavier` multiplies the row weights, `TrainConfig.times` the limits.
-/

set_option autoImplicit false
set_option linter.unusedSectionVars false

namespace Gbdt

open Outcome

section scale
variable {K : Type} [Field K] [LinearOrder K] [IsStrictOrderedRing K] {A : Type} [LinearOrder A] [ThrOps A]

/-- The loss with all row weights multiplied by `k`. -/
def PairLoss.heavier (e : PairLoss K) (k : K) : PairLoss K := { e with w := fun i => k * e.w i }

/-- The data of training with all row weights multiplied by `k`. -/
def TrainEnv.heavier (env : TrainEnv K A) (k : K) : TrainEnv K A := { env with w := fun i => k * env.w i }

/-- The configuration with `l2_lambda`, `min_hessian` and `min_gain` multiplied by `k`. -/
def TrainConfig.times (cfg : TrainConfig K) (k : K) : TrainConfig K :=
  { cfg with l2Lambda := k * cfg.l2Lambda, minHessian := k * cfg.minHessian, minGain := k * cfg.minGain }

theorem addToRow_heavier (k : K) (grads : List (GD K)) (row : Nat) (plus : Bool) (dg dh : K) :
    OutRel (fun a b => b = a.map (GD.scale k)) (addToRow grads row plus dg dh) (addToRow (grads.map (GD.scale k)) row plus (k * dg) (k * dh)) := by
  unfold addToRow
  refine OutRel.bind (vecGet_map (GD.scale k) grads row) ?_
  rintro old _ rfl
  refine .ok ?_
  rw [List.map_set]
  congr 1
  cases plus <;> simp [GD.scale, mul_add, mul_sub]

theorem pairStep_heavier {e : PairLoss K} (hr : ∀ x, e.rnd32 x = x) (k : K) (f : List K) (g : Group) (factor : K) (index : Nat) (grads : List (GD K)) :
    OutRel (fun a b => b = a.map (GD.scale (k * k))) (pairStep e f g factor index grads)
      (pairStep (e.heavier k) f g factor index (grads.map (GD.scale (k * k)))) := by
  unfold pairStep
  refine OutRel.bind (OutRel.refl _) ?_
  rintro ⟨a, b⟩ _ rfl
  refine OutRel.bind (OutRel.refl _) ?_
  rintro pos _ rfl
  refine OutRel.bind (OutRel.refl _) ?_
  rintro neg _ rfl
  refine OutRel.bind (OutRel.refl (pairWeight e g a b)) ?_
  rintro pw _ rfl
  refine OutRel.bind (OutRel.refl _) ?_
  rintro fp _ rfl
  refine OutRel.bind (OutRel.refl _) ?_
  rintro fn _ rfl
  have e1 : ∀ x : K, (e.heavier k).rnd32 ((e.heavier k).w pos * (e.heavier k).w neg) * pw * factor * x =
      k * k * (e.rnd32 (e.w pos * e.w neg) * pw * factor * x) := by
    intro x
    simp only [PairLoss.heavier, hr]
    ring
  have e2 : ∀ x : K, (e.heavier k).ofNat 2 * ((e.heavier k).rnd32 ((e.heavier k).w pos * (e.heavier k).w neg) * pw * factor) * x =
      k * k * (e.ofNat 2 * (e.rnd32 (e.w pos * e.w neg) * pw * factor) * x) := by
    intro x
    simp only [PairLoss.heavier, hr]
    ring
  simp only [e1, e2]
  refine OutRel.bind (addToRow_heavier _ _ _ _ _ _) ?_
  rintro g1 _ rfl
  exact addToRow_heavier _ _ _ _ _ _

theorem pairLoop_heavier {e : PairLoss K} (hr : ∀ x, e.rnd32 x = x) (k : K) (f : List K) (g : Group) (factor : K) (draw : Nat → Nat) :
    ∀ (left i : Nat) (grads : List (GD K)), OutRel (fun a b => b = a.map (GD.scale (k * k))) (pairLoop e f g factor draw left i grads)
      (pairLoop (e.heavier k) f g factor draw left i (grads.map (GD.scale (k * k))))
  | 0, _, _ => .ok rfl
  | left + 1, i, grads => by
    unfold pairLoop
    refine OutRel.bind (pairStep_heavier hr k f g factor (draw i) grads) ?_
    rintro g1 _ rfl
    exact pairLoop_heavier hr k f g factor draw left (i + 1) g1

theorem pairGroup_heavier {e : PairLoss K} (hr : ∀ x, e.rnd32 x = x) (k : K) (s : PairState K) (f : List K) (index : Nat) (grads : List (GD K)) :
    OutRel (fun a b => b = (a.1, a.2.map (GD.scale (k * k)))) (pairGroup e s f index grads)
      (pairGroup (e.heavier k) s f index (grads.map (GD.scale (k * k)))) := by
  by_cases hre : e.rerank = true
  · simp only [pairGroup, show (e.heavier k).rerank = e.rerank from rfl, hre, if_true]
    refine OutRel.bind (OutRel.refl _) ?_
    rintro g _ rfl
    refine OutRel.bind (OutRel.refl (Gbdt.rerank e.sort f g)) ?_
    rintro g1 _ rfl
    refine OutRel.bind (OutRel.refl (samplePairs e s.prob g1)) ?_
    rintro n _ rfl
    refine OutRel.bind (pairLoop_heavier hr k f g1 _ _ n 0 grads) ?_
    rintro g2 _ rfl
    exact .ok rfl
  · rw [Bool.not_eq_true] at hre
    simp only [pairGroup, show (e.heavier k).rerank = e.rerank from rfl, hre, Bool.false_eq_true, if_false, pure_eq, ok_bind]
    refine OutRel.bind (OutRel.refl _) ?_
    rintro g _ rfl
    refine OutRel.bind (OutRel.refl (samplePairs e s.prob g)) ?_
    rintro n _ rfl
    refine OutRel.bind (pairLoop_heavier hr k f g _ _ n 0 grads) ?_
    rintro g2 _ rfl
    exact .ok rfl

theorem pairGroups_heavier {e : PairLoss K} (hr : ∀ x, e.rnd32 x = x) (k : K) (f : List K) : ∀ (order : List Nat) (s : PairState K) (grads : List (GD K)),
    OutRel (fun a b => b = (a.1, a.2.map (GD.scale (k * k)))) (pairGroups e f order s grads)
      (pairGroups (e.heavier k) f order s (grads.map (GD.scale (k * k))))
  | [], _, _ => .ok rfl
  | index :: rest, s, grads => by
    unfold pairGroups
    refine OutRel.bind (pairGroup_heavier hr k s f index grads) ?_
    rintro ⟨g, g1⟩ _ rfl
    exact pairGroups_heavier hr k f rest _ g1

/-- Gradients of heavier rows. -/
theorem pairCompute_heavier {e : PairLoss K} (hr : ∀ x, e.rnd32 x = x) (k : K) (s : PairState K) (f : List K) :
    OutRel (fun a b => b = (a.1, a.2.1, a.2.2.map (GD.scale (k * k)))) (pairCompute e s f) (pairCompute (e.heavier k) s f) := by
  unfold pairCompute
  have h := pairGroups_heavier hr k f (s.slices.flatMap (fun sl => List.range' sl.1 (sl.2 - sl.1))) s (List.replicate f.length ⟨0, 0⟩)
  rw [List.map_replicate, show GD.scale (k * k) (⟨0, 0⟩ : GD K) = ⟨0, 0⟩ by simp [GD.scale]] at h
  refine OutRel.bind h ?_
  rintro ⟨s1, g1⟩ _ rfl
  exact .ok rfl

/-- **C208.** With a pairwise loss or LambdaMART and without rounding, multiplying all row weights by `k` and `l2_lambda`, `min_hessian` and `min_gain` by the
cube of `k` (least gains not below the tolerance of the code) changes nothing about training but the gains noted in the forest, which are multiplied by that cube:
how it ends, splits, scores, final function values. -/
theorem C208_cube {env : TrainEnv K A} {e : PairLoss K} {k : K} (hk : 0 < k) (hr : ∀ x, e.rnd32 x = x)
    (htop : ∀ φ : K → K, (∀ a b, φ a < φ b ↔ a < b) → ∀ n gains, env.top n (gains.map φ) = env.top n gains) {names : List String} {cfg : TrainConfig K}
    (hgain : cfg.tol ≤ cfg.minGain) (hgain' : cfg.tol ≤ k ^ 3 * cfg.minGain) (p : Nat) :
    OutRel (fun r r' => r' = { r with forest := r.forest.map (renumber id (k ^ 3 * ·)) }) (trainGBDT env e.toLoss names cfg none [] p)
      (trainGBDT (env.heavier k) (e.heavier k).toLoss names (cfg.times (k ^ 3)) none [] p) := by
  have hk3 : 0 < k ^ 3 := pow_pos hk 3
  have hup := rescaling_of_pos hk3
  have hres := stretch_trainGBDT (m := ⟨(k ^ 3 * ·), (k ^ 3 * ·), (k ^ 3 * ·), id⟩) hup.weights (e := env) (e' := env.heavier k) (names := names)
    (loss := e.toLoss) (loss' := (e.heavier k).toLoss) (c := cfg) (c' := cfg.times (k ^ 3))
    (fun features _ => ⟨rfl, fun _ => rfl, fun n gains => htop _ (fun a b => mul_lt_mul_iff_right₀ hk3) n gains, fun _ => rfl, fun _ _ _ => rfl⟩) rfl
    ⟨rfl, fun s f _ => by
      show OutRel _ (pairCompute e s f) (pairCompute (e.heavier k) s (f.map id))
      rw [List.map_id]
      refine OutRel.imp (pairCompute_heavier hr k s f) ?_
      rintro ⟨s1, c, g⟩ _ rfl
      refine ⟨rfl, rfl, by simp, fun i d d' hd hd' => ?_⟩
      simp only [List.getElem?_map, hd, Option.map_some, Option.some.injEq] at hd'
      subst hd'
      simp only [TrainEnv.heavier, GD.scale]
      constructor <;> ring⟩
    ⟨rfl, rfl, rfl, by
      simp only [exact_max, TrainConfig.times]
      rw [max_eq_left hgain, max_eq_left hgain']⟩ none p
  refine OutRel.imp hres ?_
  rintro r _ rfl
  simp only [Stretch.result, stretch_renumber_list, List.map_id]

/-- **C209 in part.** Without limits (`l2_lambda`, `min_hessian`, `min_gain` and the tolerance of the code all 0) multiplying all row weights changes nothing but
the gains.  Missing: limits that are not 0, for which C209 is false. -/
theorem C209_partial {env : TrainEnv K A} {e : PairLoss K} {k : K} (hk : 0 < k) (hr : ∀ x, e.rnd32 x = x)
    (htop : ∀ φ : K → K, (∀ a b, φ a < φ b ↔ a < b) → ∀ n gains, env.top n (gains.map φ) = env.top n gains) {names : List String} {cfg : TrainConfig K}
    (hl2 : cfg.l2Lambda = 0) (hmin : cfg.minHessian = 0) (hgain : cfg.minGain = 0) (htol : cfg.tol = 0) (p : Nat) :
    OutRel (fun r r' => r'.code = r.code ∧ r'.f = r.f) (trainGBDT env e.toLoss names cfg none [] p)
      (trainGBDT (env.heavier k) (e.heavier k).toLoss names (cfg.times k) none [] p) := by
  have heq : cfg.times k = cfg.times (k ^ 3) := by simp [TrainConfig.times, hl2, hmin, hgain]
  rw [heq]
  refine OutRel.imp (C208_cube hk hr htop (by rw [hgain, htol]) (by rw [hgain, htol, mul_zero]) p) ?_
  rintro r _ rfl
  exact ⟨rfl, rfl⟩

end scale

/-- **C209.** What C131 says of losses of single rows, for rankings: with row weights, `l2_lambda`, `min_hessian` and `min_gain` all multiplied by the same number
training gives the same function values. -/
def C209_full : Prop :=
  ∀ (env : TrainEnv ℚ ℚ) (e : PairLoss ℚ) (k : ℚ) (names : List String) (cfg : TrainConfig ℚ) (p : Nat), 0 < k → env.w = e.w → (∀ x, e.rnd32 x = x) →
    (∀ φ : ℚ → ℚ, (∀ a b, φ a < φ b ↔ a < b) → ∀ n gains, env.top n (gains.map φ) = env.top n gains) →
    cfg.tol ≤ cfg.minGain → cfg.tol ≤ k * cfg.minGain →
    OutRel (fun r r' => r'.code = r.code ∧ r'.f = r.f) (trainGBDT env e.toLoss names cfg none [] p)
      (trainGBDT (env.heavier k) (e.heavier k).toLoss names (cfg.times k) none [] p)

/-- `ratTop` only compares. -/
theorem ratTop_mono (φ : ℚ → ℚ) (h : ∀ a b, φ a < φ b ↔ a < b) (n : Nat) (gains : List ℚ) : ratTop n (gains.map φ) = ratTop n gains :=
  ratTop_map (fun a b => by simp only [exact_ltb, h]) n gains

/-- A least gain above the tolerance. -/
def heavyCfg : TrainConfig ℚ := { trainCfg with minGain := 1 / 1000 }

/-- **C209 is false**: the weights of rows are in the sums of a leaf three times (twice in the weight of a pair, once more when the tree adds up its rows),
the limits only once. -/
theorem C209_refuted : ¬ C209_full := by
  intro h
  have h1 := h trainEnv plainLoss 2 ["color", "size"] heavyCfg 0 (by norm_num) rfl (fun _ => rfl) ratTop_mono (by decide +kernel) (by decide +kernel)
  obtain ⟨r, hr⟩ := defined_of (o := trainGBDT trainEnv plainLoss.toLoss ["color", "size"] heavyCfg none [] 0) (by decide +kernel)
  obtain ⟨r', hr'⟩ := defined_of (o := trainGBDT (trainEnv.heavier 2) (plainLoss.heavier 2).toLoss ["color", "size"] (heavyCfg.times 2) none [] 0)
    (by decide +kernel)
  have key : (match trainGBDT trainEnv plainLoss.toLoss ["color", "size"] heavyCfg none [] 0,
      trainGBDT (trainEnv.heavier 2) (plainLoss.heavier 2).toLoss ["color", "size"] (heavyCfg.times 2) none [] 0 with
    | .ok r, .ok r' => decide (r'.f = r.f)
    | _, _ => true) = false := by decide +kernel
  rw [hr, hr'] at h1 key
  cases h1 with
  | ok h2 => simp [h2.2] at key

/-- The hypotheses of `C208_cube`, and what it says: the same values from different weights, in the same number of trees, splits included. -/
example : (0 : ℚ) < 2 ∧ (∀ x, plainLoss.rnd32 x = x) ∧ heavyCfg.tol ≤ heavyCfg.minGain ∧ heavyCfg.tol ≤ 2 ^ 3 * heavyCfg.minGain ∧
    (match trainGBDT trainEnv plainLoss.toLoss ["color", "size"] heavyCfg none [] 0,
      trainGBDT (trainEnv.heavier 2) (plainLoss.heavier 2).toLoss ["color", "size"] (heavyCfg.times (2 ^ 3)) none [] 0 with
    | .ok r, .ok r' => decide (r'.f = r.f ∧ r.forest.length = 3 ∧ r.f ≠ [0, 0, 0, 0, 0] ∧ r'.forest = r.forest.map (renumber id (2 ^ 3 * ·)) ∧ r'.forest ≠ r.forest)
    | _, _ => false) = true :=
  ⟨by norm_num, fun _ => rfl, by decide +kernel, by decide +kernel, by decide +kernel⟩

/-- No limits at all. -/
def limitlessCfg : TrainConfig ℚ := { trainCfg with l2Lambda := 0, tol := 0 }

/-- The hypotheses of `C209_partial`. -/
example : limitlessCfg.l2Lambda = 0 ∧ limitlessCfg.minHessian = 0 ∧ limitlessCfg.minGain = 0 ∧ limitlessCfg.tol = 0 ∧
    (match trainGBDT trainEnv plainLoss.toLoss ["color", "size"] limitlessCfg none [] 0 with
    | .ok r => decide (r.code = .ok ∧ r.f ≠ [0, 0, 0, 0, 0])
    | _ => false) = true := by decide +kernel

end Gbdt
