import Verif.Props.Boost
import Verif.Props.Threads
import Verif.Lemmas.Ieee
import Mathlib.Tactic.Linarith
import Mathlib.Tactic.Ring
import Mathlib.Tactic.Positivity

/-!
# C199: what training works with and what its forest predicts, on a machine with `double` and `float`

`TrainGBDT` adds the constant of a round as a `double` to its function values but adds it to the `float` of the constant tree (`gbdt_algo.cc:193-195`).
-/

set_option autoImplicit false
set_option linter.unusedSectionVars false

namespace Gbdt

open Outcome

/-- **C199, in full**: with doubles, and scores of nodes that are rounded to `float`, the function values at the end of training are the predictions of the
forest that is returned. -/
def C199_full (A : Type) [LinearOrder A] [ThrOps A] : Prop :=
  ∀ (S : Type) (env : TrainEnv F64 A) (loss : LossFunc S F64) (names : List String) (cfg : TrainConfig F64) (base : Option (List (Tree F64 A)))
    (p : Nat) (r : TrainResult F64 A), TrainData env loss (base.getD []) → env.rnd32 = F64.round32 →
    trainGBDT env loss names cfg base [] p = ok r → r.code = .ok → ∀ numThreads : Int, 0 < numThreads →
    evaluateForest env.columns env.numRows numThreads r.forest = ok (.ok, some r.f)

section bound
variable {K : Type} [Field K] [LinearOrder K] [IsStrictOrderedRing K]

theorem constantOf_close {rnd32 : K → K} {ε η : K} (hε : 0 ≤ ε) (hη : 0 ≤ η) (hr : ∀ x, |rnd32 x - x| ≤ ε * |x| + η) : ∀ ks : List K,
    |constantOf rnd32 ks - ks.sum| ≤ ((1 + ε) ^ ks.length - 1) * (ks.map (|·|)).sum + ks.length * (1 + ε) ^ ks.length * η := by
  intro ks
  induction ks using List.reverseRecOn with
  | nil => simp [constantOf]
  | append_singleton ks k ih =>
    have e1 : constantOf rnd32 (ks ++ [k]) = rnd32 (constantOf rnd32 ks + k) := by simp [constantOf]
    have hT : |ks.sum| ≤ (ks.map (|·|)).sum := by
      clear ih e1
      induction ks with
      | nil => simp
      | cons a l ih2 =>
        simp only [List.sum_cons, List.map_cons]
        exact (abs_add_le _ _).trans (by linarith)
    rw [e1]
    simp only [List.sum_append, List.sum_singleton, List.map_append, List.map_cons, List.map_nil, List.length_append, List.length_singleton, pow_succ,
      Nat.cast_add, Nat.cast_one]
    generalize constantOf rnd32 ks = a at ih ⊢
    generalize (ks.map (|·|)).sum = T at ih hT ⊢
    generalize ks.sum = s at ih hT ⊢
    have hP : 1 ≤ (1 + ε) ^ ks.length := one_le_pow₀ (by linarith)
    generalize (1 + ε) ^ ks.length = P at ih hP ⊢
    generalize (ks.length : K) = n at ih ⊢
    have h1 := hr (a + k)
    have h2 : |rnd32 (a + k) - (s + k)| ≤ |rnd32 (a + k) - (a + k)| + |a - s| := by
      have : rnd32 (a + k) - (s + k) = (rnd32 (a + k) - (a + k)) + (a - s) := by ring
      rw [this]; exact abs_add_le _ _
    have h3 : |a + k| ≤ |a - s| + (|s| + |k|) := by
      have : a + k = (a - s) + (s + k) := by ring
      rw [this]; exact (abs_add_le _ _).trans (by linarith [abs_add_le s k])
    have h4 := mul_le_mul_of_nonneg_left h3 hε
    have h5 := mul_le_mul_of_nonneg_left ih (by linarith : 0 ≤ 1 + ε)
    have h6 := mul_le_mul_of_nonneg_left hT hε
    have h7 : 0 ≤ (P - 1) * |k| * (1 + ε) := mul_nonneg (mul_nonneg (by linarith) (abs_nonneg k)) (by linarith)
    have h8 : 1 ≤ P * (1 + ε) := by nlinarith
    have h9 := mul_le_mul_of_nonneg_right h8 hη
    nlinarith [h1, h2, h4, h5, h6, h7, h9]

end bound

section exact
variable {S K A : Type} [Field K] [LinearOrder K] [IsStrictOrderedRing K] [LinearOrder A] [ThrOps A]

/-- **C199 (partial).** If rounding to `float` is off by the relative error `ε` and the absolute error `η` at most and nothing else is rounded, the
predictions of the forest are the function values at the end of training moved by one number, the same for all rows; and that number is at most
`(1 + ε) ^ n - 1` times the sum of the absolute values of the `n` constants (those of the base forest and what the loss has asked for in each round), plus
`n (1 + ε) ^ n η`.  Missing: the rounding of doubles (with which the
claim is false in full). -/
theorem C199_partial {env : TrainEnv K A} {loss : LossFunc S K} {names : List String} {cfg : TrainConfig K} {base : Option (List (Tree K A))} {p : Nat}
    {r : TrainResult K A} (hd : TrainData env loss (base.getD [])) {ε η : K} (hε : 0 ≤ ε) (hη : 0 ≤ η)
    (hround : ∀ x, |env.rnd32 x - x| ≤ ε * |x| + η)
    (h : trainGBDT env loss names cfg base [] p = ok r) (hok : r.code = .ok) {numThreads : Int} (hnt : 0 < numThreads) :
    ∃ features group start rounds finish, loadFeatures env.columns names = .ok features ∧
      groupOrDie env.columns cfg.groupColumn = ok group ∧ loss.init env.numRows group = ok (.ok start) ∧
      Boosts env loss features cfg start p ((base.getD []).map (fun t => (t, 0))) rounds finish r.pos ∧
      ∃ δ, evaluateForest env.columns env.numRows numThreads r.forest = ok (.ok, some (r.f.map (· + δ))) ∧
        |δ| ≤ ((1 + ε) ^ (((base.getD []).filter isSingleNode).length + rounds.length) - 1) *
          ((((base.getD []).filter isSingleNode).map rootScore ++ rounds.map Prod.snd).map (|·|)).sum +
          (((base.getD []).filter isSingleNode).length + rounds.length : ℕ) *
            (1 + ε) ^ (((base.getD []).filter isSingleNode).length + rounds.length) * η := by
  obtain ⟨features, group, start, rounds, finish, b1, b2, b3, b4, _, ⟨b6, b7⟩, b8⟩ := C73_rounds hd h hok
  refine ⟨features, group, start, rounds, finish, b1, b2, b3, b4,
    constantOf env.rnd32 (((base.getD []).filter isSingleNode).map rootScore ++ rounds.map Prod.snd) -
      (((base.getD []).filter isSingleNode).map rootScore ++ rounds.map Prod.snd).sum, ?_, ?_⟩
  rotate_left
  · have := constantOf_close hε hη hround (((base.getD []).filter isSingleNode).map rootScore ++ rounds.map Prod.snd)
    simpa using this
  obtain ⟨u1, u2⟩ := C39_forest_usable hd h hok
  obtain ⟨scores, a1, a2, a3⟩ := C37_prediction_exact hd.rows hnt r.forest u1 u2
  rw [a1]
  congr 3
  refine List.ext_getElem? (fun i => ?_)
  by_cases hi : i < env.numRows
  · obtain ⟨xs, k1, k2⟩ := a3 i hi
    obtain ⟨v, k3, ys, k4, k5⟩ := b7 i hi
    rw [k2, List.getElem?_map, k3, k5, Option.map_some]
    congr 1
    have e1 := mapM_getD _ k1
    have e2 := mapM_getD _ k4
    have hlen : ys.length = (List.map Prod.snd ((base.getD []).map (fun t => (t, (0 : K))) ++ rounds)).length := by
      rw [e2]; simp
    rw [foldl_pairs, List.map_fst_zip (le_of_eq hlen), List.map_snd_zip (le_of_eq hlen.symm), zero_add]
    rw [e1, e2, b8]
    simp only [List.map_cons, List.map_append, List.map_map, List.sum_cons, List.sum_append, Function.comp_def,
      scoreOf, leafOf_clearInternal]
    have e5 := sum_filter_split isSingleNode (fun t => (Option.map Prod.snd (leafOf env.columns t i)).getD 0) rootScore
      (base.getD []) (fun t ht => by
        have := scoreOf_single env.columns i t ht
        rw [scoreOf] at this
        rw [this]; rfl)
    rw [← e5]
    have e6 : ∀ l : List (Tree K A), (l.map (fun _ => (0 : K))).sum = 0 := by
      intro l
      induction l with
      | nil => rfl
      | cons _ l ih => rw [List.map_cons, List.sum_cons, ih, add_zero]
    simp only [leafOf, Option.map_some, Option.getD_some, e6]
    ring
  · rw [List.getElem?_eq_none (by omega), List.getElem?_eq_none (by rw [List.length_map]; omega)]

/-- **C199 (partial).** So the order of the rows is that of the function values. -/
theorem C199_order_partial {env : TrainEnv K A} {loss : LossFunc S K} {names : List String} {cfg : TrainConfig K} {base : Option (List (Tree K A))} {p : Nat}
    {r : TrainResult K A} (hd : TrainData env loss (base.getD [])) {ε η : K} (hε : 0 ≤ ε) (hη : 0 ≤ η)
    (hround : ∀ x, |env.rnd32 x - x| ≤ ε * |x| + η)
    (h : trainGBDT env loss names cfg base [] p = ok r) (hok : r.code = .ok) {numThreads : Int} (hnt : 0 < numThreads) :
    ∃ scores, evaluateForest env.columns env.numRows numThreads r.forest = ok (.ok, some scores) ∧ scores.length = r.f.length ∧
      ∀ (i j : Nat) (a b a' b' : K), r.f[i]? = some a → r.f[j]? = some b → scores[i]? = some a' → scores[j]? = some b' →
        (a' < b' ↔ a < b) ∧ b' - a' = b - a := by
  obtain ⟨_, _, _, _, _, _, _, _, _, δ, h1, _⟩ := C199_partial hd hε hη hround h hok hnt
  refine ⟨_, h1, by simp, ?_⟩
  intro i j a b a' b' ha hb ha' hb'
  rw [List.getElem?_map, ha, Option.map_some, Option.some.injEq] at ha'
  rw [List.getElem?_map, hb, Option.map_some, Option.some.injEq] at hb'
  subst ha' hb'
  exact ⟨by simp, by ring⟩

end exact

/-! ## The refutation -/

/-- Training with mse on the store of the examples, with doubles. -/
def halfwayEnv : TrainEnv F64 ℚ where
  columns := fitCols
  numRows := 5
  w := fun _ => .num 1
  sort := f64Sort
  top := f64Top
  toInt := fun x => some x.toRat.floor
  ofNat := fun n => F64.round n
  draw := fun _ => .num 0
  rnd32 := F64.round32
  numThreads := 1
  diverged := f64Machine.diverged

/-- Targets that are `float` numbers, with mean 2^24 + 4/5. -/
def halfwayTargets : List F64 := [.num (2 ^ 24), .num (2 ^ 24 + 2), .num (2 ^ 24), .num (2 ^ 24 + 2), .num (2 ^ 24)]

/-- mse with all weights 1. -/
def halfwayLoss : PointLoss F64 :=
  mkPoint f64Machine 1 (fun _ => .num 1) (fun i => halfwayTargets.getD i .nan) false (mseLoss f64Machine.math)

/-- One tree with one leaf. -/
def halfwayCfg : TrainConfig F64 where
  l2Lambda := 0
  minHessian := 0
  minGain := 0
  tol := F64.round (1 / 1000000)
  numTrees := 1
  numLeaves := 1
  shrinkage := .num 1
  exampleRate := .num 1
  featureRate := .num 1

/-- What training works with and what its forest predicts. -/
def halfwayRun : Option (List F64 × Option (List F64)) :=
  match trainGBDT halfwayEnv halfwayLoss.toLoss ["size"] halfwayCfg none [] 0 with
  | .ok r => if r.code = .ok then
      match evaluateForest fitCols 5 1 r.forest with
      | .ok x => some (r.f, x.2)
      | _ => none
    else none
  | _ => none

theorem halfwayStore : TrainStore halfwayEnv ["size"] halfwayCfg [] where
  rows := fun _ _ h => fitCols_rows h
  threads := by decide
  sort := f64Sort_spec
  top := f64Top_spec
  examples := by simp [halfwayEnv]
  features := by simp [halfwayEnv]
  group := Or.inl rfl
  scorable := fun _ h => absurd h (by simp)
  baseFeatures := fun _ h => absurd h (by simp [forestFeatures])

/-- **C199 (refuted).** With targets of mean 2^24 + 4/5, training works with (nearly) the mean; the forest that it returns predicts 2^24. -/
theorem C199_refuted : ¬ C199_full ℚ := by
  intro hfull
  have hb : (match halfwayRun with
      | some (f, some g) => decide (g = List.replicate 5 (.num (2 ^ 24)) ∧ f = List.replicate 5 (.num (4503599842118861 / 268435456)))
      | _ => false) = true := by decide +kernel
  have he : ∀ f g, halfwayRun = some (f, g) → g = some f := by
    intro f g h
    unfold halfwayRun at h
    split at h
    · next r hr =>
      split at h
      · next hc =>
        have := hfull _ _ _ _ _ none 0 r (pointTrainData halfwayStore (e := halfwayLoss) (by decide)) rfl hr hc 1 (by decide)
        rw [show halfwayEnv.columns = fitCols from rfl, show halfwayEnv.numRows = 5 from rfl] at this
        rw [this] at h
        cases h
        rfl
      · cases h
    · cases h
  generalize halfwayRun = x at hb he
  rcases x with _ | ⟨f, _ | g⟩
  · cases hb
  · cases hb
  · have := he f (some g) rfl
    simp only [decide_eq_true_eq] at hb
    rw [Option.some.injEq] at this
    rw [hb.1, hb.2] at this
    exact absurd this (by decide +kernel)

/-! ## The error of rounding to `float` -/

/-- **C199 (partial).** Rounding a number to `float` (of any size: overflow aside) is off by the fraction 2^-24 of it plus 2^-149 at most: what `C199_partial`
asks for. -/
theorem C199_float_error_partial (x : ℚ) : |roundRat 24 149 x - x| ≤ 1 / 2 ^ 24 * |x| + 1 / 2 ^ 149 := by
  obtain ⟨⟨_, h1⟩, h2⟩ := roundRat_nearest (p := 24) (sub := 149) (by decide) x
  rw [abs_sub_comm]
  by_cases hx : (2 : ℚ) ^ (((24 : ℕ) : ℤ) - 1 - ((149 : ℕ) : ℤ)) ≤ |x|
  · have := h2 hx
    have h3 : (0 : ℚ) ≤ 1 / 2 ^ 149 := by positivity
    linarith
  · have hx := not_le.mp hx
    have hpow : (2 : ℚ) ^ (((24 : ℕ) : ℤ) - 1 - ((149 : ℕ) : ℤ)) = 2 ^ 23 * (1 / 2 ^ 149) := by norm_num
    rw [hpow] at hx
    have h149 : (0 : ℚ) < 2 ^ 149 := by positivity
    have hxb : |x * 2 ^ 149| < 2 ^ 23 := by
      rw [abs_mul, abs_of_pos h149]
      calc |x| * 2 ^ 149 < 2 ^ 23 * (1 / 2 ^ 149) * 2 ^ 149 := mul_lt_mul_of_pos_right hx h149
        _ = 2 ^ 23 := by field_simp
    obtain ⟨hl, hu⟩ := abs_lt.mp hxb
    have hf1 := Int.floor_le (x * 2 ^ 149)
    have hf2 := Int.lt_floor_add_one (x * 2 ^ 149)
    have hb : Binary 24 149 ((⌊x * 2 ^ 149⌋ : ℚ) * 2 ^ (-149 : ℤ)) := by
      refine ⟨⌊x * 2 ^ 149⌋, -149, ?_, by norm_num, rfl⟩
      rw [abs_lt]
      constructor
      · have : (-(2 ^ 24) : ℤ) < ⌊x * 2 ^ 149⌋ := by
          have : ((-(2 ^ 24) : ℤ) : ℚ) < ⌊x * 2 ^ 149⌋ := by push_cast; linarith
          exact_mod_cast this
        simpa using this
      · have : ((⌊x * 2 ^ 149⌋ : ℤ) : ℚ) < ((2 ^ 24 : ℤ) : ℚ) := by push_cast; linarith
        exact_mod_cast this
    have h3 := h1 _ hb
    have h4 : |x - (⌊x * 2 ^ 149⌋ : ℚ) * 2 ^ (-149 : ℤ)| ≤ 1 / 2 ^ 149 := by
      have e : x - (⌊x * 2 ^ 149⌋ : ℚ) * 2 ^ (-149 : ℤ) = (x * 2 ^ 149 - ⌊x * 2 ^ 149⌋) * (1 / 2 ^ 149) := by
        rw [zpow_neg]
        have : ((2 : ℚ) ^ (149 : ℤ)) = 2 ^ 149 := by norm_cast
        rw [this]
        field_simp
      rw [e, abs_of_nonneg (mul_nonneg (by linarith) (by positivity))]
      exact mul_le_of_le_one_left (by positivity) (by linarith)
    have h5 : (0 : ℚ) ≤ 1 / 2 ^ 24 * |x| := by positivity
    exact (h3.trans h4).trans (le_add_of_nonneg_left h5)

/-! ## Examples -/

/-- The store, the machine and the loss of the examples for exact arithmetic, with scores of nodes that are rounded to `float`. -/
example : TrainData { trainEnv with rnd32 := roundRat 24 149 } trainLoss trainBase :=
  { trainData with rows := trainData.rows, grads := trainData.grads }

/-- Predictions and function values then differ by the same number for all rows. -/
example : (match trainGBDT { trainEnv with rnd32 := roundRat 24 149 } trainLoss ["color", "size"] trainCfg (some trainBase) [] 0 with
    | .ok r => match evaluateForest fitCols 5 3 r.forest with
      | .ok (.ok, some scores) => decide (r.code = .ok) && ((scores.zip r.f).map (fun x => x.1 - x.2)).all (fun d => decide (d ≠ 0 ∧ |d| < 1 / 2 ^ 20)) &&
          decide (((scores.zip r.f).map (fun x => x.1 - x.2)).dedup.length = 1)
      | _ => false
    | _ => false) = true := by decide +kernel

end Gbdt
