import Verif.Props.Config
import Verif.Props.PairwiseDefined
import Verif.Props.LossMath
import Verif.Model.Pipeline

/-!
# C46, C74: the names of losses, LambdaMART's discounts
-/

set_option autoImplicit false
set_option linter.unusedSectionVars false

namespace Gbdt

open Outcome

/-! ## C46 -/

/-- **C46 (loss names).** A call that passes the checks of `train` names one of seven losses, and with any of the seven in its place it
would pass them too. -/
theorem C46_known_losses {c : PyCall} (h : trainPyCheck c = none) (name : String) :
    trainPyCheck { c with lossFunc := name } = none ↔
      name ∈ ["mse", "logloss", "huberized_hinge", "auc", "pairwise_logloss", "gbrank", "lambdamart"] := by
  have hn : name ∈ lossNames ↔ name ∈ ["mse", "logloss", "huberized_hinge", "auc", "pairwise_logloss", "gbrank", "lambdamart"] := by
    simp only [lossNames, List.mem_cons, List.not_mem_nil, or_false]
  rw [← hn]
  unfold trainPyCheck at h ⊢
  cases hs : c.store with
  | none => simp [hs] at h
  | some x =>
    obtain ⟨numRows, rawFloat⟩ := x
    simp only [hs] at h ⊢
    split at h
    · cases h
    · split at h
      · cases h
      · split at h
        · cases h
        · split at h
          · cases h
          · split at h
            · cases h
            · split at h
              · cases h
              · next h1 h2 h3 h4 h5 h6 =>
                rw [if_neg h1, if_neg h2, if_neg h3, if_neg h4, if_neg h6]
                by_cases hm : name ∈ lossNames <;> simp [hm]

/-- **C46 (factory).** `CreateLossFunc` makes a loss for exactly these names. -/
theorem C46_factory {D A : Type} [Dbl D] [LinearOrder A] {R : Type} (mc : Machine D A) (c : Config D) (seed nt : Int)
    (k : ∀ S : Type, ((w y : Nat → D) → LossFunc S D) → Outcome R) :
    withLoss mc c seed nt k ≠ none ↔
      c.lossFunc ∈ ["mse", "logloss", "huberized_hinge", "auc", "pairwise_logloss", "gbrank", "lambdamart"] := by
  constructor
  · intro h
    by_contra hn
    simp only [List.mem_cons, List.not_mem_nil, or_false, not_or] at hn
    obtain ⟨h1, h2, h3, h4, h5, h6, h7⟩ := hn
    apply h
    unfold withLoss
    split <;> first | contradiction | rfl
  · intro h
    simp only [List.mem_cons, List.not_mem_nil, or_false] at h
    rcases h with h | h | h | h | h | h | h <;> simp [withLoss, h]

/-- A call that passes. -/
example : trainPyCheck ⟨some (3, fun _ => true), 3, 0, "", "auc", ["x"]⟩ = none ∧
    trainPyCheck ⟨some (3, fun _ => true), 3, 0, "", "lambdarank", ["x"]⟩ ≠ none := by decide

/-! ## C74: the formula -/

section discount
variable {K A : Type} [Field K] [LinearOrder K] [IsStrictOrderedRing K] [LinearOrder A]

/-- **C74 (partial: the formula).** With a base above 1 (a base that is not positive stands for 2), the discounts by which LambdaMART
weighs ranks are what discounts should be: 1 for the first rank, positive, and smaller for each further rank.
Missing: that the loss can be constructed at all. -/
theorem C74_formula_partial {mc : Machine K A} (hof : ∀ n : Nat, mc.ofNat n = n) (hone : mc.math.log 1 = 0)
    (hlog : ∀ a b : K, 0 < a → a < b → mc.math.log a < mc.math.log b) {c : Config K} (hbase : c.dcgBase ≤ 0 ∨ 1 < c.dcgBase) :
    discountOf mc.math.log mc.ofNat (dcgBaseOf mc c) 0 = 1 ∧
    ∀ rank, 0 < discountOf mc.math.log mc.ofNat (dcgBaseOf mc c) rank ∧
      discountOf mc.math.log mc.ofNat (dcgBaseOf mc c) (rank + 1) < discountOf mc.math.log mc.ofNat (dcgBaseOf mc c) rank := by
  have hb : 1 < dcgBaseOf mc c := by
    unfold dcgBaseOf
    simp only [Dbl.ltb, hof, decide_eq_true_eq]
    split
    · next h =>
      rcases hbase with h' | h'
      · exact absurd h (not_lt.mpr h')
      · exact h'
    · exact_mod_cast (by norm_num : (1 : Nat) < 2)
  generalize dcgBaseOf mc c = b at hb
  have hpos : ∀ rank : Nat, 0 < mc.math.log (b + rank) := by
    intro rank
    rw [← hone]
    apply hlog _ _ one_pos
    have : (0 : K) ≤ rank := Nat.cast_nonneg rank
    linarith
  have h0 : 0 < mc.math.log b := by
    have := hpos 0
    simpa using this
  refine ⟨?_, fun rank => ⟨?_, ?_⟩⟩
  · simp only [discountOf, hof, Nat.cast_zero, add_zero]
    exact div_self h0.ne'
  · simp only [discountOf, hof]
    exact div_pos h0 (hpos rank)
  · simp only [discountOf, hof]
    apply div_lt_div_of_pos_left h0 (hpos rank)
    apply hlog
    · have : (0 : K) ≤ rank := Nat.cast_nonneg rank
      linarith
    · push_cast
      linarith

/-- **C74 (partial: the base).** The discount is `1 / k` at the rank where base plus rank is `base ^ k`; the base is the configured one if
that is above 1, and 2 if it is not positive.  Missing as above. -/
theorem C74_base_partial {mc : Machine K A} (hof : ∀ n : Nat, mc.ofNat n = n) (hone : mc.math.log 1 = 0)
    (hlog : ∀ a b : K, 0 < a → a < b → mc.math.log a < mc.math.log b)
    (hmul : ∀ a b : K, 0 < a → 0 < b → mc.math.log (a * b) = mc.math.log a + mc.math.log b) {c : Config K} (k rank : Nat)
    (hk : 1 ≤ k) :
    (1 < c.dcgBase → c.dcgBase + rank = c.dcgBase ^ k → discountOf mc.math.log mc.ofNat (dcgBaseOf mc c) rank = 1 / k) ∧
    (c.dcgBase ≤ 0 → 2 + rank = 2 ^ k → discountOf mc.math.log mc.ofNat (dcgBaseOf mc c) rank = 1 / k) := by
  have key : ∀ b : K, 1 < b → b + rank = b ^ k → discountOf mc.math.log mc.ofNat b rank = 1 / k := by
    intro b hb hpow
    have h0 : 0 < mc.math.log b := by
      rw [← hone]
      exact hlog _ _ one_pos hb
    have hlp : ∀ m : Nat, mc.math.log (b ^ m) = m * mc.math.log b := by
      intro m
      induction m with
      | zero => simp [hone]
      | succ m ih =>
        rw [pow_succ, hmul _ _ (pow_pos (by linarith) _) (by linarith), ih]
        push_cast
        ring
    simp only [discountOf, hof]
    rw [hpow, hlp]
    have : (k : K) ≠ 0 := by exact_mod_cast (by omega : k ≠ 0)
    field_simp
  constructor
  · intro h1 h2
    have : dcgBaseOf mc c = c.dcgBase := by
      unfold dcgBaseOf
      rw [if_pos (by simpa using lt_trans one_pos h1)]
    rw [this]
    exact key _ h1 h2
  · intro h1 h2
    have : dcgBaseOf mc c = 2 := by
      unfold dcgBaseOf
      rw [if_neg (by simpa using h1), hof]
      norm_num
    rw [this]
    exact key 2 (by norm_num) (by exact_mod_cast h2)

/-- **C74 (refuted for small bases).** With a base between 0 and 1, which is accepted, the second rank has a negative discount. -/
theorem C74_refuted_small_base {mc : Machine K A} (hof : ∀ n : Nat, mc.ofNat n = n) (hone : mc.math.log 1 = 0)
    (hlog : ∀ a b : K, 0 < a → a < b → mc.math.log a < mc.math.log b) {c : Config K} (h0 : 0 < c.dcgBase) (h1 : c.dcgBase < 1) :
    discountOf mc.math.log mc.ofNat (dcgBaseOf mc c) 1 < 0 := by
  have : dcgBaseOf mc c = c.dcgBase := by
    unfold dcgBaseOf
    rw [if_pos (by simpa using h0)]
  rw [this]
  simp only [discountOf, hof]
  apply div_neg_of_neg_of_pos
  · rw [← hone]
    exact hlog _ _ h0 h1
  · rw [← hone]
    apply hlog _ _ one_pos
    push_cast
    linarith

end discount

/-- A machine with the real logarithm. -/
noncomputable def realMachine : Machine ℝ ℚ where
  toD := fun x => match x with | .nan => 0 | .num a => a
  math := realMath
  minusOne := -1
  fabs := fun x => |x|
  rnd32 := id
  ofNat := fun n => n
  toInt := fun x => some ⌊x⌋
  toU64 := fun x => some ⌊x⌋₊
  diverged := fun _ => false
  threshold := 0
  tol := 0
  sort := fun _ l => l
  descSort := fun _ l => l
  top := fun _ _ => 0
  listing := id
  draw := fun _ _ => 0
  pairDraw := fun _ _ _ _ _ => 0

/-- The hypotheses about the logarithm are met by the real one; with base 2, rank 6 has the discount 1/3. -/
example (c : Config ℝ) (hc : c.dcgBase = 0) : discountOf realMachine.math.log realMachine.ofNat (dcgBaseOf realMachine c) 6 = 1 / 3 ∧
    discountOf realMachine.math.log realMachine.ofNat (dcgBaseOf realMachine c) 0 = 1 := by
  have hlog : ∀ a b : ℝ, 0 < a → a < b → realMachine.math.log a < realMachine.math.log b := fun a b h1 h2 => Real.log_lt_log h1 h2
  constructor
  · have := (C74_base_partial (mc := realMachine) (fun _ => rfl) Real.log_one hlog
      (fun a b h1 h2 => Real.log_mul h1.ne' h2.ne') (c := c) 3 6 (by norm_num)).2 hc.le (by norm_num)
    exact_mod_cast this
  · exact (C74_formula_partial (mc := realMachine) (fun _ => rfl) Real.log_one hlog (c := c) (Or.inl hc.le)).1

example (c : Config ℝ) (hc : c.dcgBase = 1 / 2) :
    discountOf realMachine.math.log realMachine.ofNat (dcgBaseOf realMachine c) 1 < 0 :=
  C74_refuted_small_base (mc := realMachine) (fun _ => rfl) Real.log_one (fun a b h1 h2 => Real.log_lt_log h1 h2)
    (by rw [hc]; norm_num) (by rw [hc]; norm_num)

end Gbdt
