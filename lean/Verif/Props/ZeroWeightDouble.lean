import Verif.Props.ZeroWeight
import Mathlib.Tactic.IntervalCases

/-!
# C105: rows of weight zero, with doubles
-/

set_option autoImplicit false
set_option linter.unusedSectionVars false

namespace Gbdt
open Outcome

/-- **C105 in full.** With doubles, the targets of rows with weight zero do not matter to `train`. -/
def C105_full (mc : Machine F64 ℚ) : Prop :=
  ∀ (t : DataStore ℚ) (n : Nat) (c : Config F64) (base : Option (List (Tree F64 ℚ))) (nt : Int), PyInput mc t n c base nt →
    ∀ (y y' w : List (Fl ℚ)), y.length = y'.length →
      (∀ (i : Nat) v v', y[i]? = some v → y'[i]? = some v' → v = v' ∨ ∃ x, w[i]? = some x ∧ mc.toD x = 0) →
      (∀ (i : Nat) v v', y[i]? = some v → y'[i]? = some v' → TwoClass mc v = true ∧ TwoClass mc v' = true) →
      ∀ (features : List String) (seed : Int),
        pyTrain mc (some t) c y features w base seed nt = pyTrain mc (some t) c y' features w base seed nt

/-! ## Rounding -/

theorem leadingExp_le {a d k : Nat} (h : a ≤ d * 2 ^ k) (ha : a ≠ 0) : leadingExp a d ≤ k + 1 := by
  have h1 : Nat.log2 a < Nat.log2 d + 1 + k := by
    rw [Nat.log2_lt ha]
    refine lt_of_le_of_lt h ?_
    rw [pow_add]
    exact Nat.mul_lt_mul_of_pos_right Nat.lt_log2_self (by positivity)
  unfold leadingExp
  simp only
  split <;> omega

theorem roundDiv_le (a d : Nat) : roundDiv a d ≤ a / d + 1 := by
  unfold roundDiv
  simp only
  split <;> omega

/-- Rounding moderate numbers adds at most one. -/
theorem roundRat_le {q : ℚ} {k : Nat} (hk : k ≤ 51) (h : |q| ≤ 2 ^ k) : |roundRat 53 1074 q| ≤ 2 ^ k + 1 := by
  unfold roundRat
  simp only
  by_cases ha : q.num.natAbs = 0
  · rw [if_pos ha, abs_zero]
    positivity
  · rw [if_neg ha]
    have hden : (0 : ℚ) < q.den := by exact_mod_cast q.den_pos
    have habs : |q| = (q.num.natAbs : ℚ) / q.den := by
      rw [← Rat.num_div_den q, abs_div, abs_of_pos hden, Rat.num_div_den, Nat.cast_natAbs, Int.cast_abs]
    have hle : q.num.natAbs ≤ q.den * 2 ^ k := by
      rw [habs, div_le_iff₀ hden, mul_comm] at h
      exact_mod_cast h
    have hexp := leadingExp_le hle ha
    generalize hs : min ((1074 : Nat) : Int) (((53 : Nat) : Int) - 1 - leadingExp q.num.natAbs q.den) = s
    have hs0 : 0 ≤ s := by omega
    obtain ⟨m, rfl⟩ := Int.eq_ofNat_of_zero_le hs0
    have hneg : (-(m : Int)).toNat = 0 := by omega
    simp only [hneg, Int.toNat_natCast, pow_zero, mul_one]
    have hkdiv := roundDiv_le (q.num.natAbs * 2 ^ m) q.den
    have hbound : q.num.natAbs * 2 ^ m / q.den ≤ 2 ^ k * 2 ^ m := by
      refine Nat.div_le_of_le_mul ?_
      calc q.num.natAbs * 2 ^ m ≤ (q.den * 2 ^ k) * 2 ^ m := Nat.mul_le_mul_right _ hle
        _ = q.den * (2 ^ k * 2 ^ m) := by ring
    have hv : ((roundDiv (q.num.natAbs * 2 ^ m) q.den : Nat) : ℚ) / ((2 ^ m : Nat) : ℚ) ≤ 2 ^ k + 1 := by
      have hm : (0 : ℚ) < ((2 ^ m : Nat) : ℚ) := by positivity
      rw [div_le_iff₀ hm]
      have h1 : roundDiv (q.num.natAbs * 2 ^ m) q.den ≤ (2 ^ k + 1) * 2 ^ m := by
        have : 1 ≤ 2 ^ m := Nat.one_le_two_pow
        nlinarith
      exact_mod_cast h1
    have hv0 : (0 : ℚ) ≤ ((roundDiv (q.num.natAbs * 2 ^ m) q.den : Nat) : ℚ) / ((2 ^ m : Nat) : ℚ) := by positivity
    split
    · rw [abs_neg, abs_of_nonneg hv0]
      exact hv
    · rw [abs_of_nonneg hv0]
      exact hv

theorem F64.round_moderate {q : ℚ} {k : Nat} (hk : k ≤ 51) (h : |q| ≤ 2 ^ k) : ∃ v, F64.round q = .num v ∧ |v| ≤ 2 ^ k + 1 := by
  have hb := roundRat_le hk h
  have hbig : (2 : ℚ) ^ k + 1 < 2 ^ 1024 := by
    have : (2 : ℚ) ^ k ≤ 2 ^ 51 := pow_le_pow_right₀ (by norm_num) hk
    have h2 : (2 : ℚ) ^ 52 ≤ 2 ^ 1024 := pow_le_pow_right₀ (by norm_num) (by norm_num)
    refine lt_of_lt_of_le ?_ h2
    norm_num at this ⊢
    linarith
  rw [abs_le] at hb
  refine ⟨roundRat 53 1074 q, ?_, abs_le.mpr hb⟩
  unfold F64.round
  simp only
  generalize (2 : ℚ) ^ 1024 = big at hbig ⊢
  rw [if_neg (by linarith [hb.2]), if_neg (by linarith [hb.1])]

theorem F64.zero_mul_num (q : ℚ) : (0 : F64) * (.num q) = 0 := by
  show F64.mul (.num 0) (.num q) = .num 0
  rw [F64.mul, zero_mul]
  decide +kernel

/-- With a target of 1 or -1 the gradients of huberized hinge are finite, whatever the score, even NaN. -/
theorem hinge_finite {m : MathFns F64} (hone : m.one = .num 1) {y : ℚ} (hy : y = 1 ∨ y = -1) (f : F64) :
    (∃ a, (huberizedHinge m (.num y) f).2.1 = .num a) ∧ ∃ b, (huberizedHinge m (.num y) f).2.2 = .num b := by
  unfold huberizedHinge
  simp only
  generalize (.num y : F64) * f = e
  split
  · exact ⟨⟨0, rfl⟩, ⟨0, rfl⟩⟩
  · next h1 =>
    split
    · next h2 =>
      refine ⟨?_, ⟨1, hone⟩⟩
      rw [hone] at h1 ⊢
      rcases e with _ | s | q
      · simp [Dbl.leb, Dbl.ltb, Dbl.eqb, F64.lt, F64.eq] at h2
      · cases s with
        | true => exact absurd h2 (by decide)
        | false => exact absurd (show Dbl.leb (.num 1 : F64) (.inf false) = true by decide) h1
      · have hq0 : 0 ≤ q := by
          have : (decide ((0 : ℚ) < q) || decide ((0 : ℚ) = q)) = true := h2
          simp only [Bool.or_eq_true, decide_eq_true_eq] at this
          rcases this with h | h
          · exact h.le
          · exact h.le
        have hq1 : q < 1 := by
          by_contra hc
          push Not at hc
          refine h1 ?_
          show (decide ((1 : ℚ) < q) || decide ((1 : ℚ) = q)) = true
          simp only [Bool.or_eq_true, decide_eq_true_eq]
          exact lt_or_eq_of_le hc
        have hsub : |1 + -q| ≤ 2 ^ 0 := by
          rw [abs_le]
          constructor <;> linarith
        obtain ⟨v, hv, hvb⟩ := F64.round_moderate (by norm_num) hsub
        have hmul : |v * y| ≤ 2 ^ 1 := by
          rw [abs_mul]
          have : |y| = 1 := by rcases hy with rfl | rfl <;> norm_num
          rw [this, mul_one]
          norm_num at hvb ⊢
          exact hvb
        obtain ⟨u, hu, _⟩ := F64.round_moderate (by norm_num) hmul
        refine ⟨u, ?_⟩
        show F64.mul (F64.add (.num 1) (F64.neg (.num q))) (.num y) = .num u
        rw [F64.neg, F64.add, hv, F64.mul, hu]
    · exact ⟨⟨y, rfl⟩, ⟨0, rfl⟩⟩

/-- **C105 (partial).** With doubles and huberized hinge, the targets of rows with weight zero do not matter, whatever the scores of
the rows are.  Missing: logloss, for which it is false, and mse with scores that overflow. -/
theorem C105_hinge_partial {A : Type} [LinearOrder A] [ThrOps A] {mc : Machine F64 A} (hone : mc.math.one = .num 1)
    (hminus : mc.minusOne = .num (-1)) {t : DataStore A} {c : Config F64} (hl : c.lossFunc = "huberized_hinge")
    {y y' w : List (Fl A)} (hlen : y.length = y'.length)
    (h : ∀ (i : Nat) v v', y[i]? = some v → y'[i]? = some v' → v = v' ∨ ∃ x, w[i]? = some x ∧ mc.toD x = 0)
    (hv : ∀ (i : Nat) v v', y[i]? = some v → y'[i]? = some v' → TwoClass mc v = true ∧ TwoClass mc v' = true)
    (features : List String) (base : Option (List (Tree F64 A))) (seed nt : Int) :
    pyTrain mc (some t) c y features w base seed nt = pyTrain mc (some t) c y' features w base seed nt := by
  refine C104_ignored (by rw [hl]; simp) hlen ?_ (Or.inr fun i v v' h1 h2 => by rw [(hv i v v' h1 h2).1, (hv i v v' h1 h2).2])
    features base seed nt
  intro loss hloss i v v' f k h1 h2 hk
  have hloss' : loss = huberizedHinge mc.math := by
    rw [hl] at hloss
    simpa using hloss
  subst hloss'
  rcases h i v v' h1 h2 with rfl | ⟨x, hx, h0⟩
  · exact ⟨rfl, rfl⟩
  · have hw : w ≠ [] := by rintro rfl; simp at hx
    have htc : ∀ u, TwoClass mc u = true → ∃ z : ℚ, mc.toD u = .num z ∧ (z = 1 ∨ z = -1) := by
      intro u hu
      rw [TwoClass, hone, hminus] at hu
      cases hz : mc.toD u with
      | nan => rw [hz] at hu; exact absurd hu (by decide)
      | inf s => rw [hz] at hu; exact absurd hu (by cases s <;> decide)
      | num z =>
        rw [hz] at hu
        have : (decide (z = 1) || decide (z = -1)) = true := hu
        simp only [Bool.or_eq_true, decide_eq_true_eq] at this
        exact ⟨z, rfl, this⟩
    obtain ⟨z, hz, hz1⟩ := htc v (hv i v v' h1 h2).1
    obtain ⟨z', hz', hz1'⟩ := htc v' (hv i v v' h1 h2).2
    obtain ⟨⟨a, ha⟩, ⟨b, hb⟩⟩ := hinge_finite hone hz1 f
    obtain ⟨⟨a', ha'⟩, ⟨b', hb'⟩⟩ := hinge_finite hone hz1' f
    rcases hk with ⟨hk, _⟩ | ⟨_, rfl⟩
    · exact absurd hk hw
    · rw [List.getD_eq_getElem?_getD, hx, Option.getD_some, h0, hz, hz', ha, hb, ha', hb']
      simp only [F64.zero_mul_num, and_self]

/-! ## The refutation -/

/-- A machine with doubles, with an `exp` that overflows above 710 and is zero below -750, as that of C does.  (In between it is not
used below.) -/
def overflowMachine : Machine F64 ℚ :=
  { f64Machine with math := { f64Machine.math with exp := fun x => if Dbl.ltb (.num 710) x then .inf false else if Dbl.ltb x (.num (-750)) then 0 else x } }

theorem overflowMachine_ok : MachineOk overflowMachine := ⟨f64Sort_spec, f64Top_spec, fun l => List.Perm.refl l, f64Machine_ok.toInt⟩

/-- A base forest that scores every row 800. -/
def highForest : List (Tree F64 ℚ) := [.node (.num 800) none .absent .absent]

/-- The first six rows have target 1 and weight 1, and the last has weight 0. -/
def lastWeightZero : List (Fl ℚ) := [.num 1, .num 1, .num 1, .num 1, .num 1, .num 1, .num 0]

/-- The predictions after training on seven rows, given the target of the last, whose weight is zero. -/
def lastRun (loss : String) (v : ℚ) : PyRes (List F64) :=
  sevenDict.andThen (fun s => (pyTrain overflowMachine s { stumpCfg with lossFunc := loss }
    [.num 1, .num 1, .num 1, .num 1, .num 1, .num 1, .num v] ["size"] lastWeightZero (some highForest) 1 1).andThen (fun f => pyPredict s f 1))

/-- **C105 (refuted).** With logloss, doubles and a base forest that scores the rows 800, the target of a row with weight zero decides
whether training succeeds: zero times its gradient is NaN. -/
theorem C105_refuted : ¬ C105_full overflowMachine := by
  intro h
  have hb : (match lastRun "logloss" 1, lastRun "logloss" (-1) with
      | .ok (.ok f), .ok (.error _) => decide (f = List.replicate 7 (.num 800))
      | _, _ => false) = true := by decide +kernel
  have he : lastRun "logloss" 1 = lastRun "logloss" (-1) := by
    unfold lastRun PyRes.andThen
    split
    · next s hs =>
      cases s with
      | none => rfl
      | some t =>
        obtain ⟨h1, h2, _⟩ := C87_from_dict (2 ^ 100 : ℚ) (by decide) (fun _ => List.Perm.refl _) (n := 7) (by decide)
          (by decide) (by
            intro p hp
            rw [List.mem_singleton.mp hp]
            refine ⟨rfl, fun v hv => ?_⟩
            simp only [List.mem_cons, Fl.num.injEq, List.not_mem_nil, or_false] at hv
            rcases hv with rfl | rfl | rfl | rfl | rfl | rfl | rfl <;> norm_num) (by simp) (by simp) hs
        simp only
        rw [h t 7 { stumpCfg with lossFunc := "logloss" } (some highForest) 1 ⟨overflowMachine_ok, h1, by decide, by rw [h2]; decide,
          by simp, show Dbl.eqb _ _ = true by decide +kernel, show Dbl.eqb _ _ = true by decide +kernel, by decide, Or.inl rfl,
          ⟨fun _ h => absurd h (by simp [highForest, forestFeatures, treeFeatures]), by simp [highForest, Scorable]⟩⟩
          [.num 1, .num 1, .num 1, .num 1, .num 1, .num 1, .num 1] [.num 1, .num 1, .num 1, .num 1, .num 1, .num 1, .num (-1)]
          lastWeightZero rfl (by
            intro i v v' h1 h2
            rcases Nat.lt_or_ge i 6 with hi | hi
            · left
              interval_cases i <;> simp_all
            · rcases Nat.eq_or_lt_of_le hi with rfl | hi
              · exact Or.inr ⟨.num 0, rfl, rfl⟩
              · rw [List.getElem?_eq_none (Nat.succ_le_of_lt hi)] at h1
                cases h1) (by
            intro i v v' h1 h2
            have key : ∀ x ∈ ([.num 1, .num (-1)] : List (Fl ℚ)), TwoClass overflowMachine x = true := by decide +kernel
            have m1 := List.mem_of_getElem? h1
            have m2 := List.mem_of_getElem? h2
            refine ⟨key v ?_, key v' ?_⟩
            · simp only [List.mem_cons, List.not_mem_nil, or_false, or_self] at m1
              simp [m1]
            · simp only [List.mem_cons, List.not_mem_nil, or_false] at m2
              rcases m2 with m2 | m2 | m2 | m2 | m2 | m2 | m2 <;> simp [m2]) ["size"] 1]
    · rfl
    · rfl
    · rfl
  rw [he] at hb
  generalize lastRun "logloss" (-1) = r at hb
  rcases r with (_ | l) | _ | _ <;> cases hb

/-- With huberized hinge it does not. -/
example : (match lastRun "huberized_hinge" 1, lastRun "huberized_hinge" (-1) with
    | .ok (.ok f), .ok (.ok g) => decide (f = List.replicate 7 (.num 800) ∧ g = f)
    | _, _ => false) = true := by decide +kernel

end Gbdt
