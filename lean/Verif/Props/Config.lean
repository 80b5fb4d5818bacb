import Verif.Model.TrainPy
import Verif.Props.Train

/-!
# C46, C72: what is checked before training
-/

set_option autoImplicit false
set_option linter.unusedSectionVars false

namespace Gbdt

open Outcome

variable {S D A : Type} [Dbl D] [LinearOrder A] [ThrOps A]

/-- `0 < a` and not `1 < a`. -/
def InUnit (one a : D) : Prop := Dbl.ltb 0 a = true ∧ Dbl.ltb one a = false

/-- **C46.** If the sampling rates are not NaN, the check is passed exactly by the configurations with positive numbers of
trees and leaves and with both rates in (0, 1]; any other is reported as an invalid argument. -/
theorem C46_check_config [FpOrder D] [EqOrder D] (one : D) (cfg : TrainConfig D)
    (h1 : NotNaN cfg.exampleRate) (h2 : NotNaN cfg.featureRate) :
    (checkConfig one cfg = .ok ↔ 0 < cfg.numTrees ∧ 0 < cfg.numLeaves ∧ InUnit one cfg.exampleRate ∧
      InUnit one cfg.featureRate) ∧
    (checkConfig one cfg = .ok ∨ checkConfig one cfg = .invalidArgument) := by
  have key : ∀ a : D, NotNaN a → (Dbl.leb a 0 = false ↔ Dbl.ltb 0 a = true) := by
    intro a ha
    rw [Dbl.leb, Bool.or_eq_false_iff]
    constructor
    · rintro ⟨e1, e2⟩
      rcases EqOrder.total a 0 ha FpOrder.zero_not_nan with h | h | h
      · rw [e1] at h; cases h
      · rw [e2] at h; cases h
      · exact h
    · intro h
      constructor
      · cases h' : Dbl.ltb a 0 with
        | false => rfl
        | true => rw [StrictLt.trans _ _ _ h h' |>.symm.trans (StrictLt.irrefl _)]
      · cases h' : Dbl.eqb a 0 with
        | false => rfl
        | true => rw [EqOrder.eq_not_lt _ _ h'] at h; cases h
  unfold checkConfig InUnit
  rw [← key _ h1, ← key _ h2]
  constructor
  · constructor
    · intro h
      split at h
      · cases h
      · split at h
        · cases h
        · split at h
          · cases h
          · split at h
            · cases h
            · next a b c d =>
              rw [Bool.or_eq_true, not_or, Bool.not_eq_true, Bool.not_eq_true] at c d
              exact ⟨by omega, by omega, c, d⟩
    · rintro ⟨a, b, ⟨c1, c2⟩, d1, d2⟩
      rw [if_neg (by omega), if_neg (by omega), if_neg (by simp [c1, c2]), if_neg (by simp [d1, d2])]
  · repeat' split
    all_goals simp

/-- **C46 (training).** A call of `train` that returns a forest had a store, a known loss, at least one feature, as many
targets and weights as rows (or a target column of raw floats, or no weights), and a configuration that is in order. -/
theorem C46_train_refuses [FpOrder D] [EqOrder D] {env : TrainEnv D A} {make : String → LossFunc S D} {c : PyCall}
    {cfg : TrainConfig D} {base : Option (List (Tree D A))} {p : Nat} {forest : List (Tree D A)}
    (h1 : NotNaN cfg.exampleRate) (h2 : NotNaN cfg.featureRate)
    (hstatus : ∀ name n g e, (make name).init n g = ok (.error e) → e ≠ .ok)
    (h : trainPy env make c cfg base p = ok (.ok forest)) :
    c.lossFunc ∈ lossNames ∧ c.features ≠ [] ∧
    (∃ numRows rawFloat, c.store = some (numRows, rawFloat) ∧ (c.wLen = 0 ∨ c.wLen = numRows) ∧
      (c.yLen = 0 ∧ rawFloat c.targetColumn = true ∨ c.yLen ≠ 0 ∧ c.yLen = numRows)) ∧
    0 < cfg.numTrees ∧ 0 < cfg.numLeaves ∧ InUnit (env.ofNat 1) cfg.exampleRate ∧ InUnit (env.ofNat 1) cfg.featureRate ∧
    ∀ name ∈ c.features, env.columns name ≠ none := by
  unfold trainPy at h
  split at h
  · simp at h
  · next hc =>
    rw [bind_eq_ok] at h
    obtain ⟨r, hr, hcode⟩ := h
    have hcode : r.code = .ok := by
      by_cases hk : r.code = .ok
      · exact hk
      · simp [hk, pure_eq] at hcode
    have hcfg : checkConfig (env.ofNat 1) cfg = .ok ∧ ∃ fs, loadFeatures env.columns c.features = .ok fs := by
      rcases trainGBDT_stages hr with ⟨_, e1 | ⟨_, e1⟩ | ⟨g, e1⟩⟩ | ⟨e1, fs, _, _, _, _, _, _, _, _, e2, _⟩
      · exact absurd hcode e1.2
      · have := loadFeatures_error e1
        rw [hcode] at this
        cases this
      · exact absurd hcode (hstatus _ _ _ _ e1)
      · exact ⟨e1, fs, e2⟩
    obtain ⟨hcfg, fs, hfs⟩ := hcfg
    have hin := (C46_check_config _ _ h1 h2).1.mp hcfg
    have hfeat : ∀ name ∈ c.features, env.columns name ≠ none := by
      intro name hn hnone
      rw [loadFeatures_missing ⟨name, hn, hnone⟩] at hfs
      cases hfs
    unfold trainPyCheck at hc
    cases hs : c.store with
    | none => simp [hs] at hc
    | some x =>
      obtain ⟨numRows, rawFloat⟩ := x
      simp only [hs] at hc
      split at hc
      · cases hc
      · split at hc
        · cases hc
        · split at hc
          · cases hc
          · split at hc
            · cases hc
            · split at hc
              · cases hc
              · split at hc
                · cases hc
                · next a1 a2 a3 a4 a5 a6 =>
                  refine ⟨not_not.mp a5, a6, ⟨numRows, rawFloat, rfl, by omega, ?_⟩, hin.1, hin.2.1, hin.2.2.1,
                    hin.2.2.2, hfeat⟩
                  by_cases hy : c.yLen = 0
                  · left
                    refine ⟨hy, ?_⟩
                    cases hraw : rawFloat c.targetColumn with
                    | true => rfl
                    | false => exact absurd ⟨hy, hraw⟩ a4
                  · right
                    exact ⟨hy, by omega⟩

/-- A store for `train` in the example. -/
def pyCall : PyCall where
  store := some (5, fun n => n == "target")
  yLen := 5
  wLen := 0
  targetColumn := ""
  lossFunc := "mse"
  features := ["color", "size"]

example : (match trainPy trainEnv (fun _ => trainLoss) pyCall trainCfg none 0 with
    | .ok (.ok f) => f.length
    | _ => 0) = 3 := by decide +kernel

example : (trainPyCheck { pyCall with lossFunc := "mae" } = some .notFound) ∧
    (trainPyCheck { pyCall with yLen := 4 } = some .invalidArgument) ∧
    (trainPyCheck { pyCall with yLen := 0 } = some .invalidArgument) ∧
    (trainPyCheck { pyCall with yLen := 0, targetColumn := "target" } = none) := by decide +kernel

example : checkConfig 1 trainCfg = .ok ∧ checkConfig 1 { trainCfg with exampleRate := 0 } = .invalidArgument ∧
    checkConfig 1 { trainCfg with featureRate := 11/10 } = .invalidArgument := by decide +kernel

/-! ## C72 -/

/-- **C72 (full).** Training with any configuration that passes the check is defined (no undefined behaviour), whatever the
machine makes of doubles, given the rest of what C69 asks for. -/
def C72_full : Prop :=
  ∀ (D A S : Type) [Dbl D] [FpOrder D] [LinearOrder A] [ThrOps A] (env : TrainEnv D A) (loss : LossFunc S D)
    (names : List String) (cfg : TrainConfig D) (p : Nat),
    (∀ name c, env.columns name = some c → TrainRows env.numRows c) → SortSpec env.sort → TopSpec env.top →
    TrainData env loss [] → (∀ n, 0 < n → env.toInt (env.ofNat n) = some n) →
    (∀ a, NotNaN a → ∃ z, env.toInt a = some z) → cfg.groupColumn = "" →
    (∃ r, loss.init env.numRows none = ok r) →
    (∀ s f, LossReach env.numRows (· = none) loss s → f.length = env.numRows → ∃ r, loss.compute s f = ok r) →
    checkConfig (env.ofNat 1) cfg = .ok → trainGBDT env loss names cfg none [] p ≠ .ub

/-- Rational numbers with a NaN: the smallest arithmetic with one. -/
@[instance_reducible] def nanDbl : Dbl (Fl ℚ) where
  zero := .num 0
  add a b := match a, b with | .num a, .num b => .num (a + b) | _, _ => .nan
  sub a b := match a, b with | .num a, .num b => .num (a - b) | _, _ => .nan
  mul a b := match a, b with | .num a, .num b => .num (a * b) | _, _ => .nan
  div a b := match a, b with | .num a, .num b => if b = 0 then .nan else .num (a / b) | _, _ => .nan
  ltb := Fl.lt
  eqb a b := match a, b with | .num a, .num b => decide (a = b) | _, _ => false

section witness
attribute [local instance] nanDbl

theorem nanFpOrder : FpOrder (Fl ℚ) where
  irrefl a := by cases a <;> simp [Dbl.ltb]
  trans a b c := by
    cases a <;> cases b <;> cases c <;> simp [Dbl.ltb, Fl.lt]
    exact fun h1 h2 => lt_trans h1 h2
  not_nan a b := by cases a <;> cases b <;> simp [Dbl.ltb, Dbl.eqb, Fl.lt]
  cotrans a b c := by
    cases a <;> cases b <;> cases c <;> simp [Dbl.ltb, Dbl.eqb, Fl.lt]
    intro h
    rename_i x y z
    rcases lt_or_ge x y with h1 | h1
    · exact Or.inl h1
    · exact Or.inr (lt_of_le_of_lt h1 h)
  zero_not_nan := by decide +kernel

/-- Sorting with NaN keys at the end. -/
def nanSort (key : Nat → Fl ℚ) (l : List Nat) : List Nat :=
  l.insertionSort (fun a b => key b = .nan ∨ Fl.lt (key b) (key a) = false ∧ key a ≠ .nan)

theorem nanSort_spec : SortSpec nanSort := by
  intro key l
  refine ⟨List.perm_insertionSort _ _, ?_⟩
  have t1 : Std.Total (fun a b => key b = .nan ∨ Fl.lt (key b) (key a) = false ∧ key a ≠ .nan) := ⟨fun a b => by
    cases ha : key a <;> cases hb : key b <;> simp [Fl.lt]
    exact le_total _ _⟩
  have t2 : IsTrans Nat (fun a b => key b = .nan ∨ Fl.lt (key b) (key a) = false ∧ key a ≠ .nan) := ⟨fun a b c => by
    cases ha : key a <;> cases hb : key b <;> cases hc : key c <;> simp [Fl.lt]
    exact fun h1 h2 => le_trans h1 h2⟩
  refine (List.pairwise_insertionSort _ l).imp ?_
  intro a b hab
  show Fl.lt (key b) (key a) = false
  rcases hab with h | h
  · rw [h]; rfl
  · exact h.1

/-- The first entry than which no later one is larger. -/
def nanTop (_ : Nat) : List (Fl ℚ) → Nat
  | [] => 0
  | a :: l => if ∀ b ∈ l, Fl.lt a b = false then 0 else nanTop 0 l + 1

theorem nanTop_spec : TopSpec nanTop := by
  intro n gains
  induction gains generalizing n with
  | nil => intro h; exact absurd rfl h
  | cons a l ih =>
    intro _
    rw [nanTop]
    by_cases hall : ∀ b ∈ l, Fl.lt a b = false
    · rw [if_pos hall]
      refine ⟨a, rfl, ?_⟩
      intro g' hg'
      rcases List.mem_cons.mp hg' with rfl | h
      · exact nanFpOrder.irrefl _
      · exact hall _ h
    · rw [if_neg hall]
      push Not at hall
      obtain ⟨b, hb, hab⟩ := hall
      rw [ne_eq, Bool.not_eq_false] at hab
      obtain ⟨g, hg, hmax⟩ := ih 0 (List.ne_nil_of_mem hb)
      refine ⟨g, by simpa using hg, ?_⟩
      intro g' hg'
      rcases List.mem_cons.mp hg' with rfl | h
      · cases h' : Dbl.ltb g g' with
        | false => rfl
        | true =>
          have := hmax b hb
          rw [nanFpOrder.trans _ _ _ h' hab] at this
          cases this
      · exact hmax _ h

/-- One column of one row. -/
def nanEnv : TrainEnv (Fl ℚ) ℚ where
  columns := fun name => if name = "x" then some (.raw ⟨.ok, [.num 1]⟩) else none
  numRows := 1
  w := fun _ => .num 1
  sort := nanSort
  top := nanTop
  toInt := fun x => match x with
    | .num a => some a.floor
    | .nan => none
  ofNat := fun n => .num n
  draw := fun _ => .num 0
  rnd32 := id
  numThreads := 1
  diverged := fun c => c.isNaN

/-- A loss for one row. -/
def nanLoss : LossFunc Unit (Fl ℚ) where
  init := fun _ _ => ok (.ok ())
  compute := fun _ _ => ok ((), .num 0, [⟨.num 1, .num 1⟩])

/-- A configuration whose `example_sampling_rate` is NaN. -/
def nanCfg : TrainConfig (Fl ℚ) where
  l2Lambda := .num 1
  minHessian := .num 0
  minGain := .num 0
  tol := .num 0
  numTrees := 1
  numLeaves := 2
  shrinkage := .num 1
  exampleRate := .nan
  featureRate := .num 1

theorem nan_rate_is_accepted : checkConfig (nanEnv.ofNat 1) nanCfg = .ok := by decide +kernel

theorem nan_rate_undefined : trainGBDT nanEnv nanLoss ["x"] nanCfg none [] 0 = .ub := by decide +kernel

/-- **C72 is false.** A NaN sampling rate passes the check (both comparisons are false), and training then converts NaN
to `int`, which is undefined. -/
theorem C72_refuted : ¬ C72_full := by
  intro h
  refine @h (Fl ℚ) ℚ Unit nanDbl nanFpOrder _ _ nanEnv nanLoss ["x"] nanCfg 0 ?_ nanSort_spec nanTop_spec ?_ ?_ ?_ rfl
    ⟨_, rfl⟩ (fun _ _ _ _ => ⟨_, rfl⟩) nan_rate_is_accepted nan_rate_undefined
  · intro name c hc
    simp only [nanEnv] at hc
    split at hc
    · cases hc; exact TrainRows.raw _ rfl
    · cases hc
  · exact
      { rows := by
          intro name c hc
          simp only [nanEnv] at hc
          split at hc
          · cases hc; exact HasRows.raw _ rfl
          · cases hc
        threads := by decide
        scorable := by intro t ht; cases ht
        features := by intro name hn; cases hn
        status := by intro n g e he; simp [nanLoss] at he
        grads := by
          intro s f s' c g _ hg _
          simp only [nanLoss, Outcome.ok.injEq, Prod.mk.injEq] at hg
          rw [← hg.2.2]
          rfl }
  · intro n _
    exact congrArg some (Rat.floor_intCast (n : Int))
  · intro a ha
    cases a with
    | nan => cases ha
    | num a => exact ⟨a.floor, rfl⟩

end witness

/-- **C72 (partial).** With rates that are not NaN, every configuration that passes the check leads to a defined run (the
remaining hypotheses are those of C69).  Missing: NaN rates, for which it is false. -/
theorem C72_defined_without_nan_partial [FpOrder D] {env : TrainEnv D A} {loss : LossFunc S D} {names : List String}
    {cfg : TrainConfig D} (hrows : ∀ name c, env.columns name = some c → TrainRows env.numRows c)
    (hsort : SortSpec env.sort) (htop : TopSpec env.top) (hd : TrainData env loss [])
    (hint : ∀ a, NotNaN a → ∃ z, env.toInt a = some z)
    (hmul : ∀ (a : D) n, NotNaN a → NotNaN (a * env.ofNat n)) (hgroup : cfg.groupColumn = "")
    (hinit : ∃ r, loss.init env.numRows none = ok r)
    (hcomp : ∀ s f, LossReach env.numRows (· = none) loss s → f.length = env.numRows → ∃ r, loss.compute s f = ok r)
    (h1 : NotNaN cfg.exampleRate) (h2 : NotNaN cfg.featureRate) (p : Nat) :
    ∃ r, trainGBDT env loss names cfg none [] p = ok r :=
  C69_training_defined (base := none)
    { rows := hrows
      sort := hsort
      top := htop
      examples := by obtain ⟨z, hz⟩ := hint _ (hmul _ env.numRows h1); rw [hz]; simp
      features := by obtain ⟨z, hz⟩ := hint _ (hmul _ names.length h2); rw [hz]; simp
      group := Or.inl hgroup
      init := by
        intro g hg
        rw [groupOrDie, if_pos hgroup, Outcome.ok.injEq] at hg
        subst hg
        exact hinit
      compute := by
        intro s f hr
        refine hcomp s f (hr.mono ?_)
        intro g hg
        rw [groupOrDie, if_pos hgroup, Outcome.ok.injEq] at hg
        exact hg.symm } hd [] p

end Gbdt
