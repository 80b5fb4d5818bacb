import Verif.Props.Train

/-!
# C83: training into a forest that already has trees
-/

set_option autoImplicit false
set_option linter.unusedSectionVars false

namespace Gbdt

open Outcome

variable {S D A : Type} [Dbl D] [LinearOrder A] [ThrOps A]

theorem modify_append_length {α : Type} (pre l : List α) (k : Nat) (g : α → α) :
    (pre ++ l).modify (pre.length + k) g = pre ++ l.modify k g := by
  induction pre with
  | nil => simp
  | cons a pre ih =>
    have : (a :: pre).length + k = (pre.length + k) + 1 := by simp only [List.length_cons]; omega
    rw [this, List.cons_append, List.modify_succ_cons, ih, List.cons_append]

theorem trainLoop_prefix (env : TrainEnv D A) (loss : LossFunc S D) (features : List (String × Column A)) (cfg : TrainConfig D)
    (pre : List (Tree D A)) (k : Nat) : ∀ (n : Nat) (s : TrainState S D A),
    trainLoop env loss features cfg (pre.length + k) n { s with forest := pre ++ s.forest } =
      (trainLoop env loss features cfg k n s >>= fun r => ok (r.1, { r.2 with forest := pre ++ r.2.forest }))
  | 0, s => rfl
  | n + 1, s => by
    rw [trainLoop, trainLoop]
    simp only
    cases h1 : loss.compute s.loss s.f with
    | ub => rfl
    | fatal => rfl
    | ok x =>
      obtain ⟨ls, constant, grads⟩ := x
      simp only [ok_bind]
      by_cases hd : env.diverged constant
      · simp only [hd, if_true, pure_eq, ok_bind]
      · simp only [hd, Bool.false_eq_true, if_false]
        cases h2 : fitTree (env.fit features grads) cfg.fit s.pos with
        | ub => rfl
        | fatal => rfl
        | ok x =>
          obtain ⟨t, pos⟩ := x
          simp only [ok_bind]
          cases h3 : addTreeScores env.columns (applyShrinkage env.rnd32 cfg.shrinkage t) constant s.slices s.f with
          | ub => rfl
          | fatal => rfl
          | ok x =>
            obtain ⟨slices, f⟩ := x
            simp only [ok_bind]
            have := trainLoop_prefix env loss features cfg pre k n
              { forest := (s.forest ++ [applyShrinkage env.rnd32 cfg.shrinkage t]).modify k (addRootScore env.rnd32 constant)
                slices := slices, f := f, loss := ls, pos := pos }
            rw [← this, List.append_assoc, modify_append_length]

theorem initWithBase_prefix (env : TrainEnv D A) (pre : List (Tree D A)) : ∀ (base forest : List (Tree D A))
    (slices : List (List Nat)) (f : List D), (pre = [] ∨ ∀ t ∈ base, isSingleNode t = false) →
    initWithBase env base (pre ++ forest) slices f =
      (initWithBase env base forest slices f >>= fun r => ok (pre ++ r.1, r.2))
  | [], forest, slices, f, _ => rfl
  | t :: base, forest, slices, f, h => by
    rw [initWithBase, initWithBase]
    cases h1 : addTreeScores env.columns t 0 slices f with
    | ub => rfl
    | fatal => rfl
    | ok x =>
      obtain ⟨slices1, f1⟩ := x
      simp only [ok_bind]
      have h' : pre = [] ∨ ∀ t ∈ base, isSingleNode t = false :=
        h.imp id (fun h u hu => h u (List.mem_cons_of_mem _ hu))
      have := initWithBase_prefix env pre base
        (if isSingleNode t then forest.modify 0 (addRootScore env.rnd32 (rootScore t)) else forest ++ [t]) slices1 f1 h'
      rw [← this]
      rcases h with rfl | h
      · simp only [List.nil_append]
      · simp only [h t (List.mem_cons_self ..), Bool.false_eq_true, if_false, List.append_assoc]

/-- The forest that training gives back when `*forest` held trees on entry: they come first, without the internal fields
if training succeeded, and then what training into an empty forest gives. -/
def behind (forest : List (Tree D A)) (r : TrainResult D A) : TrainResult D A :=
  { r with forest := (if r.code = .ok then forest.map clearInternal else forest) ++ r.forest }

/-- **C83 (the full property, false).** Training appends to the forest it is given. -/
def C83_full : Prop :=
  ∀ (env : TrainEnv ℚ ℚ) (loss : LossFunc Unit ℚ) (names : List String) (cfg : TrainConfig ℚ) (base : Option (List (Tree ℚ ℚ)))
    (forest : List (Tree ℚ ℚ)) (p : Nat) (r : TrainResult ℚ ℚ), (∀ n g e, loss.init n g = ok (.error e) → e ≠ .ok) →
    trainGBDT env loss names cfg base [] p = ok r → trainGBDT env loss names cfg base forest p = ok (behind forest r)

/-- **C83 (partial).** Training appends to the forest it is given, if there is no base forest with a tree of a single node
(or if the forest given is empty).  Missing: the constants of a base forest are added to the first tree of the forest
given, not to the new constant tree. -/
theorem C83_appends_partial (env : TrainEnv D A) (loss : LossFunc S D) (names : List String) (cfg : TrainConfig D)
    (base : Option (List (Tree D A))) (forest : List (Tree D A)) (p : Nat)
    (hstatus : ∀ n g e, loss.init n g = ok (.error e) → e ≠ .ok)
    (hbase : forest = [] ∨ ∀ t ∈ base.getD [], isSingleNode t = false) :
    trainGBDT env loss names cfg base forest p =
      (trainGBDT env loss names cfg base [] p >>= fun r => ok (behind forest r)) := by
  rw [trainGBDT, trainGBDT]
  by_cases hc : checkConfig (env.ofNat 1) cfg ≠ .ok
  · simp only [if_pos hc, ok_bind, behind, if_neg hc, List.append_nil]
  · simp only [if_neg hc]
    cases hl : loadFeatures env.columns names with
    | error e =>
      have he : e ≠ .ok := by
        rw [loadFeatures_error hl]
        simp
      simp only [ok_bind, behind, if_neg he, List.append_nil]
    | ok features =>
      simp only
      cases hg : groupOrDie env.columns cfg.groupColumn with
      | ub => rfl
      | fatal => rfl
      | ok group =>
        simp only [ok_bind]
        cases hi : loss.init env.numRows group with
        | ub => rfl
        | fatal => rfl
        | ok init =>
          simp only [ok_bind]
          cases init with
          | error e =>
            have he := hstatus _ _ _ hi
            simp only [pure_eq, ok_bind, behind, if_neg he, List.append_nil]
          | ok ls =>
            simp only
            cases hs : scoreSlices env.numThreads env.numRows with
            | ub => rfl
            | fatal => rfl
            | ok slices =>
              simp only [ok_bind, List.nil_append, List.length_nil]
              rw [initWithBase_prefix env forest _ _ _ _ hbase]
              cases hb : initWithBase env (base.getD []) [.node 0 none .absent .absent] slices (List.replicate env.numRows 0) with
              | ub => rfl
              | fatal => rfl
              | ok x =>
                obtain ⟨forest1, slices1, f1⟩ := x
                simp only [ok_bind]
                have := trainLoop_prefix env loss features cfg forest 0 cfg.numTrees.toNat ⟨forest1, slices1, f1, ls, p⟩
                simp only [Nat.add_zero] at this
                rw [this]
                cases ht : trainLoop env loss features cfg 0 cfg.numTrees.toNat ⟨forest1, slices1, f1, ls, p⟩ with
                | ub => rfl
                | fatal => rfl
                | ok x =>
                  obtain ⟨stopped, s⟩ := x
                  simp only [ok_bind]
                  cases stopped with
                  | true => simp [behind]
                  | false => simp [behind]

/-- Two trees that the forest holds on entry: a constant and another constant. -/
def oldTrees : List (Tree ℚ ℚ) := [.node 5 none .absent .absent, .node 7 none .absent .absent]

theorem C83_refuted : ¬ C83_full := by
  intro h
  cases h1 : trainGBDT trainEnv trainLoss ["color", "size"] trainCfg (some trainBase) [] 0 with
  | ub => exact absurd h1 (by
      intro h2
      have : (match trainGBDT trainEnv trainLoss ["color", "size"] trainCfg (some trainBase) [] 0 with
        | .ok _ => true | _ => false) = true := by decide +kernel
      rw [h2] at this
      cases this)
  | fatal => exact absurd h1 (by
      intro h2
      have : (match trainGBDT trainEnv trainLoss ["color", "size"] trainCfg (some trainBase) [] 0 with
        | .ok _ => true | _ => false) = true := by decide +kernel
      rw [h2] at this
      cases this)
  | ok r =>
    have h2 := h trainEnv trainLoss ["color", "size"] trainCfg (some trainBase) oldTrees 0 r (by intro n g e h; cases h) h1
    have h3 : (match trainGBDT trainEnv trainLoss ["color", "size"] trainCfg (some trainBase) [] 0,
        trainGBDT trainEnv trainLoss ["color", "size"] trainCfg (some trainBase) oldTrees 0 with
      | .ok r, .ok r' => decide (r' = behind oldTrees r)
      | _, _ => true) = false := by decide +kernel
    rw [h1, h2] at h3
    simp at h3

/-- Training three trees into a forest of two. -/
example : (match trainGBDT trainEnv trainLoss ["color", "size"] { trainCfg with numTrees := 3 } none oldTrees 0 with
    | .ok r => decide (r.code = .ok ∧ r.forest.length = 6 ∧ r.forest.take 2 = oldTrees)
    | _ => false) = true := by decide +kernel

end Gbdt
