import Verif.Props.Pointwise
import Verif.Props.PairwiseDefined
import Verif.Props.Boost

/-!
# C77: training with the losses of the library

C69-C71 and C73 hold for any loss that is defined on the data.  Here they are put together with the models of the
pointwise and the pairwise losses.
-/

set_option autoImplicit false
set_option linter.unusedSectionVars false

namespace Gbdt

open Outcome

section general
variable {D A : Type} [Dbl D] [FpOrder D] [LinearOrder A] [ThrOps A]

/-- What training asks of everything but the loss: columns as the loaders build them, without numbers above `FLT_MAX`, one
row each per sample; `std::sort` and the queue as the standard says; a thread; rates that can be converted; a group column
that is a string column, if one is named; a base forest that can be scored. -/
structure TrainStore (env : TrainEnv D A) (names : List String) (cfg : TrainConfig D) (base : List (Tree D A)) : Prop where
  rows : ∀ name c, env.columns name = some c → TrainRows env.numRows c
  threads : 0 < env.numThreads
  sort : SortSpec env.sort
  top : TopSpec env.top
  examples : env.toInt (cfg.exampleRate * env.ofNat env.numRows) ≠ none
  features : env.toInt (cfg.featureRate * env.ofNat names.length) ≠ none
  group : cfg.groupColumn = "" ∨ ∃ c, env.columns cfg.groupColumn = some (.str c)
  scorable : ∀ t ∈ base, Scorable env.columns t
  baseFeatures : HasFeatures env.columns base

/-! ## Pointwise -/

/-- The state of a pointwise loss is fixed by the number of rows and threads. -/
theorem pointReach {e : PointLoss D} {n : Nat} {G : Option StrCol → Prop} {s : List (Nat × Nat)}
    (h : LossReach n G e.toLoss s) : pointInit e n none = ok (.ok s) := by
  induction h with
  | init _ h => exact h
  | step _ _ h ih =>
    simp only [PointLoss.toLoss, pointCompute, bind_eq_ok, pure_eq, Outcome.ok.injEq] at h
    obtain ⟨⟨_, _⟩, _, h⟩ := h
    simp only [Prod.mk.injEq] at h
    rw [← h.1]
    exact ih

theorem pointTrainData {env : TrainEnv D A} {names : List String} {cfg : TrainConfig D} {base : List (Tree D A)}
    (hs : TrainStore env names cfg base) {e : PointLoss D} (he : 0 < e.numThreads) : TrainData env e.toLoss base where
  rows := fun _ _ h => (hs.rows _ _ h).hasRows
  threads := hs.threads
  scorable := hs.scorable
  features := hs.baseFeatures
  status := by
    intro n g code h
    simp only [PointLoss.toLoss, pointInit] at h
    split at h
    · cases h; decide
    · rw [bind_eq_ok] at h
      obtain ⟨_, _, h⟩ := h
      simp [pure_eq] at h
  grads := by
    intro s f s' c g hr h hf
    obtain ⟨r, hr1, hr2⟩ := C76_pointwise_defined e he env.numRows none
    rw [pointReach hr, Outcome.ok.injEq] at hr1
    obtain ⟨c', g', k1, k2⟩ := hr2 s hr1.symm f hf
    have h' : pointCompute e s f = ok (s', c, g) := h
    rw [k1, Outcome.ok.injEq] at h'
    cases h'
    exact k2

theorem pointTrainInput {env : TrainEnv D A} {names : List String} {cfg : TrainConfig D} {base : List (Tree D A)}
    (hs : TrainStore env names cfg base) {e : PointLoss D} (he : 0 < e.numThreads) :
    TrainInput env e.toLoss names cfg where
  rows := hs.rows
  sort := hs.sort
  top := hs.top
  examples := hs.examples
  features := hs.features
  group := hs.group
  init := by
    intro g _
    obtain ⟨r, h, _⟩ := C76_pointwise_defined e he env.numRows g
    exact ⟨r, h⟩
  compute := by
    intro s f hr hf
    obtain ⟨r, hr1, hr2⟩ := C76_pointwise_defined e he env.numRows none
    rw [pointReach hr, Outcome.ok.injEq] at hr1
    obtain ⟨c', g', k1, _⟩ := hr2 s hr1.symm f hf
    exact ⟨_, k1⟩

/-- **C77.** Training with a pointwise loss (mse, logloss, huberized hinge, or any other function of target and score)
returns a status, whatever the targets, the weights and the scores: nothing is read out of bounds. -/
theorem C77_pointwise {env : TrainEnv D A} {names : List String} {cfg : TrainConfig D} {base : Option (List (Tree D A))}
    (hs : TrainStore env names cfg (base.getD [])) (e : PointLoss D) (he : 0 < e.numThreads) (p : Nat) :
    ∃ r, trainGBDT env e.toLoss names cfg base [] p = ok r ∧ r.code ∈ [.ok, .invalidArgument, .notFound, .internal] := by
  obtain ⟨r, h⟩ := C69_training_defined (pointTrainInput hs he) (pointTrainData hs he) [] p
  refine ⟨r, h, ?_⟩
  rcases trainGBDT_stages h with ⟨_, h1 | ⟨_, h1⟩ | ⟨g, h1⟩⟩ |
    ⟨hc, features, group, ls, slices, forest1, slices1, f1, stopped, s, hl, hg, hi, hsl, hb, htr, hr⟩
  · rw [h1.1]
    unfold checkConfig
    repeat' split
    all_goals simp
  · rw [loadFeatures_error h1]; simp
  · simp only [PointLoss.toLoss, pointInit] at h1
    split at h1
    · simp only [Outcome.ok.injEq, Except.error.injEq] at h1
      rw [← h1]
      simp
    · rw [bind_eq_ok] at h1
      obtain ⟨_, _, h1⟩ := h1
      simp [pure_eq] at h1
  · rw [hr]
    cases stopped <;> simp

end general

section exact
variable {K A : Type} [Field K] [LinearOrder K] [FpOrder K] [LinearOrder A] [ThrOps A]

/-- **C77 (warm start).** With a pointwise loss, training `m` trees and continuing with `n` more gives the values and the
new trees of training `m + n` trees (exact arithmetic). -/
theorem C77_pointwise_warm_start {env : TrainEnv K A} {names : List String} {cfg : TrainConfig K}
    {base : Option (List (Tree K A))} (hs : TrainStore env names cfg (base.getD [])) (e : PointLoss K)
    (he : 0 < e.numThreads) {p : Nat} {m n : Int} (hn : 0 < n) {r1 r3 : TrainResult K A} (hexact : env.rnd32 = id)
    (h1 : trainGBDT env e.toLoss names { cfg with numTrees := m } base [] p = ok r1) (hok1 : r1.code = .ok)
    (h3 : trainGBDT env e.toLoss names { cfg with numTrees := m + n } base [] p = ok r3) (hok3 : r3.code = .ok) :
    ∃ r2, trainGBDT env e.toLoss names { cfg with numTrees := n } (some r1.forest) [] r1.pos = ok r2 ∧ r2.code = .ok ∧
      r2.f = r3.f ∧ r2.pos = r3.pos ∧
      ∃ k1 k2 k3 trees more, r1.forest = .node k1 none .absent .absent :: trees ∧
        r2.forest = .node k2 none .absent .absent :: (trees.filter (fun t => !isSingleNode t) ++ more) ∧
        r3.forest = .node k3 none .absent .absent :: (trees ++ more) := by
  refine C71_warm_start hn (pointTrainData hs he) hexact ?_ h1 hok1 h3 hok3
  intro s f s' c g hr _ h t ht
  have h1 := pointReach hr
  rw [pointReach ht, Outcome.ok.injEq, Except.ok.injEq] at h1
  subst h1
  exact ⟨s', h⟩

end exact

/-! ## Pairwise -/

section pairwise
variable {D : Type} [Dbl D] [EqOrder D]

theorem pairReach_of {e : PairLoss D} {n : Nat} {G : Option StrCol → Prop} {s : PairState D}
    (h : LossReach n G e.toLoss s) : ∃ g, G g ∧ PairReach e n g s := by
  induction h with
  | init h1 h2 => exact ⟨_, h1, .init h2⟩
  | step _ _ h ih =>
    obtain ⟨g, hg, hr⟩ := ih
    exact ⟨g, hg, .compute hr h⟩

end pairwise

section pairExact
variable {K A : Type} [Field K] [LinearOrder K] [IsStrictOrderedRing K] [FloorSemiring K] [LinearOrder A] [ThrOps A]

/-- What training asks of a pairwise loss: a sort and a generator as the standard says, a thread, a positive rate with fewer
than 2^31 pairs to draw, and a group column (if any) without missing values in which two rows of some group have different
targets. -/
structure PairInput (env : TrainEnv K A) (cfg : TrainConfig K) (e : PairLoss K) : Prop where
  sort : DescSortSpec e.sort
  draw : ∀ t g i n, 0 < n → e.draw t g i n < n
  threads : 0 < e.numThreads
  ofNat : ∀ n : Nat, e.ofNat n = n
  toU64 : ∀ x : K, 0 ≤ x → x < 18446744073709551616 → e.toU64 x = some ⌊x⌋₊
  rate : 0 < e.rate
  bound : e.rate * env.numRows / 2 < 2147483648
  pair : ∃ i < env.numRows, ∃ j < env.numRows, e.y i < e.y j ∧ (cfg.groupColumn = "" ∨ ∃ c x,
    env.columns cfg.groupColumn = some (.str c) ∧ c.rowString i = ok x ∧ c.rowString j = ok x)
  missing : ∀ c, cfg.groupColumn ≠ "" → env.columns cfg.groupColumn = some (.str c) →
    ∀ i < env.numRows, c.rowString i ≠ ok "__missing__"

theorem pairTrainData {env : TrainEnv K A} {names : List String} {cfg : TrainConfig K} {base : List (Tree K A)}
    (hs : TrainStore env names cfg base) {e : PairLoss K} (he : DescSortSpec e.sort) : TrainData env e.toLoss base where
  rows := fun _ _ h => (hs.rows _ _ h).hasRows
  threads := hs.threads
  scorable := hs.scorable
  features := hs.baseFeatures
  status := by
    intro n g code h
    simp only [PairLoss.toLoss, pairInit] at h
    split at h
    · cases h; decide
    · simp only [bind_eq_ok] at h
      obtain ⟨_, _, _, _, _, _, h⟩ := h
      simp [pure_eq] at h
  grads := by
    intro s f s' c g hr h hf
    obtain ⟨col, _, hr⟩ := pairReach_of hr
    rw [(C75_gradients he hr h).2.1, hf]

theorem pairTrainInput {env : TrainEnv K A} {names : List String} {cfg : TrainConfig K} {base : List (Tree K A)}
    (hs : TrainStore env names cfg base) {e : PairLoss K} (he : PairInput env cfg e) :
    TrainInput env e.toLoss names cfg := by
  -- the group column, if there is one
  have hcol : ∀ g, groupOrDie env.columns cfg.groupColumn = ok g →
      (g = none ∧ cfg.groupColumn = "") ∨ ∃ blocks, g = some (StrCol.build blocks) ∧ blocks.flatten.length = env.numRows ∧
        env.numRows + 1 < 2 ^ 32 ∧ "__missing__" ∉ blocks.flatten ∧ cfg.groupColumn ≠ "" ∧
        env.columns cfg.groupColumn = some (.str (StrCol.build blocks)) := by
    intro g hg
    unfold groupOrDie at hg
    split at hg
    · next h =>
      rw [Outcome.ok.injEq] at hg
      exact Or.inl ⟨hg.symm, h⟩
    · next hne =>
      split at hg
      · next c hc =>
        rw [Outcome.ok.injEq] at hg
        cases hs.rows _ _ hc with
        | str blocks hlen hsize =>
          refine Or.inr ⟨blocks, hg.symm, hlen, hsize, ?_, hne, hc⟩
          intro hm
          obtain ⟨i, hi, hx⟩ := List.mem_iff_getElem.mp hm
          apply he.missing _ hne hc i (by omega)
          rw [(C01_string_roundtrip blocks (by omega)).2 i hi, hx]
      · cases hg
  constructor
  · exact hs.rows
  · exact hs.sort
  · exact hs.top
  · exact hs.examples
  · exact hs.features
  · exact hs.group
  · intro g hg
    refine C53_init_partial he.threads ?_ (fun r => by simp [NotNaN])
    rcases hcol g hg with ⟨rfl, _⟩ | ⟨blocks, rfl, h1, h2, h3, _⟩
    · exact Or.inl rfl
    · exact Or.inr ⟨blocks, rfl, by omega, h3⟩
  · intro s f hr hf
    obtain ⟨col, hg, hr⟩ := pairReach_of hr
    obtain ⟨i, hi, j, hj, hij, hgrp⟩ := he.pair
    rcases hcol col hg with ⟨rfl, _⟩ | ⟨blocks, rfl, h1, h2, h3, h4, h5⟩
    · refine C53_exact_partial he.sort hr he.draw he.ofNat he.toU64 he.rate he.bound (C56_no_column _) ?_ ?_
      · intro rows hrows r hrr
        rw [List.mem_singleton.mp hrows, List.mem_range] at hrr
        omega
      · exact ⟨_, List.mem_singleton.mpr rfl, i, List.mem_range.mpr hi, j, List.mem_range.mpr hj, hij⟩
    · obtain ⟨groups, k1, k2, k3, k4⟩ := C56_groups blocks (by omega) h3 env.numRows
      refine C53_exact_partial he.sort hr he.draw he.ofNat he.toU64 he.rate he.bound k1 ?_ ?_
      · intro rows hrows r hrr
        have := k2.mem_iff.mp (List.mem_flatten.mpr ⟨rows, hrows, hrr⟩)
        rw [List.mem_range] at this
        omega
      · obtain ⟨rows, hrows, hrr⟩ := List.mem_flatten.mp (k2.mem_iff.mpr (List.mem_range.mpr (h1 ▸ hi)))
        refine ⟨rows, hrows, i, hrr, j, ?_, hij⟩
        rcases hgrp with h | ⟨c, x, c1, c2, c3⟩
        · exact absurd h h4
        · rw [h5] at c1
          cases c1
          have hrow := (C01_string_roundtrip blocks (by omega)).2
          rw [hrow i (by omega), Outcome.ok.injEq] at c2
          rw [hrow j (by omega), Outcome.ok.injEq] at c3
          refine (k4 rows hrows i hrr j).mpr ⟨x, ?_, ?_⟩
          · rw [List.getElem?_eq_getElem (by omega), c3]
          · rw [List.getElem?_eq_getElem (by omega), c2]

/-- **C77 (pairwise losses, exact arithmetic).** Training with a pairwise loss (auc, pairwise logloss, gbrank, lambdamart,
or any other function of the differences) returns a status under the conditions of `PairInput`. -/
theorem C77_pairwise [FpOrder K] {env : TrainEnv K A} {names : List String} {cfg : TrainConfig K}
    {base : Option (List (Tree K A))}
    (hs : TrainStore env names cfg (base.getD [])) (e : PairLoss K) (he : PairInput env cfg e) (p : Nat) :
    ∃ r, trainGBDT env e.toLoss names cfg base [] p = ok r :=
  C69_training_defined (pairTrainInput hs he) (pairTrainData hs he.sort) [] p

end pairExact

/-! ## Examples -/

/-- The store, machine and configuration of the examples of `Props/Train.lean` meet `TrainStore`. -/
theorem trainStore : TrainStore trainEnv ["color", "size"] trainCfg trainBase where
  rows := fun _ _ h => fitCols_rows h
  threads := by decide
  sort := ratSort_spec
  top := ratTop_spec
  examples := by simp [trainEnv]
  features := by simp [trainEnv]
  group := Or.inl rfl
  scorable := trainBase_scorable
  baseFeatures := trainData.features

/-- Squared error and pairwise hinge on that store: both runs succeed, and change the predictions. -/
example : (match trainGBDT trainEnv { ratMse with y := fun i => trainTargets.getD i 0 }.toLoss ["color", "size"] trainCfg
      (some trainBase) [] 0, trainGBDT trainEnv ratPairLoss.toLoss ["color", "size"] trainCfg none [] 0 with
    | .ok r, .ok r' => decide (r.code = .ok ∧ r.forest.length = 4 ∧ r'.code = .ok ∧ r'.f ≠ [0, 0, 0, 0, 0])
    | _, _ => false) = true := by decide +kernel

/-- The pairwise loss of the examples meets `PairInput`. -/
example : PairInput trainEnv trainCfg ratPairLoss where
  sort := ratDescSort_spec
  draw := fun _ _ _ _ h => Nat.mod_lt _ h
  threads := by decide
  ofNat := fun _ => rfl
  toU64 := fun x _ _ => by
    show some x.floor.toNat = some ⌊x⌋₊
    rw [← Int.floor_toNat]
    rfl
  rate := by decide +kernel
  bound := by decide +kernel
  pair := ⟨2, by decide, 0, by decide, by decide +kernel, Or.inl rfl⟩
  missing := fun _ h => absurd rfl h

end Gbdt
