import Verif.Props.Train

/-!
# C73: each round of training fits a tree to the gradients of the loss at the current function values

Specification: `Boosts` describes a run of boosting rounds.  It says nothing about slices, vectors updated in place or the
forest: before each round the function values are what the trees and constants so far add up to (`valueOf`).
-/

set_option autoImplicit false
set_option linter.unusedSectionVars false

namespace Gbdt
open Outcome

section spec
variable {S D A : Type} [Dbl D] [LinearOrder A]

/-- The function values are what the trees and constants add up to. -/
def ValuesOf (env : TrainEnv D A) (added : List (Tree D A × D)) (f : List D) : Prop :=
  f.length = env.numRows ∧ ∀ i < env.numRows, ∃ v, f[i]? = some v ∧ valueOf env.columns i added v

variable [ThrOps A]

/-- Rounds of boosting that start with the loss in state `s`, the generator at `p` and the trees and constants `before`:
each asks the loss for a constant and gradients at the current values, fits a tree to the gradients and shrinks it. -/
inductive Boosts (env : TrainEnv D A) (loss : LossFunc S D) (features : List (String × Column A)) (cfg : TrainConfig D) :
    S → Nat → List (Tree D A × D) → List (Tree D A × D) → S → Nat → Prop
  | done (s : S) (p : Nat) (before : List (Tree D A × D)) : Boosts env loss features cfg s p before [] s p
  | round {s s1 s2 : S} {p p1 p2 : Nat} {before after : List (Tree D A × D)} {f : List D} {c : D} {grads : List (GD D)}
      {t : Tree D A} :
      ValuesOf env before f → loss.compute s f = ok (s1, c, grads) → env.diverged c = false →
      fitTree (env.fit features grads) cfg.fit p = ok (t, p1) →
      Boosts env loss features cfg s1 p1 (before ++ [(applyShrinkage env.rnd32 cfg.shrinkage t, c)]) after s2 p2 →
      Boosts env loss features cfg s p before ((applyShrinkage env.rnd32 cfg.shrinkage t, c) :: after) s2 p2

end spec

section proofs
variable {S D A : Type} [Dbl D] [LinearOrder A] [ThrOps A] [FpOrder D]

theorem trainLoop_boosts {env : TrainEnv D A} {G : Option StrCol → Prop} {loss : LossFunc S D} {features : List (String × Column A)}
    {cfg : TrainConfig D} (hcols : ∀ name c, env.columns name = some c → HasRows env.numRows c)
    (hloss : ∀ s f s' c g, LossReach env.numRows G loss s → loss.compute s f = ok (s', c, g) → f.length = env.numRows →
      g.length = env.numRows)
    (hfit : ∀ t1, FittedTree env features cfg t1 → Scorable env.columns t1) :
    ∀ (n : Nat) {k : D} {rest : List (Tree D A)} {l : List (Tree D A × D)} {s s' : TrainState S D A} {stopped : Bool},
      s.forest = .node k none .absent .absent :: rest → LossReach env.numRows G loss s.loss →
      (∀ x ∈ l, Scorable env.columns x.1) →
      Slices env.numRows s.slices → Added env.columns env.numRows l s.f →
      trainLoop env loss features cfg 0 n s = ok (stopped, s') →
      ∃ (rounds : List (Tree D A × D)) (ls : S),
        Boosts env loss features cfg s.loss s.pos l rounds ls s'.pos ∧
        s'.forest = .node (addConstants env.rnd32 k (rounds.map Prod.snd)) none .absent .absent ::
          (rest ++ rounds.map Prod.fst) ∧
        ValuesOf env (l ++ rounds) s'.f ∧
        (if stopped then rounds.length < n ∧
          ∃ ls' c g, loss.compute ls s'.f = ok (ls', c, g) ∧ env.diverged c = true ∧ s'.loss = ls'
        else rounds.length = n ∧ s'.loss = ls)
  | 0, k, rest, l, s, s', stopped, hf, hr, hsc, hs, ha, h => by
    rw [trainLoop, Outcome.ok.injEq, Prod.mk.injEq] at h
    obtain ⟨rfl, rfl⟩ := h
    refine ⟨[], s.loss, .done _ _ _, by simp [hf, addConstants], ?_, by simp⟩
    rw [List.append_nil]
    exact ⟨ha.1, fun i hi => ⟨_, ha.2 i hi, valueOf_scoreD hi hcols _ hsc⟩⟩
  | n + 1, k, rest, l, s, s', stopped, hf, hr, hsc, hs, ha, h => by
    have hv : ValuesOf env l s.f := ⟨ha.1, fun i hi => ⟨_, ha.2 i hi, valueOf_scoreD hi hcols _ hsc⟩⟩
    rw [trainLoop, bind_eq_ok] at h
    obtain ⟨⟨ls, constant, grads⟩, h1, h2⟩ := h
    have hg := hloss _ _ _ _ _ hr h1 ha.1
    simp only at h2
    by_cases hd : env.diverged constant = true
    · simp only [hd, if_true, pure_eq, Outcome.ok.injEq, Prod.mk.injEq] at h2
      obtain ⟨rfl, rfl⟩ := h2
      refine ⟨[], s.loss, .done _ _ _, by simp [hf, addConstants], by simpa using hv, ?_⟩
      simp only [if_true]
      exact ⟨by simp, _, _, _, h1, hd, rfl⟩
    · rw [if_neg hd, bind_eq_ok] at h2
      obtain ⟨⟨t, pos⟩, h3, h4⟩ := h2
      simp only [bind_eq_ok] at h4
      obtain ⟨⟨ss, sc⟩, h5, h6⟩ := h4
      have ht : FittedTree env features cfg (applyShrinkage env.rnd32 cfg.shrinkage t) :=
        ⟨grads, t, s.pos, pos, hg, h3, rfl⟩
      obtain ⟨g1, g2⟩ := ha.add hcols hs (hfit _ ht) h5
      simp only [hf, List.cons_append, List.modify_zero_cons, addRootScore] at h6
      have hsc' : ∀ x ∈ l ++ [(applyShrinkage env.rnd32 cfg.shrinkage t, constant)], Scorable env.columns x.1 := by
        intro x hx
        rcases List.mem_append.mp hx with hx | hx
        · exact hsc x hx
        · rw [List.mem_singleton.mp hx]; exact hfit _ ht
      obtain ⟨rounds, ls', k1, k2, k3, k4⟩ := trainLoop_boosts hcols hloss hfit n rfl (hr.step ha.1 h1) hsc' g1 g2 h6
      refine ⟨(applyShrinkage env.rnd32 cfg.shrinkage t, constant) :: rounds, ls', ?_, ?_, ?_, ?_⟩
      · exact .round hv h1 (by simpa using hd) h3 k1
      · rw [k2]; simp [addConstants]
      · simpa using k3
      · cases stopped
        · simp only [Bool.false_eq_true, if_false, List.length_cons] at k4 ⊢
          exact ⟨by omega, k4.2⟩
        · simp only [if_true, List.length_cons] at k4 ⊢
          exact ⟨by omega, k4.2⟩

/-- **C73.** A successful run consists of `num_trees` rounds of boosting that start from the base forest and from a loss
initialised with the number of rows and the group column; the forest and the function values are what they produce. -/
theorem C73_rounds {env : TrainEnv D A} {loss : LossFunc S D} {names : List String} {cfg : TrainConfig D}
    {base : Option (List (Tree D A))} {p : Nat} {r : TrainResult D A} (hd : TrainData env loss (base.getD []))
    (h : trainGBDT env loss names cfg base [] p = ok r) (hok : r.code = .ok) :
    ∃ features group start rounds finish, loadFeatures env.columns names = .ok features ∧
      groupOrDie env.columns cfg.groupColumn = ok group ∧ loss.init env.numRows group = ok (.ok start) ∧
      Boosts env loss features cfg start p ((base.getD []).map (fun t => (t, 0))) rounds finish r.pos ∧
      (rounds.length : Int) = cfg.numTrees ∧
      ValuesOf env ((base.getD []).map (fun t => (t, 0)) ++ rounds) r.f ∧
      r.forest = .node (constantOf env.rnd32
          (((base.getD []).filter isSingleNode).map rootScore ++ rounds.map Prod.snd)) none .absent .absent ::
        ((base.getD []).filter (fun t => !isSingleNode t) ++ rounds.map Prod.fst).map clearInternal := by
  rcases trainGBDT_stages h with ⟨_, h1 | ⟨_, h1⟩ | ⟨g, h1⟩⟩ |
    ⟨hc, features, group, ls, slices, forest1, slices1, f1, stopped, s, hl, hg, hi, hsl, hb, htr, hr⟩
  · exact absurd hok h1.2
  · have := loadFeatures_error h1
    rw [hok] at this
    cases this
  · exact absurd hok (hd.status _ _ _ h1)
  · have hs : Slices env.numRows slices := by
      obtain ⟨sl, e1, e2⟩ := scoreSlices_ok hd.threads env.numRows
      rw [hsl, Outcome.ok.injEq] at e1
      subst e1
      exact e2
    have ha : Added env.columns env.numRows ([] : List (Tree D A × D)) (List.replicate env.numRows (0 : D)) :=
      ⟨by simp, fun i hi => by simp [hi]⟩
    obtain ⟨e1, e2, e3⟩ := initWithBase_spec hd.rows (base.getD []) (rest := []) hd.scorable hs ha hb
    subst e1
    rw [List.nil_append] at e3
    obtain ⟨rounds, ls', k1, k2, k3, k4⟩ := trainLoop_boosts hd.rows hd.grads
      (fun t ht => ht.scorable hd hl) cfg.numTrees.toNat rfl (.init (groupOrDie_col hg) hi)
      (by intro x hx; obtain ⟨t, ht, rfl⟩ := List.mem_map.mp hx; exact hd.scorable t ht) e2 e3 htr
    cases stopped with
    | true => subst hr; cases hok
    | false =>
      simp only [Bool.false_eq_true, if_false] at hr k4
      subst hr
      have hpos : 0 < cfg.numTrees := by
        unfold checkConfig at hc
        split at hc
        · cases hc
        · omega
      refine ⟨features, group, ls, rounds, ls', hl, hg, hi, k1, by have := k4.1; omega, k3, ?_⟩
      simp only [k2, List.map_cons, clearInternal, List.nil_append]
      congr 2
      simp only [addConstants, constantOf, List.foldl_append]

/-- **C73 (divergence).** If training ends with the divergence status, fewer than `num_trees` rounds took place, and the
constant of the loss at the values they lead to is NaN or infinite. The forest holds the trees so far, not stripped. -/
theorem C73_divergence {env : TrainEnv D A} {loss : LossFunc S D} {names : List String} {cfg : TrainConfig D}
    {base : Option (List (Tree D A))} {p : Nat} {r : TrainResult D A} (hd : TrainData env loss (base.getD []))
    (hinit : ∀ n g, loss.init n g ≠ ok (.error .internal))
    (h : trainGBDT env loss names cfg base [] p = ok r) (hcode : r.code = .internal) :
    ∃ features group start rounds finish finish' c g, loadFeatures env.columns names = .ok features ∧
      groupOrDie env.columns cfg.groupColumn = ok group ∧ loss.init env.numRows group = ok (.ok start) ∧
      Boosts env loss features cfg start p ((base.getD []).map (fun t => (t, 0))) rounds finish r.pos ∧
      (rounds.length : Int) < cfg.numTrees ∧
      ValuesOf env ((base.getD []).map (fun t => (t, 0)) ++ rounds) r.f ∧
      loss.compute finish r.f = ok (finish', c, g) ∧ env.diverged c = true ∧
      r.forest = .node (constantOf env.rnd32
          (((base.getD []).filter isSingleNode).map rootScore ++ rounds.map Prod.snd)) none .absent .absent ::
        ((base.getD []).filter (fun t => !isSingleNode t) ++ rounds.map Prod.fst) := by
  rcases trainGBDT_stages h with ⟨_, h1 | ⟨_, h1⟩ | ⟨g, h1⟩⟩ |
    ⟨hc, features, group, ls, slices, forest1, slices1, f1, stopped, s, hl, hg, hi, hsl, hb, htr, hr⟩
  · rw [hcode] at h1
    have := h1.1
    unfold checkConfig at this
    repeat' split at this
    all_goals cases this
  · have := loadFeatures_error h1
    rw [hcode] at this
    cases this
  · rw [hcode] at h1
    exact absurd h1 (hinit _ _)
  · have hs : Slices env.numRows slices := by
      obtain ⟨sl, e1, e2⟩ := scoreSlices_ok hd.threads env.numRows
      rw [hsl, Outcome.ok.injEq] at e1
      subst e1
      exact e2
    have ha : Added env.columns env.numRows ([] : List (Tree D A × D)) (List.replicate env.numRows (0 : D)) :=
      ⟨by simp, fun i hi => by simp [hi]⟩
    obtain ⟨e1, e2, e3⟩ := initWithBase_spec hd.rows (base.getD []) (rest := []) hd.scorable hs ha hb
    subst e1
    rw [List.nil_append] at e3
    obtain ⟨rounds, ls', k1, k2, k3, k4⟩ := trainLoop_boosts hd.rows hd.grads
      (fun t ht => ht.scorable hd hl) cfg.numTrees.toNat rfl (.init (groupOrDie_col hg) hi)
      (by intro x hx; obtain ⟨t, ht, rfl⟩ := List.mem_map.mp hx; exact hd.scorable t ht) e2 e3 htr
    cases stopped with
    | false => subst hr; cases hcode
    | true =>
      simp only [if_true] at hr k4
      subst hr
      obtain ⟨k4, ls2, c, g, k5, k6, _⟩ := k4
      refine ⟨features, group, ls, rounds, ls', ls2, c, g, hl, hg, hi, k1, by omega, k3, k5, k6, ?_⟩
      simp only [k2, List.nil_append]
      congr 2
      simp only [addConstants, constantOf, List.foldl_append]

end proofs

/-- A loss that gives the sum of the values as constant, and diverges in the second round. -/
def growingLoss : LossFunc Unit ℚ where
  init := fun _ _ => ok (.ok ())
  compute := fun _ f => ok ((), f.sum + 1, f.map (fun x => ⟨1 - x, 1⟩))

/-- The run stops after one round: its tree and its constant are in the forest. -/
example : (match trainGBDT { trainEnv with diverged := fun c => decide (3 < c) } growingLoss ["size"] trainCfg none [] 0 with
    | .ok r => decide (r.code = .internal ∧ r.forest.length = 2 ∧ r.forest.head? = some (.node 1 none .absent .absent) ∧
        3 < r.f.sum + 1)
    | _ => false) = true := by decide +kernel

end Gbdt
