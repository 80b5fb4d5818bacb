import Verif.Props.Pipeline

/-!
# C90: `shrinkage` left out
-/

set_option autoImplicit false
set_option linter.unusedSectionVars false

namespace Gbdt

open Outcome

section exact
variable {S K A : Type} [Field K] [LinearOrder K] [IsStrictOrderedRing K] [LinearOrder A] [ThrOps A]

/-- A tree shrunk by 0 gives 0 to every row. -/
theorem leafOf_shrunk_zero (columns : String → Option (Column A)) (i : Nat) : ∀ (t : Tree K A) (x : List Bool × K),
    leafOf columns (applyShrinkage id 0 t) i = some x → x.2 = 0
  | .absent, x, h => by
    simp only [applyShrinkage, leafOf, Option.some.injEq] at h
    rw [← h]
  | .node score split .absent right, x, h => by
    simp only [applyShrinkage, leafOf, Option.some.injEq] at h
    rw [← h]
    simp
  | .node score none (.node a b c d) right, x, h => by
    simp [applyShrinkage, leafOf] at h
  | .node score (some s) (.node sc sp l r) right, x, h => by
    have ihl := leafOf_shrunk_zero columns i (.node sc sp l r)
    have ihr := leafOf_shrunk_zero columns i right
    simp only [applyShrinkage] at h ihl
    rw [leafOf] at h
    split at h
    · cases h
    · split at h
      · cases h
      · rw [Option.map_eq_some_iff] at h
        obtain ⟨y, h1, h2⟩ := h
        rw [← h2]
        exact ihl y h1
      · rw [Option.map_eq_some_iff] at h
        obtain ⟨y, h1, h2⟩ := h
        rw [← h2]
        exact ihr y h1

theorem boosts_zero {env : TrainEnv K A} {loss : LossFunc S K} {features : List (String × Column A)} {cfg : TrainConfig K}
    (hexact : env.rnd32 = id) (h0 : cfg.shrinkage = 0) {s s' : S} {p p' : Nat} {before rounds : List (Tree K A × K)}
    (h : Boosts env loss features cfg s p before rounds s' p') :
    ∀ x ∈ rounds, ∀ i, (scoreOf env.columns x.1 i).getD 0 = 0 := by
  induction h with
  | done => simp
  | @round _ _ _ _ _ _ _ _ _ _ _ t _ _ _ _ _ ih =>
    intro x hx i
    rcases List.mem_cons.mp hx with rfl | hx
    · simp only [hexact, h0, scoreOf]
      cases hl : leafOf env.columns (applyShrinkage id (0 : K) t) i with
      | none => rfl
      | some y => exact leafOf_shrunk_zero _ _ _ y hl
    · exact ih x hx i

/-- **C90.** With `shrinkage` 0, which is what leaving it out means, `train` returns a forest that predicts for every row what
the base forest does (0, if there is none) plus one constant, which is the same for all rows.  There is no message. -/
theorem C90_constant {mc : Machine K A} {t : DataStore A} {n : Nat} {c : Config K} {base : Option (List (Tree K A))}
    {nt : Int} (hi : PyInput mc t n c base nt) {y w : List (Fl A)} {features : List String} {seed : Int}
    (hexact : mc.rnd32 = id) (h0 : c.shrinkage = 0) {forest : List (Tree K A)}
    (h : pyTrain mc (some t) c y features w base seed nt = ok (.ok forest)) {nt' : Int} (hnt' : 0 < nt') :
    ∃ (k : K) (before after : List K), pyPredict (some t) (base.getD []) nt' = ok (.ok before) ∧
      pyPredict (some t) forest nt' = ok (.ok after) ∧ before.length = n ∧ after = before.map (· + k) := by
  rcases pyTrain_cases hi y w features seed with ⟨_, h'⟩ | ⟨wf, yf, e, r, names, hne, h1, hok, he, _, _, hn, hs, hr⟩
  · rw [h] at h'; cases h'
  · rw [h] at h1
    simp only [Outcome.ok.injEq, Except.ok.injEq] at h1
    subst h1
    have hd := pointTrainData hs (e := e) (he.numThreads ▸ hi.threads)
    obtain ⟨fs, group, start, rounds, finish, _, _, _, hb, _, hv, _⟩ := C73_rounds hd hr hok
    have hz := boosts_zero (env := mkEnv mc t n wf seed nt) hexact h0 hb
    have hp := C39_training_scores_are_predictions hd hexact hr hok hnt'
    obtain ⟨s0, k1, k2, k3⟩ := C37_prediction_exact (columns := t.getColumn) (n := n) (fun _ _ h => (hi.store.col h).hasRows) hnt'
      (base.getD []) hi.base.features hi.base.scorable
    change evaluateForest t.getColumn n nt' _ = _ at hp
    refine ⟨(rounds.map Prod.snd).sum, s0, r.f, ?_, ?_, k2, ?_⟩
    · simp only [pyPredict, hi.store.numRows hne, k1, if_true, Option.getD_some]
    · simp only [pyPredict, hi.store.numRows hne, hp, if_true, Option.getD_some]
    · obtain ⟨hv1, hv2⟩ := hv
      have hv1 : r.f.length = n := hv1
      refine List.ext_getElem? (fun i => ?_)
      by_cases hin : i < n
      · obtain ⟨v, g1, ys, g2, g3⟩ := hv2 i hin
        obtain ⟨xs, m1, m2⟩ := k3 i hin
        rw [g1, List.getElem?_map, m2, Option.map_some, g3]
        congr 1
        have e1 := mapM_getD _ m1
        have e2 := mapM_getD _ g2
        have hlen : ys.length = (List.map Prod.snd ((base.getD []).map (fun t => (t, (0 : K))) ++ rounds)).length := by
          rw [e2]; simp
        rw [foldl_pairs, List.map_fst_zip (le_of_eq hlen), List.map_snd_zip (le_of_eq hlen.symm), zero_add, e1, e2]
        have hr0 : (rounds.map (fun b => (scoreOf (mkEnv mc t n wf seed nt).columns b.1 i).getD 0)).sum = 0 := by
          apply List.sum_eq_zero
          intro x hx
          obtain ⟨b, hb, rfl⟩ := List.mem_map.mp hx
          exact hz b hb i
        rw [List.map_append, List.sum_append, hr0, add_zero, List.map_append, List.sum_append, List.map_map, List.map_map]
        have : (List.map (Prod.snd ∘ fun t : Tree K A => (t, (0 : K))) (base.getD [])).sum = 0 := by
          apply List.sum_eq_zero
          intro x hx
          obtain ⟨b, hb, rfl⟩ := List.mem_map.mp hx
          rfl
        rw [this, zero_add]
        rfl
      · rw [List.getElem?_eq_none (by omega), List.getElem?_map, List.getElem?_eq_none (by omega), Option.map_none]

end exact

/-- The configuration of C87's example without `shrinkage`: training succeeds and all predictions are the same number,
although the targets are 1, 2, 6, 3, 8. -/
example : (match pyRun { pyCfg with shrinkage := 0 } [] ["color", "size"] [] with
    | .ok (.ok l) => decide (l = [4, 4, 4, 4, 4])
    | _ => false) = true := by
  decide +kernel

example {t : DataStore ℚ} (h : pyDict id = ok (.ok (some t))) : PyInput ratMachine t 5 { pyCfg with shrinkage := 0 } none 2 :=
  pyInput h (by decide) rfl

end Gbdt
