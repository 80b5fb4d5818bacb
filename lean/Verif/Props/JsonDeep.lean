import Verif.Props.Json

/-!
# C100: a trained forest that cannot be saved
-/

set_option autoImplicit false

namespace Gbdt

open Outcome

/-- **C100 in full.** Every forest that `train` returns can be written as JSON. -/
def C100_full {N : Type} (nc : NumCodec ℚ ℚ N) : Prop :=
  ∀ (t : DataStore ℚ) (n : Nat) (c : Config ℚ) (nt : Int) (y w : List (Fl ℚ)) (features : List String) (seed : Int)
    (forest : List (Tree ℚ ℚ)) (info : String), PyInput ratMachine t n c none nt →
    pyTrain ratMachine (some t) c y features w none seed nt = ok (.ok forest) →
    ∃ j, forestToJson nc 64 ⟨forest, info⟩ = .ok j

/-- 64 rows with targets 1, 4, 16, ...: the best split always cuts off the largest. -/
def deepStore : PyRes (Option (DataStore ℚ)) :=
  PyStore.fromDict (10 ^ 40) 100 id [("x", (List.range 64).map (fun k : Nat => Fl.num (k : ℚ)))] []
    [("y", (List.range 64).map (fun k : Nat => Fl.num ((4 : ℚ) ^ k)))]

/-- One tree of up to 64 leaves. -/
def deepCfg : Config ℚ := { pyCfg with numTrees := 1, numLeaves := 64, l2Lambda := 0 }

theorem deepRun : (match deepStore with
    | .ok (.ok (some t)) => match pyTrain ratMachine (some t) deepCfg [] ["x"] [] none 1 2 with
      | .ok (.ok f) => decide (f.map treeNesting = [1, 65])
      | _ => false
    | _ => false) = true := by
  decide +kernel

/-- The hypotheses of C87 and C100 hold for that data. -/
theorem deepInput {t : DataStore ℚ} (h : deepStore = ok (.ok (some t))) : PyInput ratMachine t 64 deepCfg none 2 := by
  obtain ⟨h1, h2, _⟩ := C87_from_dict (10 ^ 40 : ℚ) (by decide) (fun _ => List.Perm.refl _) (n := 64) (by decide)
    (by decide) (by
      intro p hp
      rw [List.mem_singleton.mp hp]
      refine ⟨by simp, ?_⟩
      intro v hv
      simp only [List.mem_map, List.mem_range, Fl.num.injEq] at hv
      obtain ⟨k, hk, rfl⟩ := hv
      have : (k : ℚ) < 64 := by exact_mod_cast hk
      linarith [show (64 : ℚ) ≤ 10 ^ 40 by norm_num]) (by decide) (by
      intro p hp
      rw [List.mem_singleton.mp hp]
      refine ⟨by simp, ?_⟩
      intro v hv
      simp only [List.mem_map, List.mem_range, Fl.num.injEq] at hv
      obtain ⟨k, hk, rfl⟩ := hv
      calc (4 : ℚ) ^ k ≤ 4 ^ 64 := pow_le_pow_right₀ (by norm_num) (by omega)
        _ ≤ 10 ^ 40 := by norm_num) h
  exact
    { machine :=
        { sort := ratSort_spec
          top := ratTop_spec
          listing := fun l => l.reverse_perm
          toInt := by intros; simp [ratMachine] }
      store := h1
      rowCount := by decide
      columnCount := by rw [h2]; decide
      loss := by decide
      exampleRate := by simp [NotNaN, deepCfg, pyCfg]
      featureRate := by simp [NotNaN, deepCfg, pyCfg]
      threads := by decide
      group := Or.inl rfl
      base := ⟨fun _ h => absurd h (by simp [forestFeatures]), fun _ h => absurd h (by simp)⟩ }

/-- **C100 refuted.** A tree of 64 leaves, one below the other, is nested too deep for protobuf: `str(forest)` raises, and the
command line aborts when training is done (`main.cc:151-152`). -/
theorem C100_refuted {N : Type} (nc : NumCodec ℚ ℚ N) : ¬ C100_full nc := by
  intro hfull
  have hrun := deepRun
  split at hrun
  · next t ht =>
    split at hrun
    · next f hf =>
      have hn := of_decide_eq_true hrun
      obtain ⟨j, hj⟩ := hfull t 64 deepCfg 2 [] [] ["x"] 1 f "" (deepInput ht) hf
      have := (C99_saving nc 64 ⟨f, ""⟩).mp ⟨j, hj⟩
      have hm : (65 : Nat) ∈ f.map treeNesting := by rw [hn]; simp
      obtain ⟨tr, htr, he⟩ := List.mem_map.mp hm
      have := this tr htr
      omega
    · cases hrun
  · cases hrun

end Gbdt
