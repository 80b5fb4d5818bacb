import Verif.Lemmas.SplitPoint
import Mathlib.Algebra.Order.Ring.Rat
import Mathlib.Algebra.Field.Rat

/-!
# C28: the chosen split point

Specification: `Candidate` (in `Verif/Spec/Split.lean`): all cuts of the list of entries into two non-empty parts, with
missing values on the left or moved to the right, whose hessians pass the limit.
-/

set_option autoImplicit false

namespace Gbdt

variable {D : Type} [Dbl D] [FpOrder D]

/-- **C28 (a split point is found).** It is one of the candidates, its gain is that candidate's and positive, and no
candidate has a larger gain (a candidate with missing values moved to the right is compared only where the gain with
missing values on the left is not NaN). -/
theorem C28_best_candidate (cfg : SplitConfig D) (total : GD D) (missing : Option (GD D)) (data : List (GD D)) (p : Nat)
    (h : (findBestSplitPoint cfg total missing data).leftPoint = some p) :
    let sp := findBestSplitPoint cfg total missing data
    (∃ l r, Candidate cfg total missing data (p + 1) sp.missingOnRight l r sp.gain) ∧
    Dbl.ltb 0 sp.gain = true ∧
    ∀ k b l r g, Candidate cfg total missing data k b l r g → 
      (∀ l' r' g', Candidate cfg total missing data k false l' r' g' → Dbl.eqb g' g' = true) →
      Dbl.ltb sp.gain g = false := by
  intro sp
  have hi := findBestSplitPoint_inv cfg total missing data
  obtain ⟨h1, h2, old, h3⟩ := hi.some p h
  refine ⟨h1, h2, ?_⟩
  intro k b l r g hc hn
  have := hi.best k b l r g hc.2.1 hc hn
  rwa [bar_of_passed h3] at this

/-- **C28 (limits on the gain).** The gain exceeds `min_gain` and the tolerance, provided these are not NaN. -/
theorem C28_exceeds_limits (cfg : SplitConfig D) (total : GD D) (missing : Option (GD D)) (data : List (GD D)) (p : Nat)
    (h : (findBestSplitPoint cfg total missing data).leftPoint = some p)
    (hm : Dbl.eqb cfg.minGain cfg.minGain = true) (ht : Dbl.eqb cfg.tol cfg.tol = true) :
    Dbl.ltb cfg.minGain (findBestSplitPoint cfg total missing data).gain = true ∧
    Dbl.ltb cfg.tol (findBestSplitPoint cfg total missing data).gain = true := by
  obtain ⟨_, _, old, h3⟩ := (findBestSplitPoint_inv cfg total missing data).some p h
  have hmax : Dbl.eqb (Dbl.max cfg.minGain cfg.tol) (Dbl.max cfg.minGain cfg.tol) = true := by
    unfold Dbl.max; split
    · exact ht
    · exact hm
  exact lt_of_max_lt ht (lt_of_max_lt hmax h3).2

/-- **C28 (limit on the hessian).** Both sides of the chosen cut have a hessian above `min_hessian`; a NaN hessian on
the right would not be noticed. -/
theorem C28_hessian_limit (cfg : SplitConfig D) (total : GD D) (missing : Option (GD D)) (data : List (GD D)) (k : Nat)
    (b : Bool) (l r : GD D) (g : D) (h : Candidate cfg total missing data k b l r g) :
    Dbl.ltb cfg.minHessian l.h = true ∧ (Dbl.eqb r.h r.h = true → Dbl.ltb cfg.minHessian r.h = true) := by
  have h1 := h.2.2.2.1
  unfold Dbl.min at h1
  split at h1
  · rename_i hlt
    exact ⟨StrictLt.trans _ _ _ h1 hlt, fun _ => h1⟩
  · rename_i hlt
    refine ⟨h1, fun hr => ?_⟩
    rcases FpOrder.cotrans _ r.h _ hr h1 with h2 | h2
    · exact h2
    · exact absurd h2 hlt

/-- **C28 (no split point).** Then the gain stays 0 and no candidate has a gain above 0, `min_gain` and the
tolerance (with the same proviso on NaN). -/
theorem C28_none (cfg : SplitConfig D) (total : GD D) (missing : Option (GD D)) (data : List (GD D))
    (h : (findBestSplitPoint cfg total missing data).leftPoint = none) :
    (findBestSplitPoint cfg total missing data).gain = 0 ∧
    ∀ k b l r g, Candidate cfg total missing data k b l r g →
      (∀ l' r' g', Candidate cfg total missing data k false l' r' g' → Dbl.eqb g' g' = true) →
      ¬ (Dbl.ltb 0 g = true ∧ Dbl.ltb cfg.minGain g = true ∧ Dbl.ltb cfg.tol g = true) := by
  have hi := findBestSplitPoint_inv cfg total missing data
  obtain ⟨h0, _⟩ := hi.none h
  refine ⟨h0, ?_⟩
  rintro k b l r g hc hn ⟨g1, g2, g3⟩
  have := hi.best k b l r g hc.2.1 hc hn
  rw [h0] at this
  unfold bar at this
  unfold Dbl.max at this
  split at this <;> split at this <;> simp_all

/-- Entries for the examples: a missing bucket and three values. -/
def sampleData : List (GD ℚ) := [⟨2, 1⟩, ⟨-6, 2⟩, ⟨1, 1⟩, ⟨5, 2⟩]

/-- Limits used in the examples. -/
def sampleCfg : SplitConfig ℚ := { l2Lambda := 1, minHessian := 1 / 2, minGain := 1, tol := 1 / 1000000 }

/-- The best cut of `sampleData` is after the second entry with missing values moved to the right; without missing
values it is after the second as well but gains less; with a large `min_gain` there is none. -/
example : findBestSplitPoint sampleCfg ⟨2, 6⟩ (some ⟨2, 1⟩) sampleData =
      { leftPoint := some 1, missingOnRight := true, gain := 36 / 3 + 64 / 5 - 4 / 7 } ∧
    findBestSplitPoint sampleCfg ⟨2, 6⟩ none sampleData =
      { leftPoint := some 1, missingOnRight := false, gain := 16 / 4 + 36 / 4 - 4 / 7 } ∧
    findBestSplitPoint { sampleCfg with minGain := 100 } ⟨2, 6⟩ none sampleData =
      { leftPoint := none, missingOnRight := false, gain := 0 } := by decide +kernel

/-- A candidate that is not the best one. -/
example : Candidate sampleCfg ⟨2, 6⟩ (some ⟨2, 1⟩) sampleData 3 false ⟨-3, 4⟩ ⟨5, 2⟩ (9 / 5 + 25 / 3 - 4 / 7) := by
  refine ⟨by decide, by decide, by decide +kernel, by decide +kernel, by decide +kernel⟩

end Gbdt
