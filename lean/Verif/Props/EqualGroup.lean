import Verif.Props.Pairwise
import Verif.Props.PairwiseDefined
import Verif.Props.PairCounts
import Verif.Props.FitTree

/-!
# C203: rows whose group has only one target

Pairwise losses learn from pairs of rows of a group with different targets; a row without such a partner does not count.
-/

set_option autoImplicit false
set_option linter.unusedSectionVars false

namespace Gbdt

open Outcome

section
variable {K : Type} [Field K] [LinearOrder K]

/-- Every drawn pair is a pair of rows of one group with different targets. -/
theorem drawn_partners {e : PairLoss K} (hsort : DescSortSpec e.sort) {numRows : Nat} {col : Option StrCol}
    {s s' : PairState K} {f : List K} {c : K} {grads : List (GD K)} (hr : PairReach e numRows col s)
    (h : pairCompute e s f = ok (s', c, grads)) {groups : List (List Nat)} (hg : rowGroups numRows col = ok groups) :
    ∃ ds : List (Draw K), (∀ d ∈ ds, ∃ rows ∈ groups, d.pos ∈ rows ∧ d.neg ∈ rows ∧ e.y d.neg < e.y d.pos) ∧
      ∀ r, gOf grads r = (ds.map (pull r)).sum ∧ hOf grads r = (ds.map (push (e.ofNat 2) r)).sum := by
  have hinv := hr.inv hsort
  obtain ⟨_, _, draws, _, hd, hv⟩ := C75_gradients hsort hr h
  have hperm := List.forall₂_iff_get.mp (hinv.rows hsort hg)
  refine ⟨draws.flatten, fun d hdm => ?_, hv⟩
  obtain ⟨ds, hds, hdd⟩ := List.mem_flatten.mp hdm
  obtain ⟨index, hi⟩ := List.getElem?_of_mem hds
  obtain ⟨g0, hg0, hm⟩ := (hd index ds hi).rows hsort hinv.kept
  obtain ⟨m1, m2, m3⟩ := hm d hdd
  obtain ⟨hlt, rfl⟩ := List.getElem?_eq_some_iff.mp hg0
  have hp := hperm.2 index (by omega) hlt
  simp only [List.get_eq_getElem] at hp
  rw [hp.mem_iff] at m1 m2
  exact ⟨_, List.getElem_mem (by omega), m1, m2, m3⟩

/-- A row of which every row of the same group has the same target gets gradient and hessian zero. -/
theorem lonely_zero {e : PairLoss K} (hsort : DescSortSpec e.sort) {numRows : Nat} {col : Option StrCol}
    {s s' : PairState K} {f : List K} {c : K} {grads : List (GD K)} (hr : PairReach e numRows col s)
    (h : pairCompute e s f = ok (s', c, grads)) {groups : List (List Nat)} (hg : rowGroups numRows col = ok groups) {r : Nat}
    (hsame : ∀ rows ∈ groups, r ∈ rows → ∀ j ∈ rows, e.y j = e.y r) : gOf grads r = 0 ∧ hOf grads r = 0 := by
  obtain ⟨ds, h1, h2⟩ := drawn_partners hsort hr h hg
  have key : ∀ d ∈ ds, r ≠ d.pos ∧ r ≠ d.neg := by
    intro d hd
    obtain ⟨rows, hrows, m1, m2, hlt⟩ := h1 d hd
    constructor
    · rintro rfl
      rw [hsame rows hrows m1 _ m2] at hlt
      exact lt_irrefl _ hlt
    · rintro rfl
      rw [hsame rows hrows m2 _ m1] at hlt
      exact lt_irrefl _ hlt
  rw [(h2 r).1, (h2 r).2]
  constructor
  · apply List.sum_eq_zero
    intro x hx
    obtain ⟨d, hd, rfl⟩ := List.mem_map.mp hx
    simp [pull, key d hd]
  · apply List.sum_eq_zero
    intro x hx
    obtain ⟨d, hd, rfl⟩ := List.mem_map.mp hx
    simp [push, key d hd]

/-- Specification: every row with the same group as row `r` has the same target as row `r`. -/
def Lonely (groups : List String) (y : Nat → K) (r : Nat) : Prop :=
  ∀ j < groups.length, groups[j]? = groups[r]? → y j = y r

/-- **C203.** With a pairwise loss (in exact arithmetic, whatever is drawn), a row of which all rows of its group have the same target gets gradient and
hessian zero in every round. -/
theorem C203_no_partner {e : PairLoss K} (hsort : DescSortSpec e.sort) {blocks : List (List String)} (hsize : blocks.flatten.length + 1 < 2 ^ 32)
    (hm : "__missing__" ∉ blocks.flatten) {numRows : Nat} {s s' : PairState K} {f : List K} {c : K} {grads : List (GD K)}
    (hr : PairReach e numRows (some (StrCol.build blocks)) s) (h : pairCompute e s f = ok (s', c, grads)) {r : Nat}
    (hlonely : Lonely blocks.flatten e.y r) : gOf grads r = 0 ∧ hOf grads r = 0 := by
  obtain ⟨groups, hg, _, _, hmem⟩ := C56_groups blocks hsize hm numRows
  refine lonely_zero hsort hr h hg (fun rows hrows hin j hj => ?_)
  obtain ⟨x, hx, hx'⟩ := (hmem rows hrows r hin j).mp hj
  exact hlonely j (List.getElem?_eq_some_iff.mp hx).1 (by rw [hx, hx'])

/-- **C203.** The same without a group column, where all rows are one group. -/
theorem C203_no_group_column {e : PairLoss K} (hsort : DescSortSpec e.sort) {numRows : Nat} {s s' : PairState K} {f : List K} {c : K} {grads : List (GD K)}
    (hr : PairReach e numRows none s) (h : pairCompute e s f = ok (s', c, grads)) {r : Nat}
    (hsame : ∀ j < numRows, e.y j = e.y r) : gOf grads r = 0 ∧ hOf grads r = 0 := by
  refine lonely_zero hsort hr h (C56_no_column numRows) (fun rows hrows _ j hj => hsame j ?_)
  rw [List.mem_singleton.mp hrows] at hj
  exact List.mem_range.mp hj

end

section tree
variable {K : Type} [Field K] [LinearOrder K] [IsStrictOrderedRing K] {A : Type} [LinearOrder A] [ThrOps A]

/-- **C203.** A node (leaf) of a tree fitted to such gradients that only such rows reach scores zero: the tree does not move their predictions. -/
theorem C203_leaf {e : PairLoss K} (hsort : DescSortSpec e.sort) {blocks : List (List String)} (hsize : blocks.flatten.length + 1 < 2 ^ 32)
    (hm : "__missing__" ∉ blocks.flatten) {numRows : Nat} {s s' : PairState K} {f : List K} {c : K}
    {env : FitEnv K A} (hr : PairReach e numRows (some (StrCol.build blocks)) s) (h : pairCompute e s f = ok (s', c, env.grads))
    {cfg : FitConfig K} {columns : String → Option (Column A)} (hd : FitData env columns)
    (hrnd : ∀ y, env.rnd32 y = y) {p q : Nat} {t : Tree K A} (ht : fitTree env cfg p = ok (t, q)) {samples : List Nat} {p1 : Nat}
    (hs : uniformSubsample env.toInt env.ofNat env.draw env.grads.length cfg.exampleRate p = ok (samples, p1))
    {path : List Bool} {x : K} {sp : Option (Split K A)} {l r : Tree K A} (hnode : t.at? path = some (.node x sp l r))
    (hlonely : ∀ i ∈ samples, passes columns t path i = true → Lonely blocks.flatten e.y i) : x = 0 := by
  obtain ⟨h1, h2, _⟩ := C35_newton_step hd hrnd ht hs hnode
  have hG : ((samples.filter (passes columns t path)).map (fun i => (weighted env.w env.grads i).g)).sum = 0 := by
    apply List.sum_eq_zero
    intro y hy
    obtain ⟨i, hi, rfl⟩ := List.mem_map.mp hy
    obtain ⟨hi1, hi2⟩ := List.mem_filter.mp hi
    have := (C203_no_partner hsort hsize hm hr h (hlonely i hi1 hi2)).1
    rw [gOf] at this
    simp only [weighted]
    cases hi' : env.grads[i]? with
    | none => rfl
    | some d =>
      rw [hi'] at this
      simp only at this
      simp only [GD.scale, this]
      ring
  rw [hG, zero_div] at h1
  by_cases hz : ((samples.filter (passes columns t path)).map (fun i => (weighted env.w env.grads i).h)).sum + cfg.l2Lambda = 0
  · exact h2 hz
  · exact h1 hz

end tree

/-- Three groups; the second has only one target. -/
def threeGroups : List (List String) := [["a", "b", "a"], ["b", "c", "c"]]

/-- Hypotheses of C203 met: the rows of group `b` are lonely, those of the others are not, and gradients are computed. -/
example : "__missing__" ∉ threeGroups.flatten ∧
    (match pairInit (fewLoss 4 (fun i => ([1, 2, 2, 2, 1, 3] : List ℚ).getD i 0)) 6 (some (StrCol.build threeGroups)) with
    | .ok (.ok s) => match pairCompute (fewLoss 4 (fun i => ([1, 2, 2, 2, 1, 3] : List ℚ).getD i 0)) s [0, 0, 0, 0, 0, 0] with
      | .ok (_, _, grads) => decide (gOf grads 0 ≠ 0 ∧ gOf grads 1 = 0 ∧ hOf grads 1 = 0 ∧ gOf grads 3 = 0 ∧ gOf grads 5 ≠ 0)
      | _ => false
    | _ => false) = true := by decide +kernel

example : Lonely threeGroups.flatten (fun i => ([1, 2, 2, 2, 1, 3] : List ℚ).getD i 0) 1 ∧
    ¬ Lonely threeGroups.flatten (fun i => ([1, 2, 2, 2, 1, 3] : List ℚ).getD i 0) 0 := by
  constructor
  · have : ∀ j < 6, threeGroups.flatten[j]? = threeGroups.flatten[1]? → ([1, 2, 2, 2, 1, 3] : List ℚ).getD j 0 = 2 := by decide +kernel
    exact this
  · intro h
    have := h 2 (by decide) (by decide)
    revert this
    decide +kernel

end Gbdt
