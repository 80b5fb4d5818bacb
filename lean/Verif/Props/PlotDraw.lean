import Verif.Model.PlotDraw
import Verif.Props.PartialDependency

/-!
# C191, C192: what partial dependency plots show
-/

set_option autoImplicit false

namespace Gbdt

/-- What `numpy.argsort` promises: all indices, in an order in which the numbers do not go down. -/
structure Argsorts (argsort : List ℝ → List Nat) : Prop where
  all : ∀ l, (argsort l).Perm (List.range l.length)
  sorted : ∀ l, (takeAll l (argsort l)).Pairwise (· ≤ ·)

/-! ## Bars -/

theorem takeAll_range {α : Type} : ∀ l : List α, takeAll l (List.range l.length) = l
  | [] => rfl
  | a :: l => by
    have ih := takeAll_range l
    rw [takeAll] at ih
    rw [takeAll, List.length_cons, List.range_succ_eq_map, List.filterMap_cons_some (b := a) (by simp), List.filterMap_map]
    congr 1

theorem takeAll_map {α β : Type} (f : α → β) (l : List α) (order : List Nat) : takeAll (l.map f) order = (takeAll l order).map f := by
  rw [takeAll, takeAll, List.map_filterMap]
  exact List.filterMap_congr (fun i _ => by simp)

/-- **C191 (bars).** In the chart for categories every bar stands above the label of its category: labels and bars, taken together, are the categories with the
mean and the deviation of their differences, each once; and the bars do not go down from left to right. -/
theorem C191_bars {argsort : List ℝ → List Nat} (h : Argsorts argsort) (out : List (String × List ℝ)) :
    (drawBars argsort out).labels.length = (drawBars argsort out).bars.length ∧
      ((drawBars argsort out).labels.zip (drawBars argsort out).bars).Perm (out.map (fun p => (p.1, plotMean p.2, plotStd p.2))) ∧
      ((drawBars argsort out).bars.map Prod.fst).Pairwise (· ≤ ·) := by
  have hord : (takeAll out (argsort (out.map (fun p => plotMean p.2)))).Perm out := by
    have h1 := h.all (out.map (fun p => plotMean p.2))
    rw [List.length_map] at h1
    have h2 := h1.filterMap (fun i => out[i]?)
    have h3 := takeAll_range out
    rw [takeAll] at h3
    rw [h3] at h2
    exact h2
  have hs := h.sorted (out.map (fun p => plotMean p.2))
  simp only [drawBars]
  rw [takeAll_map] at hs
  rw [takeAll_map, takeAll_map, takeAll_map]
  refine ⟨by simp, ?_, ?_⟩
  · rw [List.zip_map', List.zip_map']
    exact hord.map _
  · rw [List.zip_map', List.map_map]
    exact hs

/-- **C191 (the base).** The value that the others are compared with is drawn at 0, without deviation. -/
theorem C191_base {A : Type} [LinearOrder A] {forest : List (Tree ℝ A)} {n : Nat} {row : Nat → String → Option (Cell A)} {feature : String} {base : Cell A}
    {out : List (Cell A × List ℝ)} (h : ShowsDifferences forest n row feature base out) {p : Cell A × List ℝ} (hp : p ∈ out) (hb : p.1 = base) :
    plotMean p.2 = 0 ∧ plotStd p.2 = 0 := by
  obtain ⟨hlen, hi⟩ := h p hp
  have hz : p.2 = List.replicate n 0 := by
    refine List.eq_replicate_iff.mpr ⟨hlen, fun d hd => ?_⟩
    obtain ⟨i, hi1, rfl⟩ := List.getElem_of_mem hd
    obtain ⟨a, b, h1, h2, h3⟩ := hi i (hlen ▸ hi1)
    rw [hb, h2, Option.some.injEq] at h1
    rw [List.getElem?_eq_getElem hi1, Option.some.injEq] at h3
    rw [h3, h1]
    exact sub_self a
  have hm : plotMean p.2 = 0 := by rw [hz, plotMean]; simp
  refine ⟨hm, ?_⟩
  rw [plotStd, hm, hz]
  simp

/-- **C191 (the curve).** At every value there is a point, at the logarithm of the value if asked for, with the mean of the differences in the
middle of the band. -/
theorem C191_curve (logScale : Bool) (out : List (ℝ × List ℝ)) :
    (drawCurve logScale out).length = out.length ∧ ∀ (i : Nat) (v : ℝ) (d : List ℝ), out[i]? = some (v, d) →
      ∃ q, (drawCurve logScale out)[i]? = some q ∧ q.x = (if logScale then Real.log v else v) ∧ q.mean = plotMean d ∧ q.lower ≤ q.mean ∧ q.mean ≤ q.upper ∧
        q.upper - q.mean = 1.96 * plotStd d ∧ q.mean - q.lower = 1.96 * plotStd d := by
  have hform : drawCurve logScale out = out.map (fun p => (⟨if logScale then Real.log p.1 else p.1, plotMean p.2, plotMean p.2 - 1.96 * plotStd p.2,
      plotMean p.2 + 1.96 * plotStd p.2⟩ : CurvePoint)) := by
    unfold drawCurve
    cases logScale <;> simp [List.map_map, List.zip_map', List.zipWith_map]
  refine ⟨by rw [hform, List.length_map], fun i v d hi => ?_⟩
  have hs : 0 ≤ plotStd d := Real.sqrt_nonneg _
  refine ⟨⟨if logScale then Real.log v else v, plotMean d, plotMean d - 1.96 * plotStd d, plotMean d + 1.96 * plotStd d⟩, ?_, rfl, rfl, ?_, ?_, ?_, ?_⟩
  · rw [hform, List.getElem?_map, hi]
    rfl
  · have : (0 : ℝ) ≤ 1.96 * plotStd d := by positivity
    simpa using this
  · have : (0 : ℝ) ≤ 1.96 * plotStd d := by positivity
    simpa using this
  · simp
  · simp

/-! ## The band -/

/-- The rows whose differences are in the band. -/
noncomputable def inBand (q : CurvePoint) (d : List ℝ) : Nat := (d.filter (fun x => decide (q.lower ≤ x ∧ x ≤ q.upper))).length

/-- **C192 in full.** The band contains the differences of at least 95 of 100 rows (`_partial_dependency_plot.py:57`). -/
def C192_full : Prop :=
  ∀ (forest : List (Tree ℝ ℚ)) (n : Nat) (row : Nat → String → Option (Cell ℚ)) (feature : String) (base : Cell ℚ) (out : List (Cell ℚ × List ℝ)), 0 < n →
    ShowsDifferences forest n row feature base out →
    ∀ (i : Nat) (p : Cell ℚ × List ℝ) (q : CurvePoint) (x : List ℝ), out[i]? = some p → x.length = out.length →
      (drawCurve false (x.zip (out.map Prod.snd)))[i]? = some q → 95 * n ≤ 100 * inBand q p.2

theorem squares_outside {m T : ℝ} (hT : 0 ≤ T) : ∀ l : List ℝ,
    ((l.filter (fun d => decide (T < (d - m) ^ 2))).length : ℝ) * T ≤ (l.map (fun d => (d - m) ^ 2)).sum ∧
      ((l.filter (fun d => decide (T < (d - m) ^ 2))) ≠ [] → T < (l.map (fun d => (d - m) ^ 2)).sum)
  | [] => by simp
  | d :: l => by
    obtain ⟨h1, h2⟩ := squares_outside hT l
    have hs : 0 ≤ (l.map (fun d => (d - m) ^ 2)).sum := List.sum_nonneg (by
      intro x hx
      obtain ⟨y, _, rfl⟩ := List.mem_map.mp hx
      positivity)
    rw [List.map_cons, List.sum_cons]
    by_cases hd : T < (d - m) ^ 2
    · rw [List.filter_cons_of_pos (by simpa using hd)]
      refine ⟨?_, fun _ => by linarith⟩
      rw [List.length_cons]
      push_cast
      linarith
    · rw [List.filter_cons_of_neg (by simpa using hd)]
      have := sq_nonneg (d - m)
      exact ⟨by linarith, fun h => by linarith [h2 h]⟩

/-- **C192 (partial).** The band contains the differences of at least 73.9 of 100 rows.  Missing: 95 of 100, which does not hold. -/
theorem C192_band_partial (logScale : Bool) (out : List (ℝ × List ℝ)) (i : Nat) {v : ℝ} {d : List ℝ} (hi : out[i]? = some (v, d)) {q : CurvePoint}
    (hq : (drawCurve logScale out)[i]? = some q) : 739 * d.length ≤ 1000 * inBand q d := by
  obtain ⟨q', h1, _, h2, _, _, h3, h4⟩ := (C191_curve logScale out).2 i v d hi
  rw [hq, Option.some.injEq] at h1
  subst h1
  rcases Nat.eq_zero_or_pos d.length with h0 | hn
  · rw [h0]; simp
  have hn' : (0 : ℝ) < d.length := by exact_mod_cast hn
  set m := plotMean d with hm
  set V : ℝ := (d.map (fun x => (x - m) ^ 2)).sum / (d.length : ℝ) with hV
  have hV0 : 0 ≤ V := div_nonneg (List.sum_nonneg (by
    intro x hx
    obtain ⟨y, _, rfl⟩ := List.mem_map.mp hx
    positivity)) hn'.le
  have hstd : plotStd d = Real.sqrt V := rfl
  have hiff : ∀ x : ℝ, (decide (q.lower ≤ x ∧ x ≤ q.upper)) = !(decide ((1.96 : ℝ) ^ 2 * V < (x - m) ^ 2)) := by
    intro x
    rw [← decide_not]
    congr 1
    rw [eq_iff_iff, not_lt]
    have e1 : q.lower = m - 1.96 * Real.sqrt V := by rw [← hstd]; linarith
    have e2 : q.upper = m + 1.96 * Real.sqrt V := by rw [← hstd]; linarith
    have e3 : (1.96 : ℝ) ^ 2 * V = (1.96 * Real.sqrt V) ^ 2 := by rw [mul_pow, Real.sq_sqrt hV0]
    have e4 : (0 : ℝ) ≤ 1.96 * Real.sqrt V := by positivity
    rw [e1, e2, e3, sq_le_sq, abs_of_nonneg e4, abs_le]
    constructor <;> rintro ⟨a, b⟩ <;> constructor <;> linarith
  have hcount : inBand q d + (d.filter (fun x => decide ((1.96 : ℝ) ^ 2 * V < (x - m) ^ 2))).length = d.length := by
    rw [inBand, show (fun x => decide (q.lower ≤ x ∧ x ≤ q.upper)) = (fun x => !(decide ((1.96 : ℝ) ^ 2 * V < (x - m) ^ 2))) from funext hiff]
    have := List.length_eq_length_filter_add (l := d) (fun x => decide ((1.96 : ℝ) ^ 2 * V < (x - m) ^ 2))
    omega
  obtain ⟨k1, k2⟩ := squares_outside (m := m) (T := (1.96 : ℝ) ^ 2 * V) (by positivity) d
  have hsum : (d.map (fun x => (x - m) ^ 2)).sum = d.length * V := by rw [hV]; field_simp
  set out' := (d.filter (fun x => decide ((1.96 : ℝ) ^ 2 * V < (x - m) ^ 2))) with hout
  have hbound : 1000 * out'.length ≤ 261 * d.length := by
    rcases hV0.eq_or_lt with hz | hpos
    · by_cases he : out' = []
      · rw [he]; simp
      · have := k2 he
        rw [hsum, ← hz] at this
        simp at this
    · rw [hsum] at k1
      have h5 : (out'.length : ℝ) * 1.96 ^ 2 ≤ d.length := by
        have : ((out'.length : ℝ) * 1.96 ^ 2) * V ≤ d.length * V := by linarith
        exact le_of_mul_le_mul_right this hpos
      have h6 : (1000 * out'.length : ℝ) ≤ 261 * d.length := by nlinarith
      exact_mod_cast h6
  omega

/-- A tree in which the feature `x` matters only for the rows with small `z`. -/
def rareTree : Tree ℝ ℚ :=
  .node 0 (some { feature := "z", floatSplit := some ⟨.num 1, true⟩, gain := 1 })
    (.node 0 (some { feature := "x", floatSplit := some ⟨.num 1, true⟩, gain := 1 })
      (.node 0 none .absent .absent) (.node 1 none .absent .absent))
    (.node 0 none .absent .absent)

/-- Rows in which `z` is the number of the row. -/
def rareRow (i : Nat) (name : String) : Option (Cell ℚ) := if name = "z" then some (.num (.num i)) else if name = "x" then some (.num (.num 0)) else none

/-- The differences: 1 for the first of ten rows, 0 for the others. -/
def rareOut : List (Cell ℚ × List ℝ) := [(.num (.num 2), 1 :: List.replicate 9 0)]

theorem rare_differences : ShowsDifferences [rareTree] 10 rareRow "x" (.num (.num 0)) rareOut := by
  have hx : ¬ "z" = "x" := by decide +kernel
  have hz : ¬ "x" = "z" := by decide +kernel
  intro p hp
  rw [rareOut, List.mem_singleton] at hp
  subst hp
  refine ⟨by simp, fun i hi => ?_⟩
  have hval : ∀ v : ℚ, forestValue (withFeature (rareRow i) "x" (.num (.num v))) [rareTree] = some (if (i : ℚ) < 1 then (if v < 1 then 0 else 1) else 0) := by
    intro v
    by_cases h1 : (i : ℚ) < 1 <;> by_cases h2 : v < 1 <;>
      simp [forestValue, rareTree, treeValue, withFeature, rareRow, goesLeft, Fl.lt, hx, h1, h2, sumScores]
  refine ⟨_, _, hval 2, hval 0, ?_⟩
  rcases Nat.eq_zero_or_pos i with rfl | hpos
  · norm_num
  · have h1 : ¬ (i : ℚ) < 1 := by
      rw [not_lt]
      exact_mod_cast hpos
    obtain ⟨k, rfl⟩ : ∃ k, i = k + 1 := ⟨i - 1, by omega⟩
    rw [if_neg h1, if_neg h1, List.getElem?_cons_succ, List.getElem?_replicate, if_pos (by omega)]
    simp

/-- **C192 refuted.** If the feature matters for one row of ten, that row is outside the band. -/
theorem C192_refuted : ¬ C192_full := by
  intro h
  obtain ⟨q, h1, _, h2, _, _, h3, h4⟩ := (C191_curve false [(2, 1 :: List.replicate 9 0)]).2 0 2 (1 :: List.replicate 9 0) rfl
  have := h [rareTree] 10 rareRow "x" (.num (.num 0)) rareOut (by decide) rare_differences 0 _ q [2] rfl rfl h1
  have hm : plotMean (1 :: List.replicate 9 0) = 1 / 10 := by simp [plotMean]
  have hs : plotStd (1 :: List.replicate 9 0) = 3 / 10 := by
    rw [plotStd, hm]
    have : (((1 : ℝ) :: List.replicate 9 0).map (fun d => (d - 1 / 10) ^ 2)).sum / (((1 : ℝ) :: List.replicate 9 0).length : ℝ) = (3 / 10) ^ 2 := by
      simp
      norm_num
    rw [this, Real.sqrt_sq (by norm_num)]
  rw [hs] at h3 h4
  rw [hm] at h2
  have hu : q.upper < 1 := by rw [h2] at h3; norm_num at h3; linarith
  have hin : inBand q (1 :: List.replicate 9 0) ≤ 9 := by
    rw [inBand, List.filter_cons_of_neg (by simp [hu])]
    exact (List.length_filter_le _ _).trans (by simp)
  have h5 : 95 * 10 ≤ 100 * inBand q (1 :: List.replicate 9 0) := this
  omega

/-- A case for the bars: two categories, the second of them the base. -/
example : (drawBars (fun l => if l = [3 / 2, 0] then [1, 0] else List.range l.length) [("red", [1, 2]), ("blue", [0, 0])]).labels = ["blue", "red"] := by
  have : ([("red", [(1 : ℝ), 2]), ("blue", [0, 0])].map (fun p => plotMean p.2)) = [3 / 2, 0] := by
    simp [plotMean]; norm_num
  simp only [drawBars, this, if_true]
  rfl

/-- There are such orders: the indices sorted by the numbers. -/
example : ∃ argsort, Argsorts argsort := by
  refine ⟨fun l => (List.range l.length).mergeSort (fun i j => decide (l.getD i 0 ≤ l.getD j 0)), ⟨fun l => List.mergeSort_perm _ _, fun l => ?_⟩⟩
  have hsorted := List.pairwise_mergeSort (le := fun i j => decide (l.getD i 0 ≤ l.getD j 0)) (by
    intro a b c h1 h2
    simp only [decide_eq_true_eq] at *
    exact h1.trans h2) (by
    intro a b
    simp only [Bool.or_eq_true, decide_eq_true_eq]
    exact le_total _ _) (List.range l.length)
  rw [takeAll, List.pairwise_filterMap]
  refine hsorted.imp (fun {i j} hij x hx y hy => ?_)
  simp only [decide_eq_true_eq, List.getD_eq_getElem?_getD] at hij
  rw [hx, hy] at hij
  exact hij

end Gbdt
