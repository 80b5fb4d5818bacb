import Verif.Model.ProgressTime
import Verif.Props.Stopwatch
import Verif.Props.Importance
import Mathlib.Data.List.Pairwise

/-!
# C194 and C195: the times in the log, and the chart of importances
-/

set_option autoImplicit false

namespace Gbdt

open Outcome

section
variable {K : Type} [Field K] [LinearOrder K] [IsStrictOrderedRing K] [FloorRing K]

/-- C194, the full statement: the log of training is written, whatever the number of trees, if iterations last at most an hour. -/
def C194_full (tenths : K → Nat) : Prop :=
  ∀ (numTrees : Int) (endAt startAt : Nat → K) (loss : Nat → Text) (n : Nat), numTrees < 2 ^ 31 → (n : Int) ≤ numTrees →
    (∀ i, 0 ≤ endAt (i + 1) - startAt i ∧ endAt (i + 1) - startAt i ≤ 3600000) →
    ∃ lines, progressLog tenths numTrees endAt startAt loss n = ok lines

theorem formatTime_defined {tenths : K → Nat} (ht : RoundsTenths tenths) {ms : K} (h0 : 0 ≤ ms) (h1 : ms < 2147483648000) :
    ∃ text, formatTime tenths ms = ok text := by
  by_cases h : ms < 1000
  · obtain ⟨n, _, _, h⟩ := C55_milliseconds tenths h0 h
    exact ⟨_, h⟩
  · obtain ⟨text, _, h, _⟩ := C55_reads ht (not_lt.mp h) h1
    exact ⟨text, h⟩

/-- **C194, what holds**: the log is written if no iteration, times the number of trees, comes to 68 years; it has one line for every iteration, in
order, which begins with the number of the iteration and ends with what the loss reports.
Missing: longer times, where it is false (`C194_refuted`). -/
theorem C194_written_partial {tenths : K → Nat} (ht : RoundsTenths tenths) {numTrees : Int} {endAt startAt : Nat → K} (loss : Nat → Text) {n : Nat}
    (hn : (n : Int) ≤ numTrees) (h0 : ∀ i, i + 1 < n → 0 ≤ endAt (i + 1) - startAt i)
    (h1 : ∀ i, i + 1 < n → (endAt (i + 1) - startAt i) * (numTrees : K) < 2147483648000) :
    ∃ lines, progressLog tenths numTrees endAt startAt loss n = ok lines ∧ lines.length = n ∧
      ∀ (i : Nat) (line : Text), lines[i]? = some line → ∃ time, line = Nat.toDigits 10 i ++ ": ".toList ++ time ++ loss i := by
  induction n with
  | zero => exact ⟨[], rfl, rfl, by simp⟩
  | succ n ih =>
    obtain ⟨lines, e1, e2, e3⟩ := ih (by omega) (fun i hi => h0 i (by omega)) (fun i hi => h1 i (by omega))
    obtain ⟨time, htime⟩ : ∃ time, timeProgress tenths numTrees n (endAt n - startAt (n - 1)) = ok time := by
      unfold timeProgress
      cases n with
      | zero => exact ⟨[], rfl⟩
      | succ m =>
        rw [if_pos (by omega), Nat.add_sub_cancel]
        have a0 := h0 m (by omega)
        have a1 := h1 m (by omega)
        have b1 : (1 : K) ≤ (numTrees : K) := by exact_mod_cast (by omega : (1 : Int) ≤ numTrees)
        have b2 : ((numTrees - (m + 1 : Nat) : Int) : K) ≤ (numTrees : K) := by exact_mod_cast (by omega : numTrees - ((m + 1 : Nat) : Int) ≤ numTrees)
        have b3 : (0 : K) ≤ ((numTrees - (m + 1 : Nat) : Int) : K) := by exact_mod_cast (by omega : (0 : Int) ≤ numTrees - ((m + 1 : Nat) : Int))
        obtain ⟨x, hx⟩ := formatTime_defined ht a0 (lt_of_le_of_lt (le_mul_of_one_le_right a0 b1) a1)
        obtain ⟨y, hy⟩ := formatTime_defined ht (mul_nonneg a0 b3) (lt_of_le_of_lt (mul_le_mul_of_nonneg_left b2 a0) a1)
        rw [hx]
        simp only [Outcome.ok_bind]
        rw [hy]
        exact ⟨_, rfl⟩
    refine ⟨lines ++ [progressLine n time (loss n)], ?_, by simp [e2], ?_⟩
    · unfold progressLog
      rw [e1]
      simp only [Outcome.ok_bind]
      rw [htime]
      rfl
    · intro i line hl
      by_cases hi : i < lines.length
      · rw [List.getElem?_append_left hi] at hl
        exact e3 i line hl
      · rw [List.getElem?_append_right (not_lt.mp hi)] at hl
        have : i = n := by
          by_contra hne
          have : i - lines.length = (i - lines.length - 1) + 1 := by omega
          rw [this] at hl
          simp at hl
        subst this
        rw [e2, Nat.sub_self] at hl
        simp only [List.getElem?_cons_zero, Option.some.injEq] at hl
        exact ⟨time, hl.symm⟩

omit [IsStrictOrderedRing K] in
/-- **C194.** If the iterations go on lasting `d` milliseconds as the last one did, the line of iteration `i` shows `d` and the time until training has
finished, to the rounding of durations (C55). -/
theorem C194_estimate {tenths : K → Nat} {numTrees : Int} {endAt startAt : Nat → K} {loss : Nat → Text} {n i : Nat} {d : K} {lines : List Text}
    (h : progressLog tenths numTrees endAt startAt loss n = ok lines) (hi : i + 1 < n) (hn : (n : Int) ≤ numTrees)
    (hd : ∀ k, i ≤ k → startAt (k + 1) = startAt k + d) (he : endAt (i + 1) = startAt (i + 1)) :
    ∃ iter etf, formatTime tenths d = ok iter ∧ formatTime tenths (startAt numTrees.toNat - startAt (i + 1)) = ok etf ∧
      lines[i + 1]? = some (Nat.toDigits 10 (i + 1) ++ ": iter=".toList ++ iter ++ ",etf=".toList ++ etf ++ ",".toList ++ loss (i + 1)) := by
  have hlin : ∀ m : Nat, startAt (i + 1 + m) = startAt (i + 1) + m * d := by
    intro m
    induction m with
    | zero => simp
    | succ m ih =>
      rw [show i + 1 + (m + 1) = (i + 1 + m) + 1 from rfl, hd _ (by omega), ih]
      push_cast
      ring
  have hend : startAt numTrees.toNat - startAt (i + 1) = d * ((numTrees - (i + 1 : Nat) : Int) : K) := by
    obtain ⟨m, hm⟩ : ∃ m : Nat, numTrees = ((i + 1 + m : Nat) : Int) := ⟨(numTrees - (i + 1 : Nat)).toNat, by omega⟩
    rw [hm, Int.toNat_natCast, hlin]
    push_cast
    ring
  have hel : endAt (i + 1) - startAt i = d := by rw [he, hd i (le_refl _)]; ring
  rw [hend]
  clear hlin hend hn
  induction n generalizing lines with
  | zero => omega
  | succ n ih =>
    unfold progressLog at h
    cases e1 : progressLog tenths numTrees endAt startAt loss n with
    | ub => rw [e1] at h; cases h
    | fatal => rw [e1] at h; cases h
    | ok l =>
      rw [e1] at h
      simp only [Outcome.ok_bind] at h
      have hlen : ∀ (k : Nat) (l : List Text), progressLog tenths numTrees endAt startAt loss k = ok l → l.length = k := by
        intro k
        induction k with
        | zero => intro l hl; cases hl; rfl
        | succ k ihk =>
          intro l hl
          unfold progressLog at hl
          obtain ⟨a, ha, hl⟩ := Outcome.bind_eq_ok.mp hl
          obtain ⟨b, hb, hl⟩ := Outcome.bind_eq_ok.mp hl
          cases hl
          simp [ihk a ha]
      have hl := hlen n l e1
      cases e2 : timeProgress tenths numTrees n (endAt n - startAt (n - 1)) with
      | ub => rw [e2] at h; cases h
      | fatal => rw [e2] at h; cases h
      | ok time =>
        rw [e2] at h
        have hlines : lines = l ++ [progressLine n time (loss n)] := by cases h; rfl
        by_cases hlt : i + 1 < n
        · obtain ⟨iter, etf, a, b, c⟩ := ih e1 hlt
          refine ⟨iter, etf, a, b, ?_⟩
          rw [hlines, List.getElem?_append_left (by omega)]
          exact c
        · obtain rfl : n = i + 1 := by omega
          rw [Nat.add_sub_cancel, hel] at e2
          unfold timeProgress at e2
          rw [if_pos (by omega)] at e2
          obtain ⟨iter, h1, e2⟩ := Outcome.bind_eq_ok.mp e2
          obtain ⟨etf, h2, e2⟩ := Outcome.bind_eq_ok.mp e2
          cases e2
          refine ⟨iter, etf, h1, h2, ?_⟩
          rw [hlines, List.getElem?_append_right (by omega), hl, Nat.sub_self]
          simp [progressLine]

end

/-- **C194 is false**: with `num_trees` 2147483647, which a user may give to stop training by hand, the second line is undefined if the first
iteration takes 1.001 seconds: the minutes until the end, times 60, do not fit in an `int`. -/
theorem C194_refuted : ¬ C194_full ratTenths := by
  intro h
  obtain ⟨lines, h⟩ := h 2147483647 (fun i => 1001 * i) (fun i => 1001 * i) (fun _ => []) 2 (by norm_num) (by norm_num)
    (fun i => by push_cast; constructor <;> ring_nf <;> norm_num)
  have e : progressLog ratTenths 2147483647 (fun i => 1001 * i) (fun i => 1001 * i) (fun _ => []) 2 = ub := by decide +kernel
  rw [e] at h
  cases h

/-- Three iterations of 90 seconds; `C194_written_partial` and `C194_estimate` apply. -/
example : progressLog ratTenths 3 (fun i => 90000 * i) (fun i => 90000 * i) (fun _ => "loss=1".toList) 3 =
    ok ["0: loss=1".toList, "1: iter=1m30.0s,etf=3m,loss=1".toList, "2: iter=1m30.0s,etf=1m30.0s,loss=1".toList] ∧
    (∃ lines, progressLog ratTenths 3 (fun i => 90000 * i) (fun i => 90000 * i) (fun _ => "loss=1".toList) 3 = ok lines ∧ lines.length = 3) := by
  refine ⟨by decide +kernel, ?_⟩
  obtain ⟨lines, h1, h2, _⟩ := C194_written_partial ratTenths_rounds (numTrees := 3) (endAt := fun i => 90000 * i) (startAt := fun i => 90000 * i)
    (fun _ => "loss=1".toList) (n := 3) (by norm_num) (fun i _ => by push_cast; ring_nf; norm_num) (fun i _ => by push_cast; ring_nf; norm_num)
  exact ⟨lines, h1, h2⟩

/-! ## The chart of importances -/

section
variable {D A : Type}

/-- The list of positions and values that are drawn together. -/
theorem chart_at {α : Type} (l : List α) (n k : Nat) (hn : n = l.length) (p : Int × α) :
    (((List.range n).map (fun k : Nat => -(k : Int))).zip l)[k]? = some p ↔ p.1 = -(k : Int) ∧ l[k]? = some p.2 := by
  subst hn
  rw [List.getElem?_zip_eq_some]
  simp only [List.getElem?_map, Option.map_eq_some_iff, List.getElem?_eq_some_iff, List.length_range, List.getElem_range]
  constructor
  · rintro ⟨⟨a, ⟨h1, h2⟩, h3⟩, h4⟩
    exact ⟨by rw [← h3, ← h2], h4⟩
  · rintro ⟨h1, h2, h3⟩
    exact ⟨⟨k, ⟨h2, rfl⟩, h1.symm⟩, h2, h3⟩

/-- **C195.** In the chart of the importances of a forest (exact arithmetic, positive gains) every feature that is used has one bar, as long as its
importance, with its name at the same height; no two bars have the same height, and further down no bar is longer. -/
theorem C195_chart {K : Type} [Field K] [LinearOrder K] [IsStrictOrderedRing K] {sort : List (String × K) → List (String × K)}
    (hsort : ImportanceSortSpec sort) (forest : List (Tree K A)) (hpos : ∀ s ∈ forest.flatMap innerSplits, 0 < s.gain) :
    let chart := importanceChart (featureImportance sort forest)
    (∀ name v, (name, v) ∈ featureImportance sort forest ↔ ∃ at_, (at_, v) ∈ chart.bars ∧ (at_, name) ∈ chart.labels) ∧
    (chart.bars.map Prod.fst).Nodup ∧ (chart.labels.map Prod.fst) = chart.bars.map Prod.fst ∧
    (∀ name, (∃ s ∈ forest.flatMap innerSplits, s.feature = name) ↔ ∃ at_, (at_, name) ∈ chart.labels) ∧
    ∀ p ∈ chart.bars, ∀ q ∈ chart.bars, q.1 < p.1 → q.2 ≤ p.2 := by
  intro chart
  have hb : ∀ (k : Nat) (p : Int × K), chart.bars[k]? = some p ↔ p.1 = -(k : Int) ∧ ((featureImportance sort forest).map Prod.snd)[k]? = some p.2 :=
    fun k p => chart_at _ _ k (by simp) p
  have hl : ∀ (k : Nat) (p : Int × String), chart.labels[k]? = some p ↔
      p.1 = -(k : Int) ∧ ((featureImportance sort forest).map Prod.fst)[k]? = some p.2 := fun k p => chart_at _ _ k (by simp) p
  have e1 : chart.bars.map Prod.fst = (List.range (featureImportance sort forest).length).map (fun k : Nat => -(k : Int)) := by
    show (List.zip _ _).map Prod.fst = _
    rw [List.map_fst_zip (by simp)]
  have e2 : chart.labels.map Prod.fst = (List.range (featureImportance sort forest).length).map (fun k : Nat => -(k : Int)) := by
    show (List.zip _ _).map Prod.fst = _
    rw [List.map_fst_zip (by simp)]
  obtain ⟨_, hdesc, _, _⟩ := C45_normalized hsort forest hpos
  refine ⟨?_, ?_, by rw [e1, e2], ?_, ?_⟩
  · intro name v
    constructor
    · intro h
      obtain ⟨k, hk⟩ := List.mem_iff_getElem?.mp h
      refine ⟨-(k : Int), List.mem_iff_getElem?.mpr ⟨k, (hb k _).mpr ⟨rfl, by simp [hk]⟩⟩, List.mem_iff_getElem?.mpr ⟨k, (hl k _).mpr ⟨rfl, by simp [hk]⟩⟩⟩
    · rintro ⟨at_, h1, h2⟩
      obtain ⟨k, hk⟩ := List.mem_iff_getElem?.mp h1
      obtain ⟨j, hj⟩ := List.mem_iff_getElem?.mp h2
      obtain ⟨a1, a2⟩ := (hb k _).mp hk
      obtain ⟨b1, b2⟩ := (hl j _).mp hj
      have hkj : k = j := by
        have : -(k : Int) = -(j : Int) := a1.symm.trans b1
        omega
      subst hkj
      rw [List.getElem?_map, Option.map_eq_some_iff] at a2 b2
      obtain ⟨p, hp1, hp2⟩ := a2
      obtain ⟨q, hq1, hq2⟩ := b2
      rw [hp1] at hq1
      cases hq1
      have : (name, v) = p := Prod.ext hq2.symm hp2.symm
      rw [this]
      exact List.mem_iff_getElem?.mpr ⟨k, hp1⟩
  · rw [e1]
    exact List.nodup_range.map (fun a b h => by
      have h' : -(a : Int) = -(b : Int) := h
      omega)
  · intro name
    obtain ⟨names, h1, h2, _, h4, h5⟩ := C45_importance hsort forest
    have hnames : (featureImportance sort forest).map Prod.fst = names := by
      cases names with
      | nil => rw [h5 rfl]; rfl
      | cons top rest => rw [h4 top rfl, List.map_map]; simp [Function.comp_def]
    rw [← h2 name, ← hnames]
    constructor
    · intro h
      obtain ⟨k, hk⟩ := List.mem_iff_getElem?.mp h
      exact ⟨_, List.mem_iff_getElem?.mpr ⟨k, (hl k (-(k : Int), name)).mpr ⟨rfl, hk⟩⟩⟩
    · rintro ⟨at_, h⟩
      obtain ⟨k, hk⟩ := List.mem_iff_getElem?.mp h
      exact List.mem_iff_getElem?.mpr ⟨k, ((hl k _).mp hk).2⟩
  · intro p hp q hq hlt
    obtain ⟨k, hk⟩ := List.mem_iff_getElem?.mp hp
    obtain ⟨j, hj⟩ := List.mem_iff_getElem?.mp hq
    obtain ⟨a1, a2⟩ := (hb k _).mp hk
    obtain ⟨b1, b2⟩ := (hb j _).mp hj
    rw [a1, b1] at hlt
    have hdesc' : ((featureImportance sort forest).map Prod.snd).Pairwise (fun a b => b ≤ a) := List.pairwise_map.mpr hdesc
    obtain ⟨hk1, hk2⟩ := List.getElem?_eq_some_iff.mp a2
    obtain ⟨hj1, hj2⟩ := List.getElem?_eq_some_iff.mp b2
    have := List.pairwise_iff_getElem.mp hdesc' k j hk1 hj1 (by omega)
    rw [hk2, hj2] at this
    exact this

end

/-- The chart of three trees: three features, the most important at the top. -/
example :
    let chart := importanceChart (featureImportance ratImportanceSort [fittedTree, sampleTree, fittedTree])
    chart.bars = [(0, 1), (-1, 142/3093), (-2, 10/3093)] ∧ chart.labels = [(0, "color"), (-1, "size"), (-2, "weight")] ∧
    ∀ s ∈ [fittedTree, sampleTree, fittedTree].flatMap innerSplits, 0 < s.gain := by decide +kernel

end Gbdt
