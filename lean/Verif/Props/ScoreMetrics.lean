import Verif.Props.ScoreFiles
import Verif.Props.Metrics

/-!
# C188: metrics of score files

`compute_metrics.py` reads the scores of a model from the file that testing wrote.
-/

set_option autoImplicit false

namespace Gbdt

/-- `float(line)` in `compute_metrics.py:42-43` for a finite number. -/
def finiteNumber (line : Text) : Option ℚ :=
  match readFloat F64.round line with
  | some (.num q) => some q
  | _ => none

/-- Different scores within a group are different after printing: `s` are the scores, `s'` what is read. -/
structure PrintedApart (n : Nat) (g : Nat → Text) (s s' : Nat → ℚ) : Prop where
  read : ∀ i < n, printedDouble (.num (s i)) = .num (s' i)
  apart : ∀ i < n, ∀ j < n, g i = g j → s i ≠ s j → s' i ≠ s' j

/-- **C188 in full.** The metrics that `compute_metrics.py` prints for the score file of a model are those of the model's predictions: a file with the
exact scores (`scoreLines`) gives the same output. -/
def C188_full : Prop :=
  ∀ (groupLines scoreLines targetLines : List Text) (n : Nat) (g : Nat → Text) (s t : Nat → ℚ),
    MetricInput finiteNumber groupLines scoreLines targetLines n g s t →
    metricsMain halfDiscount bitShown finiteNumber (printLines groupLines) (scoreText ((List.range n).map (fun i => F64.num (s i)))) (printLines targetLines) =
      metricsMain halfDiscount bitShown finiteNumber (printLines groupLines) (printLines scoreLines) (printLines targetLines)

/-! ## Reading a score file line by line -/

theorem keepLines_last {l : Text} (hne : l ≠ []) (h : '\n' ∉ l) : keepLines l = [l] := by
  induction l with
  | nil => exact absurd rfl hne
  | cons c l ih =>
    have hc : c ≠ '\n' := fun e => h (by simp [e])
    rw [keepLines, if_neg hc]
    cases l with
    | nil => rfl
    | cons d l => rw [ih (by simp) (fun e => h (by simp [e]))]

theorem finiteNumber_newline {l : Text} (h : ∀ c ∈ l, isSpace c = false) : finiteNumber (l ++ ['\n']) = finiteNumber l := by
  have h1 : trim (l ++ ['\n']) = trim l := by
    have h2 : ∀ c ∈ l.reverse, isSpace c = false := fun c hc => h c (List.mem_reverse.mp hc)
    have hdrop : ∀ u : Text, (∀ c ∈ u, isSpace c = false) → u.dropWhile isSpace = u := by
      intro u hu
      cases u with
      | nil => rfl
      | cons c u => rw [List.dropWhile_cons, if_neg (by simp [hu c (by simp)])]
    rw [trim_plain h, trim]
    cases l with
    | nil => decide
    | cons c l =>
      rw [List.cons_append, List.dropWhile_cons, if_neg (by simp [h c (by simp)]), ← List.cons_append, List.reverse_append,
        List.reverse_singleton, List.singleton_append, List.dropWhile_cons, if_pos (by decide), hdrop _ h2, List.reverse_reverse]
  unfold finiteNumber readFloat
  rw [h1]

theorem showScore_head (s : F64) : ((showScore s).head? == some '#') = false := by
  have h := readFloat_show F64.round s
  have hp := (showScore_plain s).2
  generalize showScore s = t at *
  cases t with
  | nil => rfl
  | cons c t =>
    by_contra hc
    have hc : c = '#' := by simpa using hc
    subst hc
    unfold readFloat at h
    rw [trim_plain hp] at h
    simp [readMagnitude, readUnsigned, readFraction] at h

theorem scriptRows_scoreText (ss : List F64) :
    (scriptRows (scoreText ss)).map finiteNumber = ss.map (fun s => finiteNumber (showScore s)) := by
  have hnl : ∀ s, '\n' ∉ showScore s := fun s hm => absurd ((showScore_plain s).2 _ hm) (by decide)
  have hfil : ∀ s, ∀ l, (!((showScore s ++ l).head? == some '#')) = true := by
    intro s l
    have h1 := showScore_head s
    have h2 := (showScore_plain s).1
    cases hs : showScore s with
    | nil => exact absurd hs h2
    | cons c t => rw [hs] at h1; simpa using h1
  induction ss with
  | nil => rfl
  | cons s ss ih =>
    cases ss with
    | nil =>
      rw [scoreText, scriptRows, keepLines_last (showScore_plain s).1 (hnl s)]
      have := hfil s []
      rw [List.append_nil] at this
      rw [List.filter_cons, if_pos this]
      rfl
    | cons s' ss =>
      rw [scoreText, scriptRows, keepLines_line _ _ (hnl s), List.filter_cons, if_pos (hfil s _)]
      · rw [List.map_cons, List.map_cons, finiteNumber_newline (showScore_plain s).2]
        rw [scriptRows] at ih
        rw [ih]
      · simp

theorem readGroups_congr {K : Type} {parse : Text → Option K} : ∀ (gids scores scores' targets : List Text) (prev : Option Text) (group : List (K × K)),
    scores.map parse = scores'.map parse → readGroups parse prev group gids scores targets = readGroups parse prev group gids scores' targets
  | [], scores, scores', targets, prev, group, _ => by
    cases prev <;> simp [readGroups]
  | gid :: gids, [], scores', targets, prev, group, h => by
    cases scores' with
    | nil => rfl
    | cons => simp at h
  | gid :: gids, s :: scores, [], targets, prev, group, h => by simp at h
  | gid :: gids, s :: scores, s' :: scores', targets, prev, group, h => by
    rw [List.map_cons, List.map_cons, List.cons.injEq] at h
    rw [readGroups, readGroups, h.1]
    cases parse s' with
    | none => rfl
    | some x =>
      cases targets with
      | nil => rfl
      | cons t targets =>
        have hr : ∀ group, readGroups parse (some gid) group gids scores targets = readGroups parse (some gid) group gids scores' targets :=
          fun group => readGroups_congr gids scores scores' targets (some gid) group h.2
        simp only [hr]

/-- **C188 (partial).** The metrics of a score file are those of the predictions if no two different scores of a group are printed alike.
Missing: scores that agree in six digits. -/
theorem C188_metrics_partial (discount : Nat → ℚ) (shown : ℚ → String) {groupLines scoreLines targetLines : List Text} {n : Nat}
    {g : Nat → Text} {s s' t : Nat → ℚ} (h : MetricInput finiteNumber groupLines scoreLines targetLines n g s t) (hp : PrintedApart n g s s') :
    metricsMain discount shown finiteNumber (printLines groupLines) (scoreText ((List.range n).map (fun i => F64.num (s i)))) (printLines targetLines) =
      metricsMain discount shown finiteNumber (printLines groupLines) (printLines scoreLines) (printLines targetLines) := by
  have hparse : ∀ i < n, finiteNumber (showScore (.num (s i))) = some (s' i) := by
    intro i hi
    have := hp.read i hi
    rw [printedDouble, readFloat_show, Option.getD_some] at this
    rw [finiteNumber, readFloat_show, this]
  have hnl : ∀ x, '\n' ∉ showScore x := fun x hm => absurd ((showScore_plain x).2 _ hm) (by decide)
  -- a file with whole lines
  have hlines : metricLines ((List.range n).map (fun i => showScore (.num (s i)))) = (List.range n).map (fun i => showScore (.num (s i))) := by
    rw [metricLines, List.filter_eq_self]
    intro l hl
    obtain ⟨i, _, rfl⟩ := List.mem_map.mp hl
    rw [showScore_head]
    rfl
  have h' : MetricInput finiteNumber groupLines ((List.range n).map (fun i => showScore (.num (s i)))) targetLines n g s' t := by
    refine ⟨?_, h.groups, ?_, h.targets⟩
    · intro l hl
      rcases List.mem_append.mp hl with hl | hl
      · rcases List.mem_append.mp hl with hl | hl
        · exact h.lines l (by simp [hl])
        · obtain ⟨i, _, rfl⟩ := List.mem_map.mp hl
          exact hnl _
      · exact h.lines l (by simp [hl])
    · rw [hlines, List.map_map]
      refine List.map_congr_left (fun i hi => ?_)
      rw [Function.comp_apply, finiteNumber_newline (showScore_plain _).2, hparse i (List.mem_range.mp hi)]
  have hmono : ∀ i < n, ∀ j < n, g i = g j → s i < s j → s' i < s' j := by
    intro i hi j hj hg hlt
    have h1 : ReadsAs (.num (s i)) (.num (s' i)) := by
      rw [← hp.read i hi, printedDouble_eq]
      exact readBack_readsAs _
    have h2 : ReadsAs (.num (s j)) (.num (s' j)) := by
      rw [← hp.read j hj, printedDouble_eq]
      exact readBack_readsAs _
    have h3 := C184_order_partial h1 h2 (by simpa [F64.lt] using hlt)
    simp only [F64.lt, decide_eq_false_iff_not, not_lt] at h3
    exact lt_of_le_of_ne h3 (hp.apart i hi j hj hg hlt.ne)
  have hiff : ∀ i < n, ∀ j < n, g i = g j → (s' i < s' j ↔ s i < s j) := by
    intro i hi j hj hg
    refine ⟨fun hlt => ?_, hmono i hi j hj hg⟩
    rcases lt_trichotomy (s i) (s j) with h1 | h1 | h1
    · exact h1
    · have a := hp.read i hi
      rw [h1, hp.read j hj, F64.num.injEq] at a
      exact absurd hlt (by rw [a]; exact lt_irrefl _)
    · exact absurd hlt (not_lt.mpr (hmono j hj i hi hg.symm h1).le)
  rw [← C144_order discount shown h' h hiff]
  unfold metricsMain readByGroup
  rw [readGroups_congr _ _ (scriptRows (printLines ((List.range n).map (fun i => showScore (.num (s i)))))) _ _ _ ?_]
  rw [scriptRows_scoreText, scriptRows_printLines _ (fun l hl => by obtain ⟨i, _, rfl⟩ := List.mem_map.mp hl; exact hnl _), hlines, List.map_map,
    List.map_map, List.map_map]
  exact List.map_congr_left (fun i _ => (finiteNumber_newline (showScore_plain _).2).symm)

/-! ## Scores that agree in six digits -/

/-- Lines for the examples. -/
def nearScoreLines : List Text := ["0.5".toList, "0.50000001".toList]

/-- The second row has the larger score. -/
def nearS (i : Nat) : ℚ := [F64.round (1 / 2), F64.round (50000001 / 100000000)].map (fun x => match x with | .num q => q | _ => 0) |>.getD i 0

/-- The second row has the target 1. -/
def nearT (i : Nat) : ℚ := [0, 1].getD i 0

theorem near_input : MetricInput finiteNumber (charLines "aa") nearScoreLines (charLines "01") 2 (fun _ => ['a']) nearS nearT :=
  ⟨by decide, by decide, by decide +kernel, by decide +kernel⟩

/-- **C188 refuted.** The scores 0.5 and 0.50000001 are both printed as 0.5: the row with the larger score comes second. -/
theorem C188_refuted : ¬ C188_full := by
  intro h
  have := h _ _ _ _ _ _ _ near_input
  revert this
  decide +kernel

/-- With the exact scores the utility is 1, with the score file 1/2. -/
example : metricsMain halfDiscount bitShown finiteNumber (printLines (charLines "aa")) (printLines nearScoreLines) (printLines (charLines "01")) =
      some [("count_0.0", .int 1), ("count_1.0", .int 1), ("count_total", .int 2), ("dcu_0.0", .float 0), ("dcu_1.0", .float 1), ("dcu_total", .float 1)] ∧
    metricsMain halfDiscount bitShown finiteNumber (printLines (charLines "aa"))
        (scoreText ((List.range 2).map (fun i => F64.num (nearS i)))) (printLines (charLines "01")) =
      some [("count_0.0", .int 1), ("count_1.0", .int 1), ("count_total", .int 2), ("dcu_0.0", .float 0), ("dcu_1.0", .float (1 / 2)),
        ("dcu_total", .float (1 / 2))] := by
  refine ⟨?_, ?_⟩ <;> decide +kernel

/-- Scores of seven digits that are printed apart. -/
def apartS (i : Nat) : ℚ := [(4194304 : ℚ) / 2 ^ 25, 4194305 / 2 ^ 22].getD i 0

/-- What is read for them. -/
def apartS' (i : Nat) : ℚ := [(4194304 : ℚ) / 2 ^ 25, 1].getD i 0

/-- A case with scores that lose digits: 0.125 and 1.0000002384185791015625, which is printed as 1. -/
example : PrintedApart 2 (fun _ => ['a']) apartS apartS' ∧
    MetricInput finiteNumber (charLines "aa") ["0.125".toList, "1.0000002384185791015625".toList] (charLines "01") 2 (fun _ => ['a']) apartS nearT :=
  ⟨⟨by decide +kernel, by decide +kernel⟩, ⟨by decide, by decide, by decide +kernel, by decide +kernel⟩⟩

end Gbdt
