import Verif.Lemmas.Metrics
import Mathlib.Algebra.Order.Ring.Rat
import Mathlib.Analysis.SpecialFunctions.Log.Basic

/-!
# What `compute_metrics.py` and `compute_rmse.py` print (C142 to C148)
-/

set_option autoImplicit false
set_option linter.unusedSectionVars false

namespace Gbdt

variable {K : Type} [Field K] [LinearOrder K] [IsStrictOrderedRing K]

/-! ## The input -/

/-- Three files of whole lines that agree on the number of data rows: row `i` has the group `g i`, the score `s i` and the target `t i`.
Lines that start with `#` are not data. -/
structure MetricInput (parse : Text → Option K) (groupLines scoreLines targetLines : List Text) (n : Nat) (g : Nat → Text) (s t : Nat → K) :
    Prop where
  lines : ∀ l ∈ groupLines ++ scoreLines ++ targetLines, '\n' ∉ l
  groups : metricLines groupLines = (List.range n).map g
  scores : (metricLines scoreLines).map (fun l => parse (l ++ ['\n'])) = (List.range n).map (fun i => some (s i))
  targets : (metricLines targetLines).map (fun l => parse (l ++ ['\n'])) = (List.range n).map (fun i => some (t i))

/-- The position of row `i` in its group when the group is sorted by falling score, equal scores in the order of the file. -/
def positionInGroup (n : Nat) (g : Nat → Text) (s : Nat → K) (i : Nat) : Nat :=
  ((Finset.range n).filter (fun j => g j = g i ∧ (s i < s j ∨ (s j = s i ∧ j < i)))).card

/-- The rows of each group follow one another. -/
def GroupsTogether (n : Nat) (g : Nat → Text) : Prop := ∀ i j k : Nat, i < j → j < k → k < n → g i = g k → g j = g i

/-- The number of groups. -/
def groupCount (n : Nat) (g : Nat → Text) : Nat := ((Finset.range n).image g).card

/-! ## From files to groups -/

theorem parsed_forall₂ {parse : Text → Option K} : ∀ (ls : List Text) (vs : List K),
    ls.map (fun l => parse (l ++ ['\n'])) = vs.map some → List.Forall₂ (fun l v => parse l = some v) (ls.map (· ++ ['\n'])) vs
  | [], [], _ => .nil
  | [], _ :: _, h => by simp at h
  | _ :: _, [], h => by simp at h
  | l :: ls, v :: vs, h => by
    simp only [List.map_cons, List.cons.injEq] at h
    exact .cons h.1 (parsed_forall₂ ls vs h.2)

theorem runsFrom_keys {α : Type} (f : Text → Text) (hf : Function.Injective f) : ∀ (l : List (Text × α)) (prev : Option Text) (cur : List α),
    runsFrom (prev.map f) cur (l.map (fun x => (f x.1, x.2))) = runsFrom prev cur l
  | [], _, _ => rfl
  | (g, x) :: l, prev, cur => by
    have hc : ((prev.map f).isSome && prev.map f != some (f g)) = (prev.isSome && prev != some g) := by
      cases prev with
      | none => rfl
      | some p =>
        simp only [Option.map_some, Option.isSome_some, Bool.true_and]
        by_cases h : p = g
        · subst h
          simp
        · have h2 : f p ≠ f g := fun e => h (hf e)
          rw [(bne_iff_ne (a := some (f p)) (b := some (f g))).mpr (by simpa using h2),
            (bne_iff_ne (a := some p) (b := some g)).mpr (by simpa using h)]
    simp only [List.map_cons, runsFrom, hc]
    have h1 := runsFrom_keys f hf l (some g)
    simp only [Option.map_some] at h1
    rw [h1, h1]

/-- The groups of row numbers that the script forms. -/
def rowRuns (n : Nat) (g : Nat → Text) : List (List Nat) := runsFrom none [] ((List.range n).map (fun i => (g i, i)))

theorem MetricInput.read {parse : Text → Option K} {groupLines scoreLines targetLines : List Text} {n : Nat} {g : Nat → Text} {s t : Nat → K}
    (h : MetricInput parse groupLines scoreLines targetLines n g s t) :
    readByGroup parse (printLines groupLines) (printLines scoreLines) (printLines targetLines) =
      some ((rowRuns n g).map (fun r => r.map (fun i => (s i, t i)))) := by
  have hl := h.lines
  simp only [List.mem_append] at hl
  have hs : (metricLines scoreLines).length = n := by
    have := congrArg List.length h.scores
    simpa using this
  have ht : (metricLines targetLines).length = n := by
    have := congrArg List.length h.targets
    simpa using this
  rw [readByGroup, scriptRows_printLines _ (fun l hm => hl l (Or.inl (Or.inl hm))), scriptRows_printLines _ (fun l hm => hl l (Or.inl (Or.inr hm))),
    scriptRows_printLines _ (fun l hm => hl l (Or.inr hm)), h.groups]
  have h1 : List.Forall₂ (fun l v => parse l = some v) ((metricLines scoreLines).map (· ++ ['\n'])) ((List.range n).map s) :=
    parsed_forall₂ _ _ (by rw [h.scores, List.map_map]; rfl)
  have h2 : List.Forall₂ (fun l v => parse l = some v) ((metricLines targetLines).map (· ++ ['\n'])) ((List.range n).map t) :=
    parsed_forall₂ _ _ (by rw [h.targets, List.map_map]; rfl)
  rw [readGroups_runs _ _ _ _ _ none [] h1 h2 (by simp [hs]) (by simp [ht])]
  congr 1
  rw [rowRuns, ← runsFrom_map]
  have hz : (((List.range n).map g).map (· ++ ['\n'])).zip (((List.range n).map s).zip ((List.range n).map t)) =
      ((List.range n).map (fun i => (g i, (s i, t i)))).map (fun x => (x.1 ++ ['\n'], x.2)) := by
    rw [List.zip_map', List.map_map, List.zip_map', List.map_map]
    rfl
  have hinj : Function.Injective (fun l : Text => l ++ ['\n']) := fun a b e => List.append_cancel_right e
  have := runsFrom_keys (fun l : Text => l ++ ['\n']) hinj ((List.range n).map (fun i => (g i, (s i, t i)))) none []
  rw [hz]
  refine this.trans ?_
  rw [List.map_map]
  rfl

theorem MetricInput.main {parse : Text → Option K} {groupLines scoreLines targetLines : List Text} {n : Nat} {g : Nat → Text} {s t : Nat → K}
    (h : MetricInput parse groupLines scoreLines targetLines n g s t) (discount : Nat → K) (shown : K → String) :
    metricsMain discount shown parse (printLines groupLines) (printLines scoreLines) (printLines targetLines) =
      some (((groupMetrics discount shown ((rowRuns n g).map (fun r => r.map (fun i => (s i, t i))))).map
        (fun kv => (kv.1, kv.2.over (rowRuns n g).length))).insertionSort (fun a b => a.1 ≤ b.1)) := by
  rw [metricsMain, h.read]
  simp

theorem rowRuns_rows (n : Nat) (g : Nat → Text) (s t : Nat → K) :
    (rowRuns n g).map (fun r => r.map (fun i => (s i, t i))) = runsFrom none [] ((List.range n).map (fun i => (g i, (s i, t i)))) := by
  rw [rowRuns, ← runsFrom_map, List.map_map]
  rfl

theorem runs_flatten {α : Type} : ∀ (l : List (Text × α)) (prev : Option Text) (cur : List α),
    (runsFrom prev cur l).flatten = cur ++ l.map Prod.snd
  | [], _, cur => by
    simp only [runsFrom]
    split
    · next h => simp only [List.isEmpty_iff] at h; simp [h]
    · simp
  | (g, x) :: l, prev, cur => by
    simp only [runsFrom]
    split
    · rw [List.flatten_cons, runs_flatten l]
      simp
    · rw [runs_flatten l]
      simp

theorem rowRuns_any (n : Nat) (g : Nat → Text) (s t : Nat → K) (p : K → Bool) :
    ((rowRuns n g).map (fun r => r.map (fun i => (s i, t i)))).any (fun r => r.any (fun x => p x.2)) = true ↔ ∃ i < n, p (t i) = true := by
  rw [rowRuns_rows, ← List.any_flatten, runs_flatten]
  simp

theorem rowRuns_count (n : Nat) (g : Nat → Text) (s t : Nat → K) (p : K → Bool) :
    ((rowRuns n g).map (fun r => r.map (fun i => (s i, t i)))).flatten.countP (fun x => p x.2) =
      ((Finset.range n).filter (fun i => p (t i) = true)).card := by
  rw [rowRuns_rows, runs_flatten, List.nil_append, List.map_map, List.countP_map, ← countP_range]
  rfl

theorem together_list {n : Nat} {g : Nat → Text} (h : GroupsTogether n g) : Together ((List.range n).map g) := by
  intro i j k hij hjk hk he
  have hk' : k < n := by simpa using hk
  have hg : ∀ m < n, ((List.range n).map g)[m]? = some (g m) := by
    intro m hm
    simp [hm]
  rw [hg i (by omega), hg k hk'] at he
  rw [hg j (by omega), hg i (by omega), h i j k hij hjk hk' (Option.some.inj he)]

theorem rowRuns_groups {n : Nat} {g : Nat → Text} (h : GroupsTogether n g) : (rowRuns n g).length = groupCount n g := by
  have := (runs_together (K := ℚ) (fun _ => 0) (fun _ => true) ((List.range n).map (fun i => (g i, ((0 : ℚ), (0 : ℚ)))))
    (by rw [List.map_map]; exact together_list h)).2
  rw [← rowRuns_rows n g (fun _ => (0 : ℚ)) (fun _ => 0), List.length_map, List.map_map] at this
  rw [this, groupCount]
  congr 1

/-! ## C142: discounted cumulative utility -/

/-- C142.  For files of whole lines with equal numbers of rows in which the rows of each group follow one another, the script prints for each
class (a target value, or `total`) that occurs the sum over its rows of the discounted targets, divided by the number of groups, and nothing for
other classes. -/
theorem C142_dcu (discount : Nat → K) {shown : K → String} (hshown : ∀ x, shown x ≠ "total") {parse : Text → Option K}
    {groupLines scoreLines targetLines : List Text} {n : Nat} {g : Nat → Text} {s t : Nat → K}
    (h : MetricInput parse groupLines scoreLines targetLines n g s t) (ht : GroupsTogether n g) :
    ∃ out, metricsMain discount shown parse (printLines groupLines) (printLines scoreLines) (printLines targetLines) = some out ∧
      ∀ cls : String,
        (∀ i < n, cls ≠ "total" ∧ shown (t i) ≠ cls) ∧ out.lookup ("dcu_" ++ cls) = none ∨
        (∃ i < n, cls = "total" ∨ shown (t i) = cls) ∧ out.lookup ("dcu_" ++ cls) = some (.float
          ((∑ i ∈ Finset.range n, if cls = "total" ∨ shown (t i) = cls then discount (positionInGroup n g s i) * t i else 0) /
            (groupCount n g : K))) := by
  refine ⟨_, h.main discount shown, fun cls => ?_⟩
  have hlen : (rowRuns n g).length = ((rowRuns n g).map (fun r => r.map (fun i => (s i, t i)))).length := (List.length_map _).symm
  have hlook := printed_lookup discount shown ((rowRuns n g).map (fun r => r.map (fun i => (s i, t i)))) ("dcu_" ++ cls)
  rw [← hlen] at hlook
  have hdcu := groups_dcu hshown discount cls ((rowRuns n g).map (fun r => r.map (fun i => (s i, t i)))) []
  have hany := rowRuns_any n g s t (inClass shown cls)
  have hcls : ∀ i, inClass shown cls (t i) = true ↔ cls = "total" ∨ shown (t i) = cls := by
    intro i
    simp [inClass]
  by_cases hex : ∃ i < n, inClass shown cls (t i) = true
  · right
    refine ⟨by obtain ⟨i, hi, hc⟩ := hex; exact ⟨i, hi, (hcls i).mp hc⟩, ?_⟩
    rw [hlook, groupMetrics, hdcu, if_pos (hany.mpr hex), rowRuns_groups ht, Option.map_some, PyNum.over]
    have hsum := (runs_together discount (inClass shown cls) ((List.range n).map (fun i => (g i, (s i, t i))))
      (by rw [List.map_map]; exact together_list ht)).1
    rw [rowRuns_rows, hsum, rowsSum_all]
    have h0 : (metricAt ("dcu_" ++ cls) ([] : List (String × PyNum K))).value = 0 := by simp [metricAt, PyNum.value]
    rw [h0, zero_add]
    simp only [hcls, positionInGroup]
  · left
    refine ⟨fun i hi => ?_, ?_⟩
    · exact not_or.mp (fun hc => hex ⟨i, hi, (hcls i).mpr hc⟩)
    · rw [hlook, groupMetrics, hdcu, if_neg (fun e => hex (hany.mp e))]
      rfl

/-! ## C143: no order beats the order of the targets -/

/-- C143.  With a discount that does not grow with the position, no score file gives a larger `dcu_total` than the target file used as score
file. -/
theorem C143_best {discount : Nat → K} (hd : Antitone discount) {shown : K → String} (hshown : ∀ x, shown x ≠ "total")
    {parse : Text → Option K} {groupLines scoreLines targetLines : List Text} {n : Nat} (hn : 0 < n) {g : Nat → Text} {s t : Nat → K}
    (h : MetricInput parse groupLines scoreLines targetLines n g s t) :
    ∃ out best a b, metricsMain discount shown parse (printLines groupLines) (printLines scoreLines) (printLines targetLines) = some out ∧
      metricsMain discount shown parse (printLines groupLines) (printLines targetLines) (printLines targetLines) = some best ∧
      out.lookup "dcu_total" = some (.float a) ∧ best.lookup "dcu_total" = some (.float b) ∧ a ≤ b := by
  have h' : MetricInput parse groupLines targetLines targetLines n g t t := by
    refine ⟨fun l hm => h.lines l ?_, h.groups, h.targets, h.targets⟩
    simp only [List.mem_append] at hm ⊢
    rcases hm with (hm | hm) | hm
    · exact Or.inl (Or.inl hm)
    · exact Or.inr hm
    · exact Or.inr hm
  have value : ∀ s : Nat → K, (((groupMetrics discount shown ((rowRuns n g).map (fun r => r.map (fun i => (s i, t i))))).map
        (fun kv => (kv.1, kv.2.over (rowRuns n g).length))).insertionSort (fun a b => a.1 ≤ b.1)).lookup "dcu_total" =
      some (.float ((((rowRuns n g).map (fun r => r.map (fun i => (s i, t i)))).map (rankSum discount (fun _ => true) [])).sum /
        ((rowRuns n g).length : K))) := by
    intro s
    have hlen : (rowRuns n g).length = ((rowRuns n g).map (fun r => r.map (fun i => (s i, t i)))).length := (List.length_map _).symm
    have hlook := printed_lookup discount shown ((rowRuns n g).map (fun r => r.map (fun i => (s i, t i)))) "dcu_total"
    rw [← hlen] at hlook
    have hdcu := groups_dcu hshown discount "total" ((rowRuns n g).map (fun r => r.map (fun i => (s i, t i)))) []
    have hany := (rowRuns_any n g s t (inClass shown "total")).mpr ⟨0, hn, by simp [inClass]⟩
    have hcl : inClass shown "total" = fun _ => true := by
      funext x
      simp [inClass]
    rw [if_pos hany, hcl, ← total_split.1] at hdcu
    have h0 : (metricAt "dcu_total" ([] : List (String × PyNum K))).value = 0 := by simp [metricAt, PyNum.value]
    rw [h0, zero_add] at hdcu
    rw [hlook, groupMetrics, hdcu]
    rfl
  refine ⟨_, _, _, _, h.main discount shown, h'.main discount shown, value s, value t, ?_⟩
  refine div_le_div_of_nonneg_right ?_ (Nat.cast_nonneg _)
  rw [List.map_map, List.map_map]
  refine List.sum_le_sum (fun r _ => ?_)
  have := rankSum_le_best hd (r.map (fun i => (s i, t i)))
  rw [List.map_map] at this
  exact this

/-- `discount` (`compute_metrics.py:55-56`), without rounding. -/
noncomputable def logDiscount (pos : Nat) : ℝ := Real.log 2.4 / Real.log ((pos : ℝ) + 2.4)

/-- C143.  The discount of the script does not grow with the position. -/
theorem C143_discount : Antitone logDiscount := by
  intro a b hab
  unfold logDiscount
  have h1 : (0 : ℝ) < Real.log ((a : ℝ) + 2.4) := Real.log_pos (by
    have : (0 : ℝ) ≤ (a : ℝ) := Nat.cast_nonneg a
    linarith)
  have h2 : Real.log ((a : ℝ) + 2.4) ≤ Real.log ((b : ℝ) + 2.4) := by
    have h3 : (0 : ℝ) ≤ (a : ℝ) := Nat.cast_nonneg a
    have h4 : (a : ℝ) ≤ (b : ℝ) := Nat.cast_le.mpr hab
    exact Real.log_le_log (by linarith) (by linarith)
  exact div_le_div_of_nonneg_left (Real.log_nonneg (by norm_num)) h1 h2

/-! ## C144: only the order of the scores matters -/

/-- C144.  Two score files that order the rows of each group in the same way give the same output. -/
theorem C144_order (discount : Nat → K) (shown : K → String) {parse : Text → Option K}
    {groupLines scoreLines scoreLines' targetLines : List Text} {n : Nat} {g : Nat → Text} {s s' t : Nat → K}
    (h : MetricInput parse groupLines scoreLines targetLines n g s t) (h' : MetricInput parse groupLines scoreLines' targetLines n g s' t)
    (ho : ∀ i < n, ∀ j < n, g i = g j → (s i < s j ↔ s' i < s' j)) :
    metricsMain discount shown parse (printLines groupLines) (printLines scoreLines) (printLines targetLines) =
      metricsMain discount shown parse (printLines groupLines) (printLines scoreLines') (printLines targetLines) := by
  rw [h.main, h'.main]
  have key : ∀ (runs : List (List Nat)) (m : List (String × PyNum K)),
      (∀ r ∈ runs, (rankGroup (r.map (fun i => (s i, t i)))).map Prod.snd = (rankGroup (r.map (fun i => (s' i, t i)))).map Prod.snd) →
      (runs.map (fun r => r.map (fun i => (s i, t i)))).foldl
          (fun m g => mergeMetrics (metricsLoop discount shown 0 ((rankGroup g).map Prod.snd) []) m) m =
        (runs.map (fun r => r.map (fun i => (s' i, t i)))).foldl
          (fun m g => mergeMetrics (metricsLoop discount shown 0 ((rankGroup g).map Prod.snd) []) m) m := by
    intro runs
    induction runs with
    | nil => intro m _; rfl
    | cons r runs ih =>
      intro m hr
      simp only [List.map_cons, List.foldl_cons]
      rw [hr r (by simp), ih _ (fun r' hr' => hr r' (by simp [hr']))]
  have heq : groupMetrics discount shown ((rowRuns n g).map (fun r => r.map (fun i => (s i, t i)))) =
      groupMetrics discount shown ((rowRuns n g).map (fun r => r.map (fun i => (s' i, t i)))) := by
    refine key _ _ (fun r hr => ?_)
    rw [rankGroup_targets, rankGroup_targets]
    congr 1
    refine insertionSort_congr r (fun i hi j hj => ?_)
    obtain ⟨h1, h2⟩ := runsFrom_same g (List.range n) none [] (by simp) (by simp) r hr i hi
    obtain ⟨_, h3⟩ := runsFrom_same g (List.range n) none [] (by simp) (by simp) r hr j hj
    have hin : i < n := by simpa using h2
    have hjn : j < n := by simpa using h3
    rw [← not_lt, ← not_lt, ho i hin j hjn (h1 j hj)]
  rw [heq]

/-! ## Examples -/

/-- `float` for files of small whole numbers. -/
def digitNumber (l : Text) : Option ℚ :=
  match l with
  | [c, '\n'] => if c.isDigit then some ((c.toNat - 48 : Nat) : ℚ) else none
  | [c] => if c.isDigit then some ((c.toNat - 48 : Nat) : ℚ) else none
  | _ => none

/-- `str` of the targets 0 and 1, for the examples. -/
def bitShown (x : ℚ) : String := if x = 0 then "0.0" else if x = 1 then "1.0" else "other"

theorem bitShown_total : ∀ x, bitShown x ≠ "total" := by
  intro x
  unfold bitShown
  split
  · decide
  · split <;> decide

/-- A discount for the examples. -/
def halfDiscount (i : Nat) : ℚ := 1 / ((i : ℚ) + 1)

theorem halfDiscount_antitone : Antitone halfDiscount := by
  intro a b h
  unfold halfDiscount
  have h1 : (0 : ℚ) ≤ (a : ℚ) := Nat.cast_nonneg a
  have h2 : (a : ℚ) ≤ (b : ℚ) := Nat.cast_le.mpr h
  exact one_div_le_one_div_of_le (by linarith) (by linarith)

/-- Lines of one character. -/
def charLines (s : String) : List Text := s.toList.map (fun c => [c])

/-- Two groups `a` and `b` with two rows each. -/
def pickG (i : Nat) : Text := [['a'], ['a'], ['b'], ['b']].getD i []
def pickS (i : Nat) : ℚ := [1, 2, 5, 3].getD i 0
def pickS' (i : Nat) : ℚ := [0, 9, 8, 7].getD i 0
def pickT (i : Nat) : ℚ := [1, 0, 1, 1].getD i 0

theorem pick_input : MetricInput digitNumber (charLines "aabb") ("#score".toList :: charLines "1253") (charLines "1011") 4 pickG pickS pickT :=
  ⟨by decide, by decide, by decide +kernel, by decide +kernel⟩

theorem pick_input' : MetricInput digitNumber (charLines "aabb") (charLines "0987") (charLines "1011") 4 pickG pickS' pickT :=
  ⟨by decide, by decide, by decide +kernel, by decide +kernel⟩

theorem pick_together : GroupsTogether 4 pickG := by
  have : ∀ k < 4, ∀ j < k, ∀ i < j, pickG i = pickG k → pickG j = pickG i := by decide
  exact fun i j k hij hjk hk he => this k hk j hjk i hij he

/-- C142: the row of class `1.0` of group `a` comes second, those of group `b` first and second: (1/2 + 1 + 1/2)/2 = 1. -/
example : (metricsMain halfDiscount bitShown digitNumber (printLines (charLines "aabb")) (printLines ("#score".toList :: charLines "1253"))
    (printLines (charLines "1011"))) = some [("count_0.0", .int 0), ("count_1.0", .int 1), ("count_total", .int 2), ("dcu_0.0", .float 0),
      ("dcu_1.0", .float 1), ("dcu_total", .float 1)] := by decide +kernel
example := C142_dcu halfDiscount bitShown_total pick_input pick_together
/-- C143. -/
example := C143_best halfDiscount_antitone bitShown_total (by decide) pick_input
/-- C144: other scores in the same order. -/
example := C144_order halfDiscount bitShown pick_input pick_input' (by decide +kernel)

/-! ## C145: files of different length -/

/-- C145, the full statement: if the script ends without an exception, all files have the same number of data rows. -/
def C145_full : Prop :=
  ∀ (groupFile scoreFile targetFile : Text) (out : List (String × PyNum ℚ)),
    metricsMain halfDiscount bitShown digitNumber groupFile scoreFile targetFile = some out →
    (scriptRows scoreFile).length = (scriptRows groupFile).length ∧ (scriptRows targetFile).length = (scriptRows groupFile).length

/-- C145 is false: with one score less than rows, the last group is left out and the result is that of the other groups. -/
theorem C145_refuted : ¬ C145_full := by
  intro h
  have := h (printLines (charLines "aabb")) (printLines (charLines "125")) (printLines (charLines "1011"))
    [("count_0.0", .int 1), ("count_1.0", .int 1), ("count_total", .int 2), ("dcu_0.0", .float 0), ("dcu_1.0", .float (1 / 2)),
      ("dcu_total", .float (1 / 2))] (by decide +kernel)
  revert this
  decide +kernel

theorem readGroups_prefix {parse : Text → Option K} : ∀ (gids ss ts ss' ts' : List Text) (prev : Option Text) (cur : List (K × K))
    (gs : List (List (K × K))), ss' <+: ss → ts' <+: ts → readGroups parse prev cur gids ss ts = some gs →
    ∃ gs', readGroups parse prev cur gids ss' ts' = some gs' ∧ gs' <+: gs
  | [], ss, ts, ss', ts', prev, cur, gs, _, _, h => ⟨gs, by simpa only [readGroups] using h, List.prefix_refl gs⟩
  | gid :: gids, ss, ts, [], ts', prev, cur, gs, _, _, _ => ⟨[], by simp only [readGroups], List.nil_prefix⟩
  | gid :: gids, [], ts, s' :: ss', ts', prev, cur, gs, hs, _, _ => absurd (List.prefix_nil.mp hs) (by simp)
  | gid :: gids, s :: ss, ts, s' :: ss', ts', prev, cur, gs, hs, ht, h => by
    obtain ⟨rfl, hs'⟩ := List.cons_prefix_cons.mp hs
    cases hp : parse s' with
    | none => simp [readGroups, hp] at h
    | some score =>
      cases ts' with
      | nil => exact ⟨[], by simp only [readGroups, hp], List.nil_prefix⟩
      | cons t' ts' =>
        cases ts with
        | nil => exact absurd (List.prefix_nil.mp ht) (by simp)
        | cons t ts =>
          obtain ⟨rfl, ht'⟩ := List.cons_prefix_cons.mp ht
          cases hq : parse t' with
          | none => simp [readGroups, hp, hq] at h
          | some target =>
            simp only [readGroups, hp, hq] at h ⊢
            split at h
            · rename_i hc
              simp only [if_pos hc]
              obtain ⟨rest, h1, rfl⟩ := Option.map_eq_some_iff.mp h
              obtain ⟨gs', h2, h3⟩ := readGroups_prefix gids ss ts ss' ts' _ _ rest hs' ht' h1
              exact ⟨cur :: gs', by rw [h2]; rfl, List.cons_prefix_cons.mpr ⟨rfl, h3⟩⟩
            · rename_i hc
              simp only [if_neg hc]
              exact readGroups_prefix gids ss ts ss' ts' _ _ gs hs' ht' h

/-- C145, what holds: if rows are missing at the end of the scores or of the targets, then what is printed are the metrics of the first groups
of the complete files; no group is counted in part.  Missing: an exception. -/
theorem C145_prefix_partial (discount : Nat → K) (shown : K → String) {parse : Text → Option K}
    {groupFile scoreFile targetFile shortScores shortTargets : Text} {groups : List (List (K × K))}
    (hs : scriptRows shortScores <+: scriptRows scoreFile) (ht : scriptRows shortTargets <+: scriptRows targetFile)
    (h : readByGroup parse groupFile scoreFile targetFile = some groups) :
    ∃ counted, counted <+: groups ∧ metricsMain discount shown parse groupFile shortScores shortTargets =
      some (((groupMetrics discount shown counted).map (fun kv => (kv.1, kv.2.over counted.length))).insertionSort
        (fun a b => a.1 ≤ b.1)) := by
  obtain ⟨gs', h1, h2⟩ := readGroups_prefix _ _ _ _ _ none [] groups hs ht h
  exact ⟨gs', h2, by rw [metricsMain, readByGroup, h1]; rfl⟩

/-- The files of `C145_refuted`. -/
example : scriptRows (printLines (charLines "125")) <+: scriptRows (printLines (charLines "1253")) ∧
    readByGroup digitNumber (printLines (charLines "aabb")) (printLines (charLines "1253")) (printLines (charLines "1011")) =
      some [[(1, 1), (2, 0)], [(5, 1), (3, 1)]] := by decide +kernel

/-- C145: with no scores at all, nothing is printed and there is no error. -/
theorem C145_empty (discount : Nat → K) (shown : K → String) (parse : Text → Option K) (groupFile scoreFile targetFile : Text)
    (h : scriptRows scoreFile = []) : metricsMain discount shown parse groupFile scoreFile targetFile = some [] := by
  have hr : readByGroup parse groupFile scoreFile targetFile = some [] := by
    rw [readByGroup, h]
    cases scriptRows groupFile <;> rfl
  rw [metricsMain, hr]
  rfl

example := C145_empty halfDiscount bitShown digitNumber (printLines (charLines "ab")) (printLines ["#nothing".toList])
  (printLines (charLines "12")) (by decide)

/-! ## C146: counts per group -/

/-- C146, the part that holds: what is printed for a class that occurs is its number of rows divided by the number of groups, rounded down.  That it
is not rounded is missing. -/
theorem C146_count_partial (discount : Nat → K) {shown : K → String} (hshown : ∀ x, shown x ≠ "total") {parse : Text → Option K}
    {groupLines scoreLines targetLines : List Text} {n : Nat} {g : Nat → Text} {s t : Nat → K}
    (h : MetricInput parse groupLines scoreLines targetLines n g s t) (ht : GroupsTogether n g) :
    ∃ out, metricsMain discount shown parse (printLines groupLines) (printLines scoreLines) (printLines targetLines) = some out ∧
      ∀ cls : String, (∃ i < n, cls = "total" ∨ shown (t i) = cls) → out.lookup ("count_" ++ cls) = some (.int
        ((((Finset.range n).filter (fun i => cls = "total" ∨ shown (t i) = cls)).card / groupCount n g : Nat) : Int)) := by
  refine ⟨_, h.main discount shown, fun cls hex => ?_⟩
  have hlen : (rowRuns n g).length = ((rowRuns n g).map (fun r => r.map (fun i => (s i, t i)))).length := (List.length_map _).symm
  have hlook := printed_lookup discount shown ((rowRuns n g).map (fun r => r.map (fun i => (s i, t i)))) ("count_" ++ cls)
  rw [← hlen] at hlook
  have hcount := groups_count hshown discount cls ((rowRuns n g).map (fun r => r.map (fun i => (s i, t i)))) (m := []) (a := 0) rfl
  have hany := rowRuns_any n g s t (inClass shown cls)
  have hcls : ∀ i, inClass shown cls (t i) = true ↔ cls = "total" ∨ shown (t i) = cls := by
    intro i
    simp [inClass]
  rw [if_pos (hany.mpr (by obtain ⟨i, hi, hc⟩ := hex; exact ⟨i, hi, (hcls i).mpr hc⟩)), rowRuns_count] at hcount
  rw [hlook, groupMetrics, hcount, rowRuns_groups ht, Option.map_some, PyNum.over, zero_add]
  simp only [hcls]
  push_cast
  rfl

/-- C146, the full statement: `count_total` is the mean number of rows of a group. -/
def C146_full : Prop :=
  ∀ (groupLines scoreLines targetLines : List Text) (n : Nat) (g : Nat → Text) (s t : Nat → ℚ) (out : List (String × PyNum ℚ)),
    0 < n → MetricInput digitNumber groupLines scoreLines targetLines n g s t → GroupsTogether n g →
    metricsMain halfDiscount bitShown digitNumber (printLines groupLines) (printLines scoreLines) (printLines targetLines) = some out →
    ∃ v, out.lookup "count_total" = some v ∧ v.value = (n : ℚ) / (groupCount n g : ℚ)

/-- Two groups with three rows. -/
def unevenG (i : Nat) : Text := [['a'], ['a'], ['b']].getD i []
def unevenS (i : Nat) : ℚ := [1, 2, 5].getD i 0
def unevenT (i : Nat) : ℚ := [1, 0, 1].getD i 0

theorem uneven_input : MetricInput digitNumber (charLines "aab") (charLines "125") (charLines "101") 3 unevenG unevenS unevenT :=
  ⟨by decide, by decide, by decide +kernel, by decide +kernel⟩

theorem uneven_together : GroupsTogether 3 unevenG := by
  have : ∀ k < 3, ∀ j < k, ∀ i < j, unevenG i = unevenG k → unevenG j = unevenG i := by decide
  exact fun i j k hij hjk hk he => this k hk j hjk i hij he

/-- C146 is false: three rows in two groups are 1.0000 rows per group, and class `0.0` has 0.0000. -/
theorem C146_refuted : ¬ C146_full := by
  intro h
  obtain ⟨v, hv, he⟩ := h _ _ _ 3 unevenG unevenS unevenT [("count_0.0", .int 0), ("count_1.0", .int 1), ("count_total", .int 1),
    ("dcu_0.0", .float 0), ("dcu_1.0", .float (3 / 4)), ("dcu_total", .float (3 / 4))] (by decide) uneven_input uneven_together
    (by decide +kernel)
  have hv' : v = .int 1 := by
    have : some (PyNum.int 1 : PyNum ℚ) = some v := by rw [← hv]; decide +kernel
    exact (Option.some.inj this).symm
  rw [hv'] at he
  have hg : groupCount 3 unevenG = 2 := by decide
  rw [hg] at he
  norm_num [PyNum.value] at he

example := C146_count_partial halfDiscount bitShown_total uneven_input uneven_together

/-! ## C147: groups that are not together -/

/-- C147, the full statement: `dcu_total` is the sum of the discounted targets, each by its position in its group, over the number of groups,
wherever the rows of the groups are. -/
def C147_full : Prop :=
  ∀ (groupLines scoreLines targetLines : List Text) (n : Nat) (g : Nat → Text) (s t : Nat → ℚ) (out : List (String × PyNum ℚ)),
    0 < n → MetricInput digitNumber groupLines scoreLines targetLines n g s t →
    metricsMain halfDiscount bitShown digitNumber (printLines groupLines) (printLines scoreLines) (printLines targetLines) = some out →
    out.lookup "dcu_total" = some (.float
      ((∑ i ∈ Finset.range n, halfDiscount (positionInGroup n g s i) * t i) / (groupCount n g : ℚ)))

/-- The groups `a`, `b`, `a`. -/
def mixedG (i : Nat) : Text := [['a'], ['b'], ['a']].getD i []
def mixedS (i : Nat) : ℚ := [1, 2, 5].getD i 0
def mixedT (i : Nat) : ℚ := [1, 0, 1].getD i 0

theorem mixed_input : MetricInput digitNumber (charLines "aba") (charLines "125") (charLines "101") 3 mixedG mixedS mixedT :=
  ⟨by decide, by decide, by decide +kernel, by decide +kernel⟩

/-- C147 is false: the rows of a group that are apart are two groups to the script, so both come first: 2/3 instead of 3/4. -/
theorem C147_refuted : ¬ C147_full := by
  intro h
  have := h _ _ _ 3 mixedG mixedS mixedT [("count_0.0", .int 0), ("count_1.0", .int 0), ("count_total", .int 1),
    ("dcu_0.0", .float 0), ("dcu_1.0", .float (2 / 3)), ("dcu_total", .float (2 / 3))] (by decide) mixed_input (by decide +kernel)
  revert this
  decide +kernel

/-- C147: also a group file without newline at its end has one group more, as lines are compared with their newlines: both rows of group `a`
come first. -/
theorem C147_newline_refuted :
    (metricsMain halfDiscount bitShown digitNumber "a\na\n".toList "1\n2\n".toList "1\n1\n".toList).map (fun out => out.lookup "dcu_total") =
      some (some (.float (3 / 2))) ∧
    (metricsMain halfDiscount bitShown digitNumber "a\na".toList "1\n2\n".toList "1\n1\n".toList).map (fun out => out.lookup "dcu_total") =
      some (some (.float 1)) := by
  constructor <;> decide +kernel

/-! ## C148: `compute_rmse.py` -/

/-- C148.  If all data lines are numbers: the script ends without an exception exactly if there are equally many of both and at least one, and it
then prints the root of the mean squared difference.  `sqrt` is the square root. -/
theorem C148_rmse (sqrt : K → K) {parse : Text → Option K} {scoreFile responseFile : Text} {n m : Nat} {s r : Nat → K}
    (hs : (scriptRows scoreFile).map parse = (List.range n).map (fun i => some (s i)))
    (hr : (scriptRows responseFile).map parse = (List.range m).map (fun i => some (r i))) :
    ((∃ x, rmseMain sqrt parse scoreFile responseFile = some (x, true)) ↔ n = m ∧ 0 < n) ∧
    (n = m → 0 < n → rmseMain sqrt parse scoreFile responseFile = some (sqrt ((∑ i ∈ Finset.range n, (s i - r i) ^ 2) / (n : K)), true)) := by
  have hm : ∀ (ls : List Text) (n : Nat) (v : Nat → K), ls.map parse = (List.range n).map (fun i => some (v i)) →
      ls.mapM parse = some ((List.range n).map v) := by
    intro ls n v h
    have : ∀ (ls : List Text) (vs : List K), ls.map parse = vs.map some → ls.mapM parse = some vs := by
      intro ls
      induction ls with
      | nil =>
        intro vs h
        cases vs with
        | nil => rfl
        | cons _ _ => simp at h
      | cons l ls ih =>
        intro vs h
        cases vs with
        | nil => simp at h
        | cons v vs =>
          simp only [List.map_cons, List.cons.injEq] at h
          rw [List.mapM_cons, h.1, ih vs h.2]
          rfl
    exact this ls _ (by rw [h, List.map_map]; rfl)
  have hsum : ∀ n : Nat, ((((List.range n).map s).zip ((List.range n).map r)).map (fun p => (p.1 - p.2) * (p.1 - p.2))).sum =
      ∑ i ∈ Finset.range n, (s i - r i) ^ 2 := by
    intro n
    rw [List.zip_map', List.map_map]
    induction n with
    | zero => rfl
    | succ n ih =>
      rw [List.range_succ, List.map_append, List.sum_append, ih, Finset.sum_range_succ]
      simp [pow_two]
  have hmain : n = m → 0 < n → rmseMain sqrt parse scoreFile responseFile =
      some (sqrt ((∑ i ∈ Finset.range n, (s i - r i) ^ 2) / (n : K)), true) := by
    intro hnm hn
    subst hnm
    have hne : (List.range n).map s ≠ [] := by
      intro e
      have := congrArg List.length e
      simp at this
      omega
    rw [rmseMain, hm _ n s hs, hm _ n r hr]
    simp only [Option.bind_eq_bind, Option.bind_some, rmseOf, if_neg hne, hsum, List.length_map, List.length_range, beq_self_eq_true]
    rfl
  refine ⟨⟨?_, fun h => ⟨_, hmain h.1 h.2⟩⟩, hmain⟩
  rintro ⟨x, hx⟩
  rw [rmseMain, hm _ n s hs, hm _ m r hr] at hx
  simp only [Option.bind_eq_bind, Option.bind_some, rmseOf] at hx
  by_cases hne : (List.range n).map s = []
  · rw [if_pos hne] at hx
    cases hx
  · rw [if_neg hne] at hx
    simp only [Option.bind_some, Option.pure_def, List.length_map, List.length_range, Option.some.injEq, Prod.mk.injEq, beq_iff_eq] at hx
    refine ⟨hx.2, ?_⟩
    rcases Nat.eq_zero_or_pos n with rfl | h
    · exact absurd rfl hne
    · exact h

example : rmseMain (fun x => x) digitNumber "#s\n1\n4\n".toList "3\n4\n".toList = some (2, true) := by decide +kernel
example := C148_rmse (fun x => x) (s := fun i => [1, 4].getD i 0) (r := fun i => [3, 4].getD i 0) (parse := digitNumber)
  (scoreFile := "#s\n1\n4\n".toList) (responseFile := "3\n4\n".toList) (n := 2) (m := 2) (by decide +kernel) (by decide +kernel)

/-- C148: a number is printed before the lengths are compared; it is then the root of a mean over the wrong number of rows. -/
theorem C148_printed_first :
    rmseMain (fun x => x) digitNumber "3\n3\n3\n3\n".toList "1\n".toList = some (1, false) ∧
    rmseMain (fun x => x) digitNumber "3\n".toList "1\n1\n1\n1\n".toList = some (4, false) := by
  constructor <;> decide +kernel

end Gbdt
