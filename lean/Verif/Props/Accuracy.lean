import Verif.Lemmas.Accuracy
import Verif.Props.Score

/-!
# C187: predictions in doubles and the exact sums of the leaves

`scoreOf` (C37) is the score of the leaf that a row reaches; scores are floats, which are doubles, and are added in `double`.
-/

set_option autoImplicit false

namespace Gbdt

open Outcome

variable {A : Type} [LinearOrder A]

/-- The scores that a row gets from the trees of a forest are the finite doubles `qs`. -/
def RowScores (columns : String → Option (Column A)) (forest : List (Tree F64 A)) (i : Nat) (qs : List ℚ) : Prop :=
  forest.mapM (fun t => scoreOf columns t i) = some (qs.map F64.num) ∧ ∀ q ∈ qs, Binary 53 1074 q

theorem mapM_some_length {α β : Type} {f : α → Option β} : ∀ {l : List α} {xs : List β}, l.mapM f = some xs → xs.length = l.length
  | [], xs, h => by
    simp only [List.mapM_nil, Option.pure_def, Option.some.injEq] at h
    rw [← h]
    rfl
  | a :: l, xs, h => by
    simp only [List.mapM_cons, Option.pure_def, Option.bind_eq_bind, Option.bind_eq_some_iff, Option.some.injEq] at h
    obtain ⟨b, _, ys, hy, rfl⟩ := h
    simp [mapM_some_length hy]

theorem mapM_some_perm {α β : Type} {f : α → Option β} {l l' : List α} (hp : l.Perm l') : ∀ {xs : List β}, l.mapM f = some xs →
    ∃ xs', l'.mapM f = some xs' ∧ xs.Perm xs' := by
  induction hp with
  | nil => intro xs h; exact ⟨xs, h, .refl _⟩
  | cons a _ ih =>
    intro xs h
    simp only [List.mapM_cons, Option.pure_def, Option.bind_eq_bind, Option.bind_eq_some_iff, Option.some.injEq] at h ⊢
    obtain ⟨b, hb, ys, hy, rfl⟩ := h
    obtain ⟨ys', h1, h2⟩ := ih hy
    exact ⟨b :: ys', ⟨b, hb, ys', h1, rfl⟩, h2.cons b⟩
  | swap a a' l =>
    intro xs h
    simp only [List.mapM_cons, Option.pure_def, Option.bind_eq_bind, Option.bind_eq_some_iff, Option.some.injEq] at h ⊢
    obtain ⟨b, hb, ys, ⟨c, hc, zs, hz, rfl⟩, rfl⟩ := h
    exact ⟨c :: b :: zs, ⟨c, hc, b :: zs, ⟨b, hb, zs, hz, rfl⟩, rfl⟩, .swap c b zs⟩
  | trans _ _ ih1 ih2 =>
    intro xs h
    obtain ⟨ys, h1, h2⟩ := ih1 h
    obtain ⟨zs, h3, h4⟩ := ih2 h1
    exact ⟨zs, h3, h2.trans h4⟩

theorem all_num : ∀ {l : List F64}, (∀ b ∈ l, ∃ q, b = F64.num q) → ∃ qs : List ℚ, l = qs.map F64.num
  | [], _ => ⟨[], rfl⟩
  | b :: l, h => by
    obtain ⟨q, rfl⟩ := h b (by simp)
    obtain ⟨qs, rfl⟩ := all_num (l := l) (fun c hc => h c (by simp [hc]))
    exact ⟨q :: qs, rfl⟩

theorem big_range {B M : ℚ} (hB : B = 2 ^ 1000) (hM : M = 2 ^ 1002) : (∀ x : ℚ, x < M → x < 2 ^ 1024) ∧ 0 < M ∧ B * 4 ≤ M := by
  subst hB hM
  refine ⟨fun x hx => hx.trans (pow_lt_pow_right₀ (by norm_num) (by norm_num)), pow_pos (by norm_num) _, ?_⟩
  rw [show (4 : ℚ) = 2 ^ 2 by norm_num, ← pow_add]

theorem sumScores_num (qs : List ℚ) : sumScores (qs.map F64.num) = doubleSum (.num 0) qs := rfl

/-- **C187.** In doubles, the prediction for a row differs from the exact sum of the scores of its leaves by at most the number of
trees times `2 ^ -52` times the sum of the magnitudes of the scores. -/
theorem C187_error {columns : String → Option (Column A)} {n : Nat} (hcols : ∀ name c, columns name = some c → HasRows n c)
    {numThreads : Int} (hnt : 0 < numThreads) (forest : List (Tree F64 A)) (hfeat : HasFeatures columns forest)
    (hf : ∀ t ∈ forest, Scorable columns t) (hsize : forest.length ≤ 2 ^ 52) :
    ∃ scores, evaluateForest columns n numThreads forest = ok (.ok, some scores) ∧ scores.length = n ∧
      ∀ i < n, ∀ qs, RowScores columns forest i qs → (qs.map (|·|)).sum ≤ 2 ^ 1000 →
        ∃ y, scores[i]? = some (.num y) ∧ |y - qs.sum| ≤ forest.length / 2 ^ 52 * (qs.map (|·|)).sum := by
  obtain ⟨scores, h1, h2, h3⟩ := C37_prediction hcols hnt forest hfeat hf
  refine ⟨scores, h1, h2, fun i hi qs hqs hbound => ?_⟩
  obtain ⟨xs, k1, k2⟩ := h3 i hi
  obtain ⟨hq1, hq2⟩ := hqs
  rw [hq1, Option.some.injEq] at k1
  subst k1
  have hlen : qs.length = forest.length := by
    have := mapM_some_length hq1
    simpa using this
  rw [sumScores_num] at k2
  generalize hB : (2 : ℚ) ^ 1000 = B at hbound
  obtain ⟨g1, g2, g3⟩ := big_range hB.symm rfl
  obtain ⟨y, y1, y2⟩ := doubleSum_error g1 g2 g3 qs 0 0 0 0 ⟨0, 0, by norm_num, by norm_num, by norm_num⟩ hq2 (by simp) (by simp)
    (by rw [hlen]; omega) (by rw [zero_add]; exact hbound)
  refine ⟨y, by rw [k2, y1], ?_⟩
  rw [zero_add, zero_add, zero_add, hlen] at y2
  refine y2.trans (le_of_eq ?_)
  rw [show (2 : ℚ) ^ 53 = 2 * 2 ^ 52 by norm_num, mul_div_mul_left _ _ (by norm_num)]

/-- **C187 (two rows).** Two rows whose exact sums are further apart than the two bounds of `C187_error` are predicted in that order. -/
theorem C187_keeps_order {columns : String → Option (Column A)} {n : Nat} (hcols : ∀ name c, columns name = some c → HasRows n c)
    {numThreads : Int} (hnt : 0 < numThreads) (forest : List (Tree F64 A)) (hfeat : HasFeatures columns forest)
    (hf : ∀ t ∈ forest, Scorable columns t) (hsize : forest.length ≤ 2 ^ 52) :
    ∃ scores, evaluateForest columns n numThreads forest = ok (.ok, some scores) ∧ scores.length = n ∧
      ∀ i < n, ∀ j < n, ∀ qs rs, RowScores columns forest i qs → RowScores columns forest j rs →
        (qs.map (|·|)).sum ≤ 2 ^ 1000 → (rs.map (|·|)).sum ≤ 2 ^ 1000 →
        forest.length / 2 ^ 52 * ((qs.map (|·|)).sum + (rs.map (|·|)).sum) < rs.sum - qs.sum →
        ∃ x y, scores[i]? = some (.num x) ∧ scores[j]? = some (.num y) ∧ x < y := by
  obtain ⟨scores, h1, h2, h3⟩ := C187_error hcols hnt forest hfeat hf hsize
  refine ⟨scores, h1, h2, fun i hi j hj qs rs hq hr b1 b2 hgap => ?_⟩
  obtain ⟨x, x1, x2⟩ := h3 i hi qs hq b1
  obtain ⟨y, y1, y2⟩ := h3 j hj rs hr b2
  refine ⟨x, y, x1, y1, ?_⟩
  have e1 := (abs_le.mp x2).2
  have e2 := (abs_le.mp y2).1
  rw [mul_add] at hgap
  generalize (forest.length : ℚ) / 2 ^ 52 * (qs.map (|·|)).sum = a at *
  generalize (forest.length : ℚ) / 2 ^ 52 * (rs.map (|·|)).sum = b at *
  linarith

/-- The scores of a row are multiples of one power of two, and few bits apart: the sum of their magnitudes is less than `2 ^ 53` times
that power. -/
def SameScale (qs : List ℚ) : Prop :=
  ∃ e : ℤ, -1074 ≤ e ∧ e ≤ 970 ∧ (∀ q ∈ qs, ∃ m : ℤ, q = m * 2 ^ e) ∧ (qs.map (|·|)).sum < 2 ^ (53 + e)

/-- **C187 (exact).** If the scores of a row's leaves are of the same scale, the prediction for the row is their exact sum. -/
theorem C187_exact {columns : String → Option (Column A)} {n : Nat} (hcols : ∀ name c, columns name = some c → HasRows n c)
    {numThreads : Int} (hnt : 0 < numThreads) (forest : List (Tree F64 A)) (hfeat : HasFeatures columns forest)
    (hf : ∀ t ∈ forest, Scorable columns t) :
    ∃ scores, evaluateForest columns n numThreads forest = ok (.ok, some scores) ∧ scores.length = n ∧
      ∀ i < n, ∀ qs, RowScores columns forest i qs → SameScale qs → scores[i]? = some (.num qs.sum) := by
  obtain ⟨scores, h1, h2, h3⟩ := C37_prediction hcols hnt forest hfeat hf
  refine ⟨scores, h1, h2, fun i hi qs hqs hsc => ?_⟩
  obtain ⟨xs, k1, k2⟩ := h3 i hi
  rw [hqs.1, Option.some.injEq] at k1
  subst k1
  obtain ⟨e, e1, e2, e3, e4⟩ := hsc
  have := doubleSum_exact e1 e2 qs 0 e3 (by simpa using e4)
  rw [Int.cast_zero, zero_mul, zero_add] at this
  rw [k2, sumScores_num, this]

/-- **C187 (the order of the trees).** For such a row the order of the trees in the forest does not matter. -/
theorem C187_order {columns : String → Option (Column A)} {n : Nat} (hcols : ∀ name c, columns name = some c → HasRows n c)
    {numThreads : Int} (hnt : 0 < numThreads) {forest forest' : List (Tree F64 A)} (hperm : forest.Perm forest')
    (hfeat : HasFeatures columns forest) (hf : ∀ t ∈ forest, Scorable columns t) :
    ∃ scores scores', evaluateForest columns n numThreads forest = ok (.ok, some scores) ∧
      evaluateForest columns n numThreads forest' = ok (.ok, some scores') ∧
      ∀ i < n, ∀ qs, RowScores columns forest i qs → SameScale qs → scores'[i]? = scores[i]? := by
  have hfeat' : HasFeatures columns forest' := by
    intro name hname
    refine hfeat name ?_
    obtain ⟨t, ht, hn⟩ := List.mem_flatMap.mp hname
    exact List.mem_flatMap.mpr ⟨t, hperm.mem_iff.mpr ht, hn⟩
  obtain ⟨scores, h1, _, h3⟩ := C187_exact hcols hnt forest hfeat hf
  obtain ⟨scores', g1, _, g3⟩ := C187_exact hcols hnt forest' hfeat' (fun t ht => hf t (hperm.mem_iff.mpr ht))
  refine ⟨scores, scores', h1, g1, fun i hi qs hqs hsc => ?_⟩
  obtain ⟨xs, k1, k2⟩ := mapM_some_perm hperm hqs.1
  obtain ⟨qs', rfl, hq⟩ : ∃ qs' : List ℚ, xs = qs'.map F64.num ∧ qs.Perm qs' := by
    have hall : ∀ b ∈ xs, ∃ q, b = F64.num q := by
      intro b hb
      obtain ⟨q, _, rfl⟩ := List.mem_map.mp (k2.mem_iff.mpr hb)
      exact ⟨q, rfl⟩
    obtain ⟨qs', rfl⟩ := all_num hall
    refine ⟨qs', rfl, ?_⟩
    have := k2.map (fun x : F64 => match x with | .num q => q | _ => 0)
    simpa [List.map_map, Function.comp_def] using this
  have hqs' : RowScores columns forest' i qs' := ⟨k1, fun q hq' => hqs.2 q (hq.mem_iff.mpr hq')⟩
  obtain ⟨e, e1, e2, e3, e4⟩ := hsc
  have hsc' : SameScale qs' := ⟨e, e1, e2, fun q hq' => e3 q (hq.mem_iff.mpr hq'), by rwa [← (hq.map _).sum_eq]⟩
  rw [h3 i hi qs hqs ⟨e, e1, e2, e3, e4⟩, g3 i hi qs' hqs' hsc', hq.sum_eq]

/-- A forest of doubles: a constant, and a tree with the scores 1 and `2 ^ -60`. -/
def doubleForest : List (Tree F64 Int) :=
  [.node (.num 10) none .absent .absent,
   .node (.num 0) (some { feature := "size", floatSplit := some ⟨.num 6, true⟩, gain := .num 3 })
    (.node (.num 1) none .absent .absent) (.node (.num (1 / 2 ^ 60)) none .absent .absent)]

/-- It fits the columns of the examples. -/
example : HasFeatures sampleCols doubleForest ∧ ∀ t ∈ doubleForest, Scorable sampleCols t := by
  obtain ⟨c, hc⟩ : ∃ c, sampleCols "size" = some (.bkt c) := by
    have h : (match BktCol.build (1000 : Int) 5 [[.num 5, .nan, .num 7, .num 5, .num 9]] with
      | .ok _ => true
      | _ => false) = true := by decide +kernel
    unfold sampleCols
    rw [if_neg (by decide), if_pos rfl]
    split at h
    · next c hb => exact ⟨c, by simp only [hb]⟩
    · cases h
  refine ⟨?_, ?_⟩
  · intro name hn
    simp only [doubleForest, forestFeatures, treeFeatures, List.flatMap_cons, List.flatMap_nil, List.mem_append,
      List.mem_cons, List.not_mem_nil, or_false, false_or] at hn
    rw [hn, hc]
    simp
  · intro t ht
    simp only [doubleForest, List.mem_cons, List.not_mem_nil, or_false] at ht
    rcases ht with rfl | rfl
    · trivial
    · exact ⟨⟨_, _, rfl, hc, _, rfl⟩, trivial, trivial⟩

/-- Its predictions: in the rows that get `2 ^ -60` the error is `2 ^ -60`, and the other rows are exact. -/
example : evaluateForest sampleCols 5 3 doubleForest = ok (.ok, some [.num 11, .num 10, .num 10, .num 11, .num 10]) := by decide +kernel

/-- Row 0 is of the same scale, row 2 has finite scores. -/
example : RowScores sampleCols doubleForest 0 [10, 1] ∧ SameScale [10, 1] ∧ RowScores sampleCols doubleForest 2 [10, 1 / 2 ^ 60] := by
  refine ⟨⟨by decide +kernel, ?_⟩, ⟨0, by norm_num, by norm_num, ?_, by norm_num⟩, ⟨by decide +kernel, ?_⟩⟩
  · intro q hq
    simp only [List.mem_cons, List.not_mem_nil, or_false] at hq
    rcases hq with rfl | rfl
    · exact ⟨10, 0, by norm_num, by norm_num, by norm_num⟩
    · exact ⟨1, 0, by norm_num, by norm_num, by norm_num⟩
  · intro q hq
    simp only [List.mem_cons, List.not_mem_nil, or_false] at hq
    rcases hq with rfl | rfl
    · exact ⟨10, by norm_num⟩
    · exact ⟨1, by norm_num⟩
  · intro q hq
    simp only [List.mem_cons, List.not_mem_nil, or_false] at hq
    rcases hq with rfl | rfl
    · exact ⟨10, 0, by norm_num, by norm_num, by norm_num⟩
    · exact ⟨1, -60, by norm_num, by norm_num, by norm_num⟩

/-- Rows 2 and 0 are far enough apart for `C187_keeps_order`. -/
example : ((doubleForest.length : ℚ)) / 2 ^ 52 * ((([10, 1 / 2 ^ 60] : List ℚ).map (|·|)).sum + (([10, 1] : List ℚ).map (|·|)).sum) <
    ([10, 1] : List ℚ).sum - ([10, 1 / 2 ^ 60] : List ℚ).sum := by
  simp only [doubleForest, List.length_cons, List.length_nil, List.map_cons, List.map_nil, List.sum_cons, List.sum_nil]
  rw [abs_of_pos (by norm_num : (0 : ℚ) < 10), abs_of_pos (by norm_num : (0 : ℚ) < 1), abs_of_pos (by norm_num : (0 : ℚ) < 1 / 2 ^ 60)]
  norm_num

end Gbdt
