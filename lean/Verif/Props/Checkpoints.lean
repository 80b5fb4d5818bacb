import Verif.Props.Score

/-!
# C43, C44, C64, C65, C66: checkpoints and unsuitable stores
-/

set_option autoImplicit false
set_option linter.unusedSectionVars false

namespace Gbdt

open Outcome

variable {D A : Type} [LinearOrder A] [Dbl D]

theorem addForestScores_append (columns : String → Option (Column A)) : ∀ (f1 f2 : List (Tree D A))
    (slices : List (List Nat)) (scores : List D), addForestScores columns (f1 ++ f2) slices scores =
      (addForestScores columns f1 slices scores >>= fun r => addForestScores columns f2 r.1 r.2)
  | [], f2, slices, scores => rfl
  | t :: f1, f2, slices, scores => by
    rw [List.cons_append, addForestScores, addForestScores]
    cases addTreeScores columns t 0 slices scores with
    | ok r => exact addForestScores_append columns f1 f2 r.1 r.2
    | ub => rfl
    | fatal => rfl

theorem popPassed_increasing {i : Int} {p : Int} {ps : List Int} (h : (p :: ps).Pairwise (· < ·)) (hp : i < p) :
    popPassed (i + 1) (p :: ps) = if i + 1 = p then ps else p :: ps := by
  have hps : ∀ q ∈ ps, p < q := (List.pairwise_cons.mp h).1
  rw [popPassed]
  by_cases hi : i + 1 = p
  · rw [if_pos (by omega), if_pos hi]
    cases ps with
    | nil => rfl
    | cons q qs =>
      have := hps q (by simp)
      rw [popPassed, if_neg (by omega)]
  · rw [if_neg (by omega), if_neg hi]

theorem evaluateLoop_spec {columns : String → Option (Column A)} {n : Nat}
    (hcols : ∀ name c, columns name = some c → HasRows n c) (slices0 : List (List Nat)) (scores0 : List D) :
    ∀ (ts done : List (Tree D A)) (points : List Int) (slices : List (List Nat)) (scores : List D),
    (∀ t ∈ ts, Scorable columns t) → Slices n slices → scores.length = n →
    addForestScores columns done slices0 scores0 = ok (slices, scores) →
    points.Pairwise (· < ·) → (∀ p ∈ points, (done.length : Int) < p) →
    ∃ files, evaluateLoop columns ts done.length points slices scores = ok files ∧
      files.map Prod.fst = points.filter (fun p : Int => decide (p ≤ (done ++ ts).length)) ∧
      ∀ f ∈ files, ∃ ss, addForestScores columns ((done ++ ts).take f.1.toNat) slices0 scores0 = ok (ss, f.2) := by
  intro ts
  induction ts with
  | nil =>
    intro done points slices scores _ _ _ _ _ hp
    refine ⟨[], rfl, ?_, by simp⟩
    rw [List.map_nil, Eq.comm, List.filter_eq_nil_iff]
    intro p hpm
    have := hp p hpm
    simp; omega
  | cons t ts ih =>
    intro done points slices scores hf hs hl hdone hinc hp
    cases points with
    | nil => exact ⟨[], rfl, rfl, by simp⟩
    | cons p ps =>
      obtain ⟨s1, sc1, a1, a2, a3, _⟩ := hs.add hcols 0 (hf t (by simp)) hl
      have hpp := hp p (by simp)
      have hps : ∀ q ∈ ps, p < q := (List.pairwise_cons.mp hinc).1
      have hpop := popPassed_increasing hinc hpp
      have hdone1 : addForestScores columns (done ++ [t]) slices0 scores0 = ok (s1, sc1) := by
        rw [addForestScores_append, hdone, ok_bind]
        simp only [addForestScores, a1, ok_bind]
      have hlen : (done ++ [t]).length = done.length + 1 := by simp
      obtain ⟨files, b1, b2, b3⟩ := ih (done ++ [t]) (popPassed ((done.length : Int) + 1) (p :: ps)) s1 sc1
        (fun x hx => hf x (by simp [hx])) a2 a3 hdone1
        (by rw [hpop]; split
            · exact (List.pairwise_cons.mp hinc).2
            · exact hinc)
        (by
          rw [hpop, hlen]
          intro q hq
          by_cases he : (done.length : Int) + 1 = p
          · rw [if_pos he] at hq
            have := hps q hq
            omega
          · rw [if_neg he] at hq
            rcases List.mem_cons.mp hq with rfl | hq
            · omega
            · have := hps q hq
              omega)
      rw [hlen] at b1
      rw [List.append_assoc, List.singleton_append] at b2 b3
      by_cases he : (done.length : Int) + 1 = p
      · refine ⟨(p, sc1) :: files, ?_, ?_, ?_⟩
        · simp only [evaluateLoop, a1, ok_bind, b1, pure_eq, if_pos he]
        · rw [List.map_cons, b2, hpop, if_pos he, List.filter_cons, if_pos]
          simp; omega
        · intro f hfm
          rcases List.mem_cons.mp hfm with rfl | hfm
          · refine ⟨s1, ?_⟩
            have : (done ++ t :: ts).take p.toNat = done ++ [t] := by
              have hp' : p.toNat = (done ++ [t]).length := by rw [hlen]; omega
              rw [hp', show done ++ t :: ts = (done ++ [t]) ++ ts by simp, List.take_left]
            rw [this, hdone1]
          · exact b3 f hfm
      · refine ⟨files, ?_, ?_, b3⟩
        · simp only [evaluateLoop, a1, ok_bind, b1, pure_eq, if_neg he]
        · rw [b2, hpop, if_neg he]

/-- **C43.** With increasing positive checkpoints, exactly one file is written for each checkpoint up to the number of
trees, in order, and it holds the prediction of the forest's first `p` trees. -/
theorem C43_checkpoints {columns : String → Option (Column A)} {n : Nat}
    (hcols : ∀ name c, columns name = some c → HasRows n c) {numThreads : Int} (hnt : 0 < numThreads)
    (forest : List (Tree D A)) (hfeat : HasFeatures columns forest) (hf : ∀ t ∈ forest, Scorable columns t)
    (points : List Int) (hinc : points.Pairwise (· < ·)) (hpos : ∀ p ∈ points, 0 < p) :
    ∃ files, evaluateCheckpoints columns n numThreads forest points = ok (.ok, files) ∧
      files.map Prod.fst = points.filter (fun p : Int => decide (p ≤ forest.length)) ∧
      ∀ p scores, (p, scores) ∈ files →
        evaluateForest columns n numThreads (forest.take p.toNat) = ok (.ok, some scores) := by
  obtain ⟨cs, hload⟩ := loadFeatures_ok hfeat
  obtain ⟨slices, h1, h2⟩ := scoreSlices_ok hnt n
  obtain ⟨files, a1, a2, a3⟩ := evaluateLoop_spec hcols slices (List.replicate n 0) forest [] points slices
    (List.replicate n 0) hf h2 (by simp) rfl hinc (by simpa using hpos)
  refine ⟨files, ?_, by simpa using a2, ?_⟩
  · simp only [List.length_nil] at a1
    simp only [evaluateCheckpoints, hload, h1, ok_bind, a1, pure_eq]
  · intro p scores hm
    obtain ⟨ss, h⟩ := a3 (p, scores) hm
    have hfeat' : HasFeatures columns (forest.take p.toNat) := by
      intro name hn
      refine hfeat name ?_
      rw [forestFeatures, List.mem_flatMap] at hn ⊢
      obtain ⟨t, ht, hn⟩ := hn
      exact ⟨t, List.mem_of_mem_take ht, hn⟩
    obtain ⟨cs', hload'⟩ := loadFeatures_ok hfeat'
    rw [List.nil_append] at h
    simp only [evaluateForest, hload', h1, ok_bind, h, pure_eq]

example : evaluateCheckpoints sampleCols 5 2 sampleForest [1, 2, 7] =
    ok (.ok, [(1, [10, 10, 10, 10, 10]), (2, [11, 21/2, 31/3, 11, 21/2])]) := by decide +kernel

/-! ## C44 -/

theorem testPointsDown_spec {k : Int} (hk : 0 < k) : ∀ (fuel : Nat) (n : Int), n ≤ fuel →
    (testPointsDown k fuel n).Pairwise (· < ·) ∧
    ∀ p, p ∈ testPointsDown k fuel n ↔ 1 ≤ p ∧ p ≤ n ∧ k ∣ n - p
  | 0, n, h => by
    refine ⟨List.Pairwise.nil, fun p => ?_⟩
    rw [testPointsDown]
    constructor
    · intro h; cases h
    · rintro ⟨h1, h2, _⟩; omega
  | fuel + 1, n, h => by
    rw [testPointsDown]
    by_cases hn : n > 0
    · rw [if_pos hn]
      obtain ⟨h1, h2⟩ := testPointsDown_spec hk fuel (n - k) (by push_cast at h; omega)
      constructor
      · rw [List.pairwise_append]
        refine ⟨h1, by simp, ?_⟩
        intro a ha b hb
        have := (h2 a).mp ha
        rw [List.mem_singleton] at hb
        omega
      · intro p
        rw [List.mem_append, h2, List.mem_singleton]
        constructor
        · rintro (⟨g1, g2, g3⟩ | rfl)
          · refine ⟨g1, by omega, ?_⟩
            have : n - p = (n - k - p) + k := by omega
            rw [this]
            exact dvd_add g3 (dvd_refl k)
          · exact ⟨by omega, le_refl _, by simp⟩
        · rintro ⟨g1, g2, g3⟩
          by_cases he : p = n
          · exact Or.inr he
          · left
            have hle := Int.le_of_dvd (by omega) g3
            refine ⟨g1, by omega, ?_⟩
            have : n - k - p = (n - p) - k := by omega
            rw [this]
            exact dvd_sub g3 (dvd_refl k)
    · rw [if_neg hn]
      refine ⟨List.Pairwise.nil, fun p => ?_⟩
      constructor
      · intro h; cases h
      · rintro ⟨h1, h2, _⟩; omega

/-- **C44.** With an interval `k > 0` the checkpoints are increasing and are exactly the numbers `n, n - k, n - 2k, ...`
that are at least 1; otherwise only `n`. -/
theorem C44_test_points (k n : Int) :
    (0 < k → (getTestPoints k n).Pairwise (· < ·) ∧
      ∀ p, p ∈ getTestPoints k n ↔ 1 ≤ p ∧ p ≤ n ∧ k ∣ n - p) ∧
    (k ≤ 0 → getTestPoints k n = [n]) := by
  refine ⟨fun hk => ?_, fun hk => ?_⟩
  · rw [getTestPoints, if_pos hk]
    exact testPointsDown_spec hk _ _ (Int.self_le_toNat n)
  · rw [getTestPoints, if_neg (by omega)]

example : getTestPoints 3 10 = [1, 4, 7, 10] ∧ getTestPoints 0 10 = [10] := by decide +kernel

/-- **C44 with C43.** So evaluating at those checkpoints writes a file for each of them. -/
theorem C44_all_written {columns : String → Option (Column A)} {n : Nat}
    (hcols : ∀ name c, columns name = some c → HasRows n c) {numThreads : Int} (hnt : 0 < numThreads)
    (forest : List (Tree D A)) (hne : forest ≠ []) (hfeat : HasFeatures columns forest)
    (hf : ∀ t ∈ forest, Scorable columns t) (k : Int) :
    ∃ files, evaluateCheckpoints columns n numThreads forest (getTestPoints k forest.length) = ok (.ok, files) ∧
      files.map Prod.fst = getTestPoints k forest.length ∧
      ∀ p scores, (p, scores) ∈ files →
        evaluateForest columns n numThreads (forest.take p.toNat) = ok (.ok, some scores) := by
  have hlen : 0 < forest.length := List.length_pos_iff.mpr hne
  have hinc : (getTestPoints k forest.length).Pairwise (· < ·) ∧
      ∀ p ∈ getTestPoints k forest.length, 0 < p ∧ p ≤ forest.length := by
    by_cases hk : 0 < k
    · obtain ⟨h1, h2⟩ := (C44_test_points k forest.length).1 hk
      exact ⟨h1, fun p hp => by have := (h2 p).mp hp; omega⟩
    · rw [(C44_test_points k forest.length).2 (by omega)]
      exact ⟨by simp, fun p hp => by rw [List.mem_singleton] at hp; omega⟩
  obtain ⟨files, h1, h2, h3⟩ := C43_checkpoints hcols hnt forest hfeat hf _ hinc.1 (fun p hp => (hinc.2 p hp).1)
  refine ⟨files, h1, ?_, h3⟩
  rw [h2, List.filter_eq_self]
  intro p hp
  simpa using (hinc.2 p hp).2

/-! ## C65, C66: any list of checkpoints -/

/-- **C65 in full.** For every list of checkpoints, each checkpoint between 1 and the number of trees gets its file. -/
def C65_full : Prop :=
  ∀ (columns : String → Option (Column Int)) (n : Nat) (forest : List (Tree ℚ Int)) (points : List Int)
    (files : List (Int × List ℚ)),
    evaluateCheckpoints columns n 1 forest points = ok (.ok, files) →
    ∀ p ∈ points, 1 ≤ p → p ≤ forest.length → ∃ scores, (p, scores) ∈ files

/-- **C65 refuted.** Checkpoints 2, 1 write only the file for 2. -/
theorem C65_refuted : ¬ C65_full := by
  intro h
  have hrun : evaluateCheckpoints sampleCols 5 1 sampleForest [2, 1] =
      ok (.ok, [(2, [11, 21/2, 31/3, 11, 21/2])]) := by decide +kernel
  obtain ⟨sc, hm⟩ := h _ _ _ _ _ hrun 1 (by simp) (by simp) (by simp [sampleForest])
  simp at hm

/-- **C65 refuted for increasing lists too.** A checkpoint 0 makes the file for 1 disappear. -/
theorem C65_refuted_increasing : ∃ (forest : List (Tree ℚ Int)) (points : List Int), points.Pairwise (· < ·) ∧
    (1 ∈ points ∧ 1 ≤ forest.length) ∧ evaluateCheckpoints sampleCols 5 1 forest points = ok (.ok, []) :=
  ⟨sampleForest, [0, 1], by simp, by simp [sampleForest], by decide +kernel⟩

/-- **C65 (partial).** What holds for every list: each file written holds the prediction of the first `p` trees for a
checkpoint `p` of the list, and the first checkpoint is written if it is between 1 and the number of trees.  Missing:
later ones, which are lost when they are not larger than those before. -/
theorem C65_first_partial {columns : String → Option (Column A)} {n : Nat}
    (hcols : ∀ name c, columns name = some c → HasRows n c) {numThreads : Int} (hnt : 0 < numThreads)
    (forest : List (Tree D A)) (hfeat : HasFeatures columns forest) (hf : ∀ t ∈ forest, Scorable columns t)
    (points : List Int) :
    ∃ files, evaluateCheckpoints columns n numThreads forest points = ok (.ok, files) ∧
      (∀ p scores, (p, scores) ∈ files → p ∈ points ∧
        evaluateForest columns n numThreads (forest.take p.toNat) = ok (.ok, some scores)) ∧
      ∀ p rest, points = p :: rest → 1 ≤ p → p ≤ forest.length → ∃ scores, (p, scores) ∈ files := by
  obtain ⟨cs, hload⟩ := loadFeatures_ok hfeat
  obtain ⟨slices, h1, h2⟩ := scoreSlices_ok hnt n
  have key : ∀ (ts done : List (Tree D A)) (points : List Int) (slices' : List (List Nat)) (scores : List D),
      (∀ t ∈ ts, Scorable columns t) → Slices n slices' → scores.length = n →
      addForestScores columns done slices (List.replicate n 0) = ok (slices', scores) →
      ∃ files, evaluateLoop columns ts done.length points slices' scores = ok files ∧
        (∀ f ∈ files, f.1 ∈ points ∧
          ∃ ss, addForestScores columns ((done ++ ts).take f.1.toNat) slices (List.replicate n 0) = ok (ss, f.2)) ∧
        ∀ p rest, points = p :: rest → (done.length : Int) + 1 ≤ p → p ≤ (done ++ ts).length →
          ∃ sc, (p, sc) ∈ files := by
    intro ts
    induction ts with
    | nil =>
      intro done points slices' scores _ _ _ _
      refine ⟨[], rfl, by simp, ?_⟩
      intro p rest _ h1 h2
      simp only [List.append_nil] at h2
      omega
    | cons t ts ih =>
      intro done points slices' scores hf hs hl hdone
      cases points with
      | nil => exact ⟨[], rfl, by simp, fun p rest h => by cases h⟩
      | cons p ps =>
        obtain ⟨s1, sc1, a1, a2, a3, _⟩ := hs.add hcols 0 (hf t (by simp)) hl
        have hdone1 : addForestScores columns (done ++ [t]) slices (List.replicate n 0) = ok (s1, sc1) := by
          rw [addForestScores_append, hdone, ok_bind]
          simp only [addForestScores, a1, ok_bind]
        have hlen : (done ++ [t]).length = done.length + 1 := by simp
        obtain ⟨files, b1, b2, b3⟩ := ih (done ++ [t]) (popPassed ((done.length : Int) + 1) (p :: ps)) s1 sc1
          (fun x hx => hf x (by simp [hx])) a2 a3 hdone1
        rw [hlen] at b1
        rw [List.append_assoc, List.singleton_append] at b2 b3
        have hsub : ∀ (l : List Int) (q : Int), q ∈ popPassed ((done.length : Int) + 1) l → q ∈ l := by
          intro l
          induction l with
          | nil => intro q h; exact h
          | cons a l ihl =>
            intro q h
            rw [popPassed] at h
            split at h
            · exact List.mem_cons_of_mem _ (ihl q h)
            · exact h
        by_cases he : (done.length : Int) + 1 = p
        · refine ⟨(p, sc1) :: files, ?_, ?_, ?_⟩
          · simp only [evaluateLoop, a1, ok_bind, b1, pure_eq, if_pos he]
          · intro f hfm
            rcases List.mem_cons.mp hfm with rfl | hfm
            · refine ⟨by simp, s1, ?_⟩
              have : (done ++ t :: ts).take p.toNat = done ++ [t] := by
                have hp' : p.toNat = (done ++ [t]).length := by rw [hlen]; omega
                rw [hp', show done ++ t :: ts = (done ++ [t]) ++ ts by simp, List.take_left]
              rw [this, hdone1]
            · exact ⟨hsub _ _ (b2 f hfm).1, (b2 f hfm).2⟩
          · intro q rest hq _ _
            cases hq
            exact ⟨sc1, by simp⟩
        · refine ⟨files, ?_, ?_, ?_⟩
          · simp only [evaluateLoop, a1, ok_bind, b1, pure_eq, if_neg he]
          · intro f hfm
            exact ⟨hsub _ _ (b2 f hfm).1, (b2 f hfm).2⟩
          · intro q rest hq hlow hup
            cases hq
            refine b3 p ps ?_ (by rw [hlen]; push_cast; omega) hup
            rw [popPassed, if_neg (by omega)]
  obtain ⟨files, a1, a2, a3⟩ := key forest [] points slices (List.replicate n 0) hf h2 (by simp) rfl
  simp only [List.length_nil] at a1
  refine ⟨files, by simp only [evaluateCheckpoints, hload, h1, ok_bind, a1, pure_eq], ?_, ?_⟩
  · intro p scores hm
    obtain ⟨hp, ss, h⟩ := a2 (p, scores) hm
    refine ⟨hp, ?_⟩
    have hfeat' : HasFeatures columns (forest.take p.toNat) := by
      intro name hn
      refine hfeat name ?_
      rw [forestFeatures, List.mem_flatMap] at hn ⊢
      obtain ⟨t, ht, hn⟩ := hn
      exact ⟨t, List.mem_of_mem_take ht, hn⟩
    obtain ⟨cs', hload'⟩ := loadFeatures_ok hfeat'
    rw [List.nil_append] at h
    simp only [evaluateForest, hload', h1, ok_bind, h, pure_eq]
  · intro p rest hp hlow hup
    exact a3 p rest hp (by simpa using hlow) (by simpa using hup)

/-- **C66 in full.** Whatever files earlier runs left, what Python yields for a checkpoint between 1 and the number of
trees is the prediction of that many trees, as printed. -/
def C66_full : Prop :=
  ∀ (printed : ℚ → ℚ) (files : ScoreFiles ℚ) (columns : String → Option (Column Int)) (n : Nat)
    (forest : List (Tree ℚ Int)) (points : List Int) (result : List (Int × Option (List ℚ))),
    predictAtCheckpoints printed files columns n 1 forest points = ok (.ok, result) →
    ∀ p scores, (p, scores) ∈ result → 1 ≤ p → p ≤ forest.length →
      ∃ sc, evaluateForest columns n 1 (forest.take p.toNat) = ok (.ok, some sc) ∧ scores = some (sc.map printed)

/-- **C66 refuted.** For checkpoints 2, 1 the scores yielded for 1 are those an earlier run left in the file. -/
theorem C66_refuted : ¬ C66_full := by
  intro h
  have hrun : predictAtCheckpoints (fun x : ℚ => x) (fun _ => some [77]) sampleCols 5 1 sampleForest [2, 1] =
      ok (.ok, [(2, some [11, 21/2, 31/3, 11, 21/2]), (1, some [77])]) := by decide +kernel
  obtain ⟨sc, h1, h2⟩ := h _ _ _ _ _ _ _ hrun 1 (some [77]) (by simp) (by simp) (by simp [sampleForest])
  have h3 : evaluateForest sampleCols 5 1 (sampleForest.take (1 : Int).toNat) = ok (.ok, some [10, 10, 10, 10, 10]) := by
    decide +kernel
  rw [h3, Outcome.ok.injEq, Prod.mk.injEq, Option.some.injEq] at h1
  rw [← h1.2] at h2
  revert h2
  decide

/-- **C66 (partial).** For increasing checkpoints between 1 and the number of trees, earlier files do not matter: Python
yields for each the prediction of that many trees, as printed (6 significant digits).  Missing: other lists. -/
theorem C66_increasing_partial {columns : String → Option (Column A)} {n : Nat}
    (hcols : ∀ name c, columns name = some c → HasRows n c) {numThreads : Int} (hnt : 0 < numThreads)
    (forest : List (Tree D A)) (hfeat : HasFeatures columns forest) (hf : ∀ t ∈ forest, Scorable columns t)
    (points : List Int) (hinc : points.Pairwise (· < ·)) (hpos : ∀ p ∈ points, 0 < p ∧ p ≤ forest.length)
    (printed : D → D) (files : ScoreFiles D) :
    ∃ result, predictAtCheckpoints printed files columns n numThreads forest points = ok (.ok, result) ∧
      result.map Prod.fst = points ∧
      ∀ p scores, (p, scores) ∈ result → ∃ sc,
        evaluateForest columns n numThreads (forest.take p.toNat) = ok (.ok, some sc) ∧
        scores = some (sc.map printed) := by
  obtain ⟨written, h1, h2, h3⟩ := C43_checkpoints hcols hnt forest hfeat hf points hinc (fun p hp => (hpos p hp).1)
  rw [List.filter_eq_self.mpr (fun p hp => by simpa using (hpos p hp).2)] at h2
  have hread : ∀ (l : List (Int × List D)) (fs : ScoreFiles D), (l.map Prod.fst).Nodup → ∀ f ∈ l,
      l.foldl (writeScoreFile printed) fs f.1 = some (f.2.map printed) := by
    have hkeep : ∀ (l : List (Int × List D)) (fs : ScoreFiles D) (q : Int), q ∉ l.map Prod.fst →
        l.foldl (writeScoreFile printed) fs q = fs q := by
      intro l
      induction l with
      | nil => intro fs q _; rfl
      | cons a l ih =>
        intro fs q hq
        rw [List.map_cons, List.mem_cons, not_or] at hq
        rw [List.foldl_cons, ih _ q hq.2, writeScoreFile, if_neg hq.1]
    intro l
    induction l with
    | nil => intro fs _ f hfm; cases hfm
    | cons a l ih =>
      intro fs hn f hfm
      rw [List.map_cons, List.nodup_cons] at hn
      rw [List.foldl_cons]
      rcases List.mem_cons.mp hfm with rfl | hfm
      · rw [hkeep _ _ _ hn.1, writeScoreFile, if_pos rfl]
      · exact ih _ hn.2 f hfm
  have hnod : (written.map Prod.fst).Nodup := by
    rw [h2]
    exact hinc.imp (fun h => ne_of_lt h)
  refine ⟨points.map (fun p => (p, written.foldl (writeScoreFile printed) files p)),
    by simp only [predictAtCheckpoints, h1, ok_bind, pure_eq, if_true], ?_, ?_⟩
  · rw [List.map_map]
    exact List.map_id _
  · intro p scores hm
    rw [List.mem_map] at hm
    obtain ⟨q, hq, he⟩ := hm
    simp only [Prod.mk.injEq] at he
    obtain ⟨rfl, rfl⟩ := he
    rw [← h2, List.mem_map] at hq
    obtain ⟨f, hfm, rfl⟩ := hq
    exact ⟨f.2, h3 f.1 f.2 hfm, hread written files hnod f hfm⟩

example : [(1 : Int), 2].Pairwise (· < ·) ∧
    predictAtCheckpoints (fun x : ℚ => x) (fun _ => some [77]) sampleCols 5 1 sampleForest [1, 2] =
      ok (.ok, [(1, some [10, 10, 10, 10, 10]), (2, some [11, 21/2, 31/3, 11, 21/2])]) := by decide +kernel

/-! ## C64 -/

/-- **C64 in full.** Predicting never aborts the process. -/
def C64_full : Prop :=
  ∀ (columns : String → Option (Column Int)) (n : Nat) (forest : List (Tree ℚ Int)),
    (∀ name c, columns name = some c → HasRows n c) → evaluateForest columns n 1 forest ≠ .fatal

/-- **C64 refuted.** A forest with a categorical split on a column that holds numbers aborts the process (even Python's). -/
theorem C64_refuted : ¬ C64_full := by
  intro h
  refine h sampleCols 5 [.node 0 (some { feature := "size", catSplit := some { category := ["a"] }, gain := 1 })
    (.node 1 none .absent .absent) (.node 2 none .absent .absent)] sampleCols_hasRows ?_
  decide +kernel

/-- **C64 refuted.** So does an inner node without a split: its feature is the empty name, which nothing checks. -/
theorem C64_refuted_no_split : evaluateForest sampleCols 5 1
    ([.node 0 none (.node 1 none .absent .absent) (.node 2 none .absent .absent)] : List (Tree ℚ Int)) = .fatal := by
  decide +kernel

/-- **C64 (partial).** A forest that names a feature the store does not have is refused with NOT_FOUND, before anything
is computed; that holds whatever else is wrong with it.  Missing: features of another type. -/
theorem C64_missing_feature_partial (columns : String → Option (Column A)) (n : Nat) (numThreads : Int)
    (forest : List (Tree D A)) (h : ∃ name ∈ forestFeatures forest, columns name = none) (points : List Int) :
    evaluateForest columns n numThreads forest = ok (.notFound, none) ∧
    evaluateCheckpoints columns n numThreads forest points = ok (.notFound, []) := by
  simp only [evaluateForest, evaluateCheckpoints, loadFeatures_missing h, and_self]

example : evaluateForest (fun name => if name = "color" then sampleCols name else none) 5 1 sampleForest =
    ok (.notFound, none) := by decide +kernel

end Gbdt
