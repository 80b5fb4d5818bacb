import Verif.Lemmas.ScoreText
import Verif.Lemmas.Ieee
import Verif.Props.Checkpoints
import Verif.Model.Main

/-!
# C184: scores that go through files

The score files of the command line program and of `Forest.predict_at_checkpoints` are text.  Specification: `RoundsTo` in
`Verif/Spec/SixDigits.lean`, and `ReadsAs` below.
-/

set_option autoImplicit false

namespace Gbdt

open Outcome

/-- What is read for a score: the double nearest to the score rounded to six significant digits; infinity and NaN as they are. -/
def ReadsAs : F64 → F64 → Prop
  | .nan, t => t = .nan
  | .inf s, t => t = .inf s
  | .num q, t => ∃ y, RoundsTo q y ∧ t = F64.round y

theorem round_minus (q : ℚ) : (F64.round (-q)).neg = F64.round q := by
  unfold F64.round
  simp only [roundRat_minus]
  generalize roundRat 53 1074 q = v
  have hb : (0 : ℚ) < 2 ^ 1024 := pow_pos (by norm_num) _
  generalize (2 : ℚ) ^ 1024 = b at hb
  by_cases h1 : b ≤ v
  · rw [if_neg (fun h => by linarith), if_pos (by linarith), if_pos h1]
    rfl
  · by_cases h2 : v ≤ -b
    · rw [if_pos (by linarith), if_neg h1, if_pos h2]
      rfl
    · rw [if_neg (fun h => h2 (by linarith)), if_neg (fun h => h1 (by linarith)), if_neg h1, if_neg h2]
      simp [F64.neg]

theorem readBack_num (q : ℚ) : readBack F64.round (.num q) = F64.round (shown q) := by
  rw [readBack]
  split
  · exact round_minus _
  · rfl

theorem readBack_readsAs (s : F64) : ReadsAs s (readBack F64.round s) := by
  rcases s with _ | b | q
  · rfl
  · rfl
  · exact ⟨shown q, shown_roundsTo q, readBack_num q⟩

theorem printedDouble_eq (s : F64) : printedDouble s = readBack F64.round s := by
  rw [printedDouble, readFloat_show]
  rfl

theorem round_mono {x y : ℚ} (h : x ≤ y) : F64.lt (F64.round y) (F64.round x) = false := by
  have hm : roundRat 53 1074 x ≤ roundRat 53 1074 y := by
    rcases h.lt_or_eq with h | h
    · exact (roundRat_nearest (by norm_num) x).1.mono (roundRat_nearest (by norm_num) y).1 h
    · rw [h]
  unfold F64.round
  generalize roundRat 53 1074 x = v at hm
  generalize roundRat 53 1074 y = w at hm
  have hb : (0 : ℚ) < 2 ^ 1024 := pow_pos (by norm_num) _
  generalize (2 : ℚ) ^ 1024 = b at hb
  simp only []
  by_cases h1 : b ≤ w
  · rw [if_pos h1]
    split
    · rfl
    · split <;> rfl
  · rw [if_neg h1, if_neg (fun h => h1 (le_trans h hm))]
    by_cases h2 : v ≤ -b
    · rw [if_pos h2]
      split <;> rfl
    · rw [if_neg h2, if_neg (fun h => h2 (le_trans hm h))]
      simp only [F64.lt, decide_eq_false_iff_not, not_lt]
      exact hm

/-- **C184 in full.** The scores that Python reads from the file written for a forest are the predictions of the forest. -/
def C184_full : Prop :=
  ∀ (columns : String → Option (Column Int)) (n : Nat) (numThreads : Int) (forest : List (Tree F64 Int)) (scores : List F64),
    evaluateForest columns n numThreads forest = ok (.ok, some scores) → readScores F64.round (scoreText scores) = some scores

/-- A constant forest whose score has seven digits. -/
def sevenDigits : List (Tree F64 Int) := [.node (F64.round (1234567 / 10000000)) none .absent .absent]

/-- **C184 refuted.** A score of `0.1234567` is read as `0.123457`. -/
theorem C184_refuted : ¬ C184_full := by
  intro h
  have := h (fun _ => none) 1 1 sevenDigits [F64.round (1234567 / 10000000)] (by decide +kernel)
  revert this
  decide +kernel

/-- Two different predictions become equal. -/
example : F64.lt (F64.round (1234567 / 10000000)) (F64.round (1234568 / 10000000)) = true ∧
    printedDouble (F64.round (1234567 / 10000000)) = printedDouble (F64.round (1234568 / 10000000)) := by decide +kernel

/-- **C184 (partial).** Every file can be read; it has one number for each score, and that is the score rounded to six significant digits.
Missing: the other digits. -/
theorem C184_file_partial (scores : List F64) :
    ∃ r, readScores F64.round (scoreText scores) = some r ∧ List.Forall₂ ReadsAs scores r := by
  refine ⟨scores.map (readBack F64.round), readScores_scoreText _ _, ?_⟩
  rw [List.forall₂_map_right_iff]
  exact List.forall₂_same.mpr (fun s _ => readBack_readsAs s)

example : readScores F64.round (scoreText [F64.round (1234567 / 10000000), F64.num (-2), .inf true]) =
    some [F64.round (123457 / 1000000), F64.num (-2), .inf true] := by decide +kernel

/-- **C184 (partial).** The same for the files of `--mode=test`, whose text is `formatScores` (see C155). -/
theorem C184_program_partial {A N : Type} (P : Platform F64 A N) (hP : P.showScore = showScore) (scores : List F64) :
    ∃ r, readScores F64.round (formatScores P scores) = some r ∧ List.Forall₂ ReadsAs scores r := by
  have hlines : ∀ s ss, formatScores P (s :: ss) = scoreText (s :: ss) := by
    intro s ss
    induction ss generalizing s with
    | nil => simp [formatScores, scoreLines, scoreText, hP]
    | cons s' ss ih =>
      have := ih s'
      simp only [formatScores, scoreLines, hP] at this ⊢
      rw [scoreText, ← this]
      · rfl
      · simp
  cases scores with
  | nil => exact ⟨[], rfl, .nil⟩
  | cons s ss =>
    rw [hlines]
    exact C184_file_partial _

/-- **C184 (partial).** The same for `predict_at_checkpoints`: for increasing checkpoints it yields the predictions of the first trees,
rounded to six digits. -/
theorem C184_checkpoints_partial {A : Type} [LinearOrder A] {columns : String → Option (Column A)} {n : Nat}
    (hcols : ∀ name c, columns name = some c → HasRows n c) {numThreads : Int} (hnt : 0 < numThreads)
    (forest : List (Tree F64 A)) (hfeat : HasFeatures columns forest) (hf : ∀ t ∈ forest, Scorable columns t)
    (points : List Int) (hinc : points.Pairwise (· < ·)) (hpos : ∀ p ∈ points, 0 < p ∧ p ≤ forest.length) (files : ScoreFiles F64) :
    ∃ result, predictAtCheckpoints printedDouble files columns n numThreads forest points = ok (.ok, result) ∧
      result.map Prod.fst = points ∧
      ∀ p r, (p, r) ∈ result → ∃ scores read,
        evaluateForest columns n numThreads (forest.take p.toNat) = ok (.ok, some scores) ∧ r = some read ∧
        readScores F64.round (scoreText scores) = some read ∧ List.Forall₂ ReadsAs scores read := by
  obtain ⟨result, h1, h2, h3⟩ := C66_increasing_partial hcols hnt forest hfeat hf points hinc hpos printedDouble files
  refine ⟨result, h1, h2, fun p r hm => ?_⟩
  obtain ⟨sc, h4, h5⟩ := h3 p r hm
  refine ⟨sc, sc.map printedDouble, h4, h5, ?_, ?_⟩
  · rw [readScores_scoreText]
    congr 1
    exact List.map_congr_left (fun s _ => (printedDouble_eq s).symm)
  · rw [List.forall₂_map_right_iff]
    exact List.forall₂_same.mpr (fun s _ => (printedDouble_eq s) ▸ readBack_readsAs s)

/-- **C184 (partial).** Files never turn the order of two scores round; they can only make them equal. -/
theorem C184_order_partial {s s' t t' : F64} (h : ReadsAs s t) (h' : ReadsAs s' t') (hlt : F64.lt s s' = true) : F64.lt t' t = false := by
  rcases s with _ | b | q <;> rcases s' with _ | b' | q'
  · cases hlt
  · cases hlt
  · cases hlt
  · cases hlt
  · simp only [ReadsAs] at h h'
    subst h h'
    cases b <;> cases b' <;> first | rfl | cases hlt
  · simp only [ReadsAs] at h
    subst h
    cases b
    · cases hlt
    · rcases t' with _ | b | q <;> simp [F64.lt]
  · cases hlt
  · simp only [ReadsAs] at h'
    subst h'
    cases b'
    · rcases t with _ | b | q <;> simp [F64.lt]
    · cases hlt
  · obtain ⟨y, hy, rfl⟩ := h
    obtain ⟨y', hy', rfl⟩ := h'
    exact round_mono (Nearest.mono hy hy' (of_decide_eq_true hlt))

/-- Rounding to six digits moves a number by at most five millionths of it. -/
theorem C184_close_partial {q y : ℚ} (h : RoundsTo q y) : |q - y| ≤ 5 / 1000000 * |q| := by
  have pos : ∀ q y : ℚ, 0 < q → RoundsTo q y → |q - y| ≤ 5 / 1000000 * q := by
    intro q y hq h
    set e := Int.log 10 q with he
    have hlo : (10 : ℚ) ^ e ≤ q := by
      have := Int.zpow_log_le_self (b := 10) (by norm_num) hq
      simpa using this
    have hhi : q < (10 : ℚ) ^ (e + 1) := by
      have := Int.lt_zpow_succ_log_self (b := 10) (by norm_num) q
      simpa using this
    set u : ℚ := 10 ^ (e - 5) with hu
    have hu0 : 0 < u := tens _
    have hue : (10 : ℚ) ^ e = 100000 * u := by
      have : (100000 : ℚ) = (10 : ℚ) ^ (5 : ℤ) := by norm_num
      rw [this, hu, ← zpow_add₀ (by norm_num)]
      congr 1
      ring
    have hue1 : (10 : ℚ) ^ (e + 1) = 1000000 * u := by
      rw [zpow_add₀ (by norm_num), hue, zpow_one]
      ring
    set n := ⌊q / u⌋ with hn
    have f1 : (n : ℚ) ≤ q / u := Int.floor_le _
    have f2 : q / u < n + 1 := Int.lt_floor_add_one _
    rw [le_div_iff₀ hu0] at f1
    rw [div_lt_iff₀ hu0] at f2
    have hn0 : 0 ≤ n := Int.floor_nonneg.mpr (div_nonneg hq.le hu0.le)
    have hn1 : n < 1000000 := by
      have : (n : ℚ) * u < 1000000 * u := by linarith
      have := lt_of_mul_lt_mul_right this hu0.le
      exact_mod_cast this
    have d1 : SixDigit (n * u) := ⟨n, e - 5, by rw [abs_of_nonneg hn0]; exact hn1, rfl⟩
    have d2 : SixDigit ((n + 1) * u) := by
      rcases eq_or_ne n 999999 with h9 | h9
      · refine ⟨1, e + 1, by norm_num, ?_⟩
        rw [h9, hue1]
        norm_num
      · refine ⟨n + 1, e - 5, ?_, ?_⟩
        · rw [abs_of_nonneg (by omega)]
          omega
        · push_cast
          rfl
    have g1 := h.2 _ d1
    have g2 := h.2 _ d2
    rw [abs_of_nonneg (a := q - n * u) (by linarith)] at g1
    rw [abs_of_nonpos (a := q - (n + 1) * u) (by linarith)] at g2
    linarith
  rcases lt_trichotomy q 0 with hq | hq | hq
  · have := pos (-q) (-y) (by linarith) (Nearest.neg (fun x hx => hx.neg) h)
    rw [show -q - -y = -(q - y) by ring, abs_neg] at this
    rwa [abs_of_neg hq]
  · subst hq
    have := Nearest.self h sixDigit_zero
    simp [this]
  · rw [abs_of_pos hq]
    exact pos q y hq h

/-- Numbers with six digits are far apart. -/
theorem sixDigit_gap {d z : ℚ} (hd : SixDigit d) (hz : SixDigit z) (hne : z ≠ d) : |d| / 10000000 ≤ |z - d| := by
  have pos : ∀ d z : ℚ, 0 < d → SixDigit d → SixDigit z → z ≠ d → d / 10000000 ≤ |z - d| := by
    rintro d z hd0 ⟨n, k, hn, hdk⟩ ⟨n', k', hn', hzk⟩ hne
    set e := Int.log 10 d with he
    have hlo : (10 : ℚ) ^ e ≤ d := by
      have := Int.zpow_log_le_self (b := 10) (by norm_num) hd0
      simpa using this
    have hhi : d < (10 : ℚ) ^ (e + 1) := by
      have := Int.lt_zpow_succ_log_self (b := 10) (by norm_num) d
      simpa using this
    set u : ℚ := 10 ^ (e - 6) with hu
    have hu0 : 0 < u := tens _
    have hue : (10 : ℚ) ^ e = 1000000 * u := by
      have : (1000000 : ℚ) = (10 : ℚ) ^ (6 : ℤ) := by norm_num
      rw [this, hu, ← zpow_add₀ (by norm_num)]
      congr 1
      ring
    have hue1 : (10 : ℚ) ^ (e + 1) = 10000000 * u := by
      rw [zpow_add₀ (by norm_num), hue, zpow_one]
      ring
    have small : ∀ (m j : ℤ), |m| < 1000000 → (m : ℚ) * 10 ^ j ≤ 10 ^ (j + 6) := by
      intro m j hm
      have hm1 : (m : ℚ) ≤ 1000000 := by
        have : m ≤ 1000000 := le_of_lt (lt_of_le_of_lt (le_abs_self m) hm)
        exact_mod_cast this
      calc (m : ℚ) * 10 ^ j ≤ 1000000 * 10 ^ j := mul_le_mul_of_nonneg_right hm1 (tens j).le
        _ = 10 ^ (j + 6) := by
          have : (1000000 : ℚ) = (10 : ℚ) ^ (6 : ℤ) := by norm_num
          rw [this, ← zpow_add₀ (by norm_num)]
          congr 1
          ring
    have hk : e - 6 ≤ k := by
      by_contra hlt
      have h1 := small n k hn
      have h2 : (10 : ℚ) ^ (k + 6) < 10 ^ e := zpow_lt_zpow_right₀ (by norm_num) (by omega)
      rw [← hdk] at h1
      linarith
    have mult : ∀ (m j : ℤ), e - 6 ≤ j → ∃ i : ℤ, (m : ℚ) * 10 ^ j = i * u := by
      intro m j hj
      obtain ⟨i, hi⟩ := Int.eq_ofNat_of_zero_le (sub_nonneg.mpr hj)
      refine ⟨m * 10 ^ i, ?_⟩
      push_cast
      rw [show j = (i : ℤ) + (e - 6) by omega, zpow_add₀ (by norm_num), zpow_natCast, hu]
      ring
    rcases le_or_gt (e - 6) k' with hk' | hk'
    · obtain ⟨i, hi⟩ := mult n k hk
      obtain ⟨i', hi'⟩ := mult n' k' hk'
      rw [← hdk] at hi
      rw [← hzk] at hi'
      have hii : i' ≠ i := by
        rintro rfl
        exact hne (by rw [hi, hi'])
      have h1 : (1 : ℚ) ≤ |((i' - i : ℤ) : ℚ)| := by
        have : 1 ≤ |i' - i| := Int.one_le_abs (sub_ne_zero.mpr hii)
        exact_mod_cast this
      have h2 : z - d = ((i' - i : ℤ) : ℚ) * u := by
        rw [hi, hi']
        push_cast
        ring
      rw [h2, abs_mul, abs_of_pos hu0]
      have h3 : u ≤ |((i' - i : ℤ) : ℚ)| * u := by nlinarith
      linarith
    · have h1 := small n' k' hn'
      rw [← hzk] at h1
      have h2 : (10 : ℚ) ^ (k' + 6) ≤ 10 ^ (e - 1) := zpow_le_zpow_right₀ (by norm_num) (by omega)
      have h3 : (10 : ℚ) ^ (e - 1) = 100000 * u := by
        have : (10 : ℚ) ^ e = 10 ^ (e - 1) * 10 := by
          rw [← zpow_add_one₀ (by norm_num)]
          congr 1
          ring
        linarith
      have h4 := neg_abs_le (z - d)
      linarith
  rcases lt_trichotomy d 0 with h | h | h
  · have := pos (-d) (-z) (by linarith) hd.neg hz.neg (fun h => hne (neg_injective h))
    rw [show -z - -d = -(z - d) by ring, abs_neg] at this
    rwa [abs_of_neg h]
  · subst h
    simp
  · rw [abs_of_pos h]
    exact pos d z h hd hz hne

/-- The double that stands for a decimal number of six digits, which is zero or at least the smallest normal double. -/
def ShortDecimal (s : F64) : Prop := ∃ d, SixDigit d ∧ (d = 0 ∨ 2 ^ (-1022 : ℤ) ≤ |d|) ∧ s = F64.round d

/-- **C184 (partial).** Scores like `0.1` or `1500`, that are the doubles for numbers with six decimal digits, come back as they were, and
so do infinity and NaN. -/
theorem C184_exact_partial {scores : List F64} (h : ∀ s ∈ scores, ShortDecimal s ∨ s = .nan ∨ ∃ b, s = .inf b) :
    readScores F64.round (scoreText scores) = some scores := by
  rw [readScores_scoreText]
  congr 1
  conv_rhs => rw [← List.map_id scores]
  refine List.map_congr_left (fun s hs => ?_)
  rcases h s hs with ⟨d, hd, hn, rfl⟩ | rfl | ⟨b, rfl⟩
  · cases hr : F64.round d with
    | nan => rfl
    | inf b => rfl
    | num q =>
      have hq : q = roundRat 53 1074 d := by
        unfold F64.round at hr
        simp only [] at hr
        generalize (2 : ℚ) ^ 1024 = b at hr
        split at hr
        · cases hr
        · split at hr
          · cases hr
          · exact (F64.num.inj hr).symm
      have hdq : shown q = d := by
        rcases hn with rfl | hn
        · have : q = 0 := by rw [hq]; simp [roundRat]
          rw [this]
          simp [shown]
        · have herr : |d - q| ≤ |d| / 2 ^ 53 := by
            rw [hq]
            exact (roundRat_nearest (p := 53) (sub := 1074) (by norm_num) d).2 (by
              rw [show ((53 : ℕ) : ℤ) - 1 - ((1074 : ℕ) : ℤ) = -1022 by norm_num]
              exact hn)
          by_contra hne
          have hr := shown_roundsTo q
          have h1 := hr.2 d hd
          have h2 := sixDigit_gap hd hr.1 hne
          have h3 : |shown q - d| ≤ |q - shown q| + |q - d| := by
            rw [abs_sub_comm q (shown q)]
            exact abs_sub_le _ _ _
          rw [abs_sub_comm q d] at h1 h3
          have h4 : 0 < |d| := lt_of_lt_of_le (twos _) hn
          have h5 : |d| / 2 ^ 53 < |d| / 20000000 := div_lt_div_of_pos_left h4 (by norm_num) (by norm_num)
          have h6 : |d| / 20000000 + |d| / 20000000 = |d| / 10000000 := by ring
          linarith
      rw [readBack_num, hdq, hr]
      rfl
  · rfl
  · rfl

example : ShortDecimal (F64.round (1 / 10)) ∧ readScores F64.round (scoreText [F64.round (1 / 10)]) = some [F64.round (1 / 10)] := by
  refine ⟨⟨1 / 10, ⟨1, -1, by norm_num, by norm_num⟩, Or.inr ?_, rfl⟩, by decide +kernel⟩
  rw [abs_of_pos (by norm_num)]
  calc (2 : ℚ) ^ (-1022 : ℤ) ≤ 2 ^ (-4 : ℤ) := zpow_le_zpow_right₀ (by norm_num) (by norm_num)
    _ ≤ 1 / 10 := by norm_num

end Gbdt
