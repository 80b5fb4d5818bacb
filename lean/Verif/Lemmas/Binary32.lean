import Verif.Spec.Binary32
import Verif.Lemmas.Ieee
import Verif.Lemmas.FloatSplit

/-! # Midpoints of floats -/

set_option autoImplicit false

namespace Gbdt

open Outcome

theorem Binary.double {p sub : ℕ} {x : ℚ} (h : Binary p sub x) : Binary p sub (2 * x) := by
  obtain ⟨n, k, hn, hk, rfl⟩ := h
  exact ⟨n, k + 1, hn, by omega, by rw [zpow_add₀ (by norm_num), zpow_one]; ring⟩

theorem Nearest.mono_le {P : ℚ → Prop} {x x' y : ℚ} (h : Nearest P x y) (hx' : P x') (hle : x ≤ x') : y ≤ x' := by
  rcases hle.lt_or_eq with hlt | rfl
  · exact h.mono ⟨hx', fun z _ => by simp⟩ hlt
  · exact le_of_eq (h.self hx')

theorem Nearest.le_mono {P : ℚ → Prop} {x x' y : ℚ} (h : Nearest P x y) (hx' : P x') (hle : x' ≤ x) : x' ≤ y := by
  rcases hle.lt_or_eq with hlt | rfl
  · exact Nearest.mono ⟨hx', fun z _ => by simp⟩ h hlt
  · exact le_of_eq (h.self hx').symm

/-- Every number of the format is a multiple of the last bit. -/
theorem Binary.units {p sub : ℕ} {x : ℚ} (h : Binary p sub x) : ∃ m : ℤ, x = m * 2 ^ (-(sub : ℤ)) := by
  obtain ⟨n, k, _, hk, rfl⟩ := h
  obtain ⟨i, hi⟩ := Int.eq_ofNat_of_zero_le (by omega : 0 ≤ k + sub)
  refine ⟨n * 2 ^ i, ?_⟩
  push_cast
  rw [show k = (i : ℤ) + -(sub : ℤ) by omega, zpow_add₀ (by norm_num), zpow_natCast]
  ring

/-- The rounded midpoint of two numbers of the format lies between them, and above the smaller one unless they are neighbours. -/
theorem midpoint_between {p sub : ℕ} (hp : 1 ≤ p) {a b r t : ℚ} (ha : Binary p sub a) (hb : Binary p sub b) (hab : a < b)
    (hr : Nearest (Binary p sub) (a + b) r) (ht : Nearest (Binary p sub) (r / 2) t) :
    a ≤ t ∧ t ≤ b ∧ ((∃ m, Binary p sub m ∧ a < m ∧ m < b) → a < t) := by
  have hr1 : r ≤ 2 * b := hr.mono_le hb.double (by linarith)
  have hr0 : 2 * a ≤ r := hr.le_mono ha.double (by linarith)
  refine ⟨ht.le_mono ha (by linarith), ht.mono_le hb (by linarith), ?_⟩
  rintro ⟨m, hm, ham, hmb⟩
  -- the sum is not rounded to `2 * a`, because `2 * m` is closer
  have hr2 : 2 * a < r := by
    refine lt_of_le_of_ne hr0 ?_
    rintro rfl
    have := hr.2 (2 * m) hm.double
    rw [abs_of_pos (by linarith)] at this
    have h2 : |a + b - 2 * m| < b - a := abs_lt.mpr ⟨by linarith, by linarith⟩
    linarith
  by_cases hbin : Binary p sub (r / 2)
  · rw [ht.self hbin]
    linarith
  · -- then the sum is exact
    obtain ⟨n, k, hn, hk, hrk⟩ := hr.1
    have hks : k = -(sub : ℤ) := by
      by_contra hne
      refine hbin ⟨n, k - 1, hn, by omega, ?_⟩
      rw [hrk, zpow_sub₀ (by norm_num), zpow_one]
      ring
    subst hks
    obtain ⟨i, hi⟩ := ha.units
    obtain ⟨j, hj⟩ := hb.units
    set u : ℚ := 2 ^ (-(sub : ℤ)) with hu
    have hu0 : 0 < u := twos _
    have hsum : a + b = ((i + j : ℤ) : ℚ) * u := by rw [hi, hj]; push_cast; ring
    have hexact : r = a + b := by
      by_cases hs : |i + j| < 2 ^ p
      · exact hr.self ⟨i + j, _, hs, le_rfl, hsum⟩
      · exfalso
        have hs : (2 : ℤ) ^ p ≤ |i + j| := not_lt.mp hs
        have hbig : Binary p sub (2 ^ p * u) := by
          refine ⟨2 ^ (p - 1), -(sub : ℤ) + 1, ?_, by omega, ?_⟩
          · rw [abs_of_nonneg (by positivity)]
            exact pow_lt_pow_right₀ (by norm_num) (by omega)
          · rw [zpow_add₀ (by norm_num), zpow_one, ← hu]
            have : (2 : ℚ) ^ p = 2 ^ (p - 1) * 2 := by
              rw [← pow_succ]
              congr 1
              omega
            push_cast
            rw [this]
            ring
        have hn' := abs_lt.mp hn
        have n1 : (n : ℚ) < 2 ^ p := by exact_mod_cast hn'.2
        have n2 : -(2 : ℚ) ^ p < n := by exact_mod_cast hn'.1
        have n3 : (n : ℚ) * u < 2 ^ p * u := mul_lt_mul_of_pos_right n1 hu0
        have n4 : -(2 : ℚ) ^ p * u < n * u := mul_lt_mul_of_pos_right n2 hu0
        rcases le_abs.mp hs with h | h
        · have h1 : (2 : ℚ) ^ p ≤ ((i + j : ℤ) : ℚ) := by exact_mod_cast h
          have h2 : (2 : ℚ) ^ p * u ≤ a + b := by rw [hsum]; exact mul_le_mul_of_nonneg_right h1 hu0.le
          have := hr.le_mono hbig h2
          linarith
        · have h1 : (2 : ℚ) ^ p ≤ -((i + j : ℤ) : ℚ) := by exact_mod_cast h
          have h2 : a + b ≤ -((2 : ℚ) ^ p * u) := by
            rw [hsum]
            have := mul_le_mul_of_nonneg_right h1 hu0.le
            linarith
          have := hr.mono_le hbig.neg h2
          linarith
    subst hexact
    by_contra hta
    have hta : t ≤ a := not_lt.mp hta
    have h1 := ht.2 m hm
    have h2 : |(a + b) / 2 - m| < (b - a) / 2 := abs_lt.mpr ⟨by linarith, by linarith⟩
    have h3 : (b - a) / 2 ≤ |(a + b) / 2 - t| := by
      rw [abs_of_nonneg (by linarith)]
      linarith
    linarith

theorem F32.fin_lt {a b : ℚ} : F32.fin a < F32.fin b ↔ a < b := by
  unfold F32.fin
  rw [WithBot.coe_lt_coe, WithTop.coe_lt_coe]

theorem F32.fin_le {a b : ℚ} : F32.fin a ≤ F32.fin b ↔ a ≤ b := by
  unfold F32.fin
  rw [WithBot.coe_le_coe, WithTop.coe_le_coe]

theorem F32.toDouble_fin (q : ℚ) : F32.toDouble (F32.fin q) = .num q := rfl

theorem F32.fin_inj {a b : ℚ} (h : F32.fin a = F32.fin b) : a = b := by
  have := congrArg F32.toDouble h
  simpa [F32.toDouble_fin] using this

/-- Rounding what lies in the range of `float`. -/
theorem round32_num {q : ℚ} (h1 : roundRat 24 149 q < 2 ^ 128) (h2 : -2 ^ 128 < roundRat 24 149 q) :
    F64.round32 (.num q) = .num (roundRat 24 149 q) := by
  simp only [F64.round32]
  rw [if_neg (not_le.mpr h1), if_neg (not_le.mpr h2)]

theorem Binary.widen {x : ℚ} (h : Binary 24 149 x) : Binary 53 1074 (x / 2) := by
  obtain ⟨n, k, hn, hk, rfl⟩ := h
  refine ⟨n, k - 1, lt_trans hn (by norm_num), by push_cast at hk ⊢; omega, ?_⟩
  rw [zpow_sub₀ (by norm_num), zpow_one]
  ring

theorem Binary.asDouble {x : ℚ} (h : Binary 24 149 x) : Binary 53 1074 x := by
  obtain ⟨n, k, hn, hk, rfl⟩ := h
  exact ⟨n, k, lt_trans hn (by norm_num), by push_cast at hk ⊢; omega, rfl⟩

theorem double_range {v : ℚ} (h : v ≤ 2 ^ 128) : ¬ 2 ^ 1024 ≤ v :=
  not_le.mpr (lt_of_le_of_lt h (pow_lt_pow_right₀ (by norm_num) (by norm_num)))

theorem double_range_neg {v : ℚ} (h : -2 ^ 128 ≤ v) : ¬ v ≤ -2 ^ 1024 :=
  not_le.mpr (lt_of_lt_of_le (neg_lt_neg (pow_lt_pow_right₀ (by norm_num) (by norm_num))) h)

/-- Halving a float is exact in `double`. -/
theorem half_exact {r : ℚ} (h : Binary 24 149 r) (hr : |r| ≤ 2 ^ 128) : F64.div (.num r) (.num 2) = .num (r / 2) := by
  have h1 : roundRat 53 1074 (r / 2) = r / 2 := (roundRat_nearest (sub := 1074) (p := 53) (by norm_num) (r / 2)).1.self h.widen
  obtain ⟨a1, a2⟩ := abs_le.mp hr
  simp only [F64.div, F64.round, h1]
  rw [if_neg (by norm_num), if_neg (double_range (by linarith)), if_neg (double_range_neg (by linarith))]

theorem binary_max : Binary 24 149 (2 ^ 128 - 2 ^ 104) := ⟨2 ^ 24 - 1, 104, by norm_num, by norm_num, by norm_num⟩

/-- A float below `2 ^ 127` is at most half of `FLT_MAX`. -/
theorem Binary.below_half {x : ℚ} (h : Binary 24 149 x) (hx : x < 2 ^ 127) : x ≤ 2 ^ 127 - 2 ^ 103 := by
  obtain ⟨n, k, hn, hk, rfl⟩ := h
  have hn' := abs_lt.mp hn
  rcases le_or_gt k 103 with hk3 | hk3
  · have h1 : (n : ℚ) ≤ 2 ^ 24 - 1 := by
      have : n ≤ 2 ^ 24 - 1 := by omega
      exact_mod_cast this
    have h2 : (2 : ℚ) ^ k ≤ 2 ^ (103 : ℤ) := zpow_le_zpow_right₀ (by norm_num) hk3
    calc (n : ℚ) * 2 ^ k ≤ (2 ^ 24 - 1) * 2 ^ k := mul_le_mul_of_nonneg_right h1 (twos k).le
      _ ≤ (2 ^ 24 - 1) * 2 ^ (103 : ℤ) := mul_le_mul_of_nonneg_left h2 (by norm_num)
      _ = 2 ^ 127 - 2 ^ 103 := by norm_num
  · obtain ⟨i, hi⟩ := Int.eq_ofNat_of_zero_le (by omega : 0 ≤ k - 103)
    have hval : (n : ℚ) * 2 ^ k = ((n * 2 ^ i : ℤ) : ℚ) * 2 ^ (103 : ℤ) := by
      rw [show k = (i : ℤ) + 103 by omega, zpow_add₀ (by norm_num), zpow_natCast]
      push_cast
      ring
    rw [hval] at hx ⊢
    have h1 : ((n * 2 ^ i : ℤ) : ℚ) < 2 ^ 24 := by
      by_contra hge
      have := mul_le_mul_of_nonneg_right (not_lt.mp hge) (twos 103).le
      have h3 : (2 : ℚ) ^ 24 * 2 ^ (103 : ℤ) = 2 ^ 127 := by norm_num
      linarith
    have h2 : ((n * 2 ^ i : ℤ) : ℚ) ≤ 2 ^ 24 - 1 := by
      have : n * 2 ^ i < 2 ^ 24 := by exact_mod_cast h1
      have : n * 2 ^ i ≤ 2 ^ 24 - 1 := by omega
      exact_mod_cast this
    calc ((n * 2 ^ i : ℤ) : ℚ) * 2 ^ (103 : ℤ) ≤ (2 ^ 24 - 1) * 2 ^ (103 : ℤ) := mul_le_mul_of_nonneg_right h2 (twos 103).le
      _ = 2 ^ 127 - 2 ^ 103 := by norm_num

/-- The threshold between two floats of half the range. -/
theorem mid_between {a b : ℚ} (ha : Binary 24 149 a) (hb : Binary 24 149 b) (ha2 : |a| < 2 ^ 127) (hb2 : |b| < 2 ^ 127) (hab : a < b) :
    ∃ t, binary32Thr.mid (F32.fin a) (F32.fin b) = .num (F32.fin t) ∧ a ≤ t ∧ t ≤ b ∧
      ((∃ m, Binary 24 149 m ∧ a < m ∧ m < b) → a < t) := by
  have hr := (roundRat_nearest (sub := 149) (p := 24) (by norm_num) (a + b)).1
  set r := roundRat 24 149 (a + b) with hrdef
  have ht := (roundRat_nearest (sub := 149) (p := 24) (by norm_num) (r / 2)).1
  set t := roundRat 24 149 (r / 2) with htdef
  obtain ⟨h1, h2, h3⟩ := midpoint_between (by norm_num) ha hb hab hr ht
  have a' := abs_lt.mp ha2
  have b' := abs_lt.mp hb2
  have u1 := hb.below_half b'.2
  have u2 := ha.neg.below_half (by linarith)
  have r1 : r ≤ 2 ^ 128 - 2 ^ 104 := hr.mono_le binary_max (by linarith)
  have r2 : -(2 ^ 128 - 2 ^ 104) ≤ r := hr.le_mono binary_max.neg (by linarith)
  refine ⟨t, ?_, h1, h2, h3⟩
  have e1 : F32.sum (F32.fin a) (F32.fin b) = .num r := round32_num (by rw [← hrdef]; linarith) (by rw [← hrdef]; linarith)
  have e2 : F64.div (.num r) (.num 2) = .num (r / 2) := half_exact hr.1 (abs_le.mpr ⟨by linarith, by linarith⟩)
  have e3 : F64.round32 (.num (r / 2)) = .num t := round32_num (by rw [← htdef]; linarith) (by rw [← htdef]; linarith)
  change F32.ofDouble (F64.round32 (F64.div (F32.sum (F32.fin a) (F32.fin b)) (.num 2))) = _
  rw [e1, e2, e3]
  rfl

/-- A float lowered by `1e-3` is not larger. -/
theorem below_not_larger {a : ℚ} (ha : Binary 24 149 a) (hmax : |a| ≤ 2 ^ 128 - 2 ^ 104) : ∃ m, binary32Thr.below (F32.fin a) = .num m ∧ m ≤ F32.fin a := by
  obtain ⟨_, a2⟩ := abs_le.mp hmax
  have hc := (roundRat_nearest (sub := 1074) (p := 53) (by norm_num) (1 / 1000)).1
  set c := roundRat 53 1074 (1 / 1000) with hcdef
  have hc0 : 0 ≤ c := hc.le_mono ⟨0, 0, by norm_num, by norm_num, by norm_num⟩ (by norm_num)
  have hc1 : c ≤ 1 := hc.mono_le ⟨1, 0, by norm_num, by norm_num, by norm_num⟩ (by norm_num)
  have e0 : F64.round (1 / 1000) = .num c := by
    simp only [F64.round, ← hcdef]
    rw [if_neg (double_range (by linarith)), if_neg (double_range_neg (by linarith))]
  have hv := (roundRat_nearest (sub := 1074) (p := 53) (by norm_num) (a + -c)).1
  have hva := hv.mono_le ha.asDouble (by linarith)
  have hbot : ∃ m, F32.ofDouble (.inf true) = .num m ∧ m ≤ F32.fin a := ⟨⊥, rfl, bot_le⟩
  change ∃ m, F32.ofDouble (F64.round32 (F64.add (.num a) (F64.neg (F64.round (1 / 1000))))) = .num m ∧ m ≤ F32.fin a
  rw [e0]
  simp only [F64.neg, F64.add, F64.round]
  rw [if_neg (double_range (by linarith))]
  split
  · exact hbot
  · have hw := (roundRat_nearest (sub := 149) (p := 24) (by norm_num) (roundRat 53 1074 (a + -c))).1
    have hwa := hw.mono_le ha hva
    simp only [F64.round32]
    rw [if_neg (not_le.mpr (by linarith))]
    split
    · exact hbot
    · exact ⟨_, rfl, F32.fin_le.mpr hwa⟩

/-- The limits of the buckets in use are values of the column; the last bucket ends at `fmax`. -/
theorem limits_values {A : Type} [LinearOrder A] {fmax : A} {nb : Nat} {blocks : List (List (Fl A))} {c : BktCol A}
    (hn : blocks.flatten.length + 2 < 2 ^ 32) (hnb : nb < 2 ^ 32) (hok : BktCol.build fmax nb blocks = ok c) (hfin : ∀ v, Fl.num v ∈ blocks.flatten → v ≤ fmax) {codes : List Nat}
    (hcodes : c.ints.data = ok codes) :
    (∀ j ∈ codes, ∀ a, c.bucketMax j = ok (.num a) → Fl.num a ∈ blocks.flatten ∨ a = fmax) ∧
    (∀ j ∈ codes, ∀ a, c.bucketMin j = ok (.num a) → Fl.num a ∈ blocks.flatten) ∧
    (∀ a, c.bucketMin 1 = ok (.num a) → Fl.num a ∈ blocks.flatten ∨ a = fmax) := by
  obtain ⟨buf, rest, M, e, _, _, _, r⟩ := build_ok hn hnb hok
  rw [r.data, Outcome.ok.injEq] at hcodes
  subst hcodes
  have hlim : ∀ {k : A}, k ∈ limitsOf nb buf ++ [fmax] → Fl.num k ∈ blocks.flatten ∨ k = fmax := by
    intro k hk
    rcases List.mem_append.mp hk with h | h
    · left
      rw [e]
      exact List.mem_append_left _ (limitsOf_mem h)
    · exact .inr (by simpa using h)
  have hrow : ∀ j ∈ blocks.flatten.map (codeOf M), (c.bucketMax j = ok .nan) ∨
      ∃ v k m, Fl.num v ∈ blocks.flatten ∧ c.bucketMax j = ok (.num k) ∧ c.bucketMin j = ok (.num m) ∧
        (Fl.num k ∈ blocks.flatten ∨ k = fmax) ∧ m ≤ v ∧ (m = k ∨ Fl.num m ∈ blocks.flatten) := by
    intro j hj
    obtain ⟨x, hx, rfl⟩ := List.mem_map.mp hj
    cases x with
    | nan =>
      left
      rw [show codeOf M Fl.nan = 0 from rfl, BktCol.bucketMax, vecGet_eq_ok, r.maxs]
      rfl
    | num v =>
      right
      obtain ⟨i, hi⟩ := List.mem_iff_getElem?.mp hx
      obtain ⟨k, m, hk, h1, h2, _, h4, _, _, _, h8⟩ := r.row hi
      rw [BktCol.rowMax, r.code hi, ok_bind] at h1
      rw [BktCol.rowMin, r.code hi, ok_bind] at h2
      exact ⟨v, k, m, hx, h1, h2, hlim (r.bkts.key_mem hk), h4, h8.imp id (fun h => h.1)⟩
  refine ⟨?_, ?_, ?_⟩
  · intro j hj a ha
    rcases hrow j hj with h | ⟨v, k, m, hv, h1, _, h3, _⟩
    · rw [ha] at h; cases h
    · rw [ha] at h1; cases h1; exact h3
  · intro j hj a ha
    rcases hrow j hj with h | ⟨v, k, m, hv, h1, h2, h3, h4, h5⟩
    · -- the bucket of missing values has no lower limit
      exfalso
      obtain ⟨x, hx, rfl⟩ := List.mem_map.mp hj
      cases x with
      | nan =>
        rw [show codeOf M Fl.nan = 0 from rfl, BktCol.bucketMin, vecGet_eq_ok] at ha
        rw [r.placed.zero] at ha
        cases ha
      | num v =>
        obtain ⟨i, hi⟩ := List.mem_iff_getElem?.mp hx
        obtain ⟨k, m, hk, g1, _⟩ := r.row hi
        rw [BktCol.rowMax, r.code hi, ok_bind, h] at g1
        cases g1
    · rw [ha] at h2
      cases h2
      rcases h5 with rfl | h5
      · rcases h3 with h3 | rfl
        · exact h3
        · have := le_antisymm h4 (hfin v hv)
          rw [this]
          exact hv
      · exact h5
  · intro a ha
    obtain ⟨x, hx⟩ : ∃ x, (limitsOf nb buf ++ [fmax])[0]? = some x := by
      cases limitsOf nb buf with
      | nil => exact ⟨_, rfl⟩
      | cons a l => exact ⟨_, rfl⟩
    obtain ⟨_, m, h1, _, _, h4⟩ := r.bucket hx
    rw [ha] at h1
    cases h1
    rcases h4 with rfl | h4
    · exact hlim (List.mem_of_getElem? hx)
    · exact .inl h4.1

end Gbdt
