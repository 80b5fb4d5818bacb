import Verif.Lemmas.BucketCrash
import Verif.Props.StringColumn
import Mathlib.Data.Finset.Lattice.Basic
import Mathlib.Order.Fin.Basic

/-!
# C03 - C10, C57, C58: bucketized float columns

Specification: the column was made for `nb` buckets and fed the blocks `blocks`; row `i` was fed
`blocks.flatten[i]`.  `BktCol.build fmax nb blocks = ok c` says that feeding did not crash and `c` is the finalized
column.  `A` is any linear order standing for the non-NaN floats and `fmax` is the largest finite float, so the only
float above `fmax` is `+inf`.
-/

set_option linter.unusedSectionVars false

set_option autoImplicit false

namespace Gbdt

open Outcome

variable {A : Type} [LinearOrder A]

/-- Sizes that fit the machine integers the code uses. -/
def Fits (nb : Nat) (blocks : List (List (Fl A))) : Prop :=
  blocks.flatten.length + 2 < 2 ^ 32 ∧ nb < 2 ^ 32

/-- A column used in the examples: 3 buckets, two blocks, a repeated value, a missing value. -/
def sampleFloats : List (List (Fl Int)) := [[.num 5, .num 5, .nan], [.num 7, .num 5, .num 9, .num 8, .num 1]]

/-- **C03.** A row is missing exactly when NaN was fed; there are as many rows as values. -/
theorem C03_missing_iff_nan {fmax : A} {nb : Nat} {blocks : List (List (Fl A))} {c : BktCol A}
    (hf : Fits nb blocks) (hok : BktCol.build fmax nb blocks = ok c) :
    c.size = ok blocks.flatten.length ∧
    ∀ (i : Nat) (hi : i < blocks.flatten.length), c.ints.missing i = ok (decide (blocks.flatten[i] = Fl.nan)) := by
  obtain ⟨buf, rest, M, _, _, _, _, r⟩ := build_ok hf.1 hf.2 hok
  refine ⟨?_, ?_⟩
  · rw [r.size, u32_of_lt (by have := hf.1; omega)]
  · intro i hi
    unfold IntCol.missing
    rw [r.code (List.getElem?_eq_getElem hi), ok_bind]
    simp only [pure_eq, Outcome.ok.injEq]
    rw [Bool.eq_iff_iff]
    simp only [beq_iff_eq, decide_eq_true_eq]
    exact r.bkts.code_eq_zero _

example : Fits 3 sampleFloats ∧
    (BktCol.build (1000 : Int) 3 sampleFloats >>= fun c => c.ints.missing 2) = ok true ∧
    (BktCol.build (1000 : Int) 3 sampleFloats >>= fun c => c.ints.missing 3) = ok false := by
  refine ⟨by unfold Fits; decide, by decide +kernel, by decide +kernel⟩

/-! ## C04 -/

/-- C57 (containment): C04 for every row, `+inf` included. -/
def C57_containment_full : Prop :=
  ∀ (A : Type) [LinearOrder A] (fmax : A) (nb : Nat) (blocks : List (List (Fl A))) (c : BktCol A),
    Fits nb blocks → BktCol.build fmax nb blocks = ok c →
    ∀ i v, blocks.flatten[i]? = some (.num v) →
      ∃ lo hi, c.rowMin i = ok (.num lo) ∧ c.rowMax i = ok (.num hi) ∧ lo ≤ v ∧ v ≤ hi

/-- **C04.** Every row holding a finite number (or, in a column of at most `100 * nb` rows, any number) lies between
its reported minimum and maximum. -/
theorem C04_row_in_bucket {fmax : A} {nb : Nat} {blocks : List (List (Fl A))} {c : BktCol A}
    (hf : Fits nb blocks) (hok : BktCol.build fmax nb blocks = ok c) {i : Nat} {v : A}
    (hi : blocks.flatten[i]? = some (.num v)) (hv : v ≤ fmax ∨ blocks.flatten.length ≤ 100 * nb) :
    ∃ lo hi, c.rowMin i = ok (.num lo) ∧ c.rowMax i = ok (.num hi) ∧ lo ≤ v ∧ v ≤ hi := by
  obtain ⟨buf, rest, M, e, hr, _, _, r⟩ := build_ok hf.1 hf.2 hok
  obtain ⟨k, m, hk, h1, h2, h3, h4, h5, _⟩ := r.row hi
  refine ⟨m, k, h2, h1, h4, ?_⟩
  rcases hv with hv | hv
  · exact (h5 hv).1
  · have hb : Fl.num v ∈ buf := by
      have := List.mem_of_getElem? hi
      rw [e, hr hv, List.append_nil] at this
      exact this
    obtain ⟨s, hs, hvs⟩ := limitsOf_cover (nb := nb) hb
    obtain ⟨j, hj⟩ := r.bkts.has_key (a := s) (List.mem_append_left _ hs)
    obtain ⟨k', hk', h6 | h6⟩ := r.bkts.entry v
    · have : k = k' := by
        have a1 := (r.bkts.idx hk).2.2
        have a2 := (r.bkts.idx hk').2.2
        rw [a1] at a2
        simpa using a2
      rw [this]
      exact h6.1
    · exact absurd (h6.1 _ hj) (not_lt.mpr hvs)

example : (BktCol.build (1000 : Int) 3 sampleFloats >>= fun c => c.rowMin 3) = ok (.num 7) ∧
    (BktCol.build (1000 : Int) 3 sampleFloats >>= fun c => c.rowMax 3) = ok (.num 9) ∧
    sampleFloats.flatten[3]? = some (.num 7) := by decide +kernel

/-- Floats `0 < 1 < 2 = FLT_MAX < 3 = +inf`: 101 zeros fix the buckets, then `+inf` arrives. -/
def lateInf : List (List (Fl (Fin 4))) := [List.replicate 101 (.num 0), [.num 3]]

/-- **C57 is false** (containment): a `+inf` arriving after the buckets were fixed is reported in a bucket whose maximum
is `FLT_MAX`. -/
theorem C57_containment_refuted : ¬ C57_containment_full := by
  intro h
  have hc : ∃ c, BktCol.build (2 : Fin 4) 1 lateInf = ok c ∧ c.rowMax 101 = ok (.num 2) := by
    have : (BktCol.build (2 : Fin 4) 1 lateInf >>= fun c => c.rowMax 101) = ok (.num 2) := by decide +kernel
    obtain ⟨c, h1, h2⟩ := bind_eq_ok.mp this
    exact ⟨c, h1, h2⟩
  obtain ⟨c, h1, h2⟩ := hc
  obtain ⟨lo, hi, _, h4, _, h6⟩ := h (Fin 4) 2 1 lateInf c (by unfold Fits; decide) h1 101 3 (by decide)
  rw [h2] at h4
  simp only [Outcome.ok.injEq, Fl.num.injEq] at h4
  subst h4
  exact absurd h6 (by decide)

/-! ## C05 -/

/-- C57 (order): C05 for all rows, `+inf` included. -/
def C57_order_full : Prop :=
  ∀ (A : Type) [LinearOrder A] (fmax : A) (nb : Nat) (blocks : List (List (Fl A))) (c : BktCol A),
    Fits nb blocks → BktCol.build fmax nb blocks = ok c →
    ∀ i j v w, blocks.flatten[i]? = some (.num v) → blocks.flatten[j]? = some (.num w) →
      ∃ ci cj hi lo, c.ints.code i = ok ci ∧ c.ints.code j = ok cj ∧ c.rowMax i = ok (.num hi) ∧
        c.rowMin j = ok (.num lo) ∧ (v ≤ w → ci ≤ cj) ∧ (ci < cj → hi < lo)

/-- **C05.** For any two rows that are not `+inf`, codes are ordered as the values are, and buckets with different
codes do not overlap. -/
theorem C05_codes_ordered {fmax : A} {nb : Nat} {blocks : List (List (Fl A))} {c : BktCol A}
    (hf : Fits nb blocks) (hok : BktCol.build fmax nb blocks = ok c) {i j : Nat} {v w : A}
    (hi : blocks.flatten[i]? = some (.num v)) (hj : blocks.flatten[j]? = some (.num w))
    (hv : v ≤ fmax) (hw : w ≤ fmax) :
    ∃ ci cj hi lo, c.ints.code i = ok ci ∧ c.ints.code j = ok cj ∧ c.rowMax i = ok (.num hi) ∧
      c.rowMin j = ok (.num lo) ∧ (v ≤ w → ci ≤ cj) ∧ (ci < cj → hi < lo) := by
  obtain ⟨buf, rest, M, e, hr, _, _, r⟩ := build_ok hf.1 hf.2 hok
  obtain ⟨k, m, hk, h1, h2, h3, h4, h5, _⟩ := r.row hi
  obtain ⟨k', m', hk', h1', h2', h3', h4', h5', _, h7', h8'⟩ := r.row hj
  refine ⟨_, _, k, m', r.code hi, r.code hj, h1, h2', fun hvw => r.bkts.code_mono hvw hw, ?_⟩
  intro hlt
  have hkfmax := (h5 hv).2.1
  -- the limit of row i has the code of row i
  have hkc : codeOf M (.num k) = codeOf M (.num v) :=
    r.bkts.unique (r.bkts.entry_key (r.bkts.key_mem hk)) hk
  rcases h8' with h8 | ⟨_, h8⟩
  · subst h8
    by_contra hcon
    have hle : m' ≤ k := not_lt.mp hcon
    have := r.bkts.code_mono hle hkfmax
    have hkc' : codeOf M (.num m') = codeOf M (.num w) :=
      r.bkts.unique (r.bkts.entry_key (r.bkts.key_mem hk')) hk'
    omega
  · by_contra hcon
    have hle : m' ≤ k := not_lt.mp hcon
    have := r.bkts.code_mono hle hkfmax
    omega

example : (BktCol.build (1000 : Int) 3 sampleFloats >>= fun c => c.ints.code 3) = ok 2 ∧
    (BktCol.build (1000 : Int) 3 sampleFloats >>= fun c => c.ints.code 5) = ok 2 ∧
    (BktCol.build (1000 : Int) 3 sampleFloats >>= fun c => c.ints.code 0) = ok 1 ∧
    sampleFloats.flatten[0]? = some (.num 5) ∧ sampleFloats.flatten[5]? = some (.num 9) := by decide +kernel

/-- Floats `0 < 1 < 2 < 3 = FLT_MAX < 4 = +inf`. -/
def earlyInf : List (List (Fl (Fin 5))) := [[.num 1, .num 1, .num 1, .num 1, .num 2, .num 4]]

/-- **C57 is false** (order): here the row holding 2 gets code 3 and the row holding `+inf` gets code 2. -/
theorem C57_order_refuted : ¬ C57_order_full := by
  intro h
  have e1 : (BktCol.build (3 : Fin 5) 3 earlyInf >>= fun c => c.ints.code 4) = ok 3 := by decide +kernel
  have e2 : (BktCol.build (3 : Fin 5) 3 earlyInf >>= fun c => c.ints.code 5) = ok 2 := by decide +kernel
  obtain ⟨c, h1, h2⟩ := bind_eq_ok.mp e1
  rw [h1, ok_bind] at e2
  obtain ⟨ci, cj, _, _, h3, h4, _, _, h5, _⟩ :=
    h (Fin 5) 3 3 earlyInf c (by unfold Fits; decide) h1 4 5 2 4 (by decide) (by decide)
  rw [h2] at h3
  rw [e2] at h4
  cases h3
  cases h4
  exact absurd (h5 (by decide)) (by decide)

/-! ## C06 -/

/-- **C06.** A finalized column has at most `2 * nb + 1` buckets, counting the missing and the overflow bucket. -/
theorem C06_bucket_count {fmax : A} {nb : Nat} {blocks : List (List (Fl A))} {c : BktCol A}
    (hf : Fits nb blocks) (hok : BktCol.build fmax nb blocks = ok c) : c.maxInt ≤ 2 * nb + 1 := by
  obtain ⟨buf, rest, M, e, _, h0, h1, r⟩ := build_ok hf.1 hf.2 hok
  have hlen : buf.length < 4294967296 := by
    have h2 := congrArg List.length e
    have h3 := hf.1
    simp only [List.length_append] at h2
    omega
  rw [r.maxInt]
  have := limitsOf_length h0 h1 hlen hf.2
  omega

/-- The bound is reached, so the `num_buckets + 1` promised in `column.h` is false: 2 buckets asked, 5 made. -/
theorem C06_bound_reached :
    (BktCol.build (1000 : Int) 2 [[.num 1, .num 2, .num 3]] >>= fun c => ok c.maxInt) = ok (2 * 2 + 1) := by
  decide +kernel

/-- With the default 30000 buckets, codes fit 16 bits. -/
theorem C06_default_fits_16_bits {fmax : A} {blocks : List (List (Fl A))} {c : BktCol A}
    (hn : blocks.flatten.length + 2 < 2 ^ 32) (hok : BktCol.build fmax 30000 blocks = ok c) : c.maxInt ≤ 65536 :=
  (C06_bucket_count ⟨hn, by decide⟩ hok).trans (by decide)

example : Fits 2 ([[.num 1, .num 2, .num 3]] : List (List (Fl Int))) := by unfold Fits; decide

/-! ## C07 -/

/-- **C07.** Fewer than `2 * nb` values are stored exactly. -/
theorem C07_few_values_exact {fmax : A} {nb : Nat} {blocks : List (List (Fl A))} {c : BktCol A}
    (hf : Fits nb blocks) (hok : BktCol.build fmax nb blocks = ok c) (hn : blocks.flatten.length < 2 * nb)
    {i : Nat} {v : A} (hi : blocks.flatten[i]? = some (.num v)) :
    c.rowMin i = ok (.num v) ∧ c.rowMax i = ok (.num v) := by
  obtain ⟨buf, rest, M, e, hr, _, _, r⟩ := build_ok hf.1 hf.2 hok
  have hb : buf = blocks.flatten := by rw [e, hr (by omega), List.append_nil]
  subst hb
  obtain ⟨k, m, hk, h1, h2, h3, h4, h5, h6, h7, h8⟩ := r.row hi
  have hkv := h6 (limitsOf_all hn (List.mem_of_getElem? hi))
  subst hkv
  refine ⟨?_, h1⟩
  rcases h8 with h8 | ⟨h8, h9⟩
  · rw [h2, h8]
  · have hm := r.bkts.entry_key (v := m) (List.mem_append_left _ (limitsOf_all hn h8))
    rw [h9] at hm
    have a1 := (r.bkts.idx hk).2.2
    rw [(r.bkts.idx hm).2.2] at a1
    rw [h2]
    simpa using a1

example : Fits 4 ([[.num 5, .num 5], [.nan, .num 9, .num 2000]] : List (List (Fl Int))) ∧
    ([[.num 5, .num 5], [.nan, .num 9, .num 2000]] : List (List (Fl Int))).flatten.length < 2 * 4 ∧
    (BktCol.build (1000 : Int) 4 [[.num 5, .num 5], [.nan, .num 9]] >>= fun c => c.rowMin 3) = ok (.num 9) := by
  refine ⟨by unfold Fits; decide, by decide, by decide +kernel⟩

/-! ## C08 -/

/-- The property C08 in full. -/
def C08_full : Prop :=
  ∀ (A : Type) [LinearOrder A] (fmax : A) (nb : Nat) (blocks : List (List (Fl A))),
    Fits nb blocks → 1 ≤ nb → ∃ c, BktCol.build fmax nb blocks = ok c

/-- **C08**, made exact.  Let `s` be the values the buckets are made from: the shortest run of leading blocks with
more than `100 * nb` values, or everything.  Feeding and finalizing divides by zero exactly when `nb` is 0 or one more
than the number of distinct non-missing values occurring at least `max 1 (s.length / nb)` times in `s`; in every other
case it completes.  Missing: the excluded case, where the property is false. -/
theorem C08_crash_iff_partial (fmax : A) (nb : Nat) (blocks : List (List (Fl A))) (hf : Fits nb blocks) :
    let s := sampleOf nb [] blocks
    let bad := nb = 0 ∨ (s.toFinset.filter (fun v => v ≠ Fl.nan ∧ max 1 (s.length / nb) ≤ s.count v)).card + 1 = nb
    (BktCol.build fmax nb blocks = ub ↔ bad) ∧ (¬ bad → ∃ c, BktCol.build fmax nb blocks = ok c) := by
  intro s bad
  have h := build_blocks fmax nb blocks hf.1 hf.2
  rw [heavyCount_eq] at h
  exact h

example : Fits 3 sampleFloats ∧ sampleOf 3 [] sampleFloats = sampleFloats.flatten ∧
    (sampleFloats.flatten.toFinset.filter (fun v => v ≠ Fl.nan ∧ max 1 (8 / 3) ≤ sampleFloats.flatten.count v)).card + 1
      ≠ 3 := by
  refine ⟨by unfold Fits; decide, by decide, by decide⟩

/-- **C08 is false** for every number of buckets: a column of `nb - 1` distinct numbers always divides by zero.  (With
the default `nb = 30000`: any column of 29999 distinct floats.) -/
theorem C08_distinct_values_crash (fmax : A) (nb : Nat) (vals : List A) (hnd : vals.Nodup)
    (hlen : vals.length + 1 = nb) (hnb : nb < 2 ^ 31) : BktCol.build fmax nb [vals.map Fl.num] = ub := by
  have hf : Fits nb [vals.map (Fl.num (A := A))] := by
    unfold Fits
    simp only [List.flatten_cons, List.flatten_nil, List.append_nil, List.length_map]
    omega
  refine ((C08_crash_iff_partial fmax nb _ hf).1).mpr (Or.inr ?_)
  have hs : sampleOf nb [] [vals.map (Fl.num (A := A))] = vals.map Fl.num := by
    unfold sampleOf
    simp only [List.nil_append, sampleOf]
    split <;> rfl
  rw [hs]
  have hnd' : (vals.map (Fl.num (A := A))).Nodup := hnd.map (fun a b h => by simpa using h)
  rw [Finset.filter_true_of_mem, List.toFinset_card_of_nodup hnd', List.length_map, hlen]
  intro v hv
  rw [List.mem_toFinset] at hv
  refine ⟨?_, ?_⟩
  · obtain ⟨a, _, rfl⟩ := List.mem_map.mp hv
    simp
  · rw [List.length_map, Nat.div_eq_of_lt (by omega)]
    have := List.count_pos_iff.mpr hv
    omega

theorem C08_refuted : ¬ C08_full := by
  intro h
  obtain ⟨c, hc⟩ := h Int 1000 3 [[1, 2].map Fl.num] (by unfold Fits; decide) (by decide)
  rw [C08_distinct_values_crash 1000 3 [1, 2] (by decide) (by decide) (by decide)] at hc
  cases hc

/-! ## C09 -/

/-- C57 (minima): the minimum reported for an occupied bucket is the smallest value in it, and every
limit but the last is a value fed. -/
def C57_minima_full : Prop :=
  ∀ (A : Type) [LinearOrder A] (fmax : A) (nb : Nat) (blocks : List (List (Fl A))) (c : BktCol A),
    Fits nb blocks → BktCol.build fmax nb blocks = ok c →
    (∀ i v, blocks.flatten[i]? = some (.num v) → ∃ lo k j, c.ints.code i = ok k ∧ c.bucketMin k = ok (.num lo) ∧
      blocks.flatten[j]? = some (.num lo) ∧ c.ints.code j = ok k ∧
      ∀ j' w, blocks.flatten[j']? = some (.num w) → c.ints.code j' = ok k → lo ≤ w) ∧
    (∀ k, 1 ≤ k → k + 1 < c.maxInt → ∃ a, c.bucketMax k = ok (.num a) ∧ Fl.num a ∈ blocks.flatten)

/-- **C09 (minima).** The minimum reported for a bucket holding a finite number (or any number, in a column of at most
`100 * nb` rows) is the smallest value in that bucket. -/
theorem C09_minima_tight {fmax : A} {nb : Nat} {blocks : List (List (Fl A))} {c : BktCol A}
    (hf : Fits nb blocks) (hok : BktCol.build fmax nb blocks = ok c) {i : Nat} {v : A}
    (hi : blocks.flatten[i]? = some (.num v)) (hv : v ≤ fmax ∨ blocks.flatten.length ≤ 100 * nb) :
    ∃ lo k j, c.ints.code i = ok k ∧ c.bucketMin k = ok (.num lo) ∧
      blocks.flatten[j]? = some (.num lo) ∧ c.ints.code j = ok k ∧
      ∀ j' w, blocks.flatten[j']? = some (.num w) → c.ints.code j' = ok k → lo ≤ w := by
  obtain ⟨lo0, hi0, g1, g2, g3, g4⟩ := C04_row_in_bucket hf hok hi hv
  obtain ⟨buf, rest, M, e, hr, _, _, r⟩ := build_ok hf.1 hf.2 hok
  obtain ⟨k, m, hk, h1, h2, h3, h4, h5, h6, h7, h8⟩ := r.row hi
  rw [h1] at g2
  simp only [Outcome.ok.injEq, Fl.num.injEq] at g2
  subst g2
  have hmin : c.bucketMin (codeOf M (.num v)) = ok (.num m) := by
    unfold BktCol.rowMin at h2
    rw [r.code hi, ok_bind] at h2
    exact h2
  have hall : ∀ j' w, blocks.flatten[j']? = some (.num w) → c.ints.code j' = ok (codeOf M (.num v)) → m ≤ w := by
    intro j' w hj' hc
    rw [r.code hj'] at hc
    exact h7 w (List.mem_of_getElem? hj') (by simpa using hc)
  have hmem : Fl.num m ∈ blocks.flatten ∧ codeOf M (.num m) = codeOf M (.num v) := by
    rcases h8 with h8 | h8
    · subst h8
      have hmv : m = v := le_antisymm h4 g4
      subst hmv
      exact ⟨List.mem_of_getElem? hi, rfl⟩
    · exact h8
  obtain ⟨j, hj⟩ := List.mem_iff_getElem?.mp hmem.1
  exact ⟨m, _, j, r.code hi, hmin, hj, by rw [r.code hj, hmem.2], hall⟩

/-- **C09 (limits).** Every limit except the missing bucket's and the overflow bucket's is a value fed. -/
theorem C09_limits_are_data {fmax : A} {nb : Nat} {blocks : List (List (Fl A))} {c : BktCol A}
    (hf : Fits nb blocks) (hok : BktCol.build fmax nb blocks = ok c) (k : Nat) (h1 : 1 ≤ k) (h2 : k + 1 < c.maxInt) :
    ∃ a, c.bucketMax k = ok (.num a) ∧ Fl.num a ∈ blocks.flatten := by
  obtain ⟨buf, rest, M, e, hr, _, _, r⟩ := build_ok hf.1 hf.2 hok
  rw [r.maxInt] at h2
  obtain ⟨t, rfl⟩ : ∃ t, k = t + 1 := ⟨k - 1, by omega⟩
  have ht : t < (limitsOf nb buf).length := by omega
  refine ⟨(limitsOf nb buf)[t], (r.bucket ?_).1, ?_⟩
  · rw [List.getElem?_append_left ht, List.getElem?_eq_getElem ht]
  · rw [e]
    exact List.mem_append_left _ (limitsOf_mem (List.getElem_mem ht))

example : (BktCol.build (1000 : Int) 3 sampleFloats >>= fun c => c.bucketMin 2) = ok (.num 7) ∧
    (BktCol.build (1000 : Int) 3 sampleFloats >>= fun c => c.bucketMax 2) = ok (.num 9) ∧
    (BktCol.build (1000 : Int) 3 sampleFloats >>= fun c => ok c.maxInt) = ok 4 := by decide +kernel

/-- **C57 is false** (minima): the only row of the overflow bucket is `+inf`, the reported minimum `FLT_MAX`. -/
theorem C57_minima_refuted : ¬ C57_minima_full := by
  intro h
  have e1 : (BktCol.build (2 : Fin 4) 1 lateInf >>= fun c => c.ints.code 101) = ok 2 := by decide +kernel
  have e2 : (BktCol.build (2 : Fin 4) 1 lateInf >>= fun c => c.bucketMin 2) = ok (.num 2) := by decide +kernel
  obtain ⟨c, h1, h2⟩ := bind_eq_ok.mp e1
  rw [h1, ok_bind] at e2
  obtain ⟨lo, k, j, h3, h4, h5, _⟩ := (h (Fin 4) 2 1 lateInf c (by unfold Fits; decide) h1).1 101 3 (by decide)
  rw [h2] at h3
  cases h3
  rw [e2] at h4
  simp only [Outcome.ok.injEq, Fl.num.injEq] at h4
  subst h4
  have := List.mem_of_getElem? h5
  exact absurd this (by decide)

/-- **C57 for columns of at most `100 * nb` rows**: rows holding `+inf` lie inside their bucket and the minimum of
their bucket is its smallest value; with fewer than `2 * nb` rows minimum and maximum are `+inf` itself.
Missing: the order of the codes, which is false even then (`C57_order_refuted`), and longer columns. -/
theorem C57_small_column_partial {fmax : A} {nb : Nat} {blocks : List (List (Fl A))} {c : BktCol A}
    (hf : Fits nb blocks) (hok : BktCol.build fmax nb blocks = ok c) (hn : blocks.flatten.length ≤ 100 * nb)
    {i : Nat} {v : A} (hi : blocks.flatten[i]? = some (.num v)) :
    (∃ lo hi, c.rowMin i = ok (.num lo) ∧ c.rowMax i = ok (.num hi) ∧ lo ≤ v ∧ v ≤ hi) ∧
    (∃ lo k j, c.ints.code i = ok k ∧ c.bucketMin k = ok (.num lo) ∧
      blocks.flatten[j]? = some (.num lo) ∧ c.ints.code j = ok k ∧
      ∀ j' w, blocks.flatten[j']? = some (.num w) → c.ints.code j' = ok k → lo ≤ w) ∧
    (blocks.flatten.length < 2 * nb → c.rowMin i = ok (.num v) ∧ c.rowMax i = ok (.num v)) :=
  ⟨C04_row_in_bucket hf hok hi (.inr hn), C09_minima_tight hf hok hi (.inr hn),
    fun h => C07_few_values_exact hf hok h hi⟩

/-- The column of `C57_order_refuted` has few enough rows; its row holding `+inf` is in a bucket from 4 to 4. -/
example : earlyInf.flatten.length ≤ 100 * 3 ∧ Fits 3 earlyInf ∧ earlyInf.flatten[5]? = some (.num 4) ∧
    (BktCol.build (3 : Fin 5) 3 earlyInf >>= fun c => c.rowMax 5) = ok (.num 4) := by
  refine ⟨by decide, by unfold Fits; decide, by decide, by decide +kernel⟩

/-! ## C10 -/

/-- A call made on a column after it was finalized. -/
inductive BktCall (A : Type) where
  | add (b : List (Fl A))
  | finalize

/-- Making the call. -/
def BktCall.run (fmax : A) (c : BktCol A) : BktCall A → Outcome (BktCol A)
  | .add b => c.add fmax b
  | .finalize => c.finalize fmax

/-- Making calls one after the other. -/
def BktCall.runAll (fmax : A) : BktCol A → List (BktCall A) → Outcome (BktCol A)
  | c, [] => .ok c
  | c, x :: xs => x.run fmax c >>= fun c1 => BktCall.runAll fmax c1 xs

/-- **C10.**  After finalization every non-empty sequence of further `Add`s and `Finalize`s
ends with `FAILED_PRECONDITION`, and rows, codes and limits are those before.  (For string and raw columns see
C58.) -/
theorem C10_bucketized_frozen {fmax : A} {nb : Nat} {blocks : List (List (Fl A))} {c : BktCol A}
    (hf : Fits nb blocks) (hok : BktCol.build fmax nb blocks = ok c) (x : BktCall A) (xs : List (BktCall A)) :
    ∃ c', BktCall.runAll fmax c (x :: xs) = ok c' ∧ c'.status = .failedPrecondition ∧
      c'.size = c.size ∧ c'.maxInt = c.maxInt ∧ ∀ i, c'.ints.code i = c.ints.code i ∧ c'.rowMin i = c.rowMin i ∧
        c'.rowMax i = c.rowMax i := by
  obtain ⟨buf, rest, M, e, hr, _, _, r⟩ := build_ok hf.1 hf.2 hok
  have step : x.run fmax c = ok { c with status := .failedPrecondition } := by
    cases x with
    | add b => simp [BktCall.run, BktCol.add, r.status, r.fin]
    | finalize => simp [BktCall.run, BktCol.finalize, r.status, r.fin]
  have stay : ∀ ys, BktCall.runAll fmax { c with status := .failedPrecondition } ys =
      ok { c with status := .failedPrecondition } := by
    intro ys
    induction ys with
    | nil => rfl
    | cons y ys ih =>
      unfold BktCall.runAll
      have : y.run fmax { c with status := .failedPrecondition } = ok { c with status := .failedPrecondition } := by
        cases y with
        | add b => simp [BktCall.run, BktCol.add]
        | finalize => simp [BktCall.run, BktCol.finalize]
      rw [this, ok_bind, ih]
  refine ⟨{ c with status := .failedPrecondition }, ?_, rfl, rfl, rfl, fun i => ⟨rfl, rfl, rfl⟩⟩
  unfold BktCall.runAll
  rw [step, ok_bind, stay]

example : (BktCol.build (1000 : Int) 3 sampleFloats >>= fun c => BktCall.runAll 1000 c [.add [.num 3], .finalize] >>=
    fun c => c.size) = ok 8 := by decide +kernel

/-! ## C58 -/

/-- **C58 for a second `Finalize` of a string column**: it reports `FAILED_PRECONDITION` and changes nothing else.
Missing: `Add` after `Finalize`, which is not refused, and raw columns. -/
theorem C58_string_refinalize_partial (blocks : List (List String)) :
    (StrCol.build blocks).finalize = { StrCol.build blocks with status := .failedPrecondition } := by
  have key : ∀ c : StrCol, c.status = .ok → c.ints.finalized = false →
      c.finalize.finalize = { c.finalize with status := .failedPrecondition } := by
    intro c h1 h2
    have h3 : c.finalize.status = .ok ∧ c.finalize.ints.finalized = true := by
      unfold StrCol.finalize
      simp only [h1, h2, ne_eq, not_true_eq_false, if_false, Bool.false_eq_true]
      exact ⟨trivial, rfl⟩
    generalize c.finalize = d at h3
    unfold StrCol.finalize
    rw [if_neg (by simp [h3.1]), if_pos h3.2]
  have one : ∀ (l : List String) (c : StrCol), c.status = .ok → c.ints.finalized = false →
      (l.foldl StrCol.addOne c).status = .ok ∧ (l.foldl StrCol.addOne c).ints.finalized = false := by
    intro l
    induction l with
    | nil => intro c h1 h2; exact ⟨h1, h2⟩
    | cons s l ih =>
      intro c h1 h2
      refine ih _ ?_ ?_ <;> unfold StrCol.addOne <;> split <;> assumption
  have all : ∀ (bs : List (List String)) (c : StrCol), c.status = .ok → c.ints.finalized = false →
      (bs.foldl StrCol.add c).status = .ok ∧ (bs.foldl StrCol.add c).ints.finalized = false := by
    intro bs
    induction bs with
    | nil => intro c h1 h2; exact ⟨h1, h2⟩
    | cons b bs ih =>
      intro c h1 h2
      have h3 : c.add b = b.foldl StrCol.addOne c := by unfold StrCol.add; rw [if_neg (by simp [h1])]
      simp only [List.foldl_cons, h3]
      exact ih _ (one b c h1 h2).1 (one b c h1 h2).2
  exact key _ (all blocks StrCol.new rfl rfl).1 (all blocks StrCol.new rfl rfl).2

example : (StrCol.build sampleBlocks).finalize.status = .failedPrecondition ∧
    (StrCol.build sampleBlocks).finalize.rowString 1 = ok "a" := by decide

/-- C58: after `Finalize` a string or raw float column refuses every `Add` and every `Finalize`, and keeps its rows. -/
def C58_full : Prop :=
  (∀ (blocks : List (List String)) (b : List String),
    let c := StrCol.build blocks
    (c.add b).status = .failedPrecondition ∧ c.finalize.status = .failedPrecondition ∧
      (∀ i, (c.add b).rowString i = c.rowString i) ∧ ∀ i, c.finalize.rowString i = c.rowString i) ∧
  ∀ (A : Type) (c : RawCol A) (b : List (Fl A)), c.status = .ok →
    (c.finalize.add b).status = .failedPrecondition ∧ c.finalize.finalize.status = .failedPrecondition ∧
      (c.finalize.add b).raw = c.raw ∧ c.finalize.finalize.raw = c.raw

/-- **C58 is false for string columns**: an `Add` after `Finalize` is accepted (status OK); on an empty column the
new row becomes visible, on a non-empty one it is dropped although a category is registered. -/
theorem C58_string_refuted :
    ((StrCol.build []).add ["x"]).status = .ok ∧ (StrCol.build []).size = ok 0 ∧
    ((StrCol.build []).add ["x"]).size = ok 1 ∧
    ((StrCol.build [["a"]]).add ["x"]).status = .ok ∧ ((StrCol.build [["a"]]).add ["x"]).size = ok 1 ∧
    (StrCol.build [["a"]]).maxInt = 2 ∧ ((StrCol.build [["a"]]).add ["x"]).maxInt = 3 := by decide +kernel

/-- **C58 is false for raw float columns**: `Add` after `Finalize` always appends. -/
theorem C58_raw_refuted (c : RawCol A) (h : c.status = .ok) (b : List (Fl A)) :
    (c.finalize.add b).status = .ok ∧ (c.finalize.add b).raw = c.raw ++ b := by
  simp [RawCol.finalize, RawCol.add, h]

/-- **C58 is false.** -/
theorem C58_refuted : ¬ C58_full := by
  intro h
  have h1 := (h.1 [] ["x"]).1
  rw [C58_string_refuted.1] at h1
  exact absurd h1 (by decide)

end Gbdt
