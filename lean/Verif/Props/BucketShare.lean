import Verif.Lemmas.BucketShare
import Verif.Props.BucketColumn

/-!
# C149 - C151: how evenly rows are spread over buckets

The tutorial promises "equal frequency binning".  Specification: a column of `n` values made for `nb` buckets should have about `n / nb` rows in each
bucket; a value that is at least that frequent cannot be divided.
-/

set_option linter.unusedSectionVars false
set_option autoImplicit false

namespace Gbdt

open Outcome

variable {A : Type} [LinearOrder A]

/-- A number that is as frequent as the average bucket. -/
def FrequentValue (nb : Nat) (vals : List (Fl A)) (x : Fl A) : Prop := x ≠ .nan ∧ max 1 (vals.length / nb) ≤ vals.count x

instance (nb : Nat) (vals : List (Fl A)) (x : Fl A) : Decidable (FrequentValue nb vals x) := by
  unfold FrequentValue
  infer_instance

/-- How many such numbers there are. -/
def frequentCount (nb : Nat) (vals : List (Fl A)) : Nat := (vals.toFinset.filter (FrequentValue nb vals)).card

/-- The rows of other values, missing ones included, evenly divided among the other buckets. -/
def binShare (nb : Nat) (vals : List (Fl A)) : Nat :=
  if frequentCount nb vals + 1 < nb then
    max 1 (vals.countP (fun x => !decide (FrequentValue nb vals x)) / (nb - 1 - frequentCount nb vals))
  else 1

/-- The number of rows in bucket `k` with numbers that are not frequent. -/
def infrequentRows (nb : Nat) (vals : List (Fl A)) (c : BktCol A) (k : Nat) : Nat :=
  (List.range vals.length).countP (fun i => decide (c.ints.code i = ok k) &&
    (vals[i]?).any (fun x => decide (x ≠ .nan) && !decide (FrequentValue nb vals x)))

theorem holds_frequent (nb : Nat) (vals : List (Fl A)) (x : Fl A) :
    Fl.holds (fun a => decide (capOf vals.length nb ≤ vals.count (.num a))) x = decide (FrequentValue nb vals x) := by
  cases x with
  | nan => simp [Fl.holds, FrequentValue]
  | num a => simp [Fl.holds, FrequentValue, capOf]

theorem heavyCount_frequent (nb : Nat) (vals : List (Fl A)) : heavyCount nb vals = frequentCount nb vals := by
  rw [heavyCount_eq]
  rfl

/-- **C149.** In a column of at most `100 * nb` rows of finite numbers and missing values, the rows of a bucket that do not hold a frequent number are
fewer than the even share of a bucket plus the average. -/
theorem C149_share {fmax : A} {nb : Nat} {blocks : List (List (Fl A))} {c : BktCol A} (hf : Fits nb blocks)
    (hok : BktCol.build fmax nb blocks = ok c) (hn : blocks.flatten.length ≤ 100 * nb)
    (hfin : ∀ v, Fl.num v ∈ blocks.flatten → v ≤ fmax) (k : Nat) :
    infrequentRows nb blocks.flatten c k < binShare nb blocks.flatten + max 1 (blocks.flatten.length / nb) := by
  obtain ⟨buf, rest, M, e, hr, _, hh, r⟩ := build_ok hf.1 hf.2 hok
  have hb : buf = blocks.flatten := by rw [e, hr hn, List.append_nil]
  rw [hb] at hh r
  have h32 : blocks.flatten.length < 4294967296 := by have := hf.1; omega
  generalize blocks.flatten = vals at *
  have hlight := bucket_light r.bkts hfin k
  rw [lcapOf_eq h32 hf.2 hh, heavyCount_frequent] at hlight
  have hshare : (if frequentCount nb vals + 1 < nb then
      max 1 (vals.countP (fun x => !Fl.holds (fun a => decide (capOf vals.length nb ≤ vals.count (.num a))) x) / (nb - 1 - frequentCount nb vals))
      else 1) = binShare nb vals := by
    simp only [holds_frequent]
    rfl
  rw [hshare] at hlight
  refine lt_of_le_of_lt (le_of_eq ?_) hlight
  rw [← countP_index, infrequentRows]
  refine List.countP_congr (fun i hi => ?_)
  have hi : i < vals.length := by simpa using hi
  rw [r.code (List.getElem?_eq_getElem hi), List.getElem?_eq_getElem hi]
  simp only [Option.any_some]
  cases hx : vals[i] with
  | nan => simp [Fl.holds]
  | num a =>
    have := holds_frequent nb vals (.num a)
    simp only [Fl.holds] at this
    simp [Fl.holds, this]

/-- A column with a frequent value, 3, between values that are not. -/
def mixedFloats : List (Fl Int) := [.num 1, .num 3, .num 2, .num 3, .nan, .num 9, .num 8, .num 7, .num 3, .num 5, .num 4]

example : Fits 4 [mixedFloats] ∧ [mixedFloats].flatten.length ≤ 100 * 4 ∧ (∀ v, Fl.num v ∈ [mixedFloats].flatten → v ≤ (1000 : Int)) ∧
    (match BktCol.build (1000 : Int) 4 [mixedFloats] with
      | .ok c => decide (infrequentRows 4 mixedFloats c 1 = 2 ∧ infrequentRows 4 mixedFloats c 3 = 3)
      | _ => false) = true ∧ binShare 4 mixedFloats = 4 := by
  refine ⟨by unfold Fits; decide, by decide, ?_, by decide +kernel, by decide +kernel⟩
  intro v hv
  have : ∀ x ∈ mixedFloats, ∀ v ∈ (match x with | .nan => none | .num v => some v), v ≤ (1000 : Int) := by decide
  exact this (.num v) (by simpa using hv) v rfl

/-! ## C150 -/

/-- **C150, the part that holds.** A frequent number is the maximum of its bucket, so different frequent numbers are in different buckets.
That there are no other values in it is missing. -/
theorem C150_top_partial {fmax : A} {nb : Nat} {blocks : List (List (Fl A))} {c : BktCol A} (hf : Fits nb blocks)
    (hok : BktCol.build fmax nb blocks = ok c) (hn : blocks.flatten.length ≤ 100 * nb) {i : Nat} {v : A}
    (hi : blocks.flatten[i]? = some (.num v)) (hv : FrequentValue nb blocks.flatten (.num v)) : c.rowMax i = ok (.num v) := by
  obtain ⟨buf, rest, M, e, hr, _, hh, r⟩ := build_ok hf.1 hf.2 hok
  have hb : buf = blocks.flatten := by rw [e, hr hn, List.append_nil]
  rw [hb] at hh r
  obtain ⟨k, m, _, h1, _, _, _, _, h6, _⟩ := r.row hi
  have hS : v ∈ limitsOf nb blocks.flatten := by
    refine (limits_perm _ _ _).mem_iff.mpr (List.mem_append_left _ ?_)
    refine List.mem_map.mpr ⟨(v, blocks.flatten.count (.num v)), List.mem_filter.mpr ⟨?_, ?_⟩, rfl⟩
    · exact (mem_histogram _ _ _).mpr ⟨rfl, List.count_pos_iff.mpr (List.mem_of_getElem? hi)⟩
    · simpa [capOf, FrequentValue] using hv
  rw [h1, h6 hS]

example : [mixedFloats].flatten[1]? = some (.num 3) ∧ FrequentValue 4 [mixedFloats].flatten (.num 3) ∧ Fits 4 [mixedFloats] ∧
    (BktCol.build (1000 : Int) 4 [mixedFloats] >>= fun c => c.rowMax 1) = ok (.num 3) := by
  refine ⟨by decide, by decide, by unfold Fits; decide, by decide +kernel⟩

/-- C150, the full statement: a number that is as frequent as the average bucket has a bucket of its own (the comment at `column.cc:277`). -/
def C150_full : Prop :=
  ∀ (A : Type) [LinearOrder A] (fmax : A) (nb : Nat) (blocks : List (List (Fl A))) (c : BktCol A),
    Fits nb blocks → BktCol.build fmax nb blocks = ok c → blocks.flatten.length ≤ 100 * nb →
    ∀ (i j : Nat) (v : A) (x : Fl A), blocks.flatten[i]? = some (.num v) → FrequentValue nb blocks.flatten (.num v) →
      blocks.flatten[j]? = some x → c.ints.code j = c.ints.code i → x = .num v

/-- What holds of the result holds of the column. -/
theorem built_of {nb : Nat} {vals : List (Fl Int)} {p : BktCol Int → Bool}
    (h : (match BktCol.build (1000 : Int) nb [vals] with
      | .ok c => p c
      | _ => false) = true) : ∃ c, BktCol.build (1000 : Int) nb [vals] = ok c ∧ p c = true := by
  cases hc : BktCol.build (1000 : Int) nb [vals] with
  | ok c =>
    rw [hc] at h
    exact ⟨c, rfl, h⟩
  | ub => rw [hc] at h; cases h
  | fatal => rw [hc] at h; cases h

/-- C150 is false: 1 and 2 are in the bucket of 3, which three of eleven rows hold. -/
theorem C150_refuted : ¬ C150_full := by
  intro h
  obtain ⟨c, hc, hp⟩ := built_of (nb := 4) (vals := mixedFloats) (p := fun c => decide (c.ints.code 0 = c.ints.code 1)) (by decide +kernel)
  have := h Int 1000 4 [mixedFloats] c (by unfold Fits; decide) hc (by decide) 1 0 3 (.num 1) (by decide) (by decide) (by decide)
    (of_decide_eq_true hp)
  revert this
  decide

/-! ## C151 -/

/-- **C151, the part that holds.** If fewer than half of the buckets are taken by frequent numbers, the rows of a bucket that do not hold a frequent
number are fewer than three times the average (one, if there are fewer rows than buckets).  The case of more frequent numbers is missing. -/
theorem C151_even_partial {fmax : A} {nb : Nat} {blocks : List (List (Fl A))} {c : BktCol A} (hf : Fits nb blocks)
    (hok : BktCol.build fmax nb blocks = ok c) (hn : blocks.flatten.length ≤ 100 * nb)
    (hfin : ∀ v, Fl.num v ∈ blocks.flatten → v ≤ fmax) (hfr : 2 * frequentCount nb blocks.flatten + 2 ≤ nb) (k : Nat) :
    infrequentRows nb blocks.flatten c k < max 1 (2 * blocks.flatten.length / nb) + max 1 (blocks.flatten.length / nb) := by
  refine lt_of_lt_of_le (C149_share hf hok hn hfin k) (Nat.add_le_add_right ?_ _)
  unfold binShare
  rw [if_pos (by omega)]
  refine max_le_max (le_refl _) ?_
  have h1 := List.countP_le_length (p := fun x => !decide (FrequentValue nb blocks.flatten x)) (l := blocks.flatten)
  generalize blocks.flatten.countP (fun x => !decide (FrequentValue nb blocks.flatten x)) = N at *
  generalize frequentCount nb blocks.flatten = H at *
  generalize blocks.flatten.length = n at *
  rw [Nat.le_div_iff_mul_le (by omega)]
  have h2 : N / (nb - 1 - H) * (nb - 1 - H) ≤ N := Nat.div_mul_le_self _ _
  have h3 : N / (nb - 1 - H) * nb ≤ N / (nb - 1 - H) * (2 * (nb - 1 - H)) := Nat.mul_le_mul_left _ (by omega)
  have h4 : N / (nb - 1 - H) * (2 * (nb - 1 - H)) = 2 * (N / (nb - 1 - H) * (nb - 1 - H)) := by ring
  omega

example : 2 * frequentCount 4 [mixedFloats].flatten + 2 ≤ 4 := by decide +kernel

/-- C151, the full statement: no bucket has more than three times the average number of rows (rounded up) with infrequent numbers. -/
def C151_full : Prop :=
  ∀ (A : Type) [LinearOrder A] (fmax : A) (nb : Nat) (blocks : List (List (Fl A))) (c : BktCol A),
    Fits nb blocks → BktCol.build fmax nb blocks = ok c → blocks.flatten.length ≤ 100 * nb →
    (∀ v, Fl.num v ∈ blocks.flatten → v ≤ fmax) → ∀ k, infrequentRows nb blocks.flatten c k ≤ 3 * (blocks.flatten.length / nb + 1)

/-- Six values that are there twice and eleven that are there once. -/
def crowdedFloats : List (Fl Int) := [0, 0, 1, 1, 2, 2, 3, 3, 4, 4, 5, 5, 10, 11, 12, 13, 14, 15, 16, 17, 18, 19, 20].map Fl.num

/-- C151 is false: the frequent values take six of eight buckets, and all eleven other values are in one, though the average is less than three. -/
theorem C151_refuted : ¬ C151_full := by
  intro h
  obtain ⟨c, hc, hp⟩ := built_of (nb := 8) (vals := crowdedFloats) (p := fun c => decide (infrequentRows 8 crowdedFloats c 7 = 11)) (by decide +kernel)
  have := h Int 1000 8 [crowdedFloats] c (by unfold Fits; decide) hc (by decide) (by
    intro v hv
    have hm : Fl.num v ∈ crowdedFloats := by simpa using hv
    unfold crowdedFloats at hm
    obtain ⟨w, hw, he⟩ := List.mem_map.mp hm
    cases he
    revert hw
    generalize v = w
    intro hw
    have : ∀ w ∈ ([0, 0, 1, 1, 2, 2, 3, 3, 4, 4, 5, 5, 10, 11, 12, 13, 14, 15, 16, 17, 18, 19, 20] : List Int), w ≤ 1000 := by decide
    exact this w hw) 7
  rw [show [crowdedFloats].flatten = crowdedFloats by simp, of_decide_eq_true hp] at this
  revert this
  decide

end Gbdt
