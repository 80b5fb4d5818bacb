import Verif.Base
import Verif.Model.Subsampling
import Mathlib.Data.Rat.Floor
import Mathlib.Algebra.BigOperators.Group.List.Basic

/-!
# C21, C22: dividing and subsampling
-/

set_option autoImplicit false

namespace Gbdt

open Outcome

theorem groupSizes_pos (n : Nat) {k : Nat} (hk : 0 < k) :
    groupSizes n k = ok (List.replicate (n % k) (n / k + 1) ++ List.replicate (k - n % k) (n / k)) := by
  have h0 : ¬ ((k : Int) ≤ 0) := by omega
  have hlt := Nat.mod_lt n hk
  unfold groupSizes
  rw [if_neg h0]
  simp only [Int.toNat_natCast]
  congr 1
  apply List.ext_getElem
  · simp; omega
  · intro i h1 h2
    simp only [List.getElem_mapIdx, List.getElem_replicate, List.getElem_append, List.length_replicate]
    split <;> rfl

theorem sum_groupSizes (n : Nat) {k : Nat} (hk : 0 < k) :
    (List.replicate (n % k) (n / k + 1) ++ List.replicate (k - n % k) (n / k)).sum = n := by
  have hlt := Nat.mod_lt n hk
  rw [List.sum_append, List.sum_replicate_nat, List.sum_replicate_nat]
  have h1 := Nat.div_add_mod n k
  have h2 : (k - n % k) * (n / k) + (n % k) * (n / k) = k * (n / k) := by
    rw [← Nat.add_mul]
    congr 1
    omega
  rw [Nat.mul_add]
  omega

theorem cutFrom_flatten {α : Type} (l : List α) (sizes : List Nat) (h : sizes.sum = l.length) :
    (cutFrom l sizes).flatten = l := by
  induction sizes generalizing l with
  | nil =>
    rw [List.sum_nil] at h
    rw [List.length_eq_zero_iff.mp h.symm]
    rfl
  | cons a sizes ih =>
    rw [List.sum_cons] at h
    rw [cutFrom, List.flatten_cons, ih, List.take_append_drop]
    rw [List.length_drop]
    omega

theorem cutFrom_lengths {α : Type} (l : List α) (sizes : List Nat) (h : sizes.sum = l.length) :
    (cutFrom l sizes).map List.length = sizes := by
  induction sizes generalizing l with
  | nil => rfl
  | cons a sizes ih =>
    rw [List.sum_cons] at h
    rw [cutFrom, List.map_cons, ih, List.length_take]
    · congr 1
      omega
    · rw [List.length_drop]
      omega

/-- **C21.** Dividing into `k ≥ 1` groups gives `k` groups in order, which put together are the samples, the first ones
of size `n / k + 1` (as many as the remainder), the others of size `n / k`. -/
theorem C21_divide_samples {α : Type} (samples : List α) (k : Nat) (hk : 0 < k) :
    ∃ groups, divideSamples samples k = ok groups ∧ groups.length = k ∧ groups.flatten = samples ∧
      (∀ i g, groups[i]? = some g →
        g.length = samples.length / k + if i < samples.length % k then 1 else 0) := by
  refine ⟨_, by rw [divideSamples, groupSizes_pos _ hk, ok_bind, pure_eq], ?_, ?_, ?_⟩
  · rw [← List.length_map (f := List.length), cutFrom_lengths _ _ (sum_groupSizes _ hk)]
    have := Nat.mod_lt samples.length hk
    simp
    omega
  · exact cutFrom_flatten _ _ (sum_groupSizes _ hk)
  · intro i g hg
    have h1 := cutFrom_lengths samples _ (sum_groupSizes samples.length hk)
    have h2 := congrArg (fun l => l[i]?) h1
    simp only [List.getElem?_map, hg, Option.map_some] at h2
    by_cases hi : i < samples.length % k
    · rw [List.getElem?_append_left (by simpa using hi)] at h2
      simp only [List.getElem?_replicate, hi, if_true, Option.some.injEq] at h2
      simp [hi, h2]
    · rw [List.getElem?_append_right (by simpa using hi)] at h2
      simp only [List.getElem?_replicate, List.length_replicate] at h2
      split at h2
      · simp only [Option.some.injEq] at h2
        simp [hi, h2]
      · cases h2

/-- **C21.** So two groups differ in size by at most one. -/
theorem C21_even {α : Type} (samples : List α) (k : Nat) (hk : 0 < k) (groups : List (List α))
    (h : divideSamples samples k = ok groups) (a b : List α) (ha : a ∈ groups) (hb : b ∈ groups) :
    a.length ≤ b.length + 1 := by
  obtain ⟨gs, h1, -, -, h4⟩ := C21_divide_samples samples k hk
  rw [h] at h1
  cases h1
  obtain ⟨i, hi⟩ := List.getElem?_of_mem ha
  obtain ⟨j, hj⟩ := List.getElem?_of_mem hb
  rw [h4 i a hi, h4 j b hj]
  split <;> split <;> omega

/-- Intervals that follow one another from `s` to `e`. -/
def Consecutive : Nat → Nat → List (Nat × Nat) → Prop
  | s, e, [] => s = e
  | s, e, (a, b) :: l => a = s ∧ a ≤ b ∧ Consecutive b e l

theorem slicesFrom_consecutive (start : Nat) (sizes : List Nat) :
    Consecutive start (start + sizes.sum) (slicesFrom start sizes) := by
  induction sizes generalizing start with
  | nil => simp [slicesFrom, Consecutive]
  | cons a sizes ih =>
    refine ⟨rfl, by omega, ?_⟩
    rw [List.sum_cons, ← Nat.add_assoc]
    exact ih (start + a)

theorem slicesFrom_widths (start : Nat) (sizes : List Nat) :
    (slicesFrom start sizes).map (fun p => p.2 - p.1) = sizes := by
  induction sizes generalizing start with
  | nil => rfl
  | cons a sizes ih =>
    rw [slicesFrom, List.map_cons, ih]
    simp

/-- **C21.** The index version: `k` consecutive intervals from 0 to `n`, whose widths differ by at most one. -/
theorem C21_divide_range (n k : Nat) (hk : 0 < k) :
    ∃ slices, divideRange n k = ok slices ∧ slices.length = k ∧ Consecutive 0 n slices ∧
      (∀ p ∈ slices, p.2 - p.1 = n / k ∨ p.2 - p.1 = n / k + 1) := by
  refine ⟨_, by rw [divideRange, groupSizes_pos _ hk, ok_bind, pure_eq], ?_, ?_, ?_⟩
  · rw [← List.length_map (f := fun p : Nat × Nat => p.2 - p.1), slicesFrom_widths]
    have := Nat.mod_lt n hk
    simp
    omega
  · have := slicesFrom_consecutive 0 (List.replicate (n % k) (n / k + 1) ++ List.replicate (k - n % k) (n / k))
    rw [sum_groupSizes _ hk, Nat.zero_add] at this
    exact this
  · intro p hp
    have : p.2 - p.1 ∈ (slicesFrom 0 (List.replicate (n % k) (n / k + 1) ++ List.replicate (k - n % k) (n / k))).map
        (fun p => p.2 - p.1) := List.mem_map_of_mem (f := fun p : Nat × Nat => p.2 - p.1) hp
    rw [slicesFrom_widths, List.mem_append, List.mem_replicate, List.mem_replicate] at this
    omega

/-- **C21.** Dividing into no group, or a negative number of groups, is undefined behaviour (reached with
`num_threads ≤ 0`, which nothing rejects). -/
theorem C21_no_groups {α : Type} (samples : List α) (n : Nat) (k : Int) (hk : k ≤ 0) :
    divideSamples samples k = ub ∧ divideRange n k = ub := by
  constructor
  · simp [divideSamples, groupSizes, hk]
  · simp [divideRange, groupSizes, hk]

example : divideSamples [10, 11, 12, 13, 14, 15, 16] 3 = ok [[10, 11, 12], [13, 14], [15, 16]] := by decide +kernel

example : divideRange 2 4 = ok [(0, 1), (1, 2), (2, 2), (2, 2)] := by decide +kernel

/-! ## C22 -/

variable {D : Type} [Dbl D]

theorem subsampleLoop_eq (draw : Nat → D) (rate : D) (fuel i p : Nat) (acc : List Nat) :
    subsampleLoop draw rate fuel i p acc =
      (acc ++ (List.range' i fuel).filter (fun j => Dbl.ltb (draw (p + (j - i))) rate), p + fuel) := by
  induction fuel generalizing i p acc with
  | zero => simp [subsampleLoop]
  | succ fuel ih =>
    rw [subsampleLoop, ih, List.range'_succ, List.filter_cons]
    have hf : (List.range' (i + 1) fuel).filter (fun j => Dbl.ltb (draw (p + 1 + (j - (i + 1)))) rate) =
        (List.range' (i + 1) fuel).filter (fun j => Dbl.ltb (draw (p + (j - i))) rate) := by
      apply List.filter_congr
      intro j hj
      have := (List.mem_range'_1.mp hj).1
      congr 2
      omega
    rw [hf]
    simp only [Nat.sub_self, Nat.add_zero]
    split
    · simp; omega
    · simp; omega

/-- **C22.** Whatever the generator yields: the sample is strictly increasing, contains exactly the indices below `n`
whose draw is below the rate, and `n` draws are used.  (`rate * n` must fit an `int`; otherwise the memory reservation is
an invalid conversion.) -/
theorem C22_subsample (toInt : D → Option Int) (ofNat : Nat → D) (draw : Nat → D) (n : Nat) (rate : D) (p : Nat) :
    (toInt (rate * ofNat n) = none → uniformSubsample toInt ofNat draw n rate p = ub) ∧
    (toInt (rate * ofNat n) ≠ none → ∃ samples, uniformSubsample toInt ofNat draw n rate p = ok (samples, p + n) ∧
      samples.Pairwise (· < ·) ∧ (∀ i, i ∈ samples ↔ i < n ∧ Dbl.ltb (draw (p + i)) rate = true)) := by
  unfold uniformSubsample
  refine ⟨fun h => by rw [h], fun h => ?_⟩
  cases hi : toInt (rate * ofNat n) with
  | none => exact absurd hi h
  | some z =>
    simp only [subsampleLoop_eq]
    refine ⟨_, rfl, ?_, ?_⟩
    · rw [List.nil_append]
      exact List.Pairwise.filter _ List.pairwise_lt_range'
    · intro i
      simp

/-- **C22.** If every draw is below the rate (draws are below 1, so any rate of 1 or more), every index is selected; if
none is (a rate of 0 or less), none is. -/
theorem C22_rate_one_zero (toInt : D → Option Int) (ofNat : Nat → D) (draw : Nat → D) (n : Nat) (rate : D) (p : Nat)
    (samples : List Nat) (q : Nat) (h : uniformSubsample toInt ofNat draw n rate p = ok (samples, q)) :
    ((∀ k, Dbl.ltb (draw k) rate = true) → samples = List.range n) ∧
    ((∀ k, Dbl.ltb (draw k) rate = false) → samples = []) := by
  unfold uniformSubsample at h
  split at h
  · cases h
  · rw [subsampleLoop_eq] at h
    cases h
    constructor
    · intro hk
      simp [hk, List.range_eq_range']
    · intro hk
      simp [hk]

/-- **C22.** With the same draws a larger rate selects a superset. -/
theorem C22_monotone [StrictLt D] (toInt : D → Option Int) (ofNat : Nat → D) (draw : Nat → D) (n : Nat) (r1 r2 : D) (p : Nat)
    (hr : Dbl.ltb r1 r2 = true) (s1 s2 : List Nat) (q1 q2 : Nat)
    (h1 : uniformSubsample toInt ofNat draw n r1 p = ok (s1, q1))
    (h2 : uniformSubsample toInt ofNat draw n r2 p = ok (s2, q2)) : s1.Sublist s2 ∧ q1 = q2 := by
  unfold uniformSubsample at h1 h2
  split at h1
  · cases h1
  · split at h2
    · cases h2
    · rw [subsampleLoop_eq] at h1 h2
      cases h1
      cases h2
      refine ⟨?_, rfl⟩
      simp only [List.nil_append]
      have : (List.range' 0 n).filter (fun j => Dbl.ltb (draw (p + (j - 0))) r1) =
          ((List.range' 0 n).filter (fun j => Dbl.ltb (draw (p + (j - 0))) r2)).filter
            (fun j => Dbl.ltb (draw (p + (j - 0))) r1) := by
        rw [List.filter_filter]
        apply List.filter_congr
        intro j _
        cases hb : Dbl.ltb (draw (p + (j - 0))) r1 with
        | false => simp
        | true => rw [StrictLt.trans _ _ _ hb hr]; rfl
      rw [this]
      exact List.filter_sublist

/-- **C22.** All samples: the indices below `n` in order. -/
theorem C22_all_samples (n : Nat) : createAllSamples n = List.range n := by
  apply List.ext_getElem <;> simp [createAllSamples]

example : uniformSubsample (D := Rat) (fun x => some x.floor) (fun n => n) (fun k => (k % 5 : Nat) / 5) 7 (1 / 2) 1 =
    ok ([0, 1, 4, 5, 6], 8) := by decide +kernel

end Gbdt
