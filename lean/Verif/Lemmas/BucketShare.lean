import Verif.Lemmas.BucketBuild
import Verif.Lemmas.BucketRows

/-! How many rows a bucket holds. -/

set_option linter.unusedSectionVars false
set_option autoImplicit false

namespace Gbdt

open Outcome

variable {A : Type} [LinearOrder A]

/-- The value is a number that satisfies `P`. -/
def Fl.holds (P : A → Bool) : Fl A → Bool
  | .nan => false
  | .num a => P a

theorem total_inc_filter (P : A → Bool) (v : A) : ∀ m : FMap A,
    FMap.total ((m.inc v).filter (fun p => P p.1)) = FMap.total (m.filter (fun p => P p.1)) + if P v then 1 else 0
  | [] => by
    by_cases h : P v = true <;> simp [FMap.inc, FMap.total, h]
  | (k, n) :: m => by
    have ih := total_inc_filter P v m
    rw [FMap.inc]
    by_cases h1 : v < k
    · rw [if_pos h1]
      by_cases h : P v = true
      · simp only [List.filter_cons_of_pos (p := fun p : A × Nat => P p.1) (a := (v, 1)) h, FMap.total, List.map_cons, List.sum_cons, h, if_true]
        omega
      · simp only [List.filter_cons_of_neg (p := fun p : A × Nat => P p.1) (a := (v, 1)) h, h]
        simp
    · rw [if_neg h1]
      by_cases h2 : k < v
      · rw [if_pos h2]
        by_cases h : P k = true
        · simp only [List.filter_cons_of_pos (p := fun p : A × Nat => P p.1) (a := (k, n)) h, FMap.total, List.map_cons, List.sum_cons] at ih ⊢
          omega
        · simp only [List.filter_cons_of_neg (p := fun p : A × Nat => P p.1) (a := (k, n)) h]
          exact ih
      · rw [if_neg h2]
        have : k = v := le_antisymm (not_lt.mp h1) (not_lt.mp h2)
        subst this
        by_cases h : P k = true
        · simp only [List.filter_cons_of_pos (p := fun p : A × Nat => P p.1) (a := (k, n)) h,
            List.filter_cons_of_pos (p := fun p : A × Nat => P p.1) (a := (k, n + 1)) h, FMap.total, List.map_cons, List.sum_cons, h, if_true]
          omega
        · simp only [List.filter_cons_of_neg (p := fun p : A × Nat => P p.1) (a := (k, n)) h,
            List.filter_cons_of_neg (p := fun p : A × Nat => P p.1) (a := (k, n + 1)) h, h]
          simp

/-- The histogram counts rows. -/
theorem histogram_countP (P : A → Bool) (raw : List (Fl A)) :
    FMap.total ((histogram raw).filter (fun p => P p.1)) = raw.countP (Fl.holds P) := by
  induction raw using List.reverseRecOn with
  | nil => rfl
  | append_singleton raw v ih =>
    rw [histogram_snoc, List.countP_append, ← ih]
    cases v with
    | nan => simp [Fl.holds]
    | num a =>
      simp only [total_inc_filter]
      by_cases h : P a = true <;> simp [Fl.holds, h]

/-- Values between which there is no limit of the uniform bins are few. -/
theorem bins_total {cap lcap : Nat} (hcap : 1 ≤ cap) (P : A → Bool) : ∀ (m : FMap A) (run : Nat) (u : Option A), FMap.Sorted m →
    (∀ p ∈ m, p.2 < cap) → run < lcap →
    (∀ x ∈ m, ∀ y ∈ m, ∀ z ∈ m, P x.1 = true → P z.1 = true → x.1 < y.1 → y.1 < z.1 → P y.1 = true) →
    (∀ x ∈ m, ∀ z ∈ m, P x.1 = true → P z.1 = true → ∀ s ∈ bins lcap m run u, ¬ (x.1 ≤ s ∧ s < z.1)) →
    FMap.total (m.filter (fun p => P p.1)) + 1 < lcap + cap + 1 ∧
      (∀ p m', m = p :: m' → P p.1 = true → run + FMap.total (m.filter (fun p => P p.1)) < lcap + cap)
  | [], run, u, _, _, hrun, _, _ => by
    refine ⟨by simp [FMap.total]; omega, fun p m' h => by cases h⟩
  | (k, n) :: m, run, u, hs, hc, hrun, hconv, hb => by
    have hs' : FMap.Sorted m := (List.pairwise_cons.mp hs).2
    have hlt : ∀ q ∈ m, k < q.1 := fun q hq => (List.pairwise_cons.mp hs).1 q hq
    have hn : n < cap := hc (k, n) (by simp)
    have hc' : ∀ p ∈ m, p.2 < cap := fun p hp => hc p (by simp [hp])
    have hconv' : ∀ x ∈ m, ∀ y ∈ m, ∀ z ∈ m, P x.1 = true → P z.1 = true → x.1 < y.1 → y.1 < z.1 → P y.1 = true :=
      fun x hx y hy z hz => hconv x (by simp [hx]) y (by simp [hy]) z (by simp [hz])
    rw [bins] at hb
    by_cases hP : P k = true
    · rw [List.filter_cons_of_pos (p := fun p : A × Nat => P p.1) (a := (k, n)) hP]
      have htot : FMap.total ((k, n) :: m.filter (fun p => P p.1)) = n + FMap.total (m.filter (fun p => P p.1)) := by simp [FMap.total]
      rw [htot]
      by_cases hfull : run + n ≥ lcap
      · rw [if_pos hfull] at hb
        have hnone : m.filter (fun p => P p.1) = [] := by
          rw [List.filter_eq_nil_iff]
          intro q hq hPq
          exact hb (k, n) (by simp) q (by simp [hq]) hP hPq k (by simp) ⟨le_refl _, hlt q hq⟩
        rw [hnone]
        simp only [FMap.total, List.map_nil, List.sum_nil]
        exact ⟨by omega, fun _ _ _ _ => by omega⟩
      · rw [if_neg hfull] at hb
        obtain ⟨h1, h2⟩ := bins_total hcap P m (run + n) (some k) hs' hc' (by omega) hconv'
          (fun x hx z hz => hb x (by simp [hx]) z (by simp [hz]))
        have hmain : run + (n + FMap.total (m.filter (fun p => P p.1))) < lcap + cap := by
          cases m with
          | nil => simp [FMap.total]; omega
          | cons q m' =>
            by_cases hPq : P q.1 = true
            · have := h2 q m' rfl hPq
              omega
            · have hnone : (q :: m').filter (fun p => P p.1) = [] := by
                rw [List.filter_eq_nil_iff]
                intro r hr hPr
                rcases List.mem_cons.mp hr with rfl | hr'
                · exact hPq hPr
                · exact hPq (hconv (k, n) (by simp) q (by simp) r (by simp [hr']) hP hPr (hlt q (by simp))
                    ((List.pairwise_cons.mp hs').1 r hr'))
              rw [hnone]
              simp only [FMap.total, List.map_nil, List.sum_nil]
              omega
        exact ⟨by omega, fun _ _ _ _ => hmain⟩
    · rw [List.filter_cons_of_neg (p := fun p : A × Nat => P p.1) (a := (k, n)) hP]
      refine ⟨?_, fun p m' he hPp => by
        simp only [List.cons.injEq] at he
        rw [← he.1] at hPp
        exact absurd hPp hP⟩
      by_cases hfull : run + n ≥ lcap
      · rw [if_pos hfull] at hb
        exact (bins_total hcap P m 0 (some k) hs' hc' (by omega) hconv'
          (fun x hx z hz hx' hz' s hsm => hb x (by simp [hx]) z (by simp [hz]) hx' hz' s (by simp [hsm]))).1
      · rw [if_neg hfull] at hb
        exact (bins_total hcap P m (run + n) (some k) hs' hc' (by omega) hconv'
          (fun x hx z hz => hb x (by simp [hx]) z (by simp [hz]))).1

/-- The rows of a bucket with infrequent values. -/
theorem bucket_light {fmax : A} {nb : Nat} {raw : List (Fl A)} {M : FMap A} (b : Bkts fmax (limitsOf nb raw) M)
    (hfin : ∀ v, Fl.num v ∈ raw → v ≤ fmax) (k : Nat) :
    raw.countP (Fl.holds (fun a => decide (codeOf M (.num a) = k) && !decide (capOf raw.length nb ≤ raw.count (.num a)))) <
      lcapOf nb raw + capOf raw.length nb := by
  obtain ⟨hs, hp, hcnt, _⟩ := histogram_spec raw
  have hmem : ∀ p ∈ histogram raw, raw.count (.num p.1) = p.2 := fun p hp' => ((mem_histogram raw p.1 p.2).mp hp').1
  have hin : ∀ p ∈ histogram raw, p.1 ≤ fmax := by
    intro p hp'
    exact hfin _ ((mem_hist_keys raw p.1).mp (List.mem_map_of_mem hp'))
  rw [← histogram_countP]
  have hfilter : (histogram raw).filter (fun p => decide (codeOf M (.num p.1) = k) && !decide (capOf raw.length nb ≤ raw.count (.num p.1))) =
      (BktCol.light (histogram raw) (capOf raw.length nb)).filter (fun p => decide (codeOf M (.num p.1) = k)) := by
    unfold BktCol.light
    rw [List.filter_filter]
    refine List.filter_congr (fun p hp' => ?_)
    rw [hmem p hp']
  rw [hfilter]
  have hsub : ∀ p ∈ BktCol.light (histogram raw) (capOf raw.length nb), p ∈ histogram raw := fun p hp' => (List.mem_filter.mp hp').1
  have := (bins_total (cap := capOf raw.length nb) (lcap := lcapOf nb raw) (Nat.le_max_left _ _) (fun a => decide (codeOf M (.num a) = k))
    (BktCol.light (histogram raw) (capOf raw.length nb)) 0 none (hs.filter _) (by
      intro p hp'
      have := (List.mem_filter.mp hp').2
      simpa using this) (by unfold lcapOf; omega) (by
      intro x hx y hy z hz h1 h3 hxy hyz
      simp only [decide_eq_true_eq] at h1 h3 ⊢
      have l1 := b.code_mono hxy.le (hin y (hsub y hy))
      have l2 := b.code_mono hyz.le (hin z (hsub z hz))
      omega) (by
      intro x hx z hz h1 h3 s hsm ⟨hxs, hsz⟩
      simp only [decide_eq_true_eq] at h1 h3
      have hS : s ∈ limitsOf nb raw := (limits_perm _ _ _).mem_iff.mpr (List.mem_append_right _ hsm)
      have hz' := hin z (hsub z hz)
      have e1 := b.entry_key (v := s) (List.mem_append_left _ hS)
      obtain ⟨k2, e2, e3, e4, _⟩ := b.entry_le hz'
      have l1 := b.code_mono hxs (hsz.le.trans hz')
      have l2 := b.code_lt_of_key_lt e1 e2 (lt_of_lt_of_le hsz e3) e4
      omega)).1
  omega

/-- The capacity of the uniform bins in terms of the rows. -/
theorem lcapOf_eq {nb : Nat} {raw : List (Fl A)} (hn : raw.length < 4294967296) (hnb : nb < 4294967296) (hh : heavyCount nb raw + 1 ≠ nb) :
    lcapOf nb raw = if heavyCount nb raw + 1 < nb then
      max 1 (raw.countP (fun x => !Fl.holds (fun a => decide (capOf raw.length nb ≤ raw.count (.num a))) x) / (nb - 1 - heavyCount nb raw)) else 1 := by
  obtain ⟨hs, hp, hcnt, _⟩ := histogram_spec raw
  have hmem : ∀ p ∈ histogram raw, raw.count (.num p.1) = p.2 := fun p hp' => ((mem_histogram raw p.1 p.2).mp hp').1
  have hheavy : FMap.total (BktCol.heavy (histogram raw) (capOf raw.length nb)) =
      raw.countP (Fl.holds (fun a => decide (capOf raw.length nb ≤ raw.count (.num a)))) := by
    rw [← histogram_countP]
    congr 1
    unfold BktCol.heavy
    refine List.filter_congr (fun p hp' => ?_)
    rw [hmem p hp']
  have hsplit := List.length_eq_countP_add_countP (Fl.holds (fun a => decide (capOf raw.length nb ≤ raw.count (.num a)))) (l := raw)
  have hneg : raw.countP (fun x => !Fl.holds (fun a => decide (capOf raw.length nb ≤ raw.count (.num a))) x) =
      raw.countP (fun a => decide ¬ Fl.holds (fun a => decide (capOf raw.length nb ≤ raw.count (.num a))) a = true) := by
    refine List.countP_congr (fun x _ => ?_)
    simp
  rw [← hneg] at hsplit
  have hHn : heavyCount nb raw ≤ raw.length := by
    unfold heavyCount
    exact (List.length_filter_le _ _).trans (hist_length_le raw)
  have hl1 : lcapOf nb raw = max 1 (u64 ((raw.length : Int) - (FMap.total (BktCol.heavy (histogram raw) (capOf raw.length nb)) : Nat)) /
      u64 ((nb : Int) - ((heavyCount nb raw + 1 : Nat) : Int))) := rfl
  rw [hl1, hheavy]
  generalize raw.countP (fun x => !Fl.holds (fun a => decide (capOf raw.length nb ≤ raw.count (.num a))) x) = N at *
  generalize raw.countP (Fl.holds (fun a => decide (capOf raw.length nb ≤ raw.count (.num a)))) = T at *
  generalize heavyCount nb raw = H at *
  generalize raw.length = n at *
  have h1 : u64 ((n : Int) - (T : Nat)) = N := by unfold u64; omega
  rw [h1]
  split
  · have hd : u64 ((nb : Int) - ((H + 1 : Nat) : Int)) = nb - 1 - H := by unfold u64; omega
    rw [hd]
  · have hd : N < u64 ((nb : Int) - ((H + 1 : Nat) : Int)) := by unfold u64; omega
    rw [Nat.div_eq_of_lt hd]
    rfl

theorem countP_index {α : Type} (f : α → Bool) (l : List α) : (List.range l.length).countP (fun i => (l[i]?).any f) = l.countP f := by
  have h : l.map some = (List.range l.length).map (fun i => l[i]?) := by
    apply List.ext_getElem?
    intro i
    by_cases hi : i < l.length
    · simp [hi]
    · simp [hi]
  have := congrArg (List.countP (fun o : Option α => o.any f)) h
  rw [List.countP_map, List.countP_map] at this
  exact this.symm.trans (List.countP_congr (fun x _ => by simp))

end Gbdt
