import Verif.Lemmas.StringSplit
import Mathlib.Tactic.Linarith
import Mathlib.Tactic.Ring
import Mathlib.Tactic.FieldSimp

/-!
# Splits in exact arithmetic
-/

set_option autoImplicit false
set_option linter.unusedSectionVars false

namespace Gbdt

open Outcome

variable {K : Type} [Field K] [LinearOrder K]

/-- Bins that do not count are zero. -/
def BinsZero (codes : List Nat) (n : Nat) (x : Nat → GD K) (samples : List Nat) : Prop :=
  ∀ k < n, countsBin (binOf codes x samples k) = false → binOf codes x samples k = GD.zero

theorem code_iff {c : IntCol} {codes : List Nat} (hd : c.data = ok codes) (i k : Nat) :
    c.code i = ok k ↔ codes[i]? = some k := by
  rw [IntCol.code, hd, ok_bind, vecGet_eq_ok]

theorem binsZero_of_noHalfZero {c : IntCol} {codes : List Nat} (hd : c.data = ok codes) {x : Nat → GD K}
    {samples : List Nat} (h : NoHalfZero c.code x samples) (n : Nat) : BinsZero codes n x samples := by
  intro k _ hk
  have hb : binOf codes x samples k = sumOf x (samples.filter (fun i => decide (c.code i = .ok k))) := by
    rw [binOf, samplesWith]
    congr 1
    apply List.filter_congr
    intro i _
    rw [decide_eq_decide]
    exact (code_iff hd i k).symm
  have := h k
  rw [← hb] at this
  rw [GD.ext_iff']
  simp only [countsBin, exact_eqb, Bool.and_eq_false_iff, Bool.not_eq_false', decide_eq_true_eq] at hk
  rcases hk with hk | hk
  · exact ⟨hk, this.mp hk⟩
  · exact ⟨this.mpr hk, hk⟩

theorem sum_values {codes : List Nat} {n : Nat} {x : Nat → GD K} {samples : List Nat}
    (hz : BinsZero codes n x samples) (hin : ∀ i ∈ samples, ∃ c, codes[i]? = some c ∧ c < n) (q : Nat → Bool) :
    sumOf x (samples.filter (rowLeft codes q)) =
      sumOf (binOf codes x samples) ((valuesOf codes n x samples).filter q) := by
  have h1 := sumOf_by_code x codes n q samples hin
  have h2 := sumOf_filter_add (binOf codes x samples) ((List.range n).filter q)
    (fun k => countsBin (binOf codes x samples k))
  have h3 : sumOf (binOf codes x samples) (((List.range n).filter q).filter
      (fun k => !countsBin (binOf codes x samples k))) = GD.zero := by
    apply sumOf_zero
    intro k hk
    simp only [List.mem_filter, List.mem_range, Bool.not_eq_eq_eq_not, Bool.not_true] at hk
    exact hz k hk.1.1 hk.2
  rw [h3, GD.add_zero'] at h2
  have h4 : ((List.range n).filter q).filter (fun k => countsBin (binOf codes x samples k)) =
      (valuesOf codes n x samples).filter q := by
    rw [valuesOf, List.filter_filter, List.filter_filter]
    congr 1
    funext k
    rw [Bool.and_comm]
  rw [← h4, h2, ← h1]
  rfl

theorem sum_all_values {codes : List Nat} {n : Nat} {x : Nat → GD K} {samples : List Nat}
    (hz : BinsZero codes n x samples) (hin : ∀ i ∈ samples, ∃ c, codes[i]? = some c ∧ c < n) :
    sumOf x samples = sumOf (binOf codes x samples) (valuesOf codes n x samples) := by
  have := sum_values hz hin (fun _ => true)
  have h1 : samples.filter (rowLeft codes (fun _ => true)) = samples := by
    rw [List.filter_eq_self]
    intro i hi
    obtain ⟨c, hc, _⟩ := hin i hi
    simp [rowLeft, hc]
  have h2 : (valuesOf codes n x samples).filter (fun _ => true) = valuesOf codes n x samples := by
    rw [List.filter_eq_self]
    intros
    rfl
  rw [h1, h2] at this
  exact this

theorem sum_right {x : Nat → GD K} {samples R : List Nat} {p : Nat → Bool}
    (hR : R.Perm (samples.filter (fun i => !p i))) :
    sumOf x R = (sumOf x samples).sub (sumOf x (samples.filter p)) := by
  rw [sumOf_perm x hR, ← sumOf_filter_add x samples p, GD.add_sub_cancel']

/-- Taking code 0 out of a list that has it once. -/
theorem sum_without_zero (bin : Nat → GD K) {l : List Nat} (hnd : l.Nodup) (h0 : 0 ∈ l) :
    sumOf bin (l.filter (fun v => !decide (v = 0))) = (sumOf bin l).sub (bin 0) := by
  have h1 := sumOf_filter_add bin l (fun v => decide (v = 0))
  have h2 : l.filter (fun v => decide (v = 0)) = [0] := by
    have : l.Perm (0 :: l.erase 0) := List.perm_cons_erase h0
    have hp := this.filter (fun v => decide (v = 0))
    have hne : 0 ∉ l.erase 0 := fun h => by
      have := (List.Nodup.mem_erase_iff hnd).mp h
      exact this.1 rfl
    rw [List.filter_cons_of_pos (by simp)] at hp
    have : (l.erase 0).filter (fun v => decide (v = 0)) = [] := by
      rw [List.filter_eq_nil_iff]
      intro a ha
      simp only [decide_eq_true_eq]
      rintro rfl
      exact hne ha
    rw [this] at hp
    exact List.perm_singleton.mp hp
  rw [h2] at h1
  have h3 : sumOf bin [0] = bin 0 := by simp [sumOf, GD.zero_add']
  rw [h3] at h1
  rw [← h1, GD.add_sub_cancel']

theorem missingOf_some {codes : List Nat} {n : Nat} {x : Nat → GD K} {samples : List Nat} {m : GD K} (hn : 0 < n)
    (hz : BinsZero codes n x samples) (h : missingOf codes x samples = some m) :
    m = binOf codes x samples 0 ∧ 0 ∈ valuesOf codes n x samples := by
  unfold missingOf at h
  split at h
  · rename_i hne
    cases h
    refine ⟨rfl, mem_values.mpr ⟨hn, ?_⟩⟩
    by_contra hc
    rw [hz 0 hn (Bool.eq_false_iff.mpr hc)] at hne
    simp [GD.zero] at hne
  · cases h

theorem missingOf_none {codes : List Nat} {x : Nat → GD K} {samples : List Nat}
    (h : missingOf codes x samples = none) : binOf codes x samples 0 = GD.zero := by
  unfold missingOf at h
  split at h
  · cases h
  · rename_i hne
    rw [GD.ext_iff']
    simpa [GD.zero] using hne

theorem zero_mem_take {values : List Nat} (hsort : values.Pairwise (· < ·)) (h0 : 0 ∈ values) {k : Nat} (hk : 1 ≤ k) :
    0 ∈ values.take k := by
  cases values with
  | nil => cases h0
  | cons a l =>
    obtain ⟨j, rfl⟩ : ∃ j, k = j + 1 := ⟨k - 1, by omega⟩
    have : a = 0 := by
      rcases List.mem_cons.mp h0 with h | h
      · exact h.symm
      · rw [List.pairwise_cons] at hsort
        have := hsort.1 0 h
        omega
    simp [this]

theorem energy_zero (l : K) : (GD.zero : GD K).energy l = 0 := by
  simp [GD.energy, GD.zero]

theorem gainOf_comm (l : K) (total a b : GD K) : gainOf l total a b = gainOf l total b a := by
  simp [gainOf, add_comm]

theorem gainOf_trivial (l : K) (total : GD K) : gainOf l total GD.zero total = 0 := by
  simp [gainOf, energy_zero]

/-- A downward closed part of a list is a prefix. -/
theorem filter_eq_take {l : List Nat} {q : Nat → Bool} (h : l.Pairwise (fun a b => q b = true → q a = true)) :
    l.filter q = l.take (l.filter q).length := by
  induction l with
  | nil => rfl
  | cons a l ih =>
    rw [List.pairwise_cons] at h
    cases hq : q a with
    | true =>
      rw [List.filter_cons_of_pos hq, List.length_cons, List.take_succ_cons, ← ih h.2]
    | false =>
      have : l.filter q = [] := by
        rw [List.filter_eq_nil_iff]
        intro b hb hqb
        have := h.1 b hb hqb
        rw [hq] at this
        cases this
      rw [List.filter_cons_of_neg (by simp [hq]), this]
      rfl

section float
variable {A : Type} [LinearOrder A]

/-- The reported gain of a float split is that of the partition (with lawful thresholds, bins all zero or counting). -/
theorem float_gain [ThrOps A] {c : BktCol A} {codes : List Nat} (wf : BktWF c codes) (hthr : ThrSeparates c) (w : Nat → K)
    (grads : List (GD K)) (samples : List Nat) (cfg : SplitConfig K)
    (hin : ∀ i ∈ samples, i < codes.length ∧ i < grads.length)
    (hz : BinsZero codes c.maxInt (weighted w grads) samples) {s : Split K A}
    (hs : findBestFloatSplit c w grads samples cfg (sumOf (weighted w grads) samples) = ok (some s)) :
    ∃ L R, partition (.bkt c) s samples = ok (L, R) ∧ s.gain = gainOf cfg.l2Lambda (sumOf (weighted w grads) samples)
      (sumOf (weighted w grads) L) (sumOf (weighted w grads) R) := by
  have hin' : ∀ i ∈ samples, ∃ k, codes[i]? = some k ∧ k < c.maxInt := fun i hi =>
    ⟨_, List.getElem?_eq_getElem (hin i hi).1, wf.lt _ (List.getElem_mem _)⟩
  have hfind := findBestFloatSplit_eq wf w grads samples cfg (sumOf (weighted w grads) samples) hin
  dsimp only at hfind
  generalize hx : weighted w grads = x at *
  rcases hfind with ⟨_, h⟩ | ⟨p, lc, rc, t, hp, e1, e2, ht, h⟩
  · rw [hs] at h; cases h
  rw [hs] at h
  cases h
  generalize hsp : findBestSplitPoint cfg (sumOf x samples) (missingOf codes x samples)
    ((valuesOf codes c.maxInt x samples).map (binOf codes x samples)) = sp at *
  obtain ⟨R, hpart, hR⟩ := partition_float wf
    ({ gain := sp.gain, floatSplit := some ⟨t, sp.missingOnRight⟩ } : Split K A) _ rfl samples (fun i hi => (hin i hi).1)
  refine ⟨_, R, hpart, ?_⟩
  have hinv := findBestSplitPoint_inv cfg (sumOf x samples) (missingOf codes x samples)
    ((valuesOf codes c.maxInt x samples).map (binOf codes x samples))
  rw [hsp] at hinv
  obtain ⟨⟨l, r, hc⟩, _⟩ := hinv.some p hp
  have hocc : ∀ v ∈ valuesOf codes c.maxInt x samples, v ∈ codes := fun v hv => (values_occur hv).2
  obtain ⟨hA, hB⟩ := codeLeft_values wf hthr (values_sorted codes c.maxInt x samples) hocc (b := sp.missingOnRight) e1 e2 ht
  have hleft : sumOf x (samples.filter (rowLeft codes (codeLeft c ⟨t, sp.missingOnRight⟩))) = l := by
    rw [sum_values hz hin']
    have hcut : (valuesOf codes c.maxInt x samples).filter (codeLeft c ⟨t, sp.missingOnRight⟩) =
        ((valuesOf codes c.maxInt x samples).take (p + 1)).filter (fun v => if v = 0 then !sp.missingOnRight else true) := by
      conv_lhs => rw [← List.take_append_drop (p + 1) (valuesOf codes c.maxInt x samples)]
      have hnil : ((valuesOf codes c.maxInt x samples).drop (p + 1)).filter (codeLeft c ⟨t, sp.missingOnRight⟩) = [] :=
        List.filter_eq_nil_iff.mpr (fun v hv => by simp [hB v hv])
      rw [List.filter_append, hnil, List.append_nil]
      exact List.filter_congr (fun v hv => hA v hv)
    rw [hcut]
    cases hb : sp.missingOnRight with
    | false =>
      rw [hb] at hc
      obtain ⟨rfl, _⟩ := candidate_false hc
      rw [prefixSum_map]
      congr 1
      rw [List.filter_eq_self]
      intro v _
      split <;> rfl
    | true =>
      rw [hb] at hc
      obtain ⟨m, hm, rfl, _⟩ := candidate_true hc
      obtain ⟨rfl, h0⟩ := missingOf_some wf.pos hz hm
      rw [prefixSum_map]
      have hnd : ((valuesOf codes c.maxInt x samples).take (p + 1)).Nodup :=
        ((values_sorted codes c.maxInt x samples).imp (fun h => Nat.ne_of_lt h)).sublist (List.take_sublist _ _)
      rw [← sum_without_zero _ hnd (zero_mem_take (values_sorted codes c.maxInt x samples) h0 (by omega))]
      congr 1
      apply List.filter_congr
      intro v _
      by_cases hv : v = 0 <;> simp [hv]
  have hright : r = (sumOf x samples).sub l := by
    cases hb : sp.missingOnRight with
    | false => rw [hb] at hc; obtain ⟨rfl, rfl⟩ := candidate_false hc; rfl
    | true =>
      rw [hb] at hc
      obtain ⟨m, hm, rfl, rfl⟩ := candidate_true hc
      simp [GD.sub, GD.add]
      constructor <;> ring
  rw [sum_right hR, hleft, ← hright]
  exact hc.2.2.2.2

/-- No threshold has a gain above what the scan found. -/
theorem float_best {c : BktCol A} {codes : List Nat} (wf : BktWF c codes) (x : Nat → GD K) (samples : List Nat)
    (cfg : SplitConfig K) (hin : ∀ i ∈ samples, i < codes.length) (hz : BinsZero codes c.maxInt x samples)
    (f : FloatSplit A) {l r : GD K} (hl : l = sumOf x (samples.filter (rowLeft codes (codeLeft c f))))
    (hr : r = (sumOf x samples).sub l) (hmin : cfg.minHessian < min l.h r.h) :
    gainOf cfg.l2Lambda (sumOf x samples) l r = 0 ∨
    ∃ k b l' r', Candidate cfg (sumOf x samples) (missingOf codes x samples)
      ((valuesOf codes c.maxInt x samples).map (binOf codes x samples)) k b l' r'
        (gainOf cfg.l2Lambda (sumOf x samples) l r) := by
  have hin' : ∀ i ∈ samples, ∃ k, codes[i]? = some k ∧ k < c.maxInt := fun i hi =>
    ⟨_, List.getElem?_eq_getElem (hin i hi), wf.lt _ (List.getElem_mem _)⟩
  have hsort := values_sorted codes c.maxInt x samples
  have hocc : ∀ v ∈ valuesOf codes c.maxInt x samples, v ∈ codes := fun v hv => (values_occur hv).2
  have hall := sum_all_values hz hin'
  rw [sum_values hz hin'] at hl
  have hmem0 := @missingOf_some K _ _ codes c.maxInt x samples
  have hnone := @missingOf_none K _ _ codes x samples
  have hcount : countsBin (binOf codes x samples 0) = true → 0 ∈ valuesOf codes c.maxInt x samples :=
    fun h => mem_values.mpr ⟨wf.pos, h⟩
  generalize hv : valuesOf codes c.maxInt x samples = values at *
  generalize hbin : binOf codes x samples = bin at *
  -- the codes below the threshold, with code 0 added
  let q' : Nat → Bool := fun v => decide (v = 0) || codeLeft c f v
  have hclosed : values.Pairwise (fun a b => q' b = true → q' a = true) := by
    refine List.Pairwise.imp_of_mem ?_ hsort
    intro a b ha hb hab hqb
    by_cases ha0 : a = 0
    · simp [q', ha0]
    · have hb0 : b ≠ 0 := by omega
      simp only [q', ha0, decide_false, Bool.false_or, hb0] at hqb ⊢
      obtain ⟨_, hi1, _, f1, _⟩ := wf.limits a (hocc a ha) ha0
      obtain ⟨lo2, hi2, g1, f2, g3⟩ := wf.limits b (hocc b hb) hb0
      have hlt := lt_of_lt_of_le (wf.order a (hocc a ha) b (hocc b hb) ha0 hab _ _ f1 g1) g3
      simp only [codeLeft, ha0, if_false, f1, hb0, f2] at hqb ⊢
      cases ht : f.threshold with
      | nan => rw [ht] at hqb; simp at hqb
      | num t =>
        rw [ht] at hqb
        simp only [Fl.lt_num, decide_eq_true_eq] at hqb ⊢
        exact hlt.trans hqb
  have htake := filter_eq_take hclosed
  generalize hk : (values.filter q').length = k at htake
  have hkle : k ≤ values.length := by rw [← hk]; exact List.length_filter_le _ _
  have hqq : values.filter (codeLeft c f) = (values.take k).filter (fun v => if v = 0 then !f.missingToRight else true) := by
    rw [← htake, List.filter_filter]
    apply List.filter_congr
    intro v _
    by_cases hv0 : v = 0 <;> simp [q', hv0, codeLeft]
  have hlp : (f.missingToRight = false ∨ 0 ∉ values) → l = prefixSum (values.map bin) k := by
    intro h
    rw [hl, hqq, prefixSum_map]
    congr 1
    rw [List.filter_eq_self]
    intro v hv
    rcases h with h | h
    · simp [h]
    · have : v ≠ 0 := by rintro rfl; exact h (List.mem_of_mem_take hv)
      simp [this]
  have hmin' : Dbl.ltb cfg.minHessian (Dbl.min l.h r.h) = true := by
    rw [exact_min]; simpa using hmin
  by_cases hcase : f.missingToRight = false ∨ 0 ∉ values
  · have hl' := hlp hcase
    by_cases hk0 : k = 0
    · left
      have : l = GD.zero := by rw [hl', hk0]; rfl
      rw [hr, this]
      have h2 : (sumOf x samples).sub GD.zero = sumOf x samples := by simp [GD.sub, GD.zero]
      rw [h2, gainOf_trivial]
    · by_cases hkn : k = values.length
      · left
        have : l = sumOf x samples := by
          rw [hl', prefixSum_map, hkn, List.take_length, hall]
        rw [hr, this]
        have h2 : (sumOf x samples).sub (sumOf x samples) = GD.zero := by simp [GD.sub, GD.zero]
        rw [h2, gainOf_comm, gainOf_trivial]
      · right
        refine ⟨k, false, l, r, by omega, by rw [List.length_map]; omega, ?_, hmin', rfl⟩
        simp [cutSides, hl', hr]
  · push Not at hcase
    obtain ⟨hb, h0⟩ := hcase
    have hb : f.missingToRight = true := by simpa using hb
    have hk1 : 1 ≤ k := by
      rw [← hk]
      have : 0 ∈ values.filter q' := by simp [h0, q']
      exact List.length_pos_of_mem this
    have hnd : (values.take k).Nodup :=
      (hsort.imp (fun h => Nat.ne_of_lt h)).sublist (List.take_sublist _ _)
    have hl' : l = (prefixSum (values.map bin) k).sub (bin 0) := by
      rw [hl, hqq, prefixSum_map, ← sum_without_zero _ hnd (zero_mem_take hsort h0 hk1)]
      congr 1
      apply List.filter_congr
      intro v _
      by_cases hv : v = 0 <;> simp [hv, hb]
    have hr' : r = ((sumOf x samples).sub (prefixSum (values.map bin) k)).add (bin 0) := by
      rw [hr, hl']
      simp [GD.sub, GD.add]
      constructor <;> ring
    -- 0 counts, so missing data is present
    have hmiss : missingOf codes x samples = some (bin 0) := by
      have h00 := h0
      rw [← hv, mem_values, countsBin, hbin] at h00
      have := h00.2
      simp only [Bool.and_eq_true] at this
      unfold missingOf
      rw [hbin, this.1]
      rfl
    by_cases hkn : k = values.length
    · have hpre : prefixSum (values.map bin) k = sumOf x samples := by
        rw [prefixSum_map, hkn, List.take_length, hall]
      have hr2 : r = bin 0 := by
        rw [hr', hpre]; simp [GD.sub, GD.add]
      have hl2 : l = (sumOf x samples).sub (bin 0) := by rw [hl', hpre]
      cases hvals : values with
      | nil => rw [hvals] at h0; cases h0
      | cons a rest =>
        have ha : a = 0 := by
          rw [hvals] at hsort h0
          rw [List.pairwise_cons] at hsort
          rcases List.mem_cons.mp h0 with h | h
          · exact h.symm
          · have := hsort.1 0 h; omega
        subst ha
        cases rest with
        | nil =>
          left
          have : bin 0 = sumOf x samples := by
            rw [hall, hvals]; simp [sumOf, GD.zero_add']
          rw [hl2, hr2, this]
          have h2 : (sumOf x samples).sub (sumOf x samples) = GD.zero := by simp [GD.sub, GD.zero]
          rw [h2, gainOf_trivial]
        | cons b rest =>
          right
          have hp1 : prefixSum ((0 :: b :: rest).map bin) 1 = bin 0 := by
            simp [prefixSum, GD.zero_add']
          refine ⟨1, false, r, l, le_rfl, by simp, ?_, ?_, gainOf_comm _ _ _ _⟩
          · simp only [cutSides, hp1, Bool.false_eq_true, if_false]
            rw [hl2, hr2]
          · rw [exact_min, min_comm, ← exact_min]; exact hmin'
    · right
      refine ⟨k, true, l, r, hk1, by rw [List.length_map]; omega, ?_, hmin', rfl⟩
      simp [cutSides, hmiss, hl', hr']

end float

end Gbdt
