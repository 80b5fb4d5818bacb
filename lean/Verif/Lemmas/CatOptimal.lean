import Verif.Lemmas.ExactSplit

/-!
# Categorical splits in exact arithmetic
-/

set_option autoImplicit false
set_option linter.unusedSectionVars false

namespace Gbdt

open Outcome

variable {K : Type} [Field K] [LinearOrder K]

/-- The sum of the bins of a set of values. -/
theorem sum_set {values set : List Nat} (bin : Nat → GD K) (hnd : values.Nodup) (hsnd : set.Nodup)
    (hsub : ∀ v ∈ set, v ∈ values) :
    sumOf bin (values.filter (fun v => set.contains v)) = sumOf bin set := by
  apply sumOf_perm
  rw [List.perm_ext_iff_of_nodup (hnd.filter _) hsnd]
  intro a
  simp only [List.mem_filter, List.contains_iff_mem]
  exact ⟨fun h => h.2, fun h => ⟨hsub a h, h⟩⟩

theorem prefix_add_drop (bin : Nat → GD K) (values : List Nat) (k : Nat) :
    (sumOf bin (values.take k)).add (sumOf bin (values.drop k)) = sumOf bin values := by
  rw [← sumOf_append, List.take_append_drop]

theorem string_gain {A : Type} [LinearOrder A] {sort : (Nat → K) → List Nat → List Nat} (hsort : SortSpec sort)
    {c : StrCol} {codes : List Nat} (wf : StrWF c codes) (w : Nat → K) (grads : List (GD K)) (samples : List Nat)
    (cfg : SplitConfig K) (hin : ∀ i ∈ samples, i < codes.length ∧ i < grads.length)
    (hz : BinsZero codes c.maxInt (weighted w grads) samples) {s : Split K A}
    (hs : findBestStringSplit sort c w grads samples cfg (sumOf (weighted w grads) samples) = ok (some s)) :
    ∃ L R, partition (.str c : Column A) s samples = ok (L, R) ∧ s.gain = gainOf cfg.l2Lambda (sumOf (weighted w grads) samples)
      (sumOf (weighted w grads) L) (sumOf (weighted w grads) R) := by
  have hin' : ∀ i ∈ samples, ∃ k, codes[i]? = some k ∧ k < c.maxInt := fun i hi =>
    ⟨_, List.getElem?_eq_getElem (hin i hi).1, wf.lt _ (List.getElem_mem _)⟩
  obtain ⟨values, hperm, _, hfind⟩ := findBestStringSplit_eq (A := A) hsort wf w grads samples cfg
    (sumOf (weighted w grads) samples) hin
  dsimp only at hfind
  generalize weighted w grads = x at *
  rcases hfind with ⟨_, h⟩ | ⟨p, hp, hlen, h⟩
  · rw [hs] at h; cases h
  rw [hs] at h
  cases h
  generalize hset : (if p + 1 ≤ values.length - p - 1 then values.take (p + 1) else values.drop (p + 1)) = set at *
  generalize hsp : findBestSplitPoint cfg (sumOf x samples) none (values.map (binOf codes x samples)) = sp at *
  have hinv := findBestSplitPoint_inv cfg (sumOf x samples) none (values.map (binOf codes x samples))
  rw [hsp] at hinv
  obtain ⟨⟨l, r, hc⟩, _⟩ := hinv.some p hp
  have hvnd : (valuesOf codes c.maxInt x samples).Nodup :=
    (values_sorted codes c.maxInt x samples).imp (fun h => Nat.ne_of_lt h)
  have hnd : values.Nodup := hperm.nodup_iff.mpr hvnd
  have hne : set.length > 0 := by
    rw [← hset]; split
    · rw [List.length_take]; omega
    · rw [List.length_drop]; omega
  have hsetsub : set.Sublist values := by
    rw [← hset]; split
    · exact List.take_sublist _ _
    · exact List.drop_sublist _ _
  have hcs : categorySet c { category := [], index := set } = set := by
    rw [categorySet, if_pos hne]
  obtain ⟨R, hpart, hR⟩ := partition_string (A := A) wf
    ({ gain := sp.gain, catSplit := some { category := [], index := set } } : Split K A) _ rfl samples
    (fun i hi => (hin i hi).1)
  rw [hcs] at hpart hR
  refine ⟨_, R, hpart, ?_⟩
  have hleft : sumOf x (samples.filter (rowLeft codes (fun k => set.contains k))) = sumOf (binOf codes x samples) set := by
    rw [sum_values hz hin']
    exact sum_set _ hvnd (hnd.sublist hsetsub) (fun v hv => hperm.mem_iff.mp (hsetsub.subset hv))
  have hall : sumOf x samples = sumOf (binOf codes x samples) values := by
    rw [sum_all_values hz hin']
    exact sumOf_perm _ hperm.symm
  have hmr : sp.missingOnRight = false := by
    cases hb : sp.missingOnRight with
    | false => rfl
    | true =>
      rw [hb] at hc
      obtain ⟨m, hm, _⟩ := candidate_true hc
      cases hm
  rw [hmr] at hc
  obtain ⟨rfl, rfl⟩ := candidate_false hc
  have hg := hc.2.2.2.2
  rw [sum_right hR, hleft, hg, prefixSum_map]
  have hpd := prefix_add_drop (binOf codes x samples) values (p + 1)
  rw [← hall] at hpd
  by_cases hcase : p + 1 ≤ values.length - p - 1
  · rw [if_pos hcase] at hset
    rw [← hset]
  · rw [if_neg hcase] at hset
    rw [← hset, gainOf_comm]
    have e1 : (sumOf x samples).sub (sumOf (binOf codes x samples) (values.take (p + 1))) =
        sumOf (binOf codes x samples) (values.drop (p + 1)) := by
      rw [← hpd, GD.add_sub_cancel']
    have e2 : (sumOf x samples).sub (sumOf (binOf codes x samples) (values.drop (p + 1))) =
        sumOf (binOf codes x samples) (values.take (p + 1)) := by
      rw [← e1]; simp [GD.sub]
    rw [e1, e2]

section optimal
variable [IsStrictOrderedRing K]

theorem tangent {g h a : K} (hh : 0 < h) : 2 * a * g - a * a * h ≤ g * g / h := by
  rw [le_div_iff₀ hh]
  nlinarith [sq_nonneg (g - a * h)]

theorem tangent_eq {g h : K} (hh : h ≠ 0) : g * g / h = 2 * (g / h) * g - (g / h) * (g / h) * h := by
  field_simp; ring

theorem sum_h_pos {bin : Nat → GD K} {l : List Nat} (hne : l ≠ []) (hpos : ∀ v ∈ l, 0 < (bin v).h) {m : K}
    (hm : ∀ v ∈ l, m < (bin v).h) : m < (sumOf bin l).h := by
  rw [sumOf_h]
  cases l with
  | nil => exact absurd rfl hne
  | cons a l =>
    rw [List.map_cons, List.sum_cons]
    have h1 := hm a (by simp)
    have h2 : ∀ l : List Nat, (∀ v ∈ l, 0 < (bin v).h) → 0 ≤ (l.map (fun i => (bin i).h)).sum := by
      intro l
      induction l with
      | nil => intro _; simp
      | cons b l ih =>
        intro hl
        rw [List.map_cons, List.sum_cons]
        exact add_nonneg (hl b (by simp)).le (ih (fun v hv => hl v (List.mem_cons_of_mem _ hv)))
    have := h2 l (fun v hv => hpos v (List.mem_cons_of_mem _ hv))
    linarith

theorem sum_lin_le {bin : Nat → GD K} {l : List Nat} {a b c d : K}
    (h : ∀ v ∈ l, a * (bin v).g + b * (bin v).h ≤ c * (bin v).g + d * (bin v).h) :
    a * (sumOf bin l).g + b * (sumOf bin l).h ≤ c * (sumOf bin l).g + d * (sumOf bin l).h := by
  rw [sumOf_g, sumOf_h]
  induction l with
  | nil => simp
  | cons v l ih =>
    have h1 := h v (by simp)
    have h2 := ih (fun v hv => h v (List.mem_cons_of_mem _ hv))
    simp only [List.map_cons, List.sum_cons]
    linarith

/-- Some prefix of the values sorted by `g/h` is at least as good as any division of them. -/
theorem prefix_beats {bin : Nat → GD K} {V : List Nat} (hpos : ∀ v ∈ V, 0 < (bin v).h)
    (hsorted : V.Pairwise (fun a b => (bin a).g / (bin a).h ≤ (bin b).g / (bin b).h)) (q : Nat → Bool) {S T : GD K}
    (hS : S = sumOf bin (V.filter q)) (hT : T = sumOf bin (V.filter (fun v => !q v))) (hs : 0 < S.h) (ht : 0 < T.h)
    (hlt : S.g / S.h < T.g / T.h) :
    ∃ k, 1 ≤ k ∧ k < V.length ∧ S.g * S.g / S.h + T.g * T.g / T.h ≤
      (sumOf bin (V.take k)).g * (sumOf bin (V.take k)).g / (sumOf bin (V.take k)).h +
      (sumOf bin (V.drop k)).g * (sumOf bin (V.drop k)).g / (sumOf bin (V.drop k)).h := by
  generalize ha : S.g / S.h = a at hlt
  generalize hb : T.g / T.h = b at hlt
  have hSg : S.g = a * S.h := by rw [← ha]; field_simp
  have hTg : T.g = b * T.h := by rw [← hb]; field_simp
  let P : Nat → Bool := fun v => decide (2 * (bin v).g ≤ (a + b) * (bin v).h)
  have hclosed : V.Pairwise (fun u v => P v = true → P u = true) := by
    refine List.Pairwise.imp_of_mem ?_ hsorted
    intro u v hu hv huv hP
    simp only [P, decide_eq_true_eq] at hP ⊢
    have hu' := hpos u hu
    have hv' := hpos v hv
    have h1 : (bin v).g / (bin v).h ≤ (a + b) / 2 := by
      rw [div_le_iff₀ hv']; linarith
    have h2 := huv.trans h1
    rw [div_le_iff₀ hu'] at h2
    linarith
  have htake := filter_eq_take hclosed
  generalize hk : (V.filter P).length = k at htake
  have hkle : k ≤ V.length := by rw [← hk]; exact List.length_filter_le _ _
  have hin : ∀ v ∈ V.take k, 2 * (bin v).g ≤ (a + b) * (bin v).h := by
    intro v hv
    rw [← htake, List.mem_filter] at hv
    simpa [P] using hv.2
  have hout : ∀ v ∈ V.drop k, (a + b) * (bin v).h < 2 * (bin v).g := by
    intro v hv
    by_contra hcon
    have hPv : P v = true := by simp only [P, decide_eq_true_eq]; exact not_lt.mp hcon
    have hlen : (V.filter P).length = ((V.take k).filter P).length + ((V.drop k).filter P).length := by
      conv_lhs => rw [← List.take_append_drop k V]
      rw [List.filter_append, List.length_append]
    have h1 : (V.take k).filter P = V.take k := by
      rw [List.filter_eq_self]
      intro u hu
      rw [← htake, List.mem_filter] at hu
      exact hu.2
    have h2 : 0 < ((V.drop k).filter P).length := List.length_pos_of_mem (List.mem_filter.mpr ⟨hv, hPv⟩)
    rw [h1, List.length_take, hk] at hlen
    omega
  have hk1 : 1 ≤ k := by
    by_contra hcon
    have hk0 : k = 0 := by omega
    rw [hk0, List.drop_zero] at hout
    have h2 : (a + b) * S.h ≤ 2 * S.g := by
      have := sum_lin_le (bin := bin) (l := V.filter q) (a := 0) (b := a + b) (c := 2) (d := 0) (by
        intro v hv
        have := hout v (List.mem_filter.mp hv).1
        linarith)
      rw [← hS] at this
      linarith
    rw [hSg] at h2
    nlinarith
  have hk2 : k < V.length := by
    by_contra hcon
    have hkn : k = V.length := by omega
    rw [hkn, List.take_length] at hin
    have h2 : 2 * T.g ≤ (a + b) * T.h := by
      have := sum_lin_le (bin := bin) (l := V.filter (fun v => !q v)) (a := 2) (b := 0) (c := 0) (d := a + b) (by
        intro v hv
        have := hin v (List.mem_filter.mp hv).1
        linarith)
      rw [← hT] at this
      linarith
    rw [hTg] at h2
    nlinarith
  refine ⟨k, hk1, hk2, ?_⟩
  generalize hA : sumOf bin (V.take k) = A
  generalize hB : sumOf bin (V.drop k) = B
  have hAh : 0 < A.h := by
    rw [← hA]
    exact sum_h_pos (by intro h; have := congrArg List.length h; rw [List.length_take, List.length_nil] at this; omega)
      (fun v hv => hpos v (List.mem_of_mem_take hv)) (fun v hv => hpos v (List.mem_of_mem_take hv))
  have hBh : 0 < B.h := by
    rw [← hB]
    exact sum_h_pos (by intro h; have := congrArg List.length h; rw [List.length_drop, List.length_nil] at this; omega)
      (fun v hv => hpos v (List.mem_of_mem_drop hv)) (fun v hv => hpos v (List.mem_of_mem_drop hv))
  have t1 := tangent (g := A.g) (a := a) hAh
  have t2 := tangent (g := B.g) (a := b) hBh
  -- split both divisions by both
  have s1 := sumOf_filter_add bin (V.take k) q
  have s2 := sumOf_filter_add bin (V.drop k) q
  have hSs : S = (sumOf bin ((V.take k).filter q)).add (sumOf bin ((V.drop k).filter q)) := by
    rw [hS, ← sumOf_append, ← List.filter_append, List.take_append_drop]
  have hTs : T = (sumOf bin ((V.take k).filter (fun v => !q v))).add (sumOf bin ((V.drop k).filter (fun v => !q v))) := by
    rw [hT, ← sumOf_append, ← List.filter_append, List.take_append_drop]
  have hba : 0 < b - a := by linarith
  have m1 := sum_lin_le (bin := bin) (l := (V.drop k).filter q) (a := 2 * a) (b := - (a * a)) (c := 2 * b) (d := -(b * b)) (by
    intro v hv
    have := hout v (List.mem_filter.mp hv).1
    nlinarith)
  have m2 := sum_lin_le (bin := bin) (l := (V.take k).filter (fun v => !q v)) (a := 2 * b) (b := - (b * b)) (c := 2 * a)
    (d := -(a * a)) (by
    intro v hv
    have := hin v (List.mem_filter.mp hv).1
    nlinarith)
  rw [tangent_eq hs.ne', tangent_eq ht.ne', ha, hb]
  rw [hA] at s1
  rw [hB] at s2
  have e1 := congrArg GD.g s1
  have e2 := congrArg GD.h s1
  have e3 := congrArg GD.g s2
  have e4 := congrArg GD.h s2
  have e5 := congrArg GD.g hSs
  have e6 := congrArg GD.h hSs
  have e7 := congrArg GD.g hTs
  have e8 := congrArg GD.h hTs
  simp only [GD.add] at e1 e2 e3 e4 e5 e6 e7 e8
  refine le_trans ?_ (add_le_add t1 t2)
  rw [e5, e6, e7, e8, ← e1, ← e2, ← e3, ← e4]
  nlinarith

end optimal

end Gbdt
