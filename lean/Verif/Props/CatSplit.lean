import Verif.Props.SplitWitness
import Mathlib.Data.List.Sort

/-!
# C31: the categorical split against all subsets of categories
-/

set_option autoImplicit false
set_option linter.unusedSectionVars false

namespace Gbdt

open Outcome

variable {K : Type} [Field K] [LinearOrder K] [IsStrictOrderedRing K] {A : Type} [LinearOrder A] [ThrOps A]

/-- **C31 (partial).** In exact arithmetic, with `l2_lambda = 0`, no subset of categories (given by names or by indices)
divides the samples into two non-empty parts and gains more than the split found; if none is found, no subset gains more
than 0, `min_gain` and the tolerance.  Conditions: every category that has samples has a hessian above 0 and above
`min_hessian`, and a gradient other than 0.  Missing: `l2_lambda > 0`, where the claim is false (`C31_refuted`). -/
theorem C31_best_subset_partial (blocks : List (List String)) (h : blocks.flatten.length + 1 < 2 ^ 32)
    {sort : (Nat → K) → List Nat → List Nat} (hsort : SortSpec sort) (w : Nat → K) (grads : List (GD K))
    (samples : List Nat) (cfg : SplitConfig K) (hlambda : cfg.l2Lambda = 0)
    (hin : ∀ i ∈ samples, i < blocks.flatten.length ∧ i < grads.length)
    (hz : NoHalfZero (StrCol.build blocks).ints.code (weighted w grads) samples)
    (hh : ∀ i ∈ samples, ∀ k, (StrCol.build blocks).ints.code i = ok k →
      let d := sumOf (weighted w grads) (samples.filter (fun i => decide ((StrCol.build blocks).ints.code i = ok k)))
      0 < d.h ∧ cfg.minHessian < d.h)
    (found : Option (Split K A))
    (hs : findBestSplit sort (.str (StrCol.build blocks) : Column A) w grads samples cfg
      (sumOf (weighted w grads) samples) = ok found)
    (cs : CatSplit) (L R : List Nat)
    (hp : partition (.str (StrCol.build blocks) : Column A) ({ catSplit := some cs, gain := 0 } : Split K A) samples
      = ok (L, R))
    (hne : L ≠ [] ∧ R ≠ []) :
    let gain := gainOf cfg.l2Lambda (sumOf (weighted w grads) samples) (sumOf (weighted w grads) L)
      (sumOf (weighted w grads) R)
    (∀ s, found = some s → gain ≤ s.gain) ∧ (found = none → gain ≤ max 0 (max cfg.minGain cfg.tol)) := by
  intro gain
  have hgain : gain = gainOf cfg.l2Lambda (sumOf (weighted w grads) samples) (sumOf (weighted w grads) L)
      (sumOf (weighted w grads) R) := rfl
  clear_value gain
  obtain ⟨codes, wf, hlen⟩ := strWF_build blocks h
  generalize StrCol.build blocks = c at *
  rw [← hlen] at hin
  have hin' : ∀ i ∈ samples, ∃ k, codes[i]? = some k ∧ k < c.maxInt := fun i hi =>
    ⟨_, List.getElem?_eq_getElem (hin i hi).1, wf.lt _ (List.getElem_mem _)⟩
  have hz' := binsZero_of_noHalfZero wf.data hz c.maxInt
  change findBestStringSplit sort c w grads samples cfg (sumOf (weighted w grads) samples) = ok found at hs
  obtain ⟨values, hperm, hord, hfind⟩ := findBestStringSplit_eq (A := A) hsort wf w grads samples cfg
    (sumOf (weighted w grads) samples) hin
  dsimp only at hfind
  obtain ⟨R1, hp1, hR1⟩ := partition_string (A := A) wf ({ catSplit := some cs, gain := 0 } : Split K A) cs rfl samples
    (fun i hi => (hin i hi).1)
  rw [hp] at hp1
  simp only [Outcome.ok.injEq, Prod.mk.injEq] at hp1
  obtain ⟨rfl, rfl⟩ := hp1
  generalize hx : weighted w grads = x at *
  generalize hq : (fun k => (categorySet c cs).contains k) = q at *
  have hbinh : ∀ v ∈ values, 0 < (binOf codes x samples v).h ∧ cfg.minHessian < (binOf codes x samples v).h := by
    intro v hv
    obtain ⟨⟨i, hi, hk⟩, _⟩ := values_occur (hperm.mem_iff.mp hv)
    have := hh i hi v ((code_iff wf.data i v).mpr hk)
    dsimp only at this
    have hb : binOf codes x samples v = sumOf x (samples.filter (fun i => decide (c.ints.code i = .ok v))) := by
      rw [binOf, samplesWith]
      congr 1
      apply List.filter_congr
      intro i _
      rw [decide_eq_decide]
      exact (code_iff wf.data i v).symm
    rwa [hb]
  have hsorted : values.Pairwise (fun a b => (binOf codes x samples a).g / (binOf codes x samples a).h ≤
      (binOf codes x samples b).g / (binOf codes x samples b).h) := by
    refine List.Pairwise.imp_of_mem ?_ hord
    intro a b ha hb hab
    have h1 := (hbinh a ha).1.ne'
    have h2 := (hbinh b hb).1.ne'
    simpa [GD.score, hlambda, h1, h2] using hab
  -- the two parts in terms of the values
  have hLv : sumOf x (samples.filter (rowLeft codes q)) = sumOf (binOf codes x samples) (values.filter q) := by
    rw [sum_values hz' hin']
    exact sumOf_perm _ (hperm.symm.filter _)
  have hRv : sumOf x R = sumOf (binOf codes x samples) (values.filter (fun v => !q v)) := by
    have e : samples.filter (fun i => !rowLeft codes q i) = samples.filter (rowLeft codes (fun v => !q v)) := by
      apply List.filter_congr
      intro i hi
      obtain ⟨k, hk, _⟩ := hin' i hi
      simp [rowLeft, hk]
    rw [sumOf_perm x hR1, e, sum_values hz' hin']
    exact sumOf_perm _ (hperm.symm.filter _)
  have hall : sumOf x samples = sumOf (binOf codes x samples) values := by
    rw [sum_all_values hz' hin']
    exact sumOf_perm _ hperm.symm
  -- every code that occurs is a value
  have hval : ∀ i ∈ samples, ∀ k, codes[i]? = some k → k ∈ values := by
    intro i hi k hk
    rw [hperm.mem_iff, mem_values]
    have hlt : k < c.maxInt := wf.lt k (List.mem_of_getElem? hk)
    refine ⟨hlt, ?_⟩
    by_contra hcon
    have h0 := hz' k hlt (Bool.eq_false_iff.mpr hcon)
    have h1 := hh i hi k ((code_iff wf.data i k).mpr hk)
    dsimp only at h1
    have hb : binOf codes x samples k = sumOf x (samples.filter (fun i => decide (c.ints.code i = .ok k))) := by
      rw [binOf, samplesWith]
      congr 1
      apply List.filter_congr
      intro i _
      rw [decide_eq_decide]
      exact (code_iff wf.data i k).symm
    rw [← hb, h0] at h1
    exact absurd h1.1 (lt_irrefl _)
  have hneL : values.filter q ≠ [] := by
    obtain ⟨i, hi⟩ := List.exists_mem_of_ne_nil _ hne.1
    rw [List.mem_filter] at hi
    obtain ⟨k, hk, _⟩ := hin' i hi.1
    have hqk : q k = true := by simpa [rowLeft, hk] using hi.2
    exact List.ne_nil_of_mem (List.mem_filter.mpr ⟨hval i hi.1 k hk, hqk⟩)
  have hneR : values.filter (fun v => !q v) ≠ [] := by
    obtain ⟨i, hi⟩ := List.exists_mem_of_ne_nil _ hne.2
    rw [hR1.mem_iff, List.mem_filter] at hi
    obtain ⟨k, hk, _⟩ := hin' i hi.1
    have hqk : (!q k) = true := by simpa [rowLeft, hk] using hi.2
    exact List.ne_nil_of_mem (List.mem_filter.mpr ⟨hval i hi.1 k hk, hqk⟩)
  have hLpos : 0 < (sumOf (binOf codes x samples) (values.filter q)).h :=
    sum_h_pos hneL (fun v hv => (hbinh v (List.mem_filter.mp hv).1).1) (fun v hv => (hbinh v (List.mem_filter.mp hv).1).1)
  have hRpos : 0 < (sumOf (binOf codes x samples) (values.filter (fun v => !q v))).h :=
    sum_h_pos hneR (fun v hv => (hbinh v (List.mem_filter.mp hv).1).1) (fun v hv => (hbinh v (List.mem_filter.mp hv).1).1)
  have henergy : ∀ d : GD K, 0 < d.h → d.energy cfg.l2Lambda = d.g * d.g / d.h := by
    intro d hd
    simp [GD.energy, hlambda, hd.ne']
  -- a prefix that is at least as good, or a gain of 0
  have key : gain ≤ 0 ∨ ∃ k l r g, Candidate cfg (sumOf x samples) none (values.map (binOf codes x samples)) k false l r g ∧
      gain ≤ g := by
    have hcand : ∀ k, 1 ≤ k → k < values.length →
        (sumOf (binOf codes x samples) (values.filter q)).g * (sumOf (binOf codes x samples) (values.filter q)).g /
            (sumOf (binOf codes x samples) (values.filter q)).h +
          (sumOf (binOf codes x samples) (values.filter (fun v => !q v))).g *
            (sumOf (binOf codes x samples) (values.filter (fun v => !q v))).g /
            (sumOf (binOf codes x samples) (values.filter (fun v => !q v))).h ≤
        (sumOf (binOf codes x samples) (values.take k)).g * (sumOf (binOf codes x samples) (values.take k)).g /
            (sumOf (binOf codes x samples) (values.take k)).h +
          (sumOf (binOf codes x samples) (values.drop k)).g * (sumOf (binOf codes x samples) (values.drop k)).g /
            (sumOf (binOf codes x samples) (values.drop k)).h →
        ∃ k l r g, Candidate cfg (sumOf x samples) none (values.map (binOf codes x samples)) k false l r g ∧
          gain ≤ g := by
      intro k hk1 hk2 hle
      have hnt : values.take k ≠ [] := by
        intro h; have := congrArg List.length h; rw [List.length_take, List.length_nil] at this; omega
      have hnd : values.drop k ≠ [] := by
        intro h; have := congrArg List.length h; rw [List.length_drop, List.length_nil] at this; omega
      have p1 := sum_h_pos hnt (fun v hv => (hbinh v (List.mem_of_mem_take hv)).1)
        (fun v hv => (hbinh v (List.mem_of_mem_take hv)).1)
      have p2 := sum_h_pos hnt (fun v hv => (hbinh v (List.mem_of_mem_take hv)).1)
        (fun v hv => (hbinh v (List.mem_of_mem_take hv)).2)
      have p3 := sum_h_pos hnd (fun v hv => (hbinh v (List.mem_of_mem_drop hv)).1)
        (fun v hv => (hbinh v (List.mem_of_mem_drop hv)).1)
      have p4 := sum_h_pos hnd (fun v hv => (hbinh v (List.mem_of_mem_drop hv)).1)
        (fun v hv => (hbinh v (List.mem_of_mem_drop hv)).2)
      have hr : (sumOf x samples).sub (sumOf (binOf codes x samples) (values.take k)) =
          sumOf (binOf codes x samples) (values.drop k) := by
        rw [hall, ← prefix_add_drop _ values k, GD.add_sub_cancel']
      refine ⟨k, sumOf (binOf codes x samples) (values.take k), sumOf (binOf codes x samples) (values.drop k), _,
        ⟨hk1, by rw [List.length_map]; exact hk2, ?_, ?_, rfl⟩, ?_⟩
      · simp only [cutSides, Bool.false_eq_true, if_false, prefixSum_map, hr]
      · rw [exact_min]; simpa using ⟨p2, p4⟩
      · rw [hgain]
        simp only [gainOf]
        rw [hLv, hRv, henergy _ hLpos, henergy _ hRpos, henergy _ p1, henergy _ p3]
        linarith
    rcases lt_trichotomy
      ((sumOf (binOf codes x samples) (values.filter q)).g / (sumOf (binOf codes x samples) (values.filter q)).h)
      ((sumOf (binOf codes x samples) (values.filter (fun v => !q v))).g /
        (sumOf (binOf codes x samples) (values.filter (fun v => !q v))).h) with hlt | heq | hgt
    · obtain ⟨k, hk1, hk2, hle⟩ := prefix_beats (fun v hv => (hbinh v hv).1) hsorted q rfl rfl hLpos hRpos hlt
      exact Or.inr (hcand k hk1 hk2 hle)
    · left
      have hsum : sumOf x samples = (sumOf (binOf codes x samples) (values.filter q)).add
          (sumOf (binOf codes x samples) (values.filter (fun v => !q v))) := by
        rw [hall, sumOf_filter_add]
      have hpos : 0 < (sumOf x samples).h := by rw [hsum]; exact add_pos hLpos hRpos
      rw [hgain]
      simp only [gainOf]
      rw [henergy _ hpos, hLv, hRv, henergy _ hLpos, henergy _ hRpos, hsum]
      simp only [GD.add]
      generalize sumOf (binOf codes x samples) (values.filter q) = S at *
      generalize sumOf (binOf codes x samples) (values.filter (fun v => !q v)) = T at *
      have hT : T.g = S.g / S.h * T.h := by rw [heq]; field_simp
      have hS : S.g = S.g / S.h * S.h := by field_simp
      generalize S.g / S.h = a at *
      rw [hT, hS]
      have h1 : S.h + T.h ≠ 0 := (add_pos hLpos hRpos).ne'
      have h2 := hLpos.ne'
      have h3 := hRpos.ne'
      apply le_of_eq
      field_simp
      ring
    · have hsw := prefix_beats (fun v hv => (hbinh v hv).1) hsorted (fun v => !q v) rfl
        (T := sumOf (binOf codes x samples) (values.filter q)) (by simp) hRpos hLpos hgt
      obtain ⟨k, hk1, hk2, hle⟩ := hsw
      exact Or.inr (hcand k hk1 hk2 (by rw [add_comm]; exact hle))
  constructor
  · rintro s rfl
    rcases hfind with ⟨_, h⟩ | ⟨p, hp, _, h⟩
    · rw [hs] at h; cases h
    rw [hs] at h
    cases h
    obtain ⟨_, h2, h3⟩ := C28_best_candidate cfg _ _ _ p hp
    rcases key with h0 | ⟨k, l', r', g, hc, hg⟩
    · exact h0.trans (le_of_lt (by simpa using h2))
    · have := h3 k false l' r' _ hc (fun _ _ _ _ => by simp)
      exact hg.trans (by simpa using this)
  · rintro rfl
    rcases hfind with ⟨hn, _⟩ | ⟨p, _, _, h⟩
    · rcases key with h0 | ⟨k, l', r', g, hc, hg⟩
      · exact h0.trans (le_max_left _ _)
      · have := (C28_none cfg _ _ _ hn).2 k false l' r' g hc (fun _ _ _ _ => by simp)
        simp only [exact_ltb, decide_eq_true_eq, not_and, not_lt] at this
        refine hg.trans ?_
        by_contra hcon
        rw [not_le, max_lt_iff, max_lt_iff] at hcon
        exact absurd (this hcon.1 hcon.2.1) (not_le.mpr hcon.2.2)
    · rw [hs] at h; cases h

/-- A sort by rational keys. -/
def ratSort (key : Nat → ℚ) (l : List Nat) : List Nat := l.insertionSort (fun a b => key a ≤ key b)

theorem ratSort_spec : SortSpec ratSort := by
  intro key l
  refine ⟨List.perm_insertionSort _ _, ?_⟩
  have : Std.Total (fun a b => key a ≤ key b) := ⟨fun a b => le_total (key a) (key b)⟩
  have : IsTrans Nat (fun a b => key a ≤ key b) := ⟨fun a b c h1 h2 => le_trans h1 h2⟩
  refine (List.pairwise_insertionSort (fun a b => key a ≤ key b) l).imp ?_
  intro a b hab
  simpa using hab

/-- **C31, in full**: for any `l2_lambda` that is not negative, samples of weight 1 with positive hessians and gradients
of one sign (so that no sum is zero), `min_hessian` 0. -/
def C31_full : Prop :=
  ∀ (blocks : List (List String)), blocks.flatten.length + 1 < 2 ^ 32 →
    ∀ (grads : List (GD ℚ)) (samples : List Nat) (cfg : SplitConfig ℚ) (s : Split ℚ ℚ) (cs : CatSplit) (L R : List Nat),
      0 ≤ cfg.l2Lambda → cfg.minHessian = 0 →
      (∀ i ∈ samples, i < blocks.flatten.length ∧ i < grads.length) → (∀ d ∈ grads, d.g < 0 ∧ 0 < d.h) →
      findBestSplit ratSort (.str (StrCol.build blocks) : Column ℚ) (fun _ => (1 : ℚ)) grads samples cfg
        (sumOf (weighted (fun _ => 1) grads) samples) = ok (some s) →
      partition (.str (StrCol.build blocks) : Column ℚ) ({ catSplit := some cs, gain := 0 } : Split ℚ ℚ) samples
        = ok (L, R) →
      gainOf cfg.l2Lambda (sumOf (weighted (fun _ => 1) grads) samples)
          (sumOf (weighted (fun _ => 1) grads) L) (sumOf (weighted (fun _ => 1) grads) R) ≤ s.gain

/-- Three categories, one sample each. -/
def catCol : List (List String) := [["a", "b", "c"]]

/-- Gradients refuting C31. -/
def catGrads : List (GD ℚ) := [⟨-8, 1⟩, ⟨-8, 4⟩, ⟨-3, 1⟩]

/-- `l2_lambda` 1 and no limits. -/
def lambdaCfg : SplitConfig ℚ := { freeCfg with l2Lambda := 1 }

/-- **C31 is false in full**: with `l2_lambda` 1 the order by score is a, b, c; the best cut in that order gains 25/42,
but separating b from a and c gains 164/105. -/
theorem C31_refuted : ¬ C31_full := by
  intro h
  have hfind : findBestSplit ratSort (.str (StrCol.build catCol) : Column ℚ) (fun _ => (1 : ℚ)) catGrads [0, 1, 2] lambdaCfg
      (sumOf (weighted (fun _ => 1) catGrads) [0, 1, 2]) =
      ok (some { catSplit := some { index := [1] }, gain := 25 / 42 }) := by decide +kernel
  have hpart : partition (.str (StrCol.build catCol) : Column ℚ)
      ({ catSplit := some { category := ["b"] }, gain := 0 } : Split ℚ ℚ) [0, 1, 2] = ok ([1], [0, 2]) := by
    decide +kernel
  have := h catCol (by decide) catGrads [0, 1, 2] lambdaCfg _ _ _ _ (by decide +kernel) (by decide +kernel) (by decide)
    (by decide +kernel) hfind hpart
  have hgain : gainOf lambdaCfg.l2Lambda (sumOf (weighted (fun _ => 1) catGrads) [0, 1, 2])
      (sumOf (weighted (fun _ => 1) catGrads) [1]) (sumOf (weighted (fun _ => 1) catGrads) [0, 2]) = 164 / 105 := by
    decide +kernel
  rw [hgain] at this
  norm_num at this

/-- A case for C29, C31 and C32 on categories (b a __missing__ b c): the set found holds two categories. -/
def catGrads2 : List (GD ℚ) := [⟨2, 1⟩, ⟨-4, 1⟩, ⟨-3, 2⟩, ⟨1, 1⟩, ⟨5, 2⟩]

/-- With `l2_lambda` 0: scores are -3/2 for __missing__, 3/2 for b, -4 for a and 5/2 for c, so the set is a and
__missing__ (codes 2 and 0). -/
example : findBestSplit ratSort (.str (StrCol.build sampleBlocks) : Column ℚ) (fun _ => (1 : ℚ)) catGrads2 [0, 1, 2, 3, 4] freeCfg
      (sumOf (weighted (fun _ => 1) catGrads2) [0, 1, 2, 3, 4]) =
      ok (some { catSplit := some { index := [2, 0] }, gain := 49 / 3 + 64 / 4 - 1 / 7 }) ∧
    sampleBlocks.flatten.length + 1 < 2 ^ 32 ∧ freeCfg.l2Lambda = 0 ∧
    (StrCol.build sampleBlocks).ints.data = ok [1, 2, 0, 1, 3] := by decide +kernel

/-- The conditions on the categories in C29 and C31 hold in that case. -/
example : NoHalfZero (StrCol.build sampleBlocks).ints.code (weighted (fun _ => (1 : ℚ)) catGrads2) [0, 1, 2, 3, 4] ∧
    ∀ i ∈ [0, 1, 2, 3, 4], ∀ k, (StrCol.build sampleBlocks).ints.code i = ok k →
      let d := sumOf (weighted (fun _ => (1 : ℚ)) catGrads2)
        ([0, 1, 2, 3, 4].filter (fun i => decide ((StrCol.build sampleBlocks).ints.code i = ok k)))
      0 < d.h ∧ freeCfg.minHessian < d.h := by
  have hcode : ∀ i ∈ [0, 1, 2, 3, 4], ∀ k, (StrCol.build sampleBlocks).ints.code i = ok k → k < 4 := by
    have : ∀ i ∈ [0, 1, 2, 3, 4], ∃ k < 4, (StrCol.build sampleBlocks).ints.code i = ok k := by decide +kernel
    intro i hi k hk
    obtain ⟨k', hk', h'⟩ := this i hi
    rw [hk] at h'
    cases h'
    exact hk'
  constructor
  · intro k
    by_cases hk : k < 4
    · have : ∀ k < 4, (sumOf (weighted (fun _ => (1 : ℚ)) catGrads2)
          ([0, 1, 2, 3, 4].filter (fun i => decide ((StrCol.build sampleBlocks).ints.code i = .ok k)))).g = 0 ↔
        (sumOf (weighted (fun _ => (1 : ℚ)) catGrads2)
          ([0, 1, 2, 3, 4].filter (fun i => decide ((StrCol.build sampleBlocks).ints.code i = .ok k)))).h = 0 := by
        decide +kernel
      exact this k hk
    · have : [0, 1, 2, 3, 4].filter (fun i => decide ((StrCol.build sampleBlocks).ints.code i = .ok k)) = [] := by
        rw [List.filter_eq_nil_iff]
        intro i hi hd
        exact hk (hcode i hi k (by simpa using hd))
      rw [this]
      decide +kernel
  · intro i hi k hk
    have : ∀ k < 4, 0 < (sumOf (weighted (fun _ => (1 : ℚ)) catGrads2)
        ([0, 1, 2, 3, 4].filter (fun i => decide ((StrCol.build sampleBlocks).ints.code i = .ok k)))).h := by
      decide +kernel
    exact ⟨this k (hcode i hi k hk), this k (hcode i hi k hk)⟩

end Gbdt
