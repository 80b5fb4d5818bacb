import Verif.Lemmas.ExactSplit
import Verif.Lemmas.CatOptimal
import Verif.Props.Partition
import Verif.Props.SplitPoint

/-!
# C29, C30, C32, C62: what a found split does to the samples of a node

Specification (`Verif/Spec/Split.lean`): `sumOf (weighted w grads) l` is the sum of the weighted gradient data of the
samples `l`, `gainOf` the gain of a division.
-/

set_option autoImplicit false
set_option linter.unusedSectionVars false

namespace Gbdt

open Outcome

section histogram
variable {D : Type} [Dbl D]

/-- **C62.** The bin of a feature value is the sum, in the order of the samples, of the weighted gradient data of exactly
the samples that have the value; in any arithmetic. -/
theorem C62_histogram_bins (codes : List Nat) (n : Nat) (w : Nat → D) (grads : List (GD D)) (samples : List Nat)
    (hin : ∀ i ∈ samples, i < grads.length ∧ ∃ c, codes[i]? = some c ∧ c < n) :
    ∃ h, histogramOf codes n w grads samples = ok h ∧ h.length = n ∧
      ∀ k < n, h[k]? = some (sumOf (weighted w grads) (samples.filter (fun i => decide (codes[i]? = some k)))) := by
  obtain ⟨h, hh, hi⟩ := histogramOf_spec (w := w) hin
  exact ⟨h, hh, hi.1, hi.2⟩

/-- **C62 (values that count).** The scan looks at the values whose two sums are both different from zero, in increasing
order of the codes. -/
theorem C62_values_scanned (h : List (GD D)) :
    (nonZeroValues h).Pairwise (· < ·) ∧
    ∀ k, k ∈ nonZeroValues h ↔ ∃ d, h[k]? = some d ∧ Dbl.eqb d.g 0 = false ∧ Dbl.eqb d.h 0 = false := by
  refine ⟨List.Pairwise.filter _ List.pairwise_lt_range, fun k => ?_⟩
  simp only [nonZeroValues, List.mem_filter, List.mem_range]
  constructor
  · rintro ⟨hk, h2⟩
    rw [List.getElem?_eq_getElem hk] at h2
    refine ⟨_, List.getElem?_eq_getElem hk, ?_⟩
    simpa using h2
  · rintro ⟨d, hd, h1, h2⟩
    refine ⟨(List.getElem?_eq_some_iff.mp hd).1, ?_⟩
    rw [hd]
    simp [h1, h2]

example : histogramOf [1, 0, 1] 3 (fun i => if i = 2 then (2 : ℚ) else 1) [⟨1, 1⟩, ⟨5, 2⟩, ⟨-3, 1⟩] [2, 0, 2] =
    ok [⟨0, 0⟩, ⟨-11, 5⟩, ⟨0, 0⟩] ∧
    nonZeroValues ([⟨0, 1⟩, ⟨-11, 5⟩, ⟨1, 0⟩, ⟨2, 2⟩] : List (GD ℚ)) = [1, 3] := by decide +kernel

end histogram

section gain
variable {K : Type} [Field K] [LinearOrder K] {A : Type} [LinearOrder A]

/-- **C29 (float features, partial).** In exact arithmetic of the sums, if the threshold arithmetic separates the buckets and no
feature value has exactly one of its two sums equal to zero, the reported gain of a float split is the gain of the division of the samples that the split makes.  What is
missing: the values with such sums, for which it is false (`C29_refuted`). -/
theorem C29_float_gain_partial {fmax : A} {nb : Nat} {blocks : List (List (Fl A))} {c : BktCol A} [ThrOps A]
    (hf : Fits nb blocks) (hok : BktCol.build fmax nb blocks = ok c) (hthr : ThrSeparates c)
    (hfin : ∀ v, Fl.num v ∈ blocks.flatten → v ≤ fmax) (w : Nat → K) (grads : List (GD K)) (samples : List Nat)
    (cfg : SplitConfig K) (hin : ∀ i ∈ samples, i < blocks.flatten.length ∧ i < grads.length)
    (hz : NoHalfZero c.ints.code (weighted w grads) samples) (s : Split K A)
    (hs : findBestSplit (fun _ l => l) (.bkt c) w grads samples cfg (sumOf (weighted w grads) samples) = ok (some s)) :
    ∃ L R, partition (.bkt c) s samples = ok (L, R) ∧
      s.gain = gainOf cfg.l2Lambda (sumOf (weighted w grads) samples) (sumOf (weighted w grads) L)
        (sumOf (weighted w grads) R) := by
  obtain ⟨codes, wf, hlen⟩ := bktWF_build hf.1 hf.2 hok hfin
  rw [← hlen] at hin
  exact float_gain wf hthr w grads samples cfg hin (binsZero_of_noHalfZero wf.data hz _) hs

/-- **C29 (string features, partial).** The same for categories, whatever `std::sort` does with equal scores. -/
theorem C29_string_gain_partial (blocks : List (List String)) (h : blocks.flatten.length + 1 < 2 ^ 32) [ThrOps A]
    {sort : (Nat → K) → List Nat → List Nat} (hsort : SortSpec sort) (w : Nat → K) (grads : List (GD K))
    (samples : List Nat) (cfg : SplitConfig K) (hin : ∀ i ∈ samples, i < blocks.flatten.length ∧ i < grads.length)
    (hz : NoHalfZero (StrCol.build blocks).ints.code (weighted w grads) samples) (s : Split K A)
    (hs : findBestSplit sort (.str (StrCol.build blocks) : Column A) w grads samples cfg
      (sumOf (weighted w grads) samples) = ok (some s)) :
    ∃ L R, partition (.str (StrCol.build blocks) : Column A) s samples = ok (L, R) ∧
      s.gain = gainOf cfg.l2Lambda (sumOf (weighted w grads) samples) (sumOf (weighted w grads) L)
        (sumOf (weighted w grads) R) := by
  obtain ⟨codes, wf, hlen⟩ := strWF_build blocks h
  rw [← hlen] at hin
  exact string_gain hsort wf w grads samples cfg hin (binsZero_of_noHalfZero wf.data hz _) hs

variable [IsStrictOrderedRing K]

/-- **C30 (partial).** In exact arithmetic, and if no feature value has exactly one of its two sums equal to zero, no
threshold (finite, infinite or NaN) and no direction for missing values gives a division into parts that both pass the
hessian limit and gain more than the split found; if none is found, no such division gains more than 0, `min_gain` and
the tolerance. -/
theorem C30_best_threshold_partial {fmax : A} {nb : Nat} {blocks : List (List (Fl A))} {c : BktCol A} [ThrOps A]
    (hf : Fits nb blocks) (hok : BktCol.build fmax nb blocks = ok c)
    (hfin : ∀ v, Fl.num v ∈ blocks.flatten → v ≤ fmax) (w : Nat → K) (grads : List (GD K)) (samples : List Nat)
    (cfg : SplitConfig K) (hin : ∀ i ∈ samples, i < blocks.flatten.length ∧ i < grads.length)
    (hz : NoHalfZero c.ints.code (weighted w grads) samples) (found : Option (Split K A))
    (hs : findBestSplit (fun _ l => l) (.bkt c) w grads samples cfg (sumOf (weighted w grads) samples) = ok found)
    (f : FloatSplit A) (L R : List Nat)
    (hp : partition (.bkt c) ({ floatSplit := some f, gain := 0 } : Split K A) samples = ok (L, R))
    (hL : cfg.minHessian < (sumOf (weighted w grads) L).h) (hR : cfg.minHessian < (sumOf (weighted w grads) R).h) :
    let gain := gainOf cfg.l2Lambda (sumOf (weighted w grads) samples) (sumOf (weighted w grads) L)
      (sumOf (weighted w grads) R)
    (∀ s, found = some s → gain ≤ s.gain) ∧ (found = none → gain ≤ max 0 (max cfg.minGain cfg.tol)) := by
  intro gain
  obtain ⟨codes, wf, hlen⟩ := bktWF_build hf.1 hf.2 hok hfin
  rw [← hlen] at hin
  have hz' := binsZero_of_noHalfZero wf.data hz c.maxInt
  obtain ⟨R1, hp1, hR1⟩ := partition_float wf ({ floatSplit := some f, gain := 0 } : Split K A) f rfl samples
    (fun i hi => (hin i hi).1)
  rw [hp] at hp1
  simp only [Outcome.ok.injEq, Prod.mk.injEq] at hp1
  obtain ⟨rfl, rfl⟩ := hp1
  have hright := sum_right (x := weighted w grads) hR1
  have hbest := float_best wf (weighted w grads) samples cfg (fun i hi => (hin i hi).1) hz' f rfl hright (lt_min hL hR)
  have hfind := findBestFloatSplit_eq wf w grads samples cfg (sumOf (weighted w grads) samples) hin
  dsimp only at hfind
  change findBestFloatSplit c w grads samples cfg (sumOf (weighted w grads) samples) = ok found at hs
  have hinv := findBestSplitPoint_inv cfg (sumOf (weighted w grads) samples) (missingOf codes (weighted w grads) samples)
    ((valuesOf codes c.maxInt (weighted w grads) samples).map (binOf codes (weighted w grads) samples))
  constructor
  · rintro s rfl
    rcases hfind with ⟨_, h⟩ | ⟨p, lc, rc, t, hp, _, _, _, h⟩
    · rw [hs] at h; cases h
    rw [hs] at h
    cases h
    obtain ⟨_, h2, h3⟩ := C28_best_candidate cfg _ _ _ p hp
    rcases hbest with h0 | ⟨k, b, l', r', hc⟩
    · change gain = 0 at h0
      rw [h0]
      exact le_of_lt (by simpa using h2)
    · have := h3 k b l' r' _ hc (fun _ _ _ _ => by simp)
      simpa using this
  · rintro rfl
    rcases hfind with ⟨hn, _⟩ | ⟨p, lc, rc, t, _, _, _, _, h⟩
    · rcases hbest with h0 | ⟨k, b, l', r', hc⟩
      · change gain = 0 at h0
        rw [h0]
        exact le_max_left _ _
      · have := (C28_none cfg _ _ _ hn).2 k b l' r' _ hc (fun _ _ _ _ => by simp)
        change ¬ (Dbl.ltb 0 gain = true ∧ Dbl.ltb cfg.minGain gain = true ∧ Dbl.ltb cfg.tol gain = true) at this
        simp only [exact_ltb, decide_eq_true_eq, not_and, not_lt] at this
        by_contra hcon
        rw [not_le, max_lt_iff, max_lt_iff] at hcon
        exact absurd (this hcon.1 hcon.2.1) (not_le.mpr hcon.2.2)
    · rw [hs] at h; cases h

end gain

section nonempty
variable {D : Type} [Dbl D] [FpOrder D] {A : Type} [LinearOrder A] [ThrOps A]

/-- **C32 (float features).** Both sides of a found split get a sample, provided the threshold arithmetic separates the buckets and
`min_hessian` is not negative (`(0 + x) - x` is 0 or NaN); in any arithmetic of the sums. -/
theorem C32_float_children_nonempty {fmax : A} {nb : Nat} {blocks : List (List (Fl A))} {c : BktCol A}
    (hf : Fits nb blocks) (hok : BktCol.build fmax nb blocks = ok c) (hthr : ThrSeparates c)
    (hfin : ∀ v, Fl.num v ∈ blocks.flatten → v ≤ fmax) (w : Nat → D) (grads : List (GD D)) (samples : List Nat)
    (cfg : SplitConfig D) (total : GD D) (hin : ∀ i ∈ samples, i < blocks.flatten.length ∧ i < grads.length)
    (hmh : ∀ x : D, Dbl.ltb cfg.minHessian ((0 + x) - x) = false) (s : Split D A)
    (hs : findBestSplit (fun _ l => l) (.bkt c) w grads samples cfg total = ok (some s)) :
    ∃ L R, partition (.bkt c) s samples = ok (L, R) ∧ L ≠ [] ∧ R ≠ [] := by
  obtain ⟨codes, wf, hlen⟩ := bktWF_build hf.1 hf.2 hok hfin
  rw [← hlen] at hin
  change findBestFloatSplit c w grads samples cfg total = ok (some s) at hs
  have hfind := findBestFloatSplit_eq wf w grads samples cfg total hin
  dsimp only at hfind
  rcases hfind with ⟨_, h⟩ | ⟨p, lc, rc, t, hp, e1, e2, ht, h⟩
  · rw [hs] at h; cases h
  rw [hs] at h
  cases h
  generalize weighted w grads = x at *
  generalize hsp : findBestSplitPoint cfg total (missingOf codes x samples)
    ((valuesOf codes c.maxInt x samples).map (binOf codes x samples)) = sp at *
  obtain ⟨R, hpart, hR⟩ := partition_float wf
    ({ gain := sp.gain, floatSplit := some ⟨t, sp.missingOnRight⟩ } : Split D A) _ rfl samples (fun i hi => (hin i hi).1)
  refine ⟨_, R, hpart, ?_, ?_⟩
  · have hocc : ∀ v ∈ valuesOf codes c.maxInt x samples, v ∈ codes := fun v hv => (values_occur hv).2
    obtain ⟨hA, _⟩ := codeLeft_values wf hthr (values_sorted codes c.maxInt x samples) hocc (b := sp.missingOnRight) e1 e2 ht
    have hmem : lc ∈ (valuesOf codes c.maxInt x samples).take (p + 1) := by
      refine List.mem_of_getElem? (i := p) ?_
      rw [List.getElem?_take_of_lt (Nat.lt_succ_self p)]
      exact e1
    have hgo : codeLeft c ⟨t, sp.missingOnRight⟩ lc = true := by
      rw [hA lc hmem]
      by_cases h0 : lc = 0
      · rw [if_pos h0]
        cases hb : sp.missingOnRight with
        | false => rfl
        | true =>
          exfalso
          have hinv := findBestSplitPoint_inv cfg total (missingOf codes x samples)
            ((valuesOf codes c.maxInt x samples).map (binOf codes x samples))
          rw [hsp] at hinv
          obtain ⟨⟨l, r, hc⟩, _⟩ := hinv.some p hp
          have hp0 : p = 0 := by
            by_contra hne
            have h0lt : 0 < (valuesOf codes c.maxInt x samples).length := by
              have := (List.getElem?_eq_some_iff.mp e1).1; omega
            have := pairwise_get_lt (values_sorted codes c.maxInt x samples) (Nat.pos_of_ne_zero hne)
              (List.getElem?_eq_getElem h0lt) e1
            omega
          subst hp0 h0
          rw [hb] at hc
          obtain ⟨m, hm, hl, _⟩ := candidate_true hc
          have hm' : m = binOf codes x samples 0 := by
            unfold missingOf at hm
            split at hm
            · exact (Option.some.inj hm).symm
            · cases hm
          have h1 := (C28_hessian_limit cfg total _ _ _ _ l r _ hc).1
          have hpre : prefixSum ((valuesOf codes c.maxInt x samples).map (binOf codes x samples)) (0 + 1) =
              GD.zero.add (binOf codes x samples 0) := by
            cases hv : valuesOf codes c.maxInt x samples with
            | nil => rw [hv] at e1; cases e1
            | cons a rest =>
              rw [hv] at e1
              simp only [List.getElem?_cons_zero, Option.some.injEq] at e1
              subst e1
              simp [prefixSum]
          rw [hl, hpre, hm'] at h1
          have := hmh (binOf codes x samples 0).h
          simp only [GD.sub, GD.add, GD.zero] at h1
          rw [this] at h1
          cases h1
      · rw [if_neg h0]
    obtain ⟨⟨i, hi, hk⟩, _⟩ := values_occur (List.mem_of_getElem? e1)
    intro hnil
    have : i ∈ samples.filter (rowLeft codes (codeLeft c ⟨t, sp.missingOnRight⟩)) := by
      rw [List.mem_filter]
      exact ⟨hi, by rw [rowLeft, hk]; exact hgo⟩
    rw [hnil] at this
    cases this
  · have hocc : ∀ v ∈ valuesOf codes c.maxInt x samples, v ∈ codes := fun v hv => (values_occur hv).2
    obtain ⟨_, hB⟩ := codeLeft_values wf hthr (values_sorted codes c.maxInt x samples) hocc (b := sp.missingOnRight) e1 e2 ht
    have hmem : rc ∈ (valuesOf codes c.maxInt x samples).drop (p + 1) := by
      refine List.mem_of_getElem? (i := 0) ?_
      rw [List.getElem?_drop]
      simpa using e2
    obtain ⟨⟨i, hi, hk⟩, _⟩ := values_occur (List.mem_of_getElem? e2)
    intro hnil
    have : i ∈ R := by
      rw [hR.mem_iff, List.mem_filter]
      refine ⟨hi, ?_⟩
      simp only [rowLeft, hk]
      rw [hB rc hmem]
      rfl
    rw [hnil] at this
    cases this

/-- **C32 (string features).** Both sides of a found categorical split get a sample, in any arithmetic. -/
theorem C32_string_children_nonempty (blocks : List (List String)) (h : blocks.flatten.length + 1 < 2 ^ 32)
    {sort : (Nat → D) → List Nat → List Nat} (hsort : SortSpec sort) (w : Nat → D) (grads : List (GD D))
    (samples : List Nat) (cfg : SplitConfig D) (total : GD D)
    (hin : ∀ i ∈ samples, i < blocks.flatten.length ∧ i < grads.length) (s : Split D A)
    (hs : findBestSplit sort (.str (StrCol.build blocks) : Column A) w grads samples cfg total = ok (some s)) :
    ∃ L R, partition (.str (StrCol.build blocks) : Column A) s samples = ok (L, R) ∧ L ≠ [] ∧ R ≠ [] := by
  obtain ⟨codes, wf, hlen⟩ := strWF_build blocks h
  generalize StrCol.build blocks = c at *
  rw [← hlen] at hin
  change findBestStringSplit sort c w grads samples cfg total = ok (some s) at hs
  obtain ⟨values, hperm, _, hfind⟩ := findBestStringSplit_eq (A := A) hsort wf w grads samples cfg total hin
  dsimp only at hfind
  rcases hfind with ⟨_, h⟩ | ⟨p, hp, hlen, h⟩
  · rw [hs] at h; cases h
  rw [hs] at h
  cases h
  generalize weighted w grads = x at *
  generalize hset : (if p + 1 ≤ values.length - p - 1 then values.take (p + 1) else values.drop (p + 1)) = set at *
  have hnd : values.Nodup := hperm.nodup_iff.mpr
    ((values_sorted codes c.maxInt x samples).imp (fun h => Nat.ne_of_lt h))
  have hne : set.length > 0 := by
    rw [← hset]; split
    · rw [List.length_take]; omega
    · rw [List.length_drop]; omega
  have hcs : categorySet c { category := [], index := set } = set := by
    rw [categorySet, if_pos hne]
  obtain ⟨R, hpart, hR⟩ := partition_string (A := A) wf
    ({ gain := (findBestSplitPoint cfg total none (values.map (binOf codes x samples))).gain,
       catSplit := some { category := [], index := set } } : Split D A) _ rfl samples
    (fun i hi => (hin i hi).1)
  rw [hcs] at hpart hR
  have hoc : ∀ v ∈ values, ∃ i ∈ samples, codes[i]? = some v := fun v hv =>
    (values_occur (hperm.mem_iff.mp hv)).1
  -- a value in the set and one outside
  have hboth : (∃ a ∈ values, a ∈ set) ∧ ∃ b ∈ values, b ∉ set := by
    have hdisj := List.disjoint_take_drop hnd (Nat.le_refl (p + 1))
    have ht : ∃ a, a ∈ values.take (p + 1) := List.exists_mem_of_length_pos (by rw [List.length_take]; omega)
    have hd : ∃ a, a ∈ values.drop (p + 1) := List.exists_mem_of_length_pos (by rw [List.length_drop]; omega)
    obtain ⟨a, ha⟩ := ht
    obtain ⟨b, hb⟩ := hd
    rw [← hset]
    split
    · exact ⟨⟨a, List.mem_of_mem_take ha, ha⟩, b, List.mem_of_mem_drop hb, fun h => hdisj h hb⟩
    · exact ⟨⟨b, List.mem_of_mem_drop hb, hb⟩, a, List.mem_of_mem_take ha, fun h => hdisj ha h⟩
  obtain ⟨⟨a, hav, has⟩, b, hbv, hbs⟩ := hboth
  obtain ⟨i, hi, hia⟩ := hoc a hav
  obtain ⟨j, hj, hjb⟩ := hoc b hbv
  refine ⟨_, R, hpart, ?_, ?_⟩
  · intro hnil
    have : i ∈ samples.filter (rowLeft codes (fun k => set.contains k)) := by
      rw [List.mem_filter]
      refine ⟨hi, ?_⟩
      simp only [rowLeft, hia]
      simpa using has
    rw [hnil] at this
    cases this
  · intro hnil
    have : j ∈ R := by
      rw [hR.mem_iff, List.mem_filter]
      refine ⟨hj, ?_⟩
      simp only [rowLeft, hjb]
      simpa using hbs
    rw [hnil] at this
    cases this

end nonempty

end Gbdt
