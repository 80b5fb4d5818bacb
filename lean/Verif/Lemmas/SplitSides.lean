import Verif.Lemmas.CatOptimal
import Verif.Lemmas.FeatureOrder
import Verif.Props.Importance
import Verif.Spec.Limits

/-!
# The sides of the splits of a tree
-/

set_option autoImplicit false
set_option linter.unusedSectionVars false

namespace Gbdt
open Outcome

section sides
variable {K : Type} [Field K] [LinearOrder K] {A : Type} [LinearOrder A]

theorem min_limit {m a b : K} (h : Dbl.ltb m (Dbl.min a b) = true) : m < a ∧ m < b := by
  simp only [exact_ltb, decide_eq_true_eq, Dbl.min] at h
  split at h
  · next h1 => exact ⟨h.trans h1, h⟩
  · next h1 => exact ⟨h, h.trans_le (not_lt.mp h1)⟩

/-- What a float split does. -/
theorem float_sides [ThrOps A] {c : BktCol A} {codes : List Nat} (wf : BktWF c codes) (hthr : ThrSeparates c) (w : Nat → K)
    (grads : List (GD K)) (samples : List Nat) (cfg : SplitConfig K)
    (hin : ∀ i ∈ samples, i < codes.length ∧ i < grads.length)
    (hz : BinsZero codes c.maxInt (weighted w grads) samples) {s s' : Split K A}
    (hs : findBestFloatSplit c w grads samples cfg (sumOf (weighted w grads) samples) = ok (some s)) (hf : s'.floatSplit = s.floatSplit) :
    ∃ L R, partition (.bkt c) s' samples = ok (L, R) ∧ s.gain = gainOf cfg.l2Lambda (sumOf (weighted w grads) samples)
      (sumOf (weighted w grads) L) (sumOf (weighted w grads) R) ∧
      cfg.minHessian < (sumOf (weighted w grads) L).h ∧ cfg.minHessian < (sumOf (weighted w grads) R).h := by
  have hin' : ∀ i ∈ samples, ∃ k, codes[i]? = some k ∧ k < c.maxInt := fun i hi =>
    ⟨_, List.getElem?_eq_getElem (hin i hi).1, wf.lt _ (List.getElem_mem _)⟩
  have hfind := findBestFloatSplit_eq wf w grads samples cfg (sumOf (weighted w grads) samples) hin
  dsimp only at hfind
  generalize hx : weighted w grads = x at *
  rcases hfind with ⟨_, h⟩ | ⟨p, lc, rc, t, hp, e1, e2, ht, h⟩
  · rw [hs] at h; cases h
  rw [hs] at h
  cases h
  generalize hsp : findBestSplitPoint cfg (sumOf x samples) (missingOf codes x samples)
    ((valuesOf codes c.maxInt x samples).map (binOf codes x samples)) = sp at *
  obtain ⟨R, hpart, hR⟩ := partition_float wf
    s' _ hf samples (fun i hi => (hin i hi).1)
  refine ⟨_, R, hpart, ?_⟩
  have hinv := findBestSplitPoint_inv cfg (sumOf x samples) (missingOf codes x samples)
    ((valuesOf codes c.maxInt x samples).map (binOf codes x samples))
  rw [hsp] at hinv
  obtain ⟨⟨l, r, hc⟩, _⟩ := hinv.some p hp
  have hocc : ∀ v ∈ valuesOf codes c.maxInt x samples, v ∈ codes := fun v hv => (values_occur hv).2
  obtain ⟨hA, hB⟩ := codeLeft_values wf hthr (values_sorted codes c.maxInt x samples) hocc (b := sp.missingOnRight) e1 e2 ht
  have hleft : sumOf x (samples.filter (rowLeft codes (codeLeft c ⟨t, sp.missingOnRight⟩))) = l := by
    rw [sum_values hz hin']
    have hcut : (valuesOf codes c.maxInt x samples).filter (codeLeft c ⟨t, sp.missingOnRight⟩) =
        ((valuesOf codes c.maxInt x samples).take (p + 1)).filter (fun v => if v = 0 then !sp.missingOnRight else true) := by
      conv_lhs => rw [← List.take_append_drop (p + 1) (valuesOf codes c.maxInt x samples)]
      have hnil : ((valuesOf codes c.maxInt x samples).drop (p + 1)).filter (codeLeft c ⟨t, sp.missingOnRight⟩) = [] :=
        List.filter_eq_nil_iff.mpr (fun v hv => by simp [hB v hv])
      rw [List.filter_append, hnil, List.append_nil]
      exact List.filter_congr (fun v hv => hA v hv)
    rw [hcut]
    cases hb : sp.missingOnRight with
    | false =>
      rw [hb] at hc
      obtain ⟨rfl, _⟩ := candidate_false hc
      rw [prefixSum_map]
      congr 1
      rw [List.filter_eq_self]
      intro v _
      split <;> rfl
    | true =>
      rw [hb] at hc
      obtain ⟨m, hm, rfl, _⟩ := candidate_true hc
      obtain ⟨rfl, h0⟩ := missingOf_some wf.pos hz hm
      rw [prefixSum_map]
      have hnd : ((valuesOf codes c.maxInt x samples).take (p + 1)).Nodup :=
        ((values_sorted codes c.maxInt x samples).imp (fun h => Nat.ne_of_lt h)).sublist (List.take_sublist _ _)
      rw [← sum_without_zero _ hnd (zero_mem_take (values_sorted codes c.maxInt x samples) h0 (by omega))]
      congr 1
      apply List.filter_congr
      intro v _
      by_cases hv : v = 0 <;> simp [hv]
  have hright : r = (sumOf x samples).sub l := by
    cases hb : sp.missingOnRight with
    | false => rw [hb] at hc; obtain ⟨rfl, rfl⟩ := candidate_false hc; rfl
    | true =>
      rw [hb] at hc
      obtain ⟨m, hm, rfl, rfl⟩ := candidate_true hc
      simp [GD.sub, GD.add]
      constructor <;> ring
  rw [sum_right hR, hleft, ← hright]
  exact ⟨hc.2.2.2.2, (min_limit hc.2.2.2.1).1, (min_limit hc.2.2.2.1).2⟩

/-- What a split by categories does. -/
theorem string_sides {sort : (Nat → K) → List Nat → List Nat} (hsort : SortSpec sort)
    {c : StrCol} {codes : List Nat} (wf : StrWF c codes) (w : Nat → K) (grads : List (GD K)) (samples : List Nat)
    (cfg : SplitConfig K) (hin : ∀ i ∈ samples, i < codes.length ∧ i < grads.length)
    (hz : BinsZero codes c.maxInt (weighted w grads) samples) {s s' : Split K A}
    (hs : findBestStringSplit sort c w grads samples cfg (sumOf (weighted w grads) samples) = ok (some s))
    (hf : s'.catSplit.map CatSplit.index = s.catSplit.map CatSplit.index) :
    ∃ L R, partition (.str c : Column A) s' samples = ok (L, R) ∧ s.gain = gainOf cfg.l2Lambda (sumOf (weighted w grads) samples)
      (sumOf (weighted w grads) L) (sumOf (weighted w grads) R) ∧
      cfg.minHessian < (sumOf (weighted w grads) L).h ∧ cfg.minHessian < (sumOf (weighted w grads) R).h := by
  have hin' : ∀ i ∈ samples, ∃ k, codes[i]? = some k ∧ k < c.maxInt := fun i hi =>
    ⟨_, List.getElem?_eq_getElem (hin i hi).1, wf.lt _ (List.getElem_mem _)⟩
  obtain ⟨values, hperm, _, hfind⟩ := findBestStringSplit_eq (A := A) hsort wf w grads samples cfg
    (sumOf (weighted w grads) samples) hin
  dsimp only at hfind
  generalize weighted w grads = x at *
  rcases hfind with ⟨_, h⟩ | ⟨p, hp, hlen, h⟩
  · rw [hs] at h; cases h
  rw [hs] at h
  cases h
  generalize hset : (if p + 1 ≤ values.length - p - 1 then values.take (p + 1) else values.drop (p + 1)) = set at *
  generalize hsp : findBestSplitPoint cfg (sumOf x samples) none (values.map (binOf codes x samples)) = sp at *
  have hinv := findBestSplitPoint_inv cfg (sumOf x samples) none (values.map (binOf codes x samples))
  rw [hsp] at hinv
  obtain ⟨⟨l, r, hc⟩, _⟩ := hinv.some p hp
  have hvnd : (valuesOf codes c.maxInt x samples).Nodup :=
    (values_sorted codes c.maxInt x samples).imp (fun h => Nat.ne_of_lt h)
  have hnd : values.Nodup := hperm.nodup_iff.mpr hvnd
  have hne : set.length > 0 := by
    rw [← hset]; split
    · rw [List.length_take]; omega
    · rw [List.length_drop]; omega
  have hsetsub : set.Sublist values := by
    rw [← hset]; split
    · exact List.take_sublist _ _
    · exact List.drop_sublist _ _
  obtain ⟨cs, hcs', hidx⟩ : ∃ cs, s'.catSplit = some cs ∧ cs.index = set := by
    simpa using hf
  have hcs : categorySet c cs = set := by
    rw [categorySet, hidx, if_pos hne]
  obtain ⟨R, hpart, hR⟩ := partition_string (A := A) wf
    s' _ hcs' samples
    (fun i hi => (hin i hi).1)
  rw [hcs] at hpart hR
  refine ⟨_, R, hpart, ?_⟩
  have hleft : sumOf x (samples.filter (rowLeft codes (fun k => set.contains k))) = sumOf (binOf codes x samples) set := by
    rw [sum_values hz hin']
    exact sum_set _ hvnd (hnd.sublist hsetsub) (fun v hv => hperm.mem_iff.mp (hsetsub.subset hv))
  have hall : sumOf x samples = sumOf (binOf codes x samples) values := by
    rw [sum_all_values hz hin']
    exact sumOf_perm _ hperm.symm
  have hmr : sp.missingOnRight = false := by
    cases hb : sp.missingOnRight with
    | false => rfl
    | true =>
      rw [hb] at hc
      obtain ⟨m, hm, _⟩ := candidate_true hc
      cases hm
  rw [hmr] at hc
  obtain ⟨rfl, rfl⟩ := candidate_false hc
  have hg := hc.2.2.2.2
  have hm := min_limit hc.2.2.2.1
  rw [prefixSum_map] at hm
  rw [sum_right hR, hleft, hg, prefixSum_map]
  have hpd := prefix_add_drop (binOf codes x samples) values (p + 1)
  rw [← hall] at hpd
  by_cases hcase : p + 1 ≤ values.length - p - 1
  · rw [if_pos hcase] at hset
    rw [← hset]
    exact ⟨rfl, hm.1, hm.2⟩
  · rw [if_neg hcase] at hset
    rw [← hset, gainOf_comm]
    have e1 : (sumOf x samples).sub (sumOf (binOf codes x samples) (values.take (p + 1))) =
        sumOf (binOf codes x samples) (values.drop (p + 1)) := by
      rw [← hpd, GD.add_sub_cancel']
    have e2 : (sumOf x samples).sub (sumOf (binOf codes x samples) (values.drop (p + 1))) =
        sumOf (binOf codes x samples) (values.take (p + 1)) := by
      rw [← e1]; simp [GD.sub]
    rw [e1] at hm
    rw [e1, e2]
    exact ⟨rfl, hm.2, hm.1⟩

theorem ColumnFine.perm {c : Column A} {x : Nat → GD K} {l l' : List Nat} (hp : l.Perm l') (h : ColumnFine c x l) : ColumnFine c x l' := by
  cases c with
  | raw => trivial
  | str c =>
    intro k
    have := h k
    rwa [sumOf_perm x (hp.filter _)] at this
  | bkt c =>
    intro k
    have := h k
    rwa [sumOf_perm x (hp.filter _)] at this

theorem findBestSplit_sides [ThrOps A] {n : Nat} {c : Column A} (hc : TrainRows n c) (hthr : ∀ b, c = .bkt b → ThrSeparates b)
    {sort : (Nat → K) → List Nat → List Nat} (hsort : SortSpec sort) {w : Nat → K} {grads : List (GD K)} {samples : List Nat}
    {cfg : SplitConfig K} (hin : ∀ i ∈ samples, i < n ∧ i < grads.length) (hz : ColumnFine c (weighted w grads) samples) {s s' : Split K A}
    (hs : findBestSplit sort c w grads samples cfg (sumOf (weighted w grads) samples) = ok (some s))
    (hf : s'.floatSplit = s.floatSplit) (hi : s'.catSplit.map CatSplit.index = s.catSplit.map CatSplit.index) :
    ∃ L R, partition c s' samples = ok (L, R) ∧ s.gain = gainOf cfg.l2Lambda (sumOf (weighted w grads) samples)
      (sumOf (weighted w grads) L) (sumOf (weighted w grads) R) ∧
      cfg.minHessian < (sumOf (weighted w grads) L).h ∧ cfg.minHessian < (sumOf (weighted w grads) R).h := by
  cases hc with
  | raw c _ => simp [findBestSplit] at hs
  | str blocks hlen hsize =>
    obtain ⟨codes, wf, hl⟩ := strWF_build blocks (by omega)
    exact string_sides hsort wf w grads samples cfg (fun i h => ⟨by rw [hl, hlen]; exact (hin i h).1, (hin i h).2⟩)
      (binsZero_of_noHalfZero wf.data hz _) hs hi
  | bkt fmax nb blocks c hlen hsize hnb hok hfin =>
    obtain ⟨codes, wf, hl⟩ := bktWF_build (by omega) hnb hok hfin
    exact float_sides wf (hthr c rfl) w grads samples cfg (fun i h => ⟨by rw [hl, hlen]; exact (hin i h).1, (hin i h).2⟩)
      (binsZero_of_noHalfZero wf.data hz _) hs hf

end sides

section trees
variable {D A : Type}

theorem graft_node {nl nr : Tree D A} {s : D} {sp : Option (Split D A)} {l r : Tree D A} (q : List Bool) :
    ∃ l' r', (Tree.node s sp l r).graft q nl nr = .node s sp l' r' := by
  cases q with
  | nil => exact ⟨_, _, rfl⟩
  | cons b q => cases b <;> exact ⟨_, _, rfl⟩

theorem leafScores_graft {P : Split D A → Prop} {K : Type} [AddCommMonoid K] (φ : D → K) {a b : D} {sa sb : Option (Split D A)} :
    ∀ {t : Tree D A} {q : List Bool} {x : D} {sp : Option (Split D A)}, t.WellFormed P → IsLeafAt t q x sp →
      ((leafScores (t.graft q (leaf a sa) (leaf b sb))).map φ).sum + φ x = ((leafScores t).map φ).sum + (φ a + φ b)
  | .absent, q, x, sp, h, _ => absurd h id
  | .node s sp l r, [], x, sx, _, h => by
    obtain ⟨rfl, rfl, rfl, rfl⟩ := isLeafAt_nil.mp h
    simp [Tree.graft, leafScores, leaf, add_comm, add_left_comm]
  | .node s sp .absent .absent, d :: q, x, sx, _, h => by
    rw [isLeafAt_cons] at h
    cases d <;> exact absurd h not_at?_absent
  | .node s sp .absent (.node a1 b1 c1 d1), d :: q, x, sx, hw, h => absurd hw.2.1 id
  | .node s sp (.node a1 b1 c1 d1) .absent, d :: q, x, sx, hw, h => absurd hw.2.2 id
  | .node s sp (.node a1 b1 c1 d1) (.node a2 b2 c2 d2), d :: q, x, sx, hw, h => by
    rw [isLeafAt_cons] at h
    cases d with
    | false =>
      have ih := leafScores_graft φ (a := a) (b := b) (sa := sa) (sb := sb) hw.2.1 h
      obtain ⟨l', r', e⟩ := graft_node (nl := leaf a sa) (nr := leaf b sb) (s := a1) (sp := b1) (l := c1) (r := d1) q
      rw [Tree.graft, if_neg (by simp)]
      rw [e] at ih ⊢
      simp only [leafScores, List.map_append, List.sum_append] at ih ⊢
      rw [add_right_comm, ih, add_right_comm]
    | true =>
      have ih := leafScores_graft φ (a := a) (b := b) (sa := sa) (sb := sb) hw.2.2 h
      rw [Tree.graft, if_pos rfl]
      simp only [leafScores, List.map_append, List.sum_append]
      rw [add_assoc, ih, add_assoc]

variable [Dbl D]

theorem innerSplits_graft {P : Split D A → Prop} {K : Type} [AddCommMonoid K] (φ : Split D A → K) {a b : D} {sa sb : Option (Split D A)} :
    ∀ {t : Tree D A} {q : List Bool} {x : D} {sp : Split D A}, t.WellFormed P → IsLeafAt t q x (some sp) →
      ((innerSplits (t.graft q (leaf a sa) (leaf b sb))).map φ).sum = ((innerSplits t).map φ).sum + φ sp
  | .absent, q, x, sp, h, _ => absurd h id
  | .node s sp l r, [], x, sx, _, h => by
    obtain ⟨rfl, rfl, rfl, rfl⟩ := isLeafAt_nil.mp h
    simp [Tree.graft, innerSplits, leaf, Tree.splitOf]
  | .node s sp .absent .absent, d :: q, x, sx, _, h => by
    rw [isLeafAt_cons] at h
    cases d <;> exact absurd h not_at?_absent
  | .node s sp .absent (.node a1 b1 c1 d1), d :: q, x, sx, hw, h => absurd hw.2.1 id
  | .node s sp (.node a1 b1 c1 d1) .absent, d :: q, x, sx, hw, h => absurd hw.2.2 id
  | .node s sp (.node a1 b1 c1 d1) (.node a2 b2 c2 d2), d :: q, x, sx, hw, h => by
    rw [isLeafAt_cons] at h
    cases d with
    | false =>
      have ih := innerSplits_graft φ (a := a) (b := b) (sa := sa) (sb := sb) hw.2.1 h
      obtain ⟨l', r', e⟩ := graft_node (nl := leaf a sa) (nr := leaf b sb) (s := a1) (sp := b1) (l := c1) (r := d1) q
      rw [Tree.graft, if_neg (by simp)]
      rw [e] at ih ⊢
      simp only [innerSplits, List.map_append, List.sum_append, List.map_cons, List.sum_cons, Tree.splitOf] at ih ⊢
      rw [ih, add_right_comm _ (φ sx), ← add_assoc]
      cases sp <;> rfl
    | true =>
      have ih := innerSplits_graft φ (a := a) (b := b) (sa := sa) (sb := sb) hw.2.2 h
      rw [Tree.graft, if_pos rfl]
      simp only [innerSplits, List.map_append, List.sum_append, List.map_cons, List.sum_cons, Tree.splitOf] at ih ⊢
      rw [ih, add_assoc, add_assoc]
      cases sp <;> rfl

end trees

end Gbdt
