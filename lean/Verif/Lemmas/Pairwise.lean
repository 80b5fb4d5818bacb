import Verif.Model.Pairwise
import Verif.Props.Group
import Verif.Props.Subsampling
import Verif.Lemmas.StringColumn

/-!
# Lemmas about pairwise losses
-/

set_option autoImplicit false
set_option linter.unusedSectionVars false

namespace Gbdt

open Outcome

/-! ## Grouping rows -/

/-- The rows, counted from `i`, that have a given code. -/
def rowsWith (code i : Nat) (codes : List Nat) : List Nat :=
  ((codes.zipIdx i).filter (fun x => x.1 = code)).map (·.2)

theorem mem_rowsWith {code i x : Nat} {codes : List Nat} :
    x ∈ rowsWith code i codes ↔ i ≤ x ∧ codes[x - i]? = some code := by
  simp only [rowsWith, List.mem_map, List.mem_filter, decide_eq_true_eq, Prod.exists, exists_eq_right]
  exact List.mk_mem_zipIdx_iff_le_and_getElem?_sub

theorem rowsWith_sorted (code : Nat) : ∀ (codes : List Nat) (i : Nat), (rowsWith code i codes).Pairwise (· < ·)
  | [], i => by simp [rowsWith]
  | c :: codes, i => by
    have ih := rowsWith_sorted code codes (i + 1)
    have hmem : ∀ x ∈ rowsWith code (i + 1) codes, i < x := fun x hx => by
      have := (mem_rowsWith.mp hx).1; omega
    by_cases h : c = code
    · have : rowsWith code i (c :: codes) = i :: rowsWith code (i + 1) codes := by simp [rowsWith, h]
      rw [this, List.pairwise_cons]
      exact ⟨hmem, ih⟩
    · have : rowsWith code i (c :: codes) = rowsWith code (i + 1) codes := by simp [rowsWith, h]
      rw [this]
      exact ih

theorem rowsWith_cons {code i c : Nat} {codes : List Nat} :
    rowsWith code i (c :: codes) = (if c = code then [i] else []) ++ rowsWith code (i + 1) codes := by
  by_cases h : c = code <;> simp [rowsWith, h]

theorem putAll_ok : ∀ (codes : List Nat) (i : Nat) (groups out : List (List Nat)), putAll i codes groups = ok out →
    out.length = groups.length ∧ (∀ c ∈ codes, 0 < c ∧ c ≤ groups.length) ∧
    ∀ k g, groups[k]? = some g → out[k]? = some (g ++ rowsWith (k + 1) i codes)
  | [], i, groups, out, h => by
    rw [putAll, Outcome.ok.injEq] at h
    subst h
    exact ⟨rfl, by simp, fun k g hg => by rw [hg]; simp [rowsWith]⟩
  | c :: codes, i, groups, out, h => by
    rw [putAll, bind_eq_ok] at h
    obtain ⟨g1, h1, h2⟩ := h
    unfold putInGroup at h1
    split at h1
    · cases h1
    · next hc =>
      split at h1
      · next hl =>
        rw [Outcome.ok.injEq] at h1
        subst h1
        obtain ⟨e1, e2, e3⟩ := putAll_ok codes (i + 1) _ out h2
        rw [List.length_modify] at e1 e2
        refine ⟨e1, ?_, ?_⟩
        · intro x hx
          rcases List.mem_cons.mp hx with rfl | hx
          · omega
          · exact e2 x hx
        · intro k g hg
          rw [rowsWith_cons]
          by_cases hk : c = k + 1
          · have := e3 k (g ++ [i]) (by
              rw [List.getElem?_modify, hg]
              simp [hk])
            rw [this, if_pos hk, List.append_assoc]
          · have := e3 k g (by
              rw [List.getElem?_modify, hg]
              simp only [Option.map_eq_map, Option.map_some]
              rw [if_neg (by omega)])
            rw [this, if_neg hk, List.nil_append]
      · cases h1

theorem putAll_total : ∀ (codes : List Nat) (i : Nat) (groups : List (List Nat)),
    (∀ c ∈ codes, 0 < c ∧ c ≤ groups.length) → ∃ out, putAll i codes groups = ok out
  | [], _, _, _ => ⟨_, rfl⟩
  | c :: codes, i, groups, h => by
    obtain ⟨h1, h2⟩ := h c (by simp)
    rw [putAll, putInGroup, if_neg (by omega), if_pos (by omega), ok_bind]
    exact putAll_total codes (i + 1) _ (fun x hx => by rw [List.length_modify]; exact h x (by simp [hx]))

theorem putAll_zero : ∀ (codes : List Nat) (i : Nat) (groups : List (List Nat)), (∀ c ∈ codes, c ≤ groups.length) →
    0 ∈ codes → putAll i codes groups = ub
  | c :: codes, i, groups, h, hz => by
    rw [putAll, putInGroup]
    by_cases hc : c = 0
    · rw [if_pos hc]; rfl
    · rw [if_neg hc, if_pos (by have := h c (by simp); omega), ok_bind]
      refine putAll_zero codes (i + 1) _ (fun x hx => by rw [List.length_modify]; exact h x (by simp [hx])) ?_
      rcases List.mem_cons.mp hz with h0 | h0
      · exact absurd h0.symm hc
      · exact h0

/-- The groups made from codes. -/
theorem putAll_groups {codes : List Nat} {n : Nat} {out : List (List Nat)}
    (h : putAll 0 codes (List.replicate n []) = ok out) :
    out = (List.range n).map (fun k => rowsWith (k + 1) 0 codes) := by
  obtain ⟨e1, _, e3⟩ := putAll_ok _ _ _ _ h
  rw [List.length_replicate] at e1
  apply List.ext_getElem?
  intro k
  by_cases hk : k < n
  · rw [e3 k [] (by simp [hk])]
    simp [hk]
  · rw [List.getElem?_eq_none (by omega), List.getElem?_eq_none (by simp; omega)]

theorem groups_nodup (codes : List Nat) (n : Nat) :
    ((List.range n).map (fun k => rowsWith (k + 1) 0 codes)).flatten.Nodup := by
  rw [List.nodup_flatten]
  constructor
  · intro l hl
    obtain ⟨k, _, rfl⟩ := List.mem_map.mp hl
    exact (rowsWith_sorted _ _ _).imp (fun h => by omega)
  · rw [List.pairwise_map]
    refine (List.nodup_range (n := n)).imp ?_
    intro a b hab x hx hx'
    have h1 := (mem_rowsWith.mp hx).2
    have h2 := (mem_rowsWith.mp hx').2
    rw [h1, Option.some.injEq] at h2
    omega

theorem rowGroups_nodup {numRows : Nat} {col : Option StrCol} {groups : List (List Nat)}
    (h : rowGroups numRows col = ok groups) : groups.flatten.Nodup := by
  cases col with
  | none =>
    rw [rowGroups, Outcome.ok.injEq] at h
    subst h
    rw [C22_all_samples]
    simp [List.nodup_range]
  | some c =>
    rw [rowGroups, bind_eq_ok] at h
    obtain ⟨codes, _, h2⟩ := h
    rw [putAll_groups h2]
    exact groups_nodup _ _

/-! ## States of a pairwise loss -/

section pairs
variable {D : Type} [Dbl D]

/-- A group as the loss keeps it: built from distinct rows, and ranked somehow. -/
def KeptGroup (e : PairLoss D) (g : Group) : Prop :=
  ∃ l g0, l.Nodup ∧ mkGroup e.sort e.y l = ok g0 ∧ g = { g0 with ranks := g.ranks } ∧
    g.ranks.Perm (List.range g.rows.length)

/-- What holds for the groups of a loss at any time. -/
structure KeptState (e : PairLoss D) (s : PairState D) : Prop where
  groups : ∀ g ∈ s.groups, KeptGroup e g
  nodup : (s.groups.flatMap (·.rows)).Nodup

theorem mapM_outcome {α β : Type} {f : α → Outcome β} : ∀ {l : List α} {r : List β}, l.mapM f = ok r →
    List.Forall₂ (fun a b => f a = ok b) l r
  | [], r, h => by
    simp only [List.mapM_nil, pure_eq, Outcome.ok.injEq] at h
    subst h
    exact .nil
  | a :: l, r, h => by
    simp only [List.mapM_cons, bind_eq_ok, pure_eq, Outcome.ok.injEq] at h
    obtain ⟨b, h1, bs, h2, rfl⟩ := h
    exact .cons h1 (mapM_outcome h2)

theorem mapM_defined {α β : Type} {f : α → Outcome β} : ∀ {l : List α}, (∀ a ∈ l, ∃ b, f a = ok b) → ∃ r, l.mapM f = ok r
  | [], _ => ⟨[], rfl⟩
  | a :: l, h => by
    obtain ⟨b, hb⟩ := h a (by simp)
    obtain ⟨r, hr⟩ := mapM_defined (fun x hx => h x (List.mem_cons_of_mem a hx))
    exact ⟨b :: r, by simp [List.mapM_cons, hb, hr]⟩

theorem mkGroup_ranks {e : PairLoss D} (hsort : DescSortSpec e.sort) {l : List Nat} {g : Group}
    (h : mkGroup e.sort e.y l = ok g) : g.ranks = List.range g.rows.length ∧ g.rows.Perm l := by
  rw [mkGroup, bind_eq_ok] at h
  obtain ⟨rows, h1, h2⟩ := h
  obtain ⟨_, rfl⟩ := sortDesc_ok h1
  simp only [pure_eq, Outcome.ok.injEq] at h2
  subst h2
  exact ⟨rfl, (hsort _ _).1⟩

theorem pairInit_kept {e : PairLoss D} (hsort : DescSortSpec e.sort) {n : Nat} {col : Option StrCol} {s : PairState D}
    (h : pairInit e n col = ok (.ok s)) :
    KeptState e s ∧ s.round = 0 ∧ ∃ groups, rowGroups n col = ok groups ∧
      List.Forall₂ (fun l g => mkGroup e.sort e.y l = ok g) groups s.groups ∧
      s.minNumPairs = s.groups.foldl (fun m g => max m g.numPairs) 1 ∧
      s.prob = e.rate * e.ofNat n / e.ofNat ((s.groups.map (·.numPairs)).foldl (· + ·) 0) / e.ofNat 2 ∧
      divideRange s.groups.length (e.numThreads * 5) = ok s.slices := by
  unfold pairInit at h
  split at h
  · simp at h
  · simp only [bind_eq_ok, pure_eq, Outcome.ok.injEq, Except.ok.injEq] at h
    obtain ⟨rows, h1, groups, h2, slices, h3, rfl⟩ := h
    have hf := mapM_outcome h2
    have hnd := rowGroups_nodup h1
    refine ⟨⟨?_, ?_⟩, rfl, rows, h1, hf, rfl, rfl, h3⟩
    · intro g hg
      simp only at hg
      obtain ⟨i, hi, rfl⟩ := List.mem_iff_getElem.mp hg
      have hlen := hf.length_eq
      have hm := (List.forall₂_iff_get.mp hf).2 i (by omega) hi
      simp only [List.get_eq_getElem] at hm
      obtain ⟨hr, hp⟩ := mkGroup_ranks hsort hm
      refine ⟨_, _, ?_, hm, rfl, by rw [hr]⟩
      exact List.Nodup.sublist (List.sublist_flatten_of_mem (List.getElem_mem _)) hnd
    · simp only
      have hperm : (groups.flatMap (·.rows)).Perm rows.flatten := by
        clear h2 hnd h1 h3
        induction hf with
        | nil => exact .refl _
        | cons ha _ ih =>
          rw [List.flatMap_cons, List.flatten_cons]
          exact ((mkGroup_ranks hsort ha).2).append ih
      exact hperm.nodup_iff.mpr hnd

theorem assignRanks_length : ∀ (ranking : List Nat) (i : Nat) (ranks out : List Nat), assignRanks i ranking ranks = ok out →
    out.length = ranks.length
  | [], i, ranks, out, h => by rw [assignRanks, Outcome.ok.injEq] at h; rw [h]
  | r :: ranking, i, ranks, out, h => by
    rw [assignRanks] at h
    split at h
    · rw [assignRanks_length _ _ _ _ h, List.length_set]
    · cases h

theorem groupValues_ok {f : List D} {rows : List Nat} {vs : List D} (h : groupValues f rows = ok vs) :
    ∀ r ∈ rows, r < f.length := by
  have := mapM_outcome h
  intro r hr
  obtain ⟨i, hi, rfl⟩ := List.mem_iff_getElem.mp hr
  have hm := (List.forall₂_iff_get.mp this).2 i hi (by rw [← this.length_eq]; exact hi)
  simp only [List.get_eq_getElem, vecGet_eq_ok] at hm
  exact (List.getElem?_eq_some_iff.mp hm).1

theorem rerank_kept [StrictLt D] {e : PairLoss D} (hsort : DescSortSpec e.sort) {f : List D} {g g' : Group}
    (hg : KeptGroup e g) (h : rerank e.sort f g = ok g') :
    KeptGroup e g' ∧ g' = { g with ranks := g'.ranks } ∧ ∀ (a b ra rb : Nat) (va vb : D), g.rows[a]? = some ra →
      g.rows[b]? = some rb → f[ra]? = some va → f[rb]? = some vb → Dbl.ltb va vb = true →
      ∃ ka kb, g'.ranks[a]? = some ka ∧ g'.ranks[b]? = some kb ∧ kb < ka := by
  obtain ⟨l, g0, hnd, hmk, hgg, hperm⟩ := hg
  have hlen : g.ranks.length = g.rows.length := by rw [hperm.length_eq, List.length_range]
  have h' := h
  rw [rerank, bind_eq_ok] at h'
  obtain ⟨vs, h1, h2⟩ := h'
  rw [bind_eq_ok] at h2
  obtain ⟨ranking, h3, _⟩ := h2
  have hb := groupValues_ok h1
  obtain ⟨hn, _⟩ := sortDesc_ok h3
  have hrows : ∀ r ∈ g.rows, ∃ v, f[r]? = some v ∧ NotNaN v := by
    intro r hr
    obtain ⟨i, hi, rfl⟩ := List.mem_iff_getElem.mp hr
    refine ⟨_, List.getElem?_eq_getElem (hb _ hr), ?_⟩
    have := hn i (List.mem_range.mpr hi)
    have hm := mapM_outcome h1
    have hi' : i < vs.length := by rw [← hm.length_eq]; exact hi
    have hv := (List.forall₂_iff_get.mp hm).2 i hi hi'
    simp only [List.get_eq_getElem, vecGet_eq_ok] at hv
    rw [List.getElem?_eq_getElem (hb _ hr), Option.some.injEq] at hv
    rw [positionKey, List.getElem?_eq_getElem hi'] at this
    simp only at this
    rw [hv]
    exact this
  obtain ⟨ranks, e1, e2, e3⟩ := C50_ranks hsort hrows hlen
  rw [h, Outcome.ok.injEq] at e1
  subst e1
  exact ⟨⟨l, g0, hnd, hmk, by rw [hgg], e2⟩, rfl, e3⟩

/-! ## Adding up gradients -/

theorem addToRow_ok {grads out : List (GD D)} {row : Nat} {plus : Bool} {dg dh : D}
    (h : addToRow grads row plus dg dh = ok out) :
    ∃ old, grads[row]? = some old ∧ out = grads.set row ⟨if plus then old.g + dg else old.g - dg, old.h + dh⟩ := by
  rw [addToRow, bind_eq_ok] at h
  obtain ⟨old, h1, h2⟩ := h
  rw [pure_eq, Outcome.ok.injEq] at h2
  exact ⟨old, vecGet_eq_ok.mp h1, h2.symm⟩

theorem pairStep_ok {e : PairLoss D} {f : List D} {g : Group} {factor : D} {index : Nat} {grads out : List (GD D)}
    (h : pairStep e f g factor index grads = ok out) :
    ∃ a b pos neg pw fp fn l dg dh old old2, pairAt g index = ok (a, b) ∧ g.rows[a]? = some pos ∧ g.rows[b]? = some neg ∧
      pairWeight e g a b = ok pw ∧ f[pos]? = some fp ∧ f[neg]? = some fn ∧
      e.lossFn (e.rnd32 (e.y pos - e.y neg)) (fp - fn) = (l, dg, dh) ∧
      grads[pos]? = some old ∧
      (grads.set pos ⟨old.g + e.rnd32 (e.w pos * e.w neg) * pw * factor * dg,
        old.h + e.ofNat 2 * (e.rnd32 (e.w pos * e.w neg) * pw * factor) * dh⟩)[neg]? = some old2 ∧
      out = (grads.set pos ⟨old.g + e.rnd32 (e.w pos * e.w neg) * pw * factor * dg,
        old.h + e.ofNat 2 * (e.rnd32 (e.w pos * e.w neg) * pw * factor) * dh⟩).set neg
        ⟨old2.g - e.rnd32 (e.w pos * e.w neg) * pw * factor * dg,
        old2.h + e.ofNat 2 * (e.rnd32 (e.w pos * e.w neg) * pw * factor) * dh⟩ := by
  simp only [pairStep, bind_eq_ok, vecGet_eq_ok] at h
  obtain ⟨⟨a, b⟩, h1, pos, h2, neg, h3, pw, h4, fp, h5, fn, h6, g1, h7, h8⟩ := h
  obtain ⟨old, k1, rfl⟩ := addToRow_ok h7
  obtain ⟨old2, k2, rfl⟩ := addToRow_ok h8
  refine ⟨a, b, pos, neg, pw, fp, fn, _, _, _, old, old2, h1, h2, h3, h4, h5, h6, rfl, k1, ?_, ?_⟩
  · simpa using k2
  · simp

end pairs

end Gbdt
