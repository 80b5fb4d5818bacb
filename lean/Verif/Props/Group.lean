import Verif.Lemmas.Group
import Verif.Props.SplitWitness
import Mathlib.Data.Set.Function
import Mathlib.Data.List.Sort

/-!
# C49, C50: sampling pairs of a group and ranking it
-/

set_option autoImplicit false
set_option linter.unusedSectionVars false

namespace Gbdt

open Outcome

section general
variable {D : Type} [Dbl D]

theorem sortDesc_ok {sort : (Nat → D) → List Nat → List Nat} {key : Nat → D} {l r : List Nat}
    (h : sortDesc sort key l = ok r) : (∀ i ∈ l, NotNaN (key i)) ∧ r = sort key l := by
  unfold sortDesc at h
  split at h
  · cases h
  · next hn =>
    rw [Outcome.ok.injEq] at h
    refine ⟨fun i hi => ?_, h.symm⟩
    simp only [List.any_eq_true, not_exists, not_and] at hn
    have := hn i hi
    simpa [NotNaN] using this

theorem sortDesc_total {sort : (Nat → D) → List Nat → List Nat} {key : Nat → D} {l : List Nat}
    (h : ∀ i ∈ l, NotNaN (key i)) : sortDesc sort key l = ok (sort key l) := by
  rw [sortDesc, if_neg]
  simp only [List.any_eq_true, not_exists, not_and]
  intro i hi
  have := h i hi
  simp only [NotNaN] at this
  simp [this]

variable [FpOrder D] [EqOrder D]

/-- In a group sorted by decreasing target, a row has a larger target than another exactly if the target changes
somewhere between them. -/
theorem larger_iff_boundary {y : Nat → D} {rows : List Nat} (hn : ∀ r ∈ rows, NotNaN (y r))
    (hs : rows.Pairwise (fun a b => Dbl.ltb (y a) (y b) = false)) {a b : Nat} {ra rb : Nat} (ha : rows[a]? = some ra)
    (hb : rows[b]? = some rb) :
    Dbl.ltb (y rb) (y ra) = true ↔ ∃ j, Boundary y rows j ∧ a < j ∧ j ≤ b := by
  have hsorted : ∀ i j x z : Nat, i ≤ j → rows[i]? = some x → rows[j]? = some z → Dbl.ltb (y x) (y z) = false := by
    intro i j x z hij hx hz
    rcases Nat.lt_or_ge i j with h | h
    · obtain ⟨hi, rfl⟩ := List.getElem?_eq_some_iff.mp hx
      obtain ⟨hj, rfl⟩ := List.getElem?_eq_some_iff.mp hz
      exact List.pairwise_iff_getElem.mp hs i j hi hj h
    · have : i = j := by omega
      subst this
      rw [hx, Option.some.injEq] at hz
      rw [hz]
      exact StrictLt.irrefl _
  have hnan : ∀ i x : Nat, rows[i]? = some x → NotNaN (y x) := by
    intro i x hx
    exact hn x (List.mem_of_getElem? hx)
  constructor
  · intro h
    have hab : a < b := by
      by_contra hc
      rw [hsorted b a rb ra (by omega) hb ha] at h
      cases h
    obtain ⟨d, rfl⟩ := Nat.exists_eq_add_of_lt hab
    clear hab
    induction d generalizing rb with
    | zero =>
      refine ⟨a + 1, ⟨by omega, ra, rb, by simpa using ha, by simpa using hb, ?_⟩, by omega, by omega⟩
      by_contra hc
      have hc' : Dbl.eqb (y ra) (y rb) = true := by simpa using hc
      rw [EqOrder.eq_not_lt _ _ hc'] at h
      cases h
    | succ d ih =>
      have hlen : a + (d + 1) + 1 < rows.length := (List.getElem?_eq_some_iff.mp hb).1
      obtain ⟨rm, hm⟩ : ∃ rm, rows[a + d + 1]? = some rm := ⟨_, List.getElem?_eq_getElem (by omega)⟩
      rcases FpOrder.cotrans _ (y rm) _ (hnan _ _ hm) h with h1 | h1
      · refine ⟨a + (d + 1) + 1, ⟨by omega, rm, rb, by simpa [Nat.add_assoc] using hm, hb, ?_⟩, by omega, by omega⟩
        by_contra hc
        have hc' : Dbl.eqb (y rm) (y rb) = true := by simpa using hc
        rw [EqOrder.eq_not_lt _ _ hc'] at h1
        cases h1
      · obtain ⟨j, e1, e2, e3⟩ := ih h1 hm
        exact ⟨j, e1, e2, by omega⟩
  · rintro ⟨j, ⟨hj, p, q, hp, hq, hpq⟩, h1, h2⟩
    have hlt : Dbl.ltb (y q) (y p) = true := by
      rcases EqOrder.total _ _ (hnan _ _ hp) (hnan _ _ hq) with h | h | h
      · rw [hsorted (j - 1) j p q (by omega) hp hq] at h; cases h
      · rw [hpq] at h; cases h
      · exact h
    rcases FpOrder.cotrans _ (y ra) _ (hnan _ _ ha) hlt with h | h
    · rcases FpOrder.cotrans _ (y rb) _ (hnan _ _ hb) h with h' | h'
      · rw [hsorted j b q rb h2 hq hb] at h'; cases h'
      · exact h'
    · rw [hsorted a (j - 1) ra p (by omega) ha hp] at h; cases h

/-- What the constructor establishes. -/
theorem mkGroup_spec {sort : (Nat → D) → List Nat → List Nat} (hsort : DescSortSpec sort) {y : Nat → D} {group : List Nat}
    {g : Group} (h : mkGroup sort y group = ok g) :
    (∀ r ∈ group, NotNaN (y r)) ∧ g.rows.Perm group ∧
    g.rows.Pairwise (fun a b => Dbl.ltb (y a) (y b) = false) ∧ g.ranks = List.range group.length ∧
    ∃ last, Blocks g.rows.length 0 0 g.pairMap g.numPairs last ∧ ∀ j, Boundary y g.rows j ↔ j ∈ starts g.pairMap := by
  rw [mkGroup, bind_eq_ok] at h
  obtain ⟨rows, h1, h2⟩ := h
  obtain ⟨hn, rfl⟩ := sortDesc_ok h1
  obtain ⟨hp, hs⟩ := hsort y group
  cases hr : sort y group with
  | nil =>
    rw [hr] at h2 hp hs
    simp only [pure_eq, Outcome.ok.injEq] at h2
    subst h2
    refine ⟨hn, hp, hs, by simp [← hp.length_eq], 0, .nil _ _, ?_⟩
    rintro j
    simp [Boundary, starts]
  | cons r rest =>
    rw [hr] at h2 hp hs
    simp only [pure_eq, Outcome.ok.injEq] at h2
    subst h2
    obtain ⟨last, e1, e2⟩ := blockLoop_spec y rest (rows := r :: rest) (done := []) (last := 0) (prev := r) (numPairs := 0)
      (m := []) rfl (by simp) (.nil _ _) (by intro j hj; simp at hj; subst hj; simp [Boundary, starts])
    exact ⟨hn, hp, hs, by simp [← hp.length_eq], last, e1, e2⟩

/-- The rows of the pair that a random index stands for. -/
def drawnRows (g : Group) (index : Nat) : Outcome (Nat × Nat) := do
  let (a, b) ← pairAt g index
  let pos ← vecGet g.rows a
  let neg ← vecGet g.rows b
  pure (pos, neg)

/-- **C49.** The random indices `0, ..., num_pairs - 1` correspond one to one to the pairs of rows of the group of which the
first has the larger target; so a uniform index is a uniform pair. -/
theorem C49_pair_bijection {sort : (Nat → D) → List Nat → List Nat} (hsort : DescSortSpec sort) {y : Nat → D}
    {group : List Nat} (hnodup : group.Nodup) {g : Group} (h : mkGroup sort y group = ok g) :
    ∃ f : Nat → Nat × Nat, (∀ i < g.numPairs, drawnRows g i = ok (f i)) ∧
      Set.BijOn f {i | i < g.numPairs} {p | p.1 ∈ group ∧ p.2 ∈ group ∧ Dbl.ltb (y p.2) (y p.1) = true} := by
  obtain ⟨hn, hp, hs, _, last, hb, hj⟩ := mkGroup_spec hsort h
  have hnd : g.rows.Nodup := hp.nodup_iff.mpr hnodup
  have hn' : ∀ r ∈ g.rows, NotNaN (y r) := fun r hr => hn r (hp.mem_iff.mp hr)
  have hdraw : ∀ i < g.numPairs, ∃ a b ra rb, pairIn g.pairMap i = some (a, b) ∧ g.rows[a]? = some ra ∧
      g.rows[b]? = some rb ∧ drawnRows g i = ok (ra, rb) ∧ Dbl.ltb (y rb) (y ra) = true := by
    intro i hi
    obtain ⟨a, b, e1, _, ⟨j, e3, e4, e5⟩, e6⟩ := hb.pair i (by omega) hi
    have ha : a < g.rows.length := by omega
    refine ⟨a, b, g.rows[a], g.rows[b], e1, List.getElem?_eq_getElem ha, List.getElem?_eq_getElem e6, ?_, ?_⟩
    · rw [drawnRows, pairAt_eq_pairIn.mpr e1]
      simp only [ok_bind, vecGet_lt ha, vecGet_lt e6, pure_eq]
    · rw [larger_iff_boundary hn' hs (List.getElem?_eq_getElem ha) (List.getElem?_eq_getElem e6)]
      exact ⟨j, (hj j).mpr e3, e4, e5⟩
  refine ⟨fun i => match drawnRows g i with | .ok p => p | _ => (0, 0), ?_, ?_, ?_, ?_⟩
  · intro i hi
    obtain ⟨_, _, _, _, _, _, _, e, _⟩ := hdraw i hi
    simp only [e]
  · intro i hi
    obtain ⟨a, b, ra, rb, _, ha, hb', e, hlt⟩ := hdraw i hi
    simp only [e, Set.mem_ofPred_eq]
    exact ⟨hp.mem_iff.mp (List.mem_of_getElem? ha), hp.mem_iff.mp (List.mem_of_getElem? hb'), hlt⟩
  · intro i hi j hj' hij
    obtain ⟨a, b, ra, rb, p1, ha, hb1, e, _⟩ := hdraw i hi
    obtain ⟨a', b', ra', rb', p2, ha', hb', e', _⟩ := hdraw j hj'
    simp only [e, e', Prod.mk.injEq] at hij
    obtain ⟨rfl, rfl⟩ := hij
    have haa : a = a' := by
      obtain ⟨l1, q1⟩ := List.getElem?_eq_some_iff.mp ha
      obtain ⟨l2, q2⟩ := List.getElem?_eq_some_iff.mp ha'
      exact (hnd.getElem_inj_iff).mp (q1.trans q2.symm)
    have hbb : b = b' := by
      obtain ⟨l1, q1⟩ := List.getElem?_eq_some_iff.mp hb1
      obtain ⟨l2, q2⟩ := List.getElem?_eq_some_iff.mp hb'
      exact (hnd.getElem_inj_iff).mp (q1.trans q2.symm)
    subst haa hbb
    exact hb.inj i j (by omega) hi (by omega) hj' (p1.trans p2.symm)
  · rintro ⟨ra, rb⟩ ⟨h1, h2, h3⟩
    simp only at h1 h2 h3
    obtain ⟨a, ha⟩ := List.getElem?_of_mem (hp.mem_iff.mpr h1)
    obtain ⟨b, hb'⟩ := List.getElem?_of_mem (hp.mem_iff.mpr h2)
    obtain ⟨j, e1, e2, e3⟩ := (larger_iff_boundary hn' hs ha hb').mp h3
    have hbn := (List.getElem?_eq_some_iff.mp hb').1
    obtain ⟨i, _, q2, q3⟩ := hb.surj a b (by omega) ⟨j, (hj j).mp e1, e2, e3⟩ hbn
    refine ⟨i, q2, ?_⟩
    obtain ⟨a', b', ra', rb', p1, ha', hb1, e, _⟩ := hdraw i q2
    rw [q3, Option.some.injEq, Prod.mk.injEq] at p1
    obtain ⟨rfl, rfl⟩ := p1
    rw [ha, Option.some.injEq] at ha'
    rw [hb', Option.some.injEq] at hb1
    simp only [e, ha', hb1]

/-- **C49 (count).** `num_pairs` is the number of those pairs. -/
theorem C49_num_pairs {sort : (Nat → D) → List Nat → List Nat} (hsort : DescSortSpec sort) {y : Nat → D}
    {group : List Nat} (hnodup : group.Nodup) {g : Group} (h : mkGroup sort y group = ok g) :
    g.numPairs = ((group.flatMap (fun r => group.map (fun s => (r, s)))).filter
      (fun p => Dbl.ltb (y p.2) (y p.1))).length := by
  obtain ⟨f, _, hf⟩ := C49_pair_bijection hsort hnodup h
  have hpr : (group.flatMap (fun r => group.map (fun s => (r, s)))).Nodup := by
    rw [List.nodup_flatMap]
    refine ⟨fun r _ => hnodup.map (fun a b hab => (Prod.mk.inj hab).2), ?_⟩
    refine hnodup.imp ?_
    intro a b hab p hp1 hp2
    simp only [List.mem_map] at hp1 hp2
    obtain ⟨s, _, rfl⟩ := hp1
    obtain ⟨t, _, ht⟩ := hp2
    exact hab (Prod.mk.inj ht).1.symm
  have hperm : ((List.range g.numPairs).map f).Perm
      ((group.flatMap (fun r => group.map (fun s => (r, s)))).filter (fun p => Dbl.ltb (y p.2) (y p.1))) := by
    rw [List.perm_ext_iff_of_nodup]
    · rintro ⟨r, s⟩
      simp only [List.mem_map, List.mem_range, List.mem_filter, List.mem_flatMap, Prod.mk.injEq]
      constructor
      · rintro ⟨i, hi, he⟩
        have := hf.mapsTo hi
        rw [he] at this
        exact ⟨⟨r, this.1, s, this.2.1, rfl, rfl⟩, this.2.2⟩
      · rintro ⟨⟨_, h1, _, h2, rfl, rfl⟩, h3⟩
        obtain ⟨i, hi, he⟩ := hf.surjOn (show (_, _) ∈ _ from ⟨h1, h2, h3⟩)
        exact ⟨i, hi, he⟩
    · refine List.Nodup.map_on ?_ List.nodup_range
      intro i hi j hj hij
      exact hf.injOn (List.mem_range.mp hi) (List.mem_range.mp hj) hij
    · exact hpr.filter _
  have := hperm.length_eq
  simpa using this

/-- **C49 (defined).** A group can be built whenever its targets are not NaN. -/
theorem C49_defined (sort : (Nat → D) → List Nat → List Nat) {y : Nat → D} {group : List Nat}
    (hn : ∀ r ∈ group, NotNaN (y r)) : ∃ g, mkGroup sort y group = ok g := by
  rw [mkGroup, sortDesc_total hn]
  exact ⟨_, rfl⟩

end general

/-! ## C50 -/

section rank
variable {D : Type} [Dbl D]

theorem assignRanks_spec : ∀ (ranking : List Nat) (i : Nat) (ranks : List Nat), ranking.Nodup →
    (∀ r ∈ ranking, r < ranks.length) →
    ∃ out, assignRanks i ranking ranks = ok out ∧ out.length = ranks.length ∧
      (∀ k r, ranking[k]? = some r → out[r]? = some (i + k)) ∧ ∀ r, r ∉ ranking → out[r]? = ranks[r]?
  | [], i, ranks, _, _ => ⟨ranks, rfl, rfl, by simp, fun _ _ => rfl⟩
  | x :: ranking, i, ranks, hnd, hlt => by
    rw [List.nodup_cons] at hnd
    obtain ⟨out, e1, e2, e3, e4⟩ := assignRanks_spec ranking (i + 1) (ranks.set x i) hnd.2
      (fun r hr => by rw [List.length_set]; exact hlt r (by simp [hr]))
    have hx := hlt x (by simp)
    refine ⟨out, by rw [assignRanks, if_pos hx]; exact e1, by rw [e2, List.length_set], ?_, ?_⟩
    · intro k r hk
      cases k with
      | zero =>
        rw [List.getElem?_cons_zero, Option.some.injEq] at hk
        subst hk
        rw [e4 x hnd.1, List.getElem?_set_self hx, Nat.add_zero]
      | succ k =>
        rw [List.getElem?_cons_succ] at hk
        rw [e3 k r hk]
        congr 1
        omega
    · intro r hr
      rw [List.mem_cons, not_or] at hr
      rw [e4 r hr.2, List.getElem?_set_ne (Ne.symm hr.1)]

theorem groupValues_spec {f : List D} : ∀ {rows : List Nat}, (∀ r ∈ rows, r < f.length) →
    ∃ vs, groupValues f rows = ok vs ∧ vs.map some = rows.map (fun r => f[r]?)
  | [], _ => ⟨[], rfl, rfl⟩
  | r :: rows, h => by
    obtain ⟨vs, e1, e2⟩ := groupValues_spec (fun x hx => h x (List.mem_cons_of_mem r hx))
    have hr := h r (by simp)
    refine ⟨f[r] :: vs, ?_, ?_⟩
    · rw [groupValues] at e1 ⊢
      rw [List.mapM_cons, vecGet_lt hr, e1]
      rfl
    · rw [List.map_cons, List.map_cons, e2, List.getElem?_eq_getElem hr]

/-- **C50.** Ranking a group whose rows have values that are not NaN succeeds and changes only the ranks: they are a
rearrangement of `0, ..., n - 1`, and a row with a larger value than another has the smaller rank. -/
theorem C50_ranks [StrictLt D] {sort : (Nat → D) → List Nat → List Nat} (hsort : DescSortSpec sort) {f : List D} {g : Group}
    (hrows : ∀ r ∈ g.rows, ∃ v, f[r]? = some v ∧ NotNaN v) (hranks : g.ranks.length = g.rows.length) :
    ∃ ranks, rerank sort f g = ok { g with ranks := ranks } ∧ ranks.Perm (List.range g.rows.length) ∧
      ∀ (a b ra rb : Nat) (va vb : D), g.rows[a]? = some ra → g.rows[b]? = some rb → f[ra]? = some va → f[rb]? = some vb →
        Dbl.ltb va vb = true → ∃ ka kb, ranks[a]? = some ka ∧ ranks[b]? = some kb ∧ kb < ka := by
  obtain ⟨vs, h1, h2⟩ := groupValues_spec (f := f) (rows := g.rows) (fun r hr => by
    obtain ⟨v, hv, _⟩ := hrows r hr
    exact (List.getElem?_eq_some_iff.mp hv).1)
  have hval : ∀ (a r : Nat) (v : D), g.rows[a]? = some r → f[r]? = some v → vs[a]? = some v := by
    intro a r v ha hv
    have : (vs.map some)[a]? = some (f[r]?) := by rw [h2, List.getElem?_map, ha]; rfl
    rw [List.getElem?_map, hv] at this
    cases hvs : vs[a]? with
    | none => rw [hvs] at this; cases this
    | some w =>
      rw [hvs] at this
      simpa using this
  obtain ⟨key, hkey⟩ : ∃ key : Nat → D, key = positionKey vs := ⟨_, rfl⟩
  have hkv : ∀ (a r : Nat) (v : D), g.rows[a]? = some r → f[r]? = some v → key a = v := by
    intro a r v ha hv
    rw [hkey]
    simp only [positionKey, hval a r v ha hv]
  have hnn : ∀ i ∈ List.range g.rows.length, NotNaN (key i) := by
    intro i hi
    rw [List.mem_range] at hi
    obtain ⟨v, hv, hvn⟩ := hrows g.rows[i] (List.getElem_mem _)
    rw [hkv i _ v (List.getElem?_eq_getElem hi) hv]
    exact hvn
  obtain ⟨hp, hs⟩ := hsort key (List.range g.rows.length)
  have hnd : (sort key (List.range g.rows.length)).Nodup := hp.nodup_iff.mpr List.nodup_range
  obtain ⟨ranks, e1, e2, e3, _⟩ := assignRanks_spec (sort key (List.range g.rows.length)) 0 g.ranks hnd (by
    intro r hr
    rw [hranks]
    exact List.mem_range.mp (hp.mem_iff.mp hr))
  have hrank : ∀ a < g.rows.length, ∃ k, (sort key (List.range g.rows.length))[k]? = some a ∧ ranks[a]? = some k := by
    intro a ha
    obtain ⟨k, hk⟩ := List.getElem?_of_mem (hp.mem_iff.mpr (List.mem_range.mpr ha))
    exact ⟨k, hk, by have := e3 k a hk; rwa [Nat.zero_add] at this⟩
  refine ⟨ranks, ?_, ?_, ?_⟩
  · rw [rerank, h1]
    simp only [ok_bind]
    rw [← hkey, sortDesc_total hnn]
    simp only [ok_bind, e1, pure_eq]
  · have hlen : ranks.length = g.rows.length := by rw [e2, hranks]
    have hnodup : ranks.Nodup := by
      rw [List.nodup_iff_injective_getElem]
      rintro ⟨i, hi⟩ ⟨j, hj⟩ hij
      simp only at hij
      obtain ⟨k1, q1, q2⟩ := hrank i (by omega)
      obtain ⟨k2, q3, q4⟩ := hrank j (by omega)
      rw [List.getElem?_eq_getElem hi, Option.some.injEq] at q2
      rw [List.getElem?_eq_getElem hj, Option.some.injEq] at q4
      rw [q2, q4] at hij
      subst hij
      rw [q1, Option.some.injEq] at q3
      exact Fin.ext q3
    refine (List.subperm_of_subset hnodup ?_).perm_of_length_le (by simp [hlen])
    intro x hx
    obtain ⟨a, ha⟩ := List.getElem?_of_mem hx
    have hal := (List.getElem?_eq_some_iff.mp ha).1
    obtain ⟨k, q1, q2⟩ := hrank a (by omega)
    rw [ha, Option.some.injEq] at q2
    subst q2
    have := (List.getElem?_eq_some_iff.mp q1).1
    rw [hp.length_eq, List.length_range] at this
    exact List.mem_range.mpr this
  · intro a b ra rb va vb ha hb hva hvb hlt
    obtain ⟨ka, q1, q2⟩ := hrank a (List.getElem?_eq_some_iff.mp ha).1
    obtain ⟨kb, q3, q4⟩ := hrank b (List.getElem?_eq_some_iff.mp hb).1
    refine ⟨ka, kb, q2, q4, ?_⟩
    by_contra hc
    rcases Nat.lt_or_ge ka kb with h | h
    · obtain ⟨l1, r1⟩ := List.getElem?_eq_some_iff.mp q1
      obtain ⟨l2, r2⟩ := List.getElem?_eq_some_iff.mp q3
      have := List.pairwise_iff_getElem.mp hs ka kb l1 l2 h
      rw [r1, r2, hkv a ra va ha hva, hkv b rb vb hb hvb, hlt] at this
      cases this
    · have : ka = kb := by omega
      subst this
      rw [q1, Option.some.injEq] at q3
      subst q3
      rw [ha, Option.some.injEq] at hb
      subst hb
      rw [hva, Option.some.injEq] at hvb
      subst hvb
      rw [StrictLt.irrefl] at hlt
      cases hlt

end rank

/-! ## Examples -/

/-- Sorting in the examples. -/
def ratDescSort (key : Nat → ℚ) (l : List Nat) : List Nat := l.insertionSort (fun a b => key b ≤ key a)

theorem ratDescSort_spec : DescSortSpec ratDescSort := by
  intro key l
  refine ⟨List.perm_insertionSort _ _, ?_⟩
  have : Std.Total (fun a b : Nat => key b ≤ key a) := ⟨fun a b => le_total (key b) (key a)⟩
  have : IsTrans Nat (fun a b => key b ≤ key a) := ⟨fun a b c h1 h2 => le_trans h2 h1⟩
  refine (List.pairwise_insertionSort (fun a b : Nat => key b ≤ key a) l).imp ?_
  intro a b hab
  simpa using hab

/-- Targets of seven rows; the group holds five of them. -/
def groupTargets (i : Nat) : ℚ := if i = 0 then 1 else if i = 1 then 3 else if i = 3 then 1 else if i = 5 then 2 else 3

/-- Rows 0, 1, 3, 5, 6 with targets 1, 3, 1, 2, 3: eight pairs. -/
example : (match mkGroup ratDescSort groupTargets [0, 1, 3, 5, 6] with
    | .ok g => decide (g.rows = [1, 6, 5, 0, 3] ∧ g.pairMap = [(6, 2, 2), (8, 1, 3)] ∧ g.numPairs = 8 ∧
        (List.range 8).map (drawnRows g) =
          [ok (1, 3), ok (6, 3), ok (1, 0), ok (6, 0), ok (1, 5), ok (6, 5), ok (5, 3), ok (5, 0)])
    | _ => false) = true := by decide +kernel

/-- Ranking it by other values. -/
example : (match mkGroup ratDescSort groupTargets [0, 1, 3, 5, 6] with
    | .ok g => match rerank ratDescSort [5, 1, 9, 2, 9, 7, 1] g with
      | .ok g' => decide (g'.rows = [1, 6, 5, 0, 3] ∧ g'.ranks = [3, 4, 0, 1, 2])
      | _ => false
    | _ => false) = true := by decide +kernel

end Gbdt
