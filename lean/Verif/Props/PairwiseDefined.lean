import Verif.Props.Pairwise
import Verif.Props.Config
import Mathlib.Algebra.Order.Floor.Defs
import Mathlib.Algebra.Order.Floor.Semiring

/-!
# C52, C53, C56, C74: weights, groups and definedness of pairwise losses
-/

set_option autoImplicit false
set_option linter.unusedSectionVars false

namespace Gbdt

open Outcome

/-! ## C56 -/

/-- **C56.** With a group column as the loaders build it and no missing group: the groups put together are all rows, each
once; no group is empty; and a group holds exactly the rows with the same string. -/
theorem C56_groups (blocks : List (List String)) (h : blocks.flatten.length + 1 < 2 ^ 32)
    (hm : "__missing__" ∉ blocks.flatten) (numRows : Nat) :
    ∃ groups, rowGroups numRows (some (StrCol.build blocks)) = ok groups ∧
      groups.flatten.Perm (List.range blocks.flatten.length) ∧
      (∀ l ∈ groups, l ≠ [] ∧ l.Pairwise (· < ·)) ∧
      ∀ l ∈ groups, ∀ i ∈ l, ∀ j, j ∈ l ↔ ∃ s, blocks.flatten[j]? = some s ∧ blocks.flatten[i]? = some s := by
  have d := StrCol.done_build blocks (by simpa using h)
  obtain ⟨codes, hl, hmap⟩ := d.codes
  have hlen : codes.length = blocks.flatten.length := by
    have := congrArg List.length hmap
    simpa only [List.length_map] using this
  have hmax : (StrCol.build blocks).maxInt = (StrCol.build blocks).strings.length := u32_of_lt (by have := d.len; omega)
  have key : ∀ (k c : Nat), codes[k]? = some c → (StrCol.build blocks).strings[c]? = blocks.flatten[k]? := by
    intro k c hc
    have := congrArg (fun x => x[k]?) hmap
    simp only [List.getElem?_map, hc] at this
    rw [Option.map_some] at this
    cases hb : blocks.flatten[k]? with
    | none => rw [hb] at this; cases this
    | some s => rw [hb] at this; simpa using this
  have hcodes : ∀ c ∈ codes, 0 < c ∧ c ≤ (StrCol.build blocks).maxInt - 1 := by
    intro c hc
    obtain ⟨k, hk⟩ := List.getElem?_of_mem hc
    have hkk := key k c hk
    have hkl : k < blocks.flatten.length := by rw [← hlen]; exact (List.getElem?_eq_some_iff.mp hk).1
    rw [List.getElem?_eq_getElem hkl] at hkk
    have h1 := (List.getElem?_eq_some_iff.mp hkk).1
    refine ⟨?_, by omega⟩
    by_contra h0
    obtain rfl : c = 0 := by omega
    rw [d.zero, Option.some.injEq] at hkk
    exact hm (hkk ▸ List.getElem_mem hkl)
  obtain ⟨groups, hg⟩ := putAll_total codes 0 (List.replicate ((StrCol.build blocks).maxInt - 1) [])
    (fun c hc => by rw [List.length_replicate]; exact hcodes c hc)
  have hrg : rowGroups numRows (some (StrCol.build blocks)) = ok groups := by rw [rowGroups, hl, ok_bind, hg]
  have hgr := putAll_groups hg
  have mem : ∀ l ∈ groups, ∃ c, c < (StrCol.build blocks).strings.length ∧ 0 < c ∧ ∀ i, i ∈ l ↔ codes[i]? = some c := by
    intro l hl
    rw [hgr] at hl
    obtain ⟨k, hk, rfl⟩ := List.mem_map.mp hl
    have := List.mem_range.mp hk
    refine ⟨k + 1, by omega, by omega, fun i => ?_⟩
    rw [mem_rowsWith]
    simp
  refine ⟨groups, hrg, ?_, ?_, ?_⟩
  · rw [List.perm_ext_iff_of_nodup (rowGroups_nodup hrg) List.nodup_range]
    intro i
    rw [List.mem_range, List.mem_flatten]
    constructor
    · rintro ⟨l, hl, hi⟩
      obtain ⟨c, _, _, hc⟩ := mem l hl
      rw [← hlen]
      exact (List.getElem?_eq_some_iff.mp ((hc i).mp hi)).1
    · intro hi
      rw [← hlen] at hi
      have hc := hcodes codes[i] (List.getElem_mem hi)
      refine ⟨rowsWith (codes[i] - 1 + 1) 0 codes, ?_, ?_⟩
      · rw [hgr]
        exact List.mem_map.mpr ⟨codes[i] - 1, List.mem_range.mpr (by omega), rfl⟩
      · rw [mem_rowsWith]
        refine ⟨by omega, ?_⟩
        rw [Nat.sub_zero, List.getElem?_eq_getElem hi, Nat.sub_add_cancel hc.1]
  · intro l hl
    constructor
    · obtain ⟨c, hc, hc0, hi⟩ := mem l hl
      have hs : (StrCol.build blocks).strings[c]? = some (StrCol.build blocks).strings[c] := List.getElem?_eq_getElem hc
      have hne : (StrCol.build blocks).strings[c] ≠ "__missing__" := by
        intro he
        rw [he] at hs
        have := (d.find _ _).mpr hs
        rw [(d.find _ _).mpr d.zero, Option.some.injEq] at this
        omega
      have hmem := (d.mem _).mp (List.getElem_mem hc)
      rcases hmem with h' | h'
      · exact absurd h' hne
      · obtain ⟨k, hk⟩ := List.getElem?_of_mem h'
        have hkl : k < codes.length := by rw [hlen]; exact (List.getElem?_eq_some_iff.mp hk).1
        have hkk := key k _ (List.getElem?_eq_getElem hkl)
        rw [hk] at hkk
        have e1 := (d.find _ _).mpr hkk
        rw [(d.find _ _).mpr hs, Option.some.injEq] at e1
        have : k ∈ l := (hi k).mpr (by rw [List.getElem?_eq_getElem hkl, ← e1])
        exact List.ne_nil_of_mem this
    · rw [hgr] at hl
      obtain ⟨k, _, rfl⟩ := List.mem_map.mp hl
      exact rowsWith_sorted _ _ _
  · intro l hl i hi j
    obtain ⟨c, hc, hc0, hx⟩ := mem l hl
    have hci := (hx i).mp hi
    have hki := key i c hci
    rw [hx j]
    constructor
    · intro hcj
      exact ⟨(StrCol.build blocks).strings[c], by rw [← key j c hcj, List.getElem?_eq_getElem hc],
        by rw [← hki, List.getElem?_eq_getElem hc]⟩
    · rintro ⟨s, h1, h2⟩
      have hjl : j < codes.length := by rw [hlen]; exact (List.getElem?_eq_some_iff.mp h1).1
      have hkj := key j _ (List.getElem?_eq_getElem hjl)
      rw [h1] at hkj
      rw [h2] at hki
      have e1 := (d.find _ _).mpr hkj
      rw [(d.find _ _).mpr hki, Option.some.injEq] at e1
      rw [List.getElem?_eq_getElem hjl, e1]

/-- **C56.** Without a group column all rows form one group. -/
theorem C56_no_column (numRows : Nat) : rowGroups numRows none = ok [List.range numRows] := by
  rw [rowGroups, C22_all_samples]

/-- The hypotheses hold for this column, and this is what comes out. -/
example : "__missing__" ∉ [["q1", "q2"], ["q1", "q3", "q2"]].flatten ∧
    (match rowGroups 5 (some (StrCol.build [["q1", "q2"], ["q1", "q3", "q2"]])) with
    | .ok groups => decide (groups = [[0, 2], [1, 4], [3]])
    | _ => false) = true := by decide +kernel

/-! ## C74 -/

section table
variable {D : Type} [Dbl D]

/-- Constructing a LambdaMART loss has no undefined behaviour, and its discounts are those of the formula. -/
def C74_full : Prop :=
  ∀ (D : Type) [Dbl D] (value : Nat → D), ∃ table, lambdaTable value = ok table ∧ ∀ rank, tableDiscount value table rank = value rank

/-- **C74 is false**, for every discount: the constructor writes to elements of an empty vector. -/
theorem C74_refuted : ¬ C74_full := by
  intro h
  obtain ⟨table, h1, _⟩ := h ℚ (fun _ => 0)
  cases h1

theorem C74_refuted_always (value : Nat → D) : lambdaTable value = ub := rfl

/-- **C74 (partial).** If those writes do no harm elsewhere, the discounts are right: the vector's size is still 0, so every
discount is computed by the formula.  What is missing is that the writes do no harm, which C++ does not promise. -/
theorem C74_discount_partial (value : Nat → D) (rank : Nat) : tableDiscount value [] rank = value rank := rfl

theorem fillTable_spec (value : Nat → D) : ∀ (left i : Nat) (table : List D), i + left ≤ table.length →
    ∃ out, fillTable value left i table = ok out ∧ out.length = table.length ∧
      (∀ k, k < i → out[k]? = table[k]?) ∧ ∀ k, i ≤ k → k < i + left → out[k]? = some (value k)
  | 0, i, table, _ => ⟨table, rfl, rfl, fun _ _ => rfl, fun k h1 h2 => by omega⟩
  | left + 1, i, table, h => by
    obtain ⟨out, h1, h2, h3, h4⟩ := fillTable_spec value left (i + 1) (table.set i (value i)) (by rw [List.length_set]; omega)
    refine ⟨out, ?_, by rw [h2, List.length_set], ?_, ?_⟩
    · rw [fillTable, if_pos (by omega), h1]
    · intro k hk
      rw [h3 k (by omega), List.getElem?_set_ne (by omega)]
    · intro k hk hk'
      by_cases hki : k = i
      · subst hki
        rw [h3 k (by omega), List.getElem?_set_self (by omega)]
      · exact h4 k (by omega) (by omega)

/-- **C74 (partial).** With `resize` in place of `reserve` the constructor would be defined, and the discounts right. -/
theorem C74_resize_partial (value : Nat → D) : ∃ table, fillTable value 100 0 (List.replicate 100 0) = ok table ∧
    ∀ rank, tableDiscount value table rank = value rank := by
  obtain ⟨out, h1, h2, _, h4⟩ := fillTable_spec value 100 0 (List.replicate 100 0) (by simp)
  refine ⟨out, h1, fun rank => ?_⟩
  rw [tableDiscount]
  by_cases hr : rank < 100
  · rw [h4 rank (by omega) (by omega)]
  · rw [List.getElem?_eq_none (by rw [h2, List.length_replicate]; omega)]

/-- **C74 (why).** Filling a vector that is shorter than the number of elements to write is undefined, however short or long. -/
theorem C74_refuted_short (value : Nat → D) : ∀ (left i : Nat) (table : List D), 0 < left → table.length < i + left →
    fillTable value left i table = ub
  | left + 1, i, table, _, h => by
    rw [fillTable]
    split
    · rename_i hi
      exact C74_refuted_short value left (i + 1) _ (by omega) (by rw [List.length_set]; omega)
    · rfl

example : fillTable (fun k => (k : ℚ)) 4 0 [0, 0, 0] = ub ∧ fillTable (fun k => (k : ℚ)) 3 0 [0, 0, 0] = ok [0, 1, 2] := by
  decide +kernel

end table

/-! ## C52 -/

section dcg
variable {K : Type} [Field K] [LinearOrder K]

/-- The DCG of a ranking: the sum of target times discount of the rank. -/
def dcg (y d : Nat → K) (rows ranks : List Nat) : K := ((rows.zip ranks).map (fun p => y p.1 * d p.2)).sum

theorem dcg_set (y d : Nat → K) : ∀ (rows ranks : List Nat) (i r k k' : Nat), rows[i]? = some r → ranks[i]? = some k →
    dcg y d rows (ranks.set i k') = dcg y d rows ranks - y r * d k + y r * d k'
  | [], _, i, r, k, k', h, _ => by simp at h
  | _ :: _, [], i, r, k, k', _, h => by simp at h
  | a :: rows, b :: ranks, 0, r, k, k', h1, h2 => by
    simp only [List.getElem?_cons_zero, Option.some.injEq] at h1 h2
    subst h1 h2
    simp only [dcg, List.set_cons_zero, List.zip_cons_cons, List.map_cons, List.sum_cons]
    ring
  | a :: rows, b :: ranks, i + 1, r, k, k', h1, h2 => by
    simp only [List.getElem?_cons_succ] at h1 h2
    have := dcg_set y d rows ranks i r k k' h1 h2
    simp only [dcg] at this
    simp only [dcg, List.set_cons_succ, List.zip_cons_cons, List.map_cons, List.sum_cons, this]
    ring

/-- **C52.** For positions `a` and `b` of a group, the former with the larger target, the weight LambdaMART gives the pair
is the change of the DCG when the two rows exchange ranks. -/
theorem C52_delta_dcg [IsStrictOrderedRing K] {e : PairLoss K} {d : Nat → K} (hd : e.discount = some d)
    (hrnd : ∀ x, e.rnd32 x = x) (habs : ∀ x, e.fabs x = |x|) {g : Group} {a b pos neg ra rb : Nat}
    (ha : g.rows[a]? = some pos) (hb : g.rows[b]? = some neg) (hra : g.ranks[a]? = some ra) (hrb : g.ranks[b]? = some rb)
    (hy : e.y neg < e.y pos) :
    pairWeight e g a b = ok |dcg e.y d g.rows ((g.ranks.set a rb).set b ra) - dcg e.y d g.rows g.ranks| := by
  have hab : a ≠ b := by
    rintro rfl
    rw [ha, Option.some.injEq] at hb
    subst hb
    exact lt_irrefl _ hy
  rw [pairWeight, hd]
  simp only [vecGet_eq_ok.mpr ha, vecGet_eq_ok.mpr hb, vecGet_eq_ok.mpr hra, vecGet_eq_ok.mpr hrb, ok_bind, pure_eq, hrnd,
    habs, Outcome.ok.injEq]
  rw [dcg_set e.y d _ _ b neg rb ra hb (by rw [List.getElem?_set_ne hab, hrb]), dcg_set e.y d _ _ a pos ra rb ha hra]
  have : dcg e.y d g.rows g.ranks - e.y pos * d ra + e.y pos * d rb - e.y neg * d rb + e.y neg * d ra -
      dcg e.y d g.rows g.ranks = -((e.y pos - e.y neg) * (d ra - d rb)) := by ring
  rw [this, abs_neg, abs_mul, abs_of_pos (sub_pos.mpr hy)]

end dcg

/-! ## C53 -/

section defined
variable {D : Type} [Dbl D] [FpOrder D] [EqOrder D]

/-- Groups for which drawing pairs is defined when the function values are `f`: rows exist, and the number of pairs to draw
can be computed, fits an `int`, and is 0 if there is no pair. -/
structure CanDraw (e : PairLoss D) (prob : D) (f : List D) (g : Group) : Prop where
  rows : ∀ r ∈ g.rows, ∃ v, f[r]? = some v ∧ (e.rerank = true → NotNaN v)
  count : ∃ m, e.toU64 (e.ofNat g.numPairs * prob) = some m ∧ m < 2147483648 ∧ (g.numPairs = 0 → m = 0)

theorem addToRow_total {grads : List (GD D)} {row : Nat} (h : row < grads.length) (plus : Bool) (dg dh : D) :
    ∃ out, addToRow grads row plus dg dh = ok out ∧ out.length = grads.length := by
  rw [addToRow, vecGet_eq_ok.mpr (List.getElem?_eq_getElem h), ok_bind]
  exact ⟨_, rfl, List.length_set⟩

theorem pairStep_total {e : PairLoss D} (hsort : DescSortSpec e.sort) {f : List D} {g : Group} (hg : KeptGroup e g)
    {factor : D} {index : Nat} {grads : List (GD D)} (hi : index < g.numPairs) (hrows : ∀ r ∈ g.rows, r < f.length)
    (hlen : grads.length = f.length) : ∃ out, pairStep e f g factor index grads = ok out ∧ out.length = f.length := by
  have hperm : g.ranks.length = g.rows.length := by
    obtain ⟨_, _, _, _, _, hp⟩ := hg
    rw [hp.length_eq, List.length_range]
  obtain ⟨l, g0, hnd, hmk, hgg, _⟩ := id hg
  have hd : drawnRows g index = drawnRows g0 index := by rw [hgg]; rfl
  have hn : g.numPairs = g0.numPairs := by rw [hgg]
  obtain ⟨fn, hf1, _⟩ := C49_pair_bijection hsort hnd hmk
  have he := hf1 index (hn ▸ hi)
  rw [← hd, drawnRows, bind_eq_ok] at he
  obtain ⟨⟨a, b⟩, h1, h2⟩ := he
  simp only [bind_eq_ok] at h2
  obtain ⟨pos, h3, neg, h4, _⟩ := h2
  rw [vecGet_eq_ok] at h3 h4
  have hp := hrows pos (List.mem_of_getElem? h3)
  have hq := hrows neg (List.mem_of_getElem? h4)
  have ha := (List.getElem?_eq_some_iff.mp h3).1
  have hb := (List.getElem?_eq_some_iff.mp h4).1
  obtain ⟨pw, hpw⟩ : ∃ pw, pairWeight e g a b = ok pw := by
    rw [pairWeight]
    cases e.discount with
    | none =>
      simp only [vecGet_eq_ok.mpr h3, vecGet_eq_ok.mpr h4, ok_bind, pure_eq]
      split <;> exact ⟨_, rfl⟩
    | some d =>
      simp only [vecGet_eq_ok.mpr h3, vecGet_eq_ok.mpr h4, ok_bind, pure_eq,
        vecGet_eq_ok.mpr (List.getElem?_eq_getElem (show a < g.ranks.length by omega)),
        vecGet_eq_ok.mpr (List.getElem?_eq_getElem (show b < g.ranks.length by omega))]
      exact ⟨_, rfl⟩
  obtain ⟨fp, hfp⟩ : ∃ fp, f[pos]? = some fp := ⟨_, List.getElem?_eq_getElem hp⟩
  obtain ⟨fq, hfq⟩ : ∃ fq, f[neg]? = some fq := ⟨_, List.getElem?_eq_getElem hq⟩
  simp only [pairStep, h1, vecGet_eq_ok.mpr h3, vecGet_eq_ok.mpr h4, hpw, ok_bind, vecGet_eq_ok.mpr hfp, vecGet_eq_ok.mpr hfq]
  obtain ⟨g1, k1, k2⟩ := addToRow_total (grads := grads) (row := pos) (by omega) true
    (e.rnd32 (e.w pos * e.w neg) * pw * factor * (e.lossFn (e.rnd32 (e.y pos - e.y neg)) (fp - fq)).2.1)
    (e.ofNat 2 * (e.rnd32 (e.w pos * e.w neg) * pw * factor) * (e.lossFn (e.rnd32 (e.y pos - e.y neg)) (fp - fq)).2.2)
  obtain ⟨g2, k3, k4⟩ := addToRow_total (grads := g1) (row := neg) (by omega) false
    (e.rnd32 (e.w pos * e.w neg) * pw * factor * (e.lossFn (e.rnd32 (e.y pos - e.y neg)) (fp - fq)).2.1)
    (e.ofNat 2 * (e.rnd32 (e.w pos * e.w neg) * pw * factor) * (e.lossFn (e.rnd32 (e.y pos - e.y neg)) (fp - fq)).2.2)
  exact ⟨g2, by rw [k1, ok_bind, k3], by omega⟩

theorem pairLoop_total {e : PairLoss D} (hsort : DescSortSpec e.sort) {f : List D} {g : Group} (hg : KeptGroup e g)
    {factor : D} {draw : Nat → Nat} (hrows : ∀ r ∈ g.rows, r < f.length) (hd : ∀ i, draw i < g.numPairs) :
    ∀ (n i : Nat) {grads : List (GD D)}, grads.length = f.length →
    ∃ out, pairLoop e f g factor draw n i grads = ok out ∧ out.length = f.length
  | 0, i, grads, h => ⟨grads, rfl, h⟩
  | n + 1, i, grads, h => by
    obtain ⟨g1, h1, h2⟩ := pairStep_total hsort hg (factor := factor) (hd i) hrows h
    obtain ⟨out, h3, h4⟩ := pairLoop_total hsort hg hrows hd n (i + 1) h2
    exact ⟨out, by rw [pairLoop, h1, ok_bind, h3], h4⟩

theorem pairGroup_total {e : PairLoss D} (hsort : DescSortSpec e.sort) {s : PairState D} (hs : KeptState e s) {f : List D}
    (hdraw : ∀ t g i n, 0 < n → e.draw t g i n < n) {index : Nat} (hi : index < s.groups.length)
    (hc : ∀ g ∈ s.groups, CanDraw e s.prob f g) {grads : List (GD D)} (hl : grads.length = f.length) :
    ∃ g' out, pairGroup e s f index grads = ok (g', out) ∧ out.length = f.length := by
  have hk := hs.groups _ (List.getElem_mem hi)
  have hcg := hc _ (List.getElem_mem hi)
  have hsome : s.groups[index]? = some s.groups[index] := List.getElem?_eq_getElem hi
  generalize s.groups[index] = g at hk hcg hsome
  have hlen : g.ranks.length = g.rows.length := by
    obtain ⟨_, _, _, _, _, hp⟩ := hk
    rw [hp.length_eq, List.length_range]
  obtain ⟨m, hm1, hm2, hm3⟩ := hcg.count
  have hsp : samplePairs e s.prob g = ok m := by
    rw [samplePairs, hm1]
    exact if_pos hm2
  have hg1 : ∃ g1, (e.rerank = true ∧ Gbdt.rerank e.sort f g = ok g1 ∨ e.rerank ≠ true ∧ g1 = g) ∧ KeptGroup e g1 ∧ g1 = { g with ranks := g1.ranks } := by
    by_cases hr : e.rerank = true
    · obtain ⟨ranks, e1, _⟩ := C50_ranks hsort (g := g) (f := f) (fun r hrr => by
        obtain ⟨v, h1, h2⟩ := hcg.rows r hrr
        exact ⟨v, h1, h2 hr⟩) hlen
      obtain ⟨a, b, _⟩ := rerank_kept hsort hk e1
      exact ⟨_, Or.inl ⟨hr, e1⟩, a, b⟩
    · exact ⟨g, Or.inr ⟨hr, rfl⟩, hk, rfl⟩
  obtain ⟨g1, hg1, hk1, hgg⟩ := hg1
  have hnp : g1.numPairs = g.numPairs := by rw [hgg]
  have hrw : ∀ r ∈ g1.rows, r < f.length := by
    intro r hr
    rw [hgg] at hr
    obtain ⟨v, hv, _⟩ := hcg.rows r hr
    exact (List.getElem?_eq_some_iff.mp hv).1
  have hsp1 : samplePairs e s.prob g1 = ok m := by rw [samplePairs, hnp]; exact hsp
  obtain ⟨out, ho, hol⟩ : ∃ out, pairLoop e f g1 (groupFactor e s.minNumPairs g1)
      (fun i => e.draw s.round index i g1.numPairs) m 0 grads = ok out ∧ out.length = f.length := by
    by_cases h0 : g.numPairs = 0
    · rw [hm3 h0]
      exact ⟨grads, rfl, hl⟩
    · exact pairLoop_total hsort hk1 hrw (fun i => hdraw _ _ _ _ (by omega)) m 0 hl
  refine ⟨g1, out, ?_, hol⟩
  rw [pairGroup, vecGet_eq_ok.mpr hsome, ok_bind]
  rcases hg1 with ⟨hr, h1⟩ | ⟨hr, rfl⟩
  · rw [if_pos hr, h1]
    simp only [ok_bind, hsp1, ho, pure_eq]
  · rw [if_neg hr]
    simp only [ok_bind, hsp1, ho, pure_eq]

theorem pairGroups_total {e : PairLoss D} (hsort : DescSortSpec e.sort) {f : List D}
    (hdraw : ∀ t g i n, 0 < n → e.draw t g i n < n) : ∀ (order : List Nat) {s : PairState D} {grads : List (GD D)},
    KeptState e s → (∀ i ∈ order, i < s.groups.length) → (∀ g ∈ s.groups, CanDraw e s.prob f g) →
    grads.length = f.length → ∃ r, pairGroups e f order s grads = ok r
  | [], s, grads, _, _, _, _ => ⟨_, rfl⟩
  | index :: rest, s, grads, hs, ho, hc, hl => by
    obtain ⟨g', out, h1, h2⟩ := pairGroup_total hsort hs hdraw (ho index (by simp)) hc hl
    have hone : pairGroups e f [index] s grads = ok ({ s with groups := s.groups.set index g' }, out) := by
      rw [pairGroups, h1]
      rfl
    obtain ⟨k1, k2, _, _⟩ := pairGroups_kept hsort _ hs hone
    obtain ⟨r, hr⟩ := pairGroups_total hsort hdraw rest k1 (fun i hi => by
      rw [List.length_set]
      exact ho i (by simp [hi])) (fun g hg => by
        obtain ⟨g0, n, e1, _, e3, _⟩ := pairGroup_spec hsort hs h1
        rcases List.mem_or_eq_of_mem_set hg with hg | rfl
        · exact hc g hg
        · have := hc g0 (List.mem_of_getElem? e1)
          exact ⟨fun r hr => this.rows r (by rw [e3] at hr; exact hr), by
            obtain ⟨m, hm⟩ := this.count
            exact ⟨m, by rw [e3]; exact hm⟩⟩) h2
    exact ⟨r, by rw [pairGroups, h1, ok_bind]; exact hr⟩

/-- **C53 (partial, setting up).** With targets that are numbers, at least one thread and no group column or one without
missing values, `Init` is defined.  What is missing is the case of a missing value or a NaN target, where it is false. -/
theorem C53_init_partial {e : PairLoss D} (hthreads : 0 < e.numThreads) {numRows : Nat} {col : Option StrCol}
    (hcol : col = none ∨ ∃ blocks, col = some (StrCol.build blocks) ∧ blocks.flatten.length + 1 < 2 ^ 32 ∧
      "__missing__" ∉ blocks.flatten)
    (hy : ∀ r, NotNaN (e.y r)) : ∃ r, pairInit e numRows col = ok r := by
  unfold pairInit
  split
  · exact ⟨_, rfl⟩
  · obtain ⟨groups, hg⟩ : ∃ groups, rowGroups numRows col = ok groups := by
      rcases hcol with rfl | ⟨blocks, rfl, h1, h2⟩
      · exact ⟨_, C56_no_column numRows⟩
      · obtain ⟨groups, h, _⟩ := C56_groups blocks h1 h2 numRows
        exact ⟨groups, h⟩
    obtain ⟨gs, hgs⟩ := mapM_defined (f := mkGroup e.sort e.y) (l := groups)
      (fun l _ => C49_defined e.sort (fun r _ => hy r))
    obtain ⟨k, hk⟩ : ∃ k : Nat, e.numThreads * 5 = k := ⟨_, (Int.toNat_of_nonneg (by omega)).symm⟩
    obtain ⟨slices, hsl, _⟩ := C21_divide_range gs.length k (by omega)
    rw [hg, ok_bind, hgs, ok_bind, hk, hsl, ok_bind]
    exact ⟨_, rfl⟩

/-- **C53 (partial, gradients).** In every state the loss can reach, computing gradients is defined if `CanDraw` holds for
every group and the generator draws in range. -/
theorem C53_compute_partial {e : PairLoss D} (hsort : DescSortSpec e.sort) {numRows : Nat} {col : Option StrCol}
    {s : PairState D} {f : List D} (hr : PairReach e numRows col s)
    (hdraw : ∀ t g i n, 0 < n → e.draw t g i n < n) (hc : ∀ g ∈ s.groups, CanDraw e s.prob f g) :
    ∃ r, pairCompute e s f = ok r := by
  have hinv := hr.inv hsort
  obtain ⟨⟨s1, grads⟩, h⟩ := pairGroups_total hsort hdraw (List.range s.groups.length) (f := f) hinv.kept
    (fun i hi => List.mem_range.mp hi) hc (grads := List.replicate f.length ⟨0, 0⟩) (by simp)
  exact ⟨({ s1 with round := s1.round + 1 }, 0, grads), by simp only [pairCompute, hinv.order, h, ok_bind, pure_eq]⟩

/-- If all targets are equal there are no pairs, and the number of pairs to draw is 0 times a division by zero.  Where that
is not a number (IEEE arithmetic: 0 times infinity), computing gradients is undefined. -/
theorem C53_refuted_no_pairs {e : PairLoss D} (hsort : DescSortSpec e.sort) {numRows : Nat}
    {s : PairState D} {f : List D} (hr : PairReach e numRows none s) (hy : ∀ i j, Dbl.ltb (e.y i) (e.y j) = false)
    (hnan : e.toU64 (e.ofNat 0 * (e.rate * e.ofNat numRows / e.ofNat 0 / e.ofNat 2)) = none) (hre : e.rerank = false) :
    pairCompute e s f = ub := by
  have hinv := hr.inv hsort
  obtain ⟨groups, starts, h1, h2, h3, h4, h5⟩ := hinv.start
  rw [C56_no_column, Outcome.ok.injEq] at h1
  subst h1
  have hl := h2.length_eq
  have hl' := h3.length_eq
  rw [List.length_singleton] at hl
  obtain ⟨g0, rfl⟩ := List.length_eq_one_iff.mp hl.symm
  obtain ⟨g, hgs⟩ := List.length_eq_one_iff.mp (hl'.symm.trans hl.symm)
  rw [hgs] at h3
  rw [List.forall₂_cons] at h2 h3
  have hz : g0.numPairs = 0 := by
    rw [C49_num_pairs hsort List.nodup_range h2.1, List.length_eq_zero_iff, List.filter_eq_nil_iff]
    intro p _
    rw [hy]
    simp
  have hz' : g.numPairs = 0 := by rw [h3.1]; exact hz
  have ho := hinv.order
  have hp : s.prob = e.rate * e.ofNat numRows / e.ofNat 0 / e.ofNat 2 := by rw [h5]; simp [hz]
  rw [hgs, List.length_singleton, List.range_one] at ho
  have hub : pairGroup e s f 0 (List.replicate f.length ⟨0, 0⟩) = ub := by
    have hsp : samplePairs e s.prob g = ub := by rw [samplePairs, hz', hp, hnan]
    rw [pairGroup, hgs, vecGet_eq_ok.mpr (show [g][0]? = some g from rfl), ok_bind, if_neg (by rw [hre]; simp)]
    simp only [pure_eq, ok_bind, hsp]
    rfl
  rw [pairCompute]
  simp only [ho, pairGroups, hub]
  rfl

theorem rowGroups_missing {numRows : Nat} {blocks : List (List String)} (h : blocks.flatten.length + 1 < 2 ^ 32)
    (hm : "__missing__" ∈ blocks.flatten) : rowGroups numRows (some (StrCol.build blocks)) = ub := by
  have d := StrCol.done_build blocks (by simpa using h)
  obtain ⟨codes, hl, hmap⟩ := d.codes
  have hmax : (StrCol.build blocks).maxInt = (StrCol.build blocks).strings.length := u32_of_lt (by have := d.len; omega)
  have hcodes : ∀ c ∈ codes, c ≤ (List.replicate ((StrCol.build blocks).maxInt - 1) ([] : List Nat)).length := by
    intro c hc
    have : (StrCol.build blocks).strings[c]? ∈ blocks.flatten.map some := hmap ▸ List.mem_map_of_mem hc
    obtain ⟨s, _, hs⟩ := List.mem_map.mp this
    have := (List.getElem?_eq_some_iff.mp hs.symm).1
    rw [List.length_replicate]
    omega
  have hz : 0 ∈ codes := by
    have : some "__missing__" ∈ codes.map (fun k => (StrCol.build blocks).strings[k]?) := hmap ▸ List.mem_map_of_mem hm
    obtain ⟨c, hc, hcs⟩ := List.mem_map.mp this
    have e1 := (d.find _ _).mpr hcs
    rw [(d.find _ _).mpr d.zero, Option.some.injEq] at e1
    rw [e1]
    exact hc
  rw [rowGroups, hl, ok_bind, putAll_zero codes 0 _ hcodes hz]

/-- A missing value in the group column makes `Init` write far out of bounds. -/
theorem C53_refuted_missing {e : PairLoss D} (hrate : Dbl.leb e.rate 0 = false) {numRows : Nat} {blocks : List (List String)}
    (h : blocks.flatten.length + 1 < 2 ^ 32) (hm : "__missing__" ∈ blocks.flatten) :
    pairInit e numRows (some (StrCol.build blocks)) = ub := by
  unfold pairInit
  rw [hrate, if_neg (by simp), rowGroups_missing h hm]
  rfl

/-- A NaN target makes `Init` sort with a comparison that is no ordering. -/
theorem C53_refuted_nan_target {e : PairLoss D} (hrate : Dbl.leb e.rate 0 = false) {numRows r : Nat} (hr : r < numRows)
    (hy : Dbl.eqb (e.y r) (e.y r) = false) : pairInit e numRows none = ub := by
  unfold pairInit
  rw [hrate, if_neg (by simp), C56_no_column, ok_bind]
  have : mkGroup e.sort e.y (List.range numRows) = ub := by
    have hs : sortDesc e.sort e.y (List.range numRows) = ub := by
      rw [sortDesc, if_pos]
      rw [List.any_eq_true]
      exact ⟨r, List.mem_range.mpr hr, by rw [hy]; rfl⟩
    rw [mkGroup, hs]
    rfl
  rw [List.mapM_cons, this]
  rfl

/-- Setting up a pairwise loss and computing gradients has no undefined behaviour: for every arithmetic, targets, function
values that are numbers, group column of the right length, generator that draws in range, and conversion that is defined on
all non-negative numbers. -/
def C53_full : Prop :=
  ∀ (D : Type) [Dbl D] [FpOrder D] [EqOrder D] (e : PairLoss D) (numRows : Nat) (col : Option StrCol),
    DescSortSpec e.sort → 0 < e.numThreads → (∀ t g i n, 0 < n → e.draw t g i n < n) →
    (∀ x, Dbl.leb 0 x = true → ∃ n, n < 2147483648 ∧ e.toU64 x = some n) →
    (col = none ∨ ∃ blocks, col = some (StrCol.build blocks) ∧ blocks.flatten.length = numRows) →
    pairInit e numRows col ≠ ub ∧ ∀ s f, pairInit e numRows col = ok (.ok s) → f.length = numRows →
      (∀ v ∈ f, NotNaN v) → pairCompute e s f ≠ ub

end defined

section witness
attribute [local instance] nanDbl

theorem nanEqOrder : EqOrder (Fl ℚ) where
  eq_not_lt a b := by
    cases a <;> cases b <;> simp [Dbl.ltb, Dbl.eqb, Fl.lt]
    exact fun h => h.le
  total a b := by
    cases a <;> cases b <;> simp [Dbl.ltb, Dbl.eqb, Fl.lt]
    rename_i x y
    rcases lt_trichotomy x y with h | h | h
    · exact Or.inl h
    · exact Or.inr (Or.inl h)
    · exact Or.inr (Or.inr h)

/-- Sorting by decreasing key, with NaN keys at the end. -/
def nanDescSort (key : Nat → Fl ℚ) (l : List Nat) : List Nat :=
  l.insertionSort (fun a b => key b = .nan ∨ Fl.lt (key a) (key b) = false ∧ key a ≠ .nan)

theorem nanDescSort_spec : DescSortSpec nanDescSort := by
  intro key l
  refine ⟨List.perm_insertionSort _ _, ?_⟩
  have t1 : Std.Total (fun a b => key b = .nan ∨ Fl.lt (key a) (key b) = false ∧ key a ≠ .nan) := ⟨fun a b => by
    cases ha : key a <;> cases hb : key b <;> simp [Fl.lt]
    exact le_total _ _⟩
  have t2 : IsTrans Nat (fun a b => key b = .nan ∨ Fl.lt (key a) (key b) = false ∧ key a ≠ .nan) := ⟨fun a b c => by
    cases ha : key a <;> cases hb : key b <;> cases hc : key c <;> simp [Fl.lt]
    exact fun h1 h2 => le_trans h2 h1⟩
  refine (List.pairwise_insertionSort _ l).imp ?_
  intro a b hab
  show Fl.lt (key a) (key b) = false
  rcases hab with h | h
  · rw [h]; cases key a <;> rfl
  · exact h.1

/-- A pairwise loss for rows that all have the same target. -/
def flatLoss : PairLoss (Fl ℚ) where
  rate := .num 1
  byDelta := false
  equalWeight := false
  rerank := false
  lossFn := fun _ _ => (.num 0, .num 0, .num 0)
  discount := none
  w := fun _ => .num 1
  y := fun _ => .num 1
  sort := nanDescSort
  ofNat := fun n => .num n
  toU64 := fun x => match x with
    | .num a => some (min a.floor.toNat 1000)
    | .nan => none
  rnd32 := id
  fabs := id
  numThreads := 1
  draw := fun _ _ _ _ => 0

theorem flat_defined : (match pairInit flatLoss 2 none with
    | .ok (.ok _) => true
    | _ => false) = true := by decide +kernel

/-- **C53 is false**: if no group has two different targets, a NaN is converted to an integer.  (So do missing groups and
NaN targets: `C53_refuted_missing`, `C53_refuted_nan_target`.) -/
theorem C53_refuted : ¬ C53_full := by
  intro h
  have := (@h (Fl ℚ) nanDbl nanFpOrder nanEqOrder flatLoss 2 none nanDescSort_spec (by decide) (fun _ _ _ _ h => h) ?_
    (Or.inl rfl)).2
  · have hu := flat_defined
    cases hp : pairInit flatLoss 2 none with
    | ub => rw [hp] at hu; cases hu
    | fatal => rw [hp] at hu; cases hu
    | ok r =>
      rw [hp] at hu
      cases r with
      | error c => cases hu
      | ok s =>
        refine this s [.num 0, .num 0] hp rfl ?_ (@C53_refuted_no_pairs _ nanDbl nanFpOrder nanEqOrder _ nanDescSort_spec _ _ _
          (.init hp) (fun _ _ => nanFpOrder.irrefl (.num 1)) (by decide +kernel) rfl)
        intro v hv
        simp only [List.mem_cons, List.not_mem_nil, or_false, or_self] at hv
        subst hv
        rfl
  · intro x hx
    cases x with
    | nan => cases hx
    | num a => exact ⟨_, lt_of_le_of_lt (min_le_right _ _) (by decide), rfl⟩

end witness

/-! ### In exact arithmetic -/

section exactDefined
variable {K : Type} [Field K] [LinearOrder K] [IsStrictOrderedRing K] [FloorSemiring K]

theorem foldl_add_ge (l : List Nat) (a : Nat) : a ≤ l.foldl (· + ·) a ∧ ∀ x ∈ l, x ≤ l.foldl (· + ·) a := by
  induction l generalizing a with
  | nil => simp
  | cons b l ih =>
    obtain ⟨h1, h2⟩ := ih (a + b)
    rw [List.foldl_cons]
    refine ⟨by omega, fun x hx => ?_⟩
    rcases List.mem_cons.mp hx with rfl | hx
    · omega
    · exact h2 x hx

/-- **C53 (partial, gradients, exact arithmetic).** Once the loss is set up, computing gradients is defined if some group has
two different targets, there is a function value for every row, and `pair_sampling_rate * num_rows / 2` is less than 2^31.
Missing: the case without such a group, where it is false; rounding in the number of pairs. -/
theorem C53_exact_partial {e : PairLoss K} (hsort : DescSortSpec e.sort) {numRows : Nat} {col : Option StrCol}
    {s : PairState K} {f : List K} (hr : PairReach e numRows col s)
    (hdraw : ∀ t g i n, 0 < n → e.draw t g i n < n) (hof : ∀ n : Nat, e.ofNat n = n)
    (hu : ∀ x : K, 0 ≤ x → x < 18446744073709551616 → e.toU64 x = some ⌊x⌋₊) (hrate : 0 < e.rate)
    (hbound : e.rate * numRows / 2 < 2147483648) {groups : List (List Nat)} (hg : rowGroups numRows col = ok groups)
    (hf : ∀ rows ∈ groups, ∀ r ∈ rows, r < f.length)
    (hpair : ∃ rows ∈ groups, ∃ i ∈ rows, ∃ j ∈ rows, e.y i < e.y j) : ∃ r, pairCompute e s f = ok r := by
  have hinv := hr.inv hsort
  obtain ⟨groups', starts, h1, h2, h3, _, h5⟩ := hinv.start
  rw [hg, Outcome.ok.injEq] at h1
  subst h1
  have hnd := List.nodup_flatten.mp (rowGroups_nodup hg)
  generalize htot : (starts.map (·.numPairs)).foldl (· + ·) 0 = total at h5
  have hle : ∀ g ∈ s.groups, g.numPairs ≤ total := by
    intro g hgm
    obtain ⟨i, hi, rfl⟩ := List.mem_iff_getElem.mp hgm
    rw [List.forall₂_iff_get] at h3
    have hx := h3.2 i (by omega) hi
    simp only [List.get_eq_getElem] at hx
    have hnp : s.groups[i].numPairs = (starts[i]'(by omega)).numPairs := by rw [hx]
    rw [hnp, ← htot]
    exact (foldl_add_ge _ 0).2 _ (List.mem_map_of_mem (List.getElem_mem (by omega)))
  have hpos : 0 < total := by
    obtain ⟨rows, hrm, i, hi, j, hj, hij⟩ := hpair
    obtain ⟨k, hk, rfl⟩ := List.mem_iff_getElem.mp hrm
    rw [List.forall₂_iff_get] at h2
    have hx := h2.2 k hk (by omega)
    simp only [List.get_eq_getElem] at hx
    have hn := C49_num_pairs hsort (hnd.1 _ hrm) hx
    have hp : 0 < (starts[k]'(by omega)).numPairs := by
      rw [hn]
      apply List.length_pos_of_mem (a := (j, i))
      rw [List.mem_filter]
      refine ⟨?_, by simpa using hij⟩
      exact List.mem_flatMap.mpr ⟨j, hj, List.mem_map.mpr ⟨i, hi, rfl⟩⟩
    rw [← htot]
    exact lt_of_lt_of_le hp ((foldl_add_ge _ 0).2 _ (List.mem_map_of_mem (List.getElem_mem (by omega))))
  refine C53_compute_partial hsort hr hdraw ?_
  intro g hgm
  constructor
  · intro r hrr
    have hperm := List.forall₂_iff_get.mp (hinv.rows hsort hg)
    obtain ⟨i, hi, rfl⟩ := List.mem_iff_getElem.mp hgm
    have hx := hperm.2 i (by omega) hi
    simp only [List.get_eq_getElem] at hx
    have := hf _ (List.getElem_mem (show i < groups.length by omega)) r (hx.mem_iff.mp hrr)
    exact ⟨_, List.getElem?_eq_getElem this, fun _ => by simp [NotNaN]⟩
  · have hT : (0 : K) < total := by exact_mod_cast hpos
    have hN : (g.numPairs : K) ≤ total := by exact_mod_cast hle g hgm
    have hx : e.ofNat g.numPairs * s.prob = (g.numPairs : K) / total * (e.rate * numRows / 2) := by
      rw [h5, hof, hof, hof, hof]
      push_cast
      field_simp
    have hR : 0 ≤ e.rate * numRows / 2 := by positivity
    have h0 : 0 ≤ e.ofNat g.numPairs * s.prob := by rw [hx]; positivity
    have hlt : e.ofNat g.numPairs * s.prob < 2147483648 := by
      rw [hx]
      refine lt_of_le_of_lt ?_ hbound
      exact mul_le_of_le_one_left hR ((div_le_one hT).mpr hN)
    refine ⟨_, hu _ h0 (lt_trans hlt (by norm_num)), ?_, ?_⟩
    · rw [Nat.floor_lt h0]
      exact_mod_cast hlt
    · intro hz
      rw [hof, hz]
      simp

end exactDefined

/-! ## A concrete loss -/

/-- LambdaMART-like weights (discounts 1, 1/2, 1/3, ...) with a hinge loss, on five rows. -/
def ratPairLoss : PairLoss ℚ where
  rate := 2
  byDelta := false
  equalWeight := true
  rerank := true
  lossFn := fun _ d => if d < 1 then ((1 - d) * (1 - d) / 2, 1 - d, 1) else (0, 0, 0)
  discount := some (fun r => 1 / (r + 1))
  w := fun i => i + 1
  y := fun i => [2, 0, 1, 2, 3].getD i 0
  sort := ratDescSort
  ofNat := fun n => n
  toU64 := fun x => some x.floor.toNat
  rnd32 := id
  fabs := fun x => if x < 0 then -x else x
  numThreads := 2
  draw := fun t _ i n => (t + i) % n

/-- The groups of the five rows. -/
def ratPairCol : StrCol := StrCol.build [["q1", "q2"], ["q1", "q1", "q2"]]

/-- All hypotheses of C51, C53 and C75 hold for this loss after set-up; pairs are drawn from both groups; and the numbers
that come out cancel within each group. -/
example : (match pairInit ratPairLoss 5 (some ratPairCol) with
    | .ok (.ok s) => match pairCompute ratPairLoss s [1, 0, 0, 1/2, 1/4] with
      | .ok (_, c, grads) => decide (c = 0 ∧ s.groups.map (·.rows) = [[0, 3, 2], [4, 1]] ∧ s.groups.map (·.numPairs) = [2, 1] ∧
          grads.map (·.g) = [0, -45/2, -1, 1, 45/2] ∧ grads.map (·.h) = [0, 60, 4, 4, 60])
      | _ => false
    | _ => false) = true := by decide +kernel

example : DescSortSpec ratPairLoss.sort ∧ 0 < ratPairLoss.numThreads ∧ (∀ r, 0 ≤ ratPairLoss.w r) ∧
    (∀ a b, 0 ≤ (ratPairLoss.lossFn a b).2.2) ∧ (∀ t g i n, 0 < n → ratPairLoss.draw t g i n < n) ∧
    0 < ratPairLoss.rate ∧ ratPairLoss.rate * (5 : Nat) / 2 < 2147483648 ∧ ratPairLoss.y 2 < ratPairLoss.y 0 ∧
    (∀ x, 0 ≤ x → ratPairLoss.toU64 x = some ⌊x⌋₊) ∧ ∀ x, ratPairLoss.fabs x = |x| := by
  refine ⟨ratDescSort_spec, by decide, fun r => ?_, fun a b => ?_, fun t g i n h => Nat.mod_lt _ h, by decide +kernel,
    by decide +kernel, by decide +kernel, fun x hx => ?_, fun x => ?_⟩
  · show (0 : ℚ) ≤ (r : ℚ) + 1
    positivity
  · show 0 ≤ (if b < 1 then ((1 - b) * (1 - b) / 2, 1 - b, 1) else ((0, 0, 0) : ℚ × ℚ × ℚ)).2.2
    split <;> simp
  · show some x.floor.toNat = some ⌊x⌋₊
    rw [← Int.floor_toNat]
    rfl
  · show (if x < 0 then -x else x) = |x|
    split
    · rw [abs_of_neg ‹_›]
    · rw [abs_of_nonneg (not_lt.mp ‹_›)]

/-- C52 for the group of rows 0, 3, 2 (targets 2, 2, 1) ranked 2, 0, 1, for the positions 0 and 2: the change of the DCG
is (2 - 1) * (1/2 - 1/3). -/
example : pairWeight ratPairLoss { rows := [0, 3, 2], ranks := [2, 0, 1], numPairs := 2, pairMap := [] } 0 2 = ok (1/6) ∧
    dcg ratPairLoss.y (fun r => 1 / (r + 1)) [0, 3, 2] [1, 0, 2] - dcg ratPairLoss.y (fun r => 1 / (r + 1)) [0, 3, 2] [2, 0, 1] =
      1/6 ∧ ratPairLoss.y 2 < ratPairLoss.y 0 := ⟨by decide +kernel, by decide +kernel, by decide +kernel⟩

end Gbdt
