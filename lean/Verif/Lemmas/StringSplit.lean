import Verif.Lemmas.FloatSplit
import Verif.Lemmas.StringColumn

/-!
# Categorical splits
-/

set_option autoImplicit false
set_option linter.unusedSectionVars false

namespace Gbdt

open Outcome

variable {D A : Type} [Dbl D] [LinearOrder A]

/-- What splitting needs to know about a string column: `codes` are the rows' codes. -/
structure StrWF (c : StrCol) (codes : List Nat) : Prop where
  data : c.ints.data = ok codes
  lt : ∀ k ∈ codes, k < c.maxInt

theorem strWF_build (blocks : List (List String)) (h : blocks.flatten.length + 1 < 2 ^ 32) :
    ∃ codes, StrWF (StrCol.build blocks) codes ∧ codes.length = blocks.flatten.length := by
  have d := StrCol.done_build blocks (by simpa using h)
  obtain ⟨l, hl, hm⟩ := d.codes
  have hlen : l.length = blocks.flatten.length := by
    have := congrArg List.length hm
    simpa only [List.length_map] using this
  refine ⟨l, ⟨hl, ?_⟩, hlen⟩
  intro k hk
  obtain ⟨i, hi⟩ := List.mem_iff_getElem?.mp hk
  have hil := (List.getElem?_eq_some_iff.mp hi).1
  have := congrArg (fun x => x[i]?) hm
  simp only [List.getElem?_map, hi] at this
  rw [List.getElem?_eq_getElem (by omega)] at this
  simp only [Option.map_some, Option.some.injEq] at this
  have hk' := (List.getElem?_eq_some_iff.mp this).1
  have h2 := d.len
  rw [StrCol.maxInt, u32_of_lt (by omega)]
  exact hk'

theorem partition_string {c : StrCol} {codes : List Nat} (wf : StrWF c codes) (s : Split D A) (cs : CatSplit)
    (hs : s.catSplit = some cs) (samples : List Nat) (hin : ∀ i ∈ samples, i < codes.length) :
    ∃ R, partition (.str c : Column A) s samples = ok (samples.filter (rowLeft codes (fun k => (categorySet c cs).contains k)), R) ∧
      R.Perm (samples.filter (fun i => !rowLeft codes (fun k => (categorySet c cs).contains k) i)) := by
  refine partition_spec (by simp [Matches, hs]) _ samples ?_
  intro i hi
  have hlt := hin i hi
  have hcode : c.ints.code i = ok codes[i] := by
    rw [IntCol.code, wf.data, ok_bind, vecGet_lt hlt]
  simp only [rowTest, hs, stringGoesLeft, hcode, ok_bind, pure_eq, rowLeft, List.getElem?_eq_getElem hlt]

variable [FpOrder D]

/-- What `FindBestStringSplit` returns. -/
theorem findBestStringSplit_eq {sort : (Nat → D) → List Nat → List Nat} (hsort : SortSpec sort) {c : StrCol}
    {codes : List Nat} (wf : StrWF c codes) (w : Nat → D)
    (grads : List (GD D)) (samples : List Nat) (cfg : SplitConfig D) (total : GD D)
    (hin : ∀ i ∈ samples, i < codes.length ∧ i < grads.length) :
    let x := weighted w grads
    ∃ values : List Nat, values.Perm (valuesOf codes c.maxInt x samples) ∧
      values.Pairwise (fun a b => Dbl.ltb ((binOf codes x samples b).score cfg.l2Lambda)
        ((binOf codes x samples a).score cfg.l2Lambda) = false) ∧
    let sp := findBestSplitPoint cfg total none (values.map (binOf codes x samples))
    (sp.leftPoint = none ∧ (findBestStringSplit sort c w grads samples cfg total : Outcome (Option (Split D A))) = ok none) ∨
    ∃ p, sp.leftPoint = some p ∧ p + 1 < values.length ∧
      (findBestStringSplit sort c w grads samples cfg total : Outcome (Option (Split D A))) =
        ok (some { gain := sp.gain, catSplit := some { category := [], index :=
          if p + 1 ≤ values.length - p - 1 then values.take (p + 1) else values.drop (p + 1) } }) := by
  intro x
  obtain ⟨h, hh, hi⟩ := histogramOf_spec (codes := codes) (n := c.maxInt) (w := w) (grads := grads)
    (samples := samples) (by
      intro i hi
      have := hin i hi
      exact ⟨this.2, _, List.getElem?_eq_getElem this.1, wf.lt _ (List.getElem_mem this.1)⟩)
  let key : Nat → D := fun v => match h[v]? with
    | some d => d.score cfg.l2Lambda
    | none => 0
  have hv : nonZeroValues h = valuesOf codes c.maxInt x samples := nonZeroValues_eq hi
  obtain ⟨hperm, hord⟩ := hsort key (valuesOf codes c.maxInt x samples)
  have hlt : ∀ k ∈ sort key (valuesOf codes c.maxInt x samples), k < c.maxInt :=
    fun k hk => (mem_values.mp ((hperm.mem_iff).mp hk)).1
  have hkey : ∀ k ∈ sort key (valuesOf codes c.maxInt x samples), key k = (binOf codes x samples k).score cfg.l2Lambda := by
    intro k hk
    simp only [key]
    rw [hi.2 k (hlt k hk)]
    rfl
  have hd := histData_eq hi _ hlt
  refine ⟨sort key (valuesOf codes c.maxInt x samples), hperm, ?_, ?_⟩
  · refine List.Pairwise.imp_of_mem ?_ hord
    intro a b ha hb hab
    rw [← hkey a ha, ← hkey b hb]
    exact hab
  · intro sp
    have hrun : (findBestStringSplit sort c w grads samples cfg total : Outcome (Option (Split D A))) =
        (match sp.leftPoint with
        | none => pure none
        | some p =>
          let set := if p + 1 ≤ (sort key (valuesOf codes c.maxInt x samples)).length - p - 1
            then (sort key (valuesOf codes c.maxInt x samples)).take (p + 1)
            else (sort key (valuesOf codes c.maxInt x samples)).drop (p + 1)
          pure (some { gain := sp.gain, catSplit := some { index := set } })) := by
      unfold findBestStringSplit
      rw [wf.data, ok_bind, hh, ok_bind]
      dsimp only
      rw [hv]
      change (histData h (sort key (valuesOf codes c.maxInt x samples)) >>= _) = _
      rw [hd, ok_bind]
      rfl
    cases hl : sp.leftPoint with
    | none => rw [hl] at hrun; exact Or.inl ⟨rfl, hrun⟩
    | some p =>
      obtain ⟨⟨l, q, hc⟩, _⟩ := (findBestSplitPoint_inv cfg total none
        ((sort key (valuesOf codes c.maxInt x samples)).map (binOf codes x samples))).some p hl
      have hlen : p + 1 < (sort key (valuesOf codes c.maxInt x samples)).length := by
        have := hc.2.1; rwa [List.length_map] at this
      refine Or.inr ⟨p, rfl, hlen, ?_⟩
      rw [hrun, hl]
      rfl

end Gbdt
