import Verif.Lemmas.StringColumn
import Mathlib.Data.Finset.Card
import Mathlib.Data.Finset.Dedup

/-!
# C01, C02: string columns

Specification: the column was fed the blocks `blocks`; the strings fed are `blocks.flatten`.
-/

set_option autoImplicit false

namespace Gbdt

open Outcome

/-- A small input used in the examples: three blocks, a repeated value, a missing value. -/
def sampleBlocks : List (List String) := [["b", "a"], [], ["__missing__", "b", "c"]]

/-- **C01.** Size and row strings of a finalized string column are those fed, at any width. -/
theorem C01_string_roundtrip (blocks : List (List String)) (h : blocks.flatten.length + 1 < 2 ^ 32) :
    (StrCol.build blocks).size = ok blocks.flatten.length ∧
    ∀ (i : Nat) (hi : i < blocks.flatten.length), (StrCol.build blocks).rowString i = ok blocks.flatten[i] := by
  have d := StrCol.done_build blocks (by simpa using h)
  obtain ⟨l, hl, hm⟩ := d.codes
  have hlen : l.length = blocks.flatten.length := by
    have := congrArg List.length hm
    simpa only [List.length_map] using this
  constructor
  · simp only [StrCol.size, IntCol.size, hl, ok_bind, pure_eq]
    rw [u32_of_lt (by simp only [hlen]; omega), hlen]
  · intro i hi
    have hi' : i < l.length := by omega
    simp only [StrCol.rowString, IntCol.code, hl, ok_bind, vecGet_lt hi', StrCol.catString]
    rw [vecGet_eq_ok]
    have := congrArg (fun x => x[i]?) hm
    simp only [List.getElem?_map] at this
    rw [List.getElem?_eq_getElem hi', List.getElem?_eq_getElem hi] at this
    simpa using this

/-- The hypothesis of C01 is met by a column with repeated and missing values; the rows are read back. -/
example : sampleBlocks.flatten.length + 1 < 2 ^ 32 ∧
    (StrCol.build sampleBlocks).rowString 3 = ok "b" ∧ (StrCol.build sampleBlocks).rowString 2 = ok "__missing__" := by
  decide

/-- **C02 (codes and equality).** Two rows have the same code exactly when they hold the same string. -/
theorem C02_same_code_iff_same_string (blocks : List (List String)) (h : blocks.flatten.length + 1 < 2 ^ 32)
    (i j : Nat) (hi : i < blocks.flatten.length) (hj : j < blocks.flatten.length) :
    ∃ ci cj, (StrCol.build blocks).ints.code i = ok ci ∧ (StrCol.build blocks).ints.code j = ok cj ∧
      ci < (StrCol.build blocks).maxInt ∧ (ci = cj ↔ blocks.flatten[i] = blocks.flatten[j]) := by
  have d := StrCol.done_build blocks (by simpa using h)
  obtain ⟨l, hl, hm⟩ := d.codes
  have hlen : l.length = blocks.flatten.length := by
    have := congrArg List.length hm
    simpa only [List.length_map] using this
  have key : ∀ k (hk : k < blocks.flatten.length),
      (StrCol.build blocks).strings[l[k]'(by omega)]? = some blocks.flatten[k] := by
    intro k hk
    have := congrArg (fun x => x[k]?) hm
    simp only [List.getElem?_map] at this
    rw [List.getElem?_eq_getElem (by omega), List.getElem?_eq_getElem hk] at this
    simpa using this
  refine ⟨l[i]'(by omega), l[j]'(by omega), ?_, ?_, ?_, ?_⟩
  · simp [IntCol.code, hl, vecGet_lt (show i < l.length by omega)]
  · simp [IntCol.code, hl, vecGet_lt (show j < l.length by omega)]
  · have h1 := (List.getElem?_eq_some_iff.mp (key i hi)).1
    have h2 := d.len
    rw [StrCol.maxInt, u32_of_lt (by omega)]
    exact h1
  · constructor
    · intro e
      have h1 := key i hi
      rw [e, key j hj] at h1
      simpa using h1.symm
    · intro e
      have h1 := key i hi
      rw [e, ← key j hj] at h1
      have h2 := (List.getElem?_eq_some_iff.mp (key j hj)).1
      have h3 := (List.getElem?_eq_some_iff.mp (key i hi)).1
      exact (List.getElem?_inj h3 d.nodup).mp h1

example : (StrCol.build sampleBlocks).ints.code 0 = ok 1 ∧ (StrCol.build sampleBlocks).ints.code 3 = ok 1 ∧
    (StrCol.build sampleBlocks).ints.code 4 = ok 3 ∧ (StrCol.build sampleBlocks).maxInt = 4 := by decide

/-- **C02 (missing).** A row is reported missing exactly when it holds the string `"__missing__"`. -/
theorem C02_missing_iff (blocks : List (List String)) (h : blocks.flatten.length + 1 < 2 ^ 32)
    (i : Nat) (hi : i < blocks.flatten.length) :
    (StrCol.build blocks).ints.missing i = ok (decide (blocks.flatten[i] = "__missing__")) := by
  have d := StrCol.done_build blocks (by simpa using h)
  obtain ⟨l, hl, hm⟩ := d.codes
  have hlen : l.length = blocks.flatten.length := by
    have := congrArg List.length hm
    simpa only [List.length_map] using this
  have hi' : i < l.length := by omega
  have key : (StrCol.build blocks).strings[l[i]]? = some blocks.flatten[i] := by
    have := congrArg (fun x => x[i]?) hm
    simp only [List.getElem?_map] at this
    rw [List.getElem?_eq_getElem hi', List.getElem?_eq_getElem hi] at this
    simpa using this
  simp only [IntCol.missing, IntCol.code, hl, ok_bind, vecGet_lt hi', pure_eq, Outcome.ok.injEq]
  rw [Bool.eq_iff_iff]
  simp only [beq_iff_eq, decide_eq_true_eq]
  constructor
  · intro e
    rw [e, d.zero] at key
    simpa using key.symm
  · intro e
    rw [e, ← d.zero] at key
    have h3 := (List.getElem?_eq_some_iff.mp d.zero).1
    exact ((List.getElem?_inj h3 d.nodup).mp key.symm).symm

example : (StrCol.build sampleBlocks).ints.missing 2 = ok true ∧
    (StrCol.build sampleBlocks).ints.missing 1 = ok false := by decide

/-- **C02 (category names).** Name lookup inverts reading the name of a code, and fails exactly on unseen names. -/
theorem C02_lookup_inverse (blocks : List (List String)) (h : blocks.flatten.length + 1 < 2 ^ 32) :
    (∀ s k, (StrCol.build blocks).catIndex s = some k ↔ (StrCol.build blocks).catString k = ok s) ∧
    (∀ s, (StrCol.build blocks).catIndex s = none ↔ s ≠ "__missing__" ∧ s ∉ blocks.flatten) := by
  have d := StrCol.done_build blocks (by simpa using h)
  have h1 : ∀ s k, (StrCol.build blocks).catIndex s = some k ↔ (StrCol.build blocks).catString k = ok s := by
    intro s k
    simp only [StrCol.catIndex, StrCol.catString, vecGet_eq_ok, d.find]
  refine ⟨h1, ?_⟩
  intro s
  rw [← not_or, ← d.mem s, ← not_iff_not, not_not, List.mem_iff_getElem?]
  constructor
  · intro hne
    obtain ⟨k, hk⟩ := Option.ne_none_iff_exists'.mp hne
    exact ⟨k, (d.find s k).mp hk⟩
  · rintro ⟨k, hk⟩ hnone
    have := (d.find s k).mpr hk
    rw [StrCol.catIndex] at hnone
    rw [hnone] at this
    cases this

example : (StrCol.build sampleBlocks).catIndex "a" = some 2 ∧ (StrCol.build sampleBlocks).catString 2 = ok "a" ∧
    (StrCol.build sampleBlocks).catIndex "zz" = none := by decide

/-- **C02 (number of codes).** `max_int` is one more than the number of distinct non-missing strings fed. -/
theorem C02_max_int (blocks : List (List String)) (h : blocks.flatten.length + 1 < 2 ^ 32) :
    (StrCol.build blocks).maxInt = 1 + (blocks.flatten.toFinset.erase "__missing__").card := by
  have d := StrCol.done_build blocks (by simpa using h)
  have h2 := d.len
  rw [StrCol.maxInt, u32_of_lt (by omega), ← List.toFinset_card_of_nodup d.nodup]
  have : (StrCol.build blocks).strings.toFinset = insert "__missing__" (blocks.flatten.toFinset.erase "__missing__") := by
    ext s
    simp only [List.mem_toFinset, Finset.mem_insert, Finset.mem_erase, d.mem]
    tauto
  rw [this, Finset.card_insert_of_notMem (by simp)]
  omega

example : (sampleBlocks.flatten.toFinset.erase "__missing__").card = 3 := by decide

/-- **C02 (blocks).** The finished column does not depend on how the rows were cut into blocks. -/
theorem C02_block_independent (blocks blocks' : List (List String)) (h : blocks.flatten.length + 1 < 2 ^ 32)
    (he : blocks.flatten = blocks'.flatten) : StrCol.build blocks = StrCol.build blocks' := by
  rw [StrCol.build_flatten blocks (by simpa using h), he, ← StrCol.build_flatten blocks' (by rw [← he]; simpa using h)]

example : sampleBlocks.flatten = [["b"], ["a", "__missing__", "b", "c"]].flatten := by decide

end Gbdt
