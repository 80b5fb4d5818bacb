import Verif.Lemmas.Partition
import Verif.Props.StringColumn
import Verif.Props.BucketColumn

/-!
# C26, C27: partitioning the samples of a node

Specification: a split divides the samples into those that satisfy a condition on their own row (left, in the order they
had) and the others (right, in some order).
-/

set_option autoImplicit false
set_option linter.unusedSectionVars false

namespace Gbdt

open Outcome

variable {D A : Type} [LinearOrder A]

/-- `(L, R)` is a division of `samples`: nothing lost, nothing duplicated, `L` in its old order and made of exactly the
samples that satisfy `P`. -/
def Divides (P : Nat → Prop) (samples L R : List Nat) : Prop :=
  (L ++ R).Perm samples ∧ L.Sublist samples ∧ (∀ i ∈ L, P i) ∧ ∀ i ∈ R, ¬ P i

theorem divides_filter {P : Nat → Prop} {p : Nat → Bool} {samples R : List Nat}
    (hR : R.Perm (samples.filter (fun x => !p x))) (hp : ∀ i ∈ samples, p i = true ↔ P i) :
    Divides P samples (samples.filter p) R := by
  refine ⟨?_, List.filter_sublist, ?_, ?_⟩
  · exact (List.Perm.append_left _ hR).trans (List.filter_append_perm p samples)
  · intro i hi
    rw [List.mem_filter] at hi
    exact (hp i hi.1).mp hi.2
  · intro i hi
    have := (hR.mem_iff).mp hi
    rw [List.mem_filter] at this
    rw [← hp i this.1]
    simpa using this.2

/-- **C26 (float features).** A missing value goes left exactly when missing does not go right, any other value exactly
when the limit of its bucket is below the threshold. -/
theorem C26_float_partition {fmax : A} {nb : Nat} {blocks : List (List (Fl A))} {c : BktCol A}
    (hf : Fits nb blocks) (hok : BktCol.build fmax nb blocks = ok c) (s : Split D A) (f : FloatSplit A)
    (hs : s.floatSplit = some f) (samples : List Nat) (hin : ∀ i ∈ samples, i < blocks.flatten.length) :
    ∃ L R, partition (.bkt c) s samples = ok (L, R) ∧
      Divides (fun i => (blocks.flatten[i]? = some .nan ∧ f.missingToRight = false) ∨
        (∃ v, blocks.flatten[i]? = some (.num v)) ∧ ∃ hi, c.rowMax i = ok hi ∧ Fl.lt hi f.threshold = true)
        samples L R := by
  have hmiss := (C03_missing_iff_nan hf hok).2
  have hmax : ∀ i v, blocks.flatten[i]? = some (.num v) → ∃ hi, c.rowMax i = ok hi := by
    intro i v hi
    obtain ⟨buf, rest, M, e, hr, _, _, r⟩ := build_ok hf.1 hf.2 hok
    obtain ⟨k, m, hk, h1, _⟩ := r.row hi
    exact ⟨_, h1⟩
  let p : Nat → Bool := fun i => match floatGoesLeft c f i with
    | ok b => b
    | _ => false
  have htest : ∀ i ∈ samples, floatGoesLeft c f i = ok (p i) ∧ (p i = true ↔
      ((blocks.flatten[i]? = some .nan ∧ f.missingToRight = false) ∨
        (∃ v, blocks.flatten[i]? = some (.num v)) ∧ ∃ hi, c.rowMax i = ok hi ∧ Fl.lt hi f.threshold = true)) := by
    intro i hi
    have hlt := hin i hi
    have hget := List.getElem?_eq_getElem hlt
    have hm := hmiss i hlt
    cases hv : blocks.flatten[i] with
    | nan =>
      rw [hv] at hm hget
      cases hb : f.missingToRight with
      | true =>
        have : floatGoesLeft c f i = ok false := by simp [floatGoesLeft, hm, hb]
        simp [p, this, hget]
      | false =>
        have : floatGoesLeft c f i = ok true := by simp [floatGoesLeft, hm, hb]
        simp [p, this, hget]
    | num v =>
      rw [hv] at hm hget
      obtain ⟨x, hx⟩ := hmax i v hget
      have : floatGoesLeft c f i = ok (Fl.lt x f.threshold) := by simp [floatGoesLeft, hm, hx]
      simp [p, this, hget, hx]
  obtain ⟨R, h1, h2⟩ := partition_spec (c := .bkt c) (s := s) (by simp [Matches, hs]) p samples
    (by intro i hi; simp only [rowTest, hs]; exact (htest i hi).1)
  exact ⟨_, R, h1, divides_filter h2 (fun i hi => (htest i hi).2)⟩

/-- **C26 (float features, small columns).** Where the column keeps values exactly, the condition is on the value
itself. -/
theorem C26_float_partition_exact {fmax : A} {nb : Nat} {blocks : List (List (Fl A))} {c : BktCol A}
    (hf : Fits nb blocks) (hok : BktCol.build fmax nb blocks = ok c) (hn : blocks.flatten.length < 2 * nb)
    (s : Split D A) (f : FloatSplit A) (hs : s.floatSplit = some f) (samples : List Nat)
    (hin : ∀ i ∈ samples, i < blocks.flatten.length) :
    ∃ L R, partition (.bkt c) s samples = ok (L, R) ∧
      Divides (fun i => (blocks.flatten[i]? = some .nan ∧ f.missingToRight = false) ∨
        ∃ v, blocks.flatten[i]? = some (.num v) ∧ Fl.lt (.num v) f.threshold = true) samples L R := by
  obtain ⟨L, R, h1, h2⟩ := C26_float_partition hf hok s f hs samples hin
  refine ⟨L, R, h1, ?_⟩
  convert h2 using 2 with i
  refine or_congr Iff.rfl ⟨?_, ?_⟩
  · rintro ⟨v, hv, hl⟩
    exact ⟨⟨v, hv⟩, _, (C07_few_values_exact hf hok hn hv).2, hl⟩
  · rintro ⟨⟨v, hv⟩, x, hx, hl⟩
    rw [(C07_few_values_exact hf hok hn hv).2] at hx
    cases hx
    exact ⟨v, hv, hl⟩

/-- A split used in the examples: below 7, missing values to the right. -/
def sampleSplit : Split Int Int := { floatSplit := some ⟨.num 7, true⟩, gain := 1 }

/-- Rows of `sampleFloats` (5 5 nan 7 5 9 8 1) under `sampleSplit`, with a row occurring twice. -/
example : Fits 3 sampleFloats ∧ (∀ i ∈ [3, 2, 0, 4, 5, 4], i < sampleFloats.flatten.length) ∧
    (BktCol.build (1000 : Int) 3 sampleFloats >>= fun c => partition (.bkt c) sampleSplit [3, 2, 0, 4, 5, 4])
      = ok ([0, 4, 4], [2, 5, 3]) := by
  refine ⟨by unfold Fits; decide, by decide, by decide +kernel⟩

/-- **C26 (string features, by name).** A sample goes left exactly when its string is one of the split's categories;
names the column does not know are ignored. -/
theorem C26_string_partition (blocks : List (List String)) (h : blocks.flatten.length + 1 < 2 ^ 32) (s : Split D A)
    (cats : List String) (hs : s.catSplit = some { category := cats, index := [] }) (samples : List Nat)
    (hin : ∀ i ∈ samples, i < blocks.flatten.length) :
    ∃ L R, partition (.str (StrCol.build blocks)) s samples = ok (L, R) ∧
      Divides (fun i => ∃ x ∈ cats, blocks.flatten[i]? = some x) samples L R := by
  let c := StrCol.build blocks
  let p : Nat → Bool := fun i => match stringGoesLeft c { category := cats, index := [] } i with
    | ok b => b
    | _ => false
  have htest : ∀ i ∈ samples, stringGoesLeft c { category := cats, index := [] } i = ok (p i) ∧
      (p i = true ↔ ∃ x ∈ cats, blocks.flatten[i]? = some x) := by
    intro i hi
    have hlt := hin i hi
    obtain ⟨k, _, hk, _, _, _⟩ := C02_same_code_iff_same_string blocks h i i hlt hlt
    have hrow := (C01_string_roundtrip blocks h).2 i hlt
    have hcat : c.catString k = ok blocks.flatten[i] := by
      simpa [c, StrCol.rowString, hk] using hrow
    have hfind := (C02_lookup_inverse blocks h).1
    have htst : stringGoesLeft c { category := cats, index := [] } i
        = ok ((cats.filterMap c.catIndex).contains k) := by
      simp only [stringGoesLeft, c, hk, ok_bind, pure_eq]
      simp [categorySet]
    refine ⟨by simp only [p, htst], ?_⟩
    simp only [p, htst, List.contains_iff_mem, List.mem_filterMap]
    constructor
    · rintro ⟨x, hx, hxk⟩
      have := (hfind x k).mp hxk
      rw [hcat] at this
      refine ⟨x, hx, ?_⟩
      rw [List.getElem?_eq_getElem hlt]
      simpa using this
    · rintro ⟨x, hx, hxk⟩
      rw [List.getElem?_eq_getElem hlt] at hxk
      refine ⟨x, hx, (hfind x k).mpr ?_⟩
      rw [hcat]
      simpa using hxk
  obtain ⟨R, h1, h2⟩ := partition_spec (c := .str c) (s := s) (by simp [Matches, hs]) p samples
    (by intro i hi; simp only [rowTest, hs]; exact (htest i hi).1)
  exact ⟨_, R, h1, divides_filter h2 (fun i hi => (htest i hi).2)⟩

/-- Rows of `sampleBlocks` (b a __missing__ b c). -/
example : sampleBlocks.flatten.length + 1 < 2 ^ 32 ∧ (∀ i ∈ [0, 1, 2, 3, 4], i < sampleBlocks.flatten.length) ∧
    partition (.str (StrCol.build sampleBlocks) : Column Int)
      ({ catSplit := some { category := ["c", "zz", "__missing__"] }, gain := (1 : Int) } : Split Int Int)
      [0, 1, 2, 3, 4] = ok ([2, 4], [0, 3, 1]) := by decide +kernel

/-- **C26 (string features, by index).** While training, a sample goes left exactly when its code is listed. -/
theorem C26_string_partition_by_index (blocks : List (List String)) (h : blocks.flatten.length + 1 < 2 ^ 32)
    (s : Split D A) (cats : List String) (idx : List Nat) (hne : idx ≠ [])
    (hs : s.catSplit = some { category := cats, index := idx }) (samples : List Nat)
    (hin : ∀ i ∈ samples, i < blocks.flatten.length) :
    ∃ L R, partition (.str (StrCol.build blocks)) s samples = ok (L, R) ∧
      Divides (fun i => ∃ k ∈ idx, (StrCol.build blocks).ints.code i = ok k) samples L R := by
  let c := StrCol.build blocks
  let p : Nat → Bool := fun i => match stringGoesLeft c { category := cats, index := idx } i with
    | ok b => b
    | _ => false
  have htest : ∀ i ∈ samples, stringGoesLeft c { category := cats, index := idx } i = ok (p i) ∧
      (p i = true ↔ ∃ k ∈ idx, c.ints.code i = ok k) := by
    intro i hi
    have hlt := hin i hi
    obtain ⟨k, _, hk, _, _, _⟩ := C02_same_code_iff_same_string blocks h i i hlt hlt
    have htst : stringGoesLeft c { category := cats, index := idx } i = ok (idx.contains k) := by
      simp only [stringGoesLeft, c, hk, ok_bind, pure_eq]
      simp [categorySet, List.length_pos_iff, hne]
    refine ⟨by simp only [p, htst], ?_⟩
    simp only [p, htst, List.contains_iff_mem, c, hk, Outcome.ok.injEq]
    constructor
    · exact fun hx => ⟨k, hx, rfl⟩
    · rintro ⟨_, hx, rfl⟩; exact hx
  obtain ⟨R, h1, h2⟩ := partition_spec (c := .str c) (s := s) (by simp [Matches, hs]) p samples
    (by intro i hi; simp only [rowTest, hs]; exact (htest i hi).1)
  exact ⟨_, R, h1, divides_filter h2 (fun i hi => (htest i hi).2)⟩

example : partition (.str (StrCol.build sampleBlocks) : Column Int)
      ({ catSplit := some { category := [], index := [0, 3] }, gain := (1 : Int) } : Split Int Int)
      [0, 1, 2, 3, 4] = ok ([2, 4], [0, 3, 1]) := by decide +kernel

/-- **C26 (raw float features).** They are never split on: everything goes right. -/
theorem C26_raw_partition (c : RawCol A) (s : Split D A) (samples : List Nat) :
    partition (.raw c) s samples = ok ([], samples) := by
  simp [partition, partitionColumn]

/-- **C26 (in place).** Partitioning a slice of a vector changes only that slice, and the slice then holds the left
part followed by the right part; what surrounds the slice does not matter. -/
theorem C26_in_place (c : Column A) (s : Split D A) (pre samples post L R : List Nat)
    (h : partition c s samples = ok (L, R)) :
    partitionColumn c s pre.length samples.length (pre ++ samples ++ post)
        = ok (L.length, pre ++ (L ++ R) ++ post) := by
  rw [partitionColumn_frame]
  have hinv := partition_ok_inv h
  rw [partition, bind_eq_ok] at h
  obtain ⟨⟨k, v⟩, h1, h2⟩ := h
  simp only [pure_eq, Outcome.ok.injEq, Prod.mk.injEq] at h2
  obtain ⟨rfl, rfl⟩ := h2
  have hk : k ≤ v.length := by
    obtain ⟨hm, ht⟩ := hinv
    have hp : ∃ p : Nat → Bool, ∀ x ∈ samples, rowTest c s x = ok (p x) := by
      refine ⟨fun x => match rowTest c s x with
        | ok b => b
        | _ => false, fun x hx => ?_⟩
      obtain ⟨b, hb⟩ := ht x hx
      simp [hb]
    obtain ⟨p, hp⟩ := hp
    obtain ⟨R', g1, g2⟩ := partitionColumn_spec hm p [] samples [] hp
    simp only [List.nil_append, List.append_nil, List.length_nil] at g1
    rw [h1] at g1
    simp only [Outcome.ok.injEq, Prod.mk.injEq] at g1
    rw [g1.1, g1.2, List.length_append]
    omega
  rw [h1, ok_bind, List.take_append_drop, List.length_take, Nat.min_eq_left hk]

example : partitionColumn (.str (StrCol.build sampleBlocks) : Column Int)
      ({ catSplit := some { category := [], index := [0, 3] }, gain := (1 : Int) } : Split Int Int) 1 3 [9, 1, 2, 4, 8]
      = ok (2, [9, 2, 4, 1, 8]) := by decide +kernel

/-- **C26 (type mismatch).** A split of the other kind aborts, whatever the samples. -/
theorem C26_mismatch_aborts (s : Split D A) (samples : List Nat) :
    (∀ c : StrCol, s.catSplit = none → partition (.str c) s samples = .fatal) ∧
    (∀ c : BktCol A, s.floatSplit = none → partition (.bkt c) s samples = .fatal) := by
  refine ⟨fun c h => ?_, fun c h => ?_⟩ <;> simp [partition, partitionColumn, h]

/-- **C27.** A split produced in training holds category indices and the names of those categories; partitioning a
training column gives the same whether or not the indices are still there. -/
theorem C27_names_and_indices_agree (blocks : List (List String)) (h : blocks.flatten.length + 1 < 2 ^ 32)
    (s : Split D A) (idx : List Nat) (names : List String)
    (hn : idx.mapM (StrCol.build blocks).catString = ok names) (samples : List Nat) :
    partition (.str (StrCol.build blocks)) { s with catSplit := some { category := names, index := idx } } samples =
    partition (.str (StrCol.build blocks)) { s with catSplit := some { category := names, index := [] } } samples := by
  have hset : categorySet (StrCol.build blocks) { category := names, index := idx } =
      categorySet (StrCol.build blocks) { category := names, index := [] } := by
    have hinv : ∀ (idx : List Nat) (names : List String), idx.mapM (StrCol.build blocks).catString = ok names →
        names.filterMap (StrCol.build blocks).catIndex = idx := by
      intro idx
      induction idx with
      | nil => intro names hn; simp only [List.mapM_nil, pure_eq, Outcome.ok.injEq] at hn; subst hn; rfl
      | cons k ks ih =>
        intro names hn
        simp only [List.mapM_cons, bind_eq_ok, pure_eq, Outcome.ok.injEq] at hn
        obtain ⟨x, hx, xs, hxs, rfl⟩ := hn
        rw [List.filterMap_cons, ((C02_lookup_inverse blocks h).1 x k).mpr hx, ih xs hxs]
    simp only [categorySet]
    cases idx with
    | nil => rfl
    | cons k ks => simpa using (hinv _ _ hn).symm
  have htest : stringGoesLeft (StrCol.build blocks) { category := names, index := idx } =
      stringGoesLeft (StrCol.build blocks) { category := names, index := [] } := by
    funext row
    simp only [stringGoesLeft, hset]
  simp only [partition, partitionColumn, htest]

example : [0, 3].mapM (StrCol.build sampleBlocks).catString = ok ["__missing__", "c"] ∧
    partition (.str (StrCol.build sampleBlocks) : Column Int)
      ({ catSplit := some { category := ["__missing__", "c"], index := [] }, gain := (1 : Int) } : Split Int Int)
      [0, 1, 2, 3, 4] = ok ([2, 4], [0, 3, 1]) := by decide +kernel

end Gbdt
