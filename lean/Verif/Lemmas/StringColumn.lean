import Verif.Model.StringColumn
import Mathlib.Data.List.Nodup

set_option autoImplicit false

namespace Gbdt

theorem u32_of_lt {n : Nat} (h : n < 4294967296) : u32 n = n := Nat.mod_eq_of_lt h

theorem u32_lt (n : Nat) : u32 n < 4294967296 := Nat.mod_lt _ (by decide)

theorem StrMap.find_set (m : StrMap) (s t : String) (n : Nat) :
    (m.set s n).find t = if t = s then some n else m.find t := by
  unfold StrMap.set StrMap.find
  rw [List.lookup_cons]
  by_cases h : t = s
  · simp [h]
  · have h1 : (t == s) = false := by simpa using h
    simp only [h1, if_neg h]
    induction m with
    | nil => rfl
    | cons p m ih =>
      obtain ⟨a, b⟩ := p
      by_cases ha : a = s
      · subst ha
        simp [List.lookup_cons, h1, ih]
      · simp [ha, List.lookup_cons, ih]

namespace StrCol

/-- What holds of an unfinalized string column after the strings `raw` were fed. -/
structure Fed (c : StrCol) (raw : List String) : Prop where
  status : c.status = .ok
  notFin : c.ints.finalized = false
  c8 : c.ints.col8 = []
  c16 : c.ints.col16 = []
  nodup : c.strings.Nodup
  zero : c.strings[0]? = some "__missing__"
  mem : ∀ s, s ∈ c.strings ↔ s = "__missing__" ∨ s ∈ raw
  find : ∀ s k, c.indices.find s = some k ↔ c.strings[k]? = some s
  codes : c.ints.col32.map (fun k => c.strings[k]?) = raw.map some
  len : c.strings.length ≤ raw.length + 1

theorem fed_new : Fed new [] where
  status := rfl
  notFin := rfl
  c8 := rfl
  c16 := rfl
  nodup := by simp [new]
  zero := rfl
  mem := by simp [new]
  find := by
    intro s k
    simp only [new, StrMap.find, List.lookup_cons, List.lookup_nil]
    by_cases h : s = "__missing__"
    · subst h
      cases k <;> simp
    · have h1 : (s == "__missing__") = false := by simpa using h
      cases k <;> simp [h1, Ne.symm h]
  codes := rfl
  len := by simp [new]

theorem Fed.addOne {c : StrCol} {raw : List String} (h : Fed c raw) (s : String)
    (hs : raw.length + 1 < 4294967296) : Fed (c.addOne s) (raw ++ [s]) := by
  have hlen : u32 c.strings.length = c.strings.length := u32_of_lt (by have := h.len; omega)
  unfold StrCol.addOne
  split
  · rename_i hf
    have hnot : s ∉ c.strings := by
      intro hmem
      obtain ⟨k, hk⟩ := List.mem_iff_getElem?.mp hmem
      have := (h.find s k).mpr hk
      rw [hf] at this
      cases this
    have hcodes : ∀ k ∈ c.ints.col32, k < c.strings.length := by
      intro k hk
      have : c.strings[k]? ∈ raw.map some := by
        rw [← h.codes]; exact List.mem_map_of_mem hk
      obtain ⟨t, _, ht⟩ := List.mem_map.mp this
      exact (List.getElem?_eq_some_iff.mp ht.symm).1
    constructor
    · exact h.status
    · exact h.notFin
    · exact h.c8
    · exact h.c16
    · simp only
      rw [List.nodup_append]
      refine ⟨h.nodup, by simp, ?_⟩
      intro a ha b hb
      simp only [List.mem_singleton] at hb
      subst hb
      intro hab; subst hab; exact hnot ha
    · have : 0 < c.strings.length := (List.getElem?_eq_some_iff.mp h.zero).1
      rw [← h.zero]
      exact List.getElem?_append_left this
    · intro t
      simp only [List.mem_append, List.mem_singleton, h.mem]
      tauto
    · intro t k
      simp only [StrMap.find_set, hlen]
      by_cases ht : t = s
      · subst ht
        simp only [if_true, Option.some.injEq]
        constructor
        · rintro rfl; simp
        · intro hk
          by_cases hkl : k < c.strings.length
          · rw [List.getElem?_append_left hkl] at hk
            exact absurd (List.mem_of_getElem? hk) hnot
          · have := (List.getElem?_eq_some_iff.mp hk).1
            simp at this; omega
      · simp only [if_neg ht, h.find]
        constructor
        · intro hk
          rw [List.getElem?_append_left (List.getElem?_eq_some_iff.mp hk).1]; exact hk
        · intro hk
          by_cases hkl : k < c.strings.length
          · rwa [List.getElem?_append_left hkl] at hk
          · have h2 := (List.getElem?_eq_some_iff.mp hk).1
            simp only [List.length_append, List.length_singleton] at h2
            have : k = c.strings.length := by omega
            subst this
            simp at hk
            exact absurd hk.symm ht
    · simp only [List.map_append, hlen]
      congr 1
      · rw [← h.codes]
        apply List.map_congr_left
        intro k hk
        exact List.getElem?_append_left (hcodes k hk)
      · simp
    · have := h.len
      simp; omega
  · rename_i k hf
    have hk := (h.find s k).mp hf
    have hmem : s ∈ c.strings := List.mem_of_getElem? hk
    constructor
    · exact h.status
    · exact h.notFin
    · exact h.c8
    · exact h.c16
    · exact h.nodup
    · exact h.zero
    · intro t
      simp only [List.mem_append, List.mem_singleton, h.mem]
      have := (h.mem s).mp hmem
      constructor
      · tauto
      · rintro (h1 | h1 | h1)
        · tauto
        · tauto
        · subst h1; exact this
    · exact h.find
    · simp [h.codes, hk]
    · have := h.len
      simp; omega

theorem Fed.add {c : StrCol} {raw : List String} (h : Fed c raw) (b : List String)
    (hs : raw.length + b.length < 4294967296) : Fed (c.add b) (raw ++ b) := by
  unfold StrCol.add
  simp only [h.status, ne_eq, not_true_eq_false, if_false]
  induction b generalizing c raw with
  | nil => simpa using h
  | cons s b ih =>
    simp only [List.length_cons] at hs
    have h1 := h.addOne s (by omega)
    have := ih h1 (by simp; omega)
    simpa using this

theorem Fed.adds {c : StrCol} {raw : List String} (h : Fed c raw) (bs : List (List String))
    (hs : raw.length + bs.flatten.length < 4294967296) : Fed (bs.foldl StrCol.add c) (raw ++ bs.flatten) := by
  induction bs generalizing c raw with
  | nil => simpa using h
  | cons b bs ih =>
    simp only [List.flatten_cons, List.length_append] at hs
    have := ih (h.add b (by omega)) (by simp only [List.length_append]; omega)
    simpa using this

/-- What holds of a finalized string column. -/
structure Done (c : StrCol) (raw : List String) : Prop where
  status : c.status = .ok
  nodup : c.strings.Nodup
  zero : c.strings[0]? = some "__missing__"
  mem : ∀ s, s ∈ c.strings ↔ s = "__missing__" ∨ s ∈ raw
  find : ∀ s k, c.indices.find s = some k ↔ c.strings[k]? = some s
  codes : ∃ l, c.ints.data = .ok l ∧ l.map (fun k => c.strings[k]?) = raw.map some
  len : c.strings.length ≤ raw.length + 1
  fin : c.ints.finalized = true

theorem Fed.finalize {c : StrCol} {raw : List String} (h : Fed c raw) (hs : raw.length + 1 < 4294967296) :
    Done c.finalize raw := by
  have hlen : c.maxInt = c.strings.length := u32_of_lt (by have := h.len; omega)
  have hcodes : ∀ k ∈ c.ints.col32, k < c.strings.length := by
    intro k hk
    have : c.strings[k]? ∈ raw.map some := by
      rw [← h.codes]; exact List.mem_map_of_mem hk
    obtain ⟨t, _, ht⟩ := List.mem_map.mp this
    exact (List.getElem?_eq_some_iff.mp ht.symm).1
  have hfin : c.finalize.strings = c.strings ∧ c.finalize.indices = c.indices ∧ c.finalize.status = c.status ∧
      c.finalize.ints.finalized = true := by
    unfold StrCol.finalize
    simp [h.status, h.notFin, IntCol.finalize]
  refine ⟨hfin.2.2.1.trans h.status, ?_, ?_, ?_, ?_, ?_, ?_, hfin.2.2.2⟩
  · rw [hfin.1]; exact h.nodup
  · rw [hfin.1]; exact h.zero
  · rw [hfin.1]; exact h.mem
  · rw [hfin.1, hfin.2.1]; exact h.find
  · rw [hfin.1]
    refine ⟨c.ints.col32, ?_, h.codes⟩
    unfold StrCol.finalize
    simp only [h.status, ne_eq, not_true_eq_false, if_false, h.notFin, Bool.false_eq_true]
    have e8 : c.maxInt ≤ 256 → IntCol.convert8 c.ints.col32 = c.ints.col32 := by
      intro hle
      unfold IntCol.convert8
      conv_rhs => rw [← List.map_id c.ints.col32]
      apply List.map_congr_left
      intro k hk
      have := hcodes k hk
      exact Nat.mod_eq_of_lt (by omega)
    have e16 : c.maxInt ≤ 65536 → IntCol.convert16 c.ints.col32 = c.ints.col32 := by
      intro hle
      unfold IntCol.convert16
      conv_rhs => rw [← List.map_id c.ints.col32]
      apply List.map_congr_left
      intro k hk
      have := hcodes k hk
      exact Nat.mod_eq_of_lt (by omega)
    by_cases h1 : c.maxInt ≤ 256
    · rw [if_pos h1, e8 h1]
      simp only [IntCol.finalize, IntCol.data, h.c16]
      by_cases h3 : c.ints.col32 = []
      · simp [h3]
      · have : 0 < c.ints.col32.length := List.length_pos_iff.mpr h3
        simp [this]
    · rw [if_neg h1]
      by_cases h2 : c.maxInt ≤ 65536
      · rw [if_pos h2, e16 h2]
        simp only [IntCol.finalize, IntCol.data, h.c8]
        by_cases h3 : c.ints.col32 = []
        · simp [h3]
        · have : 0 < c.ints.col32.length := List.length_pos_iff.mpr h3
          simp [this]
      · rw [if_neg h2]
        simp [IntCol.finalize, IntCol.data, h.c8, h.c16]
  · rw [hfin.1]; exact h.len

theorem done_build (blocks : List (List String)) (h : blocks.flatten.length + 1 < 4294967296) :
    Done (build blocks) blocks.flatten := by
  have := fed_new.adds blocks (by simp only [List.length_nil]; omega)
  simp only [List.nil_append] at this
  exact this.finalize h

theorem build_flatten (blocks : List (List String)) (h : blocks.flatten.length + 1 < 4294967296) :
    build blocks = build [blocks.flatten] := by
  unfold build
  congr 1
  have key : ∀ (bs : List (List String)) (c : StrCol) (raw : List String), Fed c raw →
      raw.length + bs.flatten.length < 4294967296 → bs.foldl add c = c.add bs.flatten := by
    intro bs
    induction bs with
    | nil => intro c raw hf _; simp [add, hf.status]
    | cons b bs ih =>
      intro c raw hf hl
      simp only [List.flatten_cons, List.length_append] at hl
      have h1 := hf.add b (by omega)
      rw [List.foldl_cons, ih _ _ h1 (by simp only [List.length_append]; omega)]
      unfold add
      have h2 := h1.status
      unfold add at h2
      simp only [hf.status, ne_eq, not_true_eq_false, if_false] at h2
      simp [hf.status, h2]
  rw [key blocks new [] fed_new (by simp only [List.length_nil]; omega)]
  rfl

end StrCol
end Gbdt
