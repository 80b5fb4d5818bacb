import Verif.Lemmas.Flatfile
import Verif.Props.TsvBlock
import Verif.Props.StringColumn

/-!
# C20, C61: concurrent requests to a flat file store
-/

set_option linter.unusedSectionVars false

set_option autoImplicit false

namespace Gbdt

open Outcome

variable {A : Type} [LinearOrder A]

/-- A step names a call: `GetColumn` is cut at its lock boundaries, and `sched` is any interleaving.  Every file not yet
loaded can be loaded, and all columns have the same number of rows. -/
structure FlatFilesFit (fmax : A) (parse : Text → Option (Fl A)) (files : String → Option Text) (store : FFStore A)
    (names : List String) (col : String → Column A) (rows : Nat) : Prop where
  /-- the names of the columns held are distinct -/
  keys : (store.map Prod.fst).Nodup
  /-- the columns held have `rows` rows -/
  held : ∀ n id c, (n, id, c) ∈ store → c.size = ok rows
  /-- the other names requested stand for files, whose columns have `rows` rows -/
  file : ∀ n ∈ names, n ∉ store.map Prod.fst →
    (∃ s, files n = some s ∧ loadFile fmax parse s = ok (some (col n))) ∧ (col n).size = ok rows

/-- **C20.** Whatever the interleaving of concurrent `GetColumn` calls (the same name may be requested several times)
and wherever the map puts its entries: nothing undefined happens; a call given four steps has returned; it returned a
non-null pointer; the name it asked for is then in the store, with the column held before if there was one and the column
of its file otherwise; no column held before is lost or replaced, and nothing that was not requested is added. -/
theorem C20_concurrent_get_column (fmax : A) (parse : Text → Option (Fl A)) (place : FFStore A → FFStore A)
    (hplace : ∀ s, (place s).Perm s) (files : String → Option Text) (store : FFStore A) (next : Nat)
    (names : List String) (col : String → Column A) (rows : Nat)
    (fit : FlatFilesFit fmax parse files store names col rows) (sched : List Nat) :
    ∃ st, runFF fmax parse place files sched (startFF store next names) = ok st ∧
      (∀ k name, names[k]? = some name → ∃ x, st.calls[k]? = some (Call.mk name x) ∧
        (4 ≤ sched.count k → ∃ p, x = .done p) ∧
        (∀ p, x = .done p → p.isSome ∧
          (name ∉ store.map Prod.fst → (st.store.lookup name).map Prod.snd = some (col name)))) ∧
      (∀ name e, store.lookup name = some e → st.store.lookup name = some e) ∧
      (∀ name e, st.store.lookup name = some e → store.lookup name = some e ∨ name ∈ names) := by
  have inv0 := FFInv.start (col := col) names next fit.keys fit.held
  obtain ⟨st, h1, inv, h3, -⟩ := ffInv_run hplace fit.file sched _ inv0
  refine ⟨st, h1, ?_, ?_, ?_⟩
  · intro k name hk
    obtain ⟨⟨nm, x⟩, e1, e2, e3⟩ := h3 k ⟨name, .check⟩ (by simp [startFF, hk])
    simp only at e2
    subst e2
    refine ⟨x, e1, ?_, ?_⟩
    · intro hc
      simp only [CallState.rank] at e3
      cases x with
      | done p => exact ⟨p, rfl⟩
      | check => simp only at e3; omega
      | load => simp only at e3; omega
      | insert c => simp only at e3; omega
      | fetch => simp only at e3; omega
    · intro p hp
      obtain ⟨r1, r2⟩ := inv.ret _ (List.mem_of_getElem? e1) p hp
      refine ⟨r1, ?_⟩
      intro hn
      rw [← lookup_isSome_iff, Option.isSome_iff_exists] at r2
      obtain ⟨⟨id, c⟩, hc⟩ := r2
      simp only at hc
      rw [hc]
      rcases (inv.cols _ id c (lookup_mem hc)).2 with h | ⟨-, -, h⟩
      · exact absurd (List.mem_map_of_mem h) hn
      · rw [h]; rfl
  · intro name e he
    exact lookup_of_mem inv.keys (inv.old _ (lookup_mem he))
  · rintro name ⟨id, c⟩ he
    rcases (inv.cols _ id c (lookup_mem he)).2 with h | ⟨-, h, -⟩
    · exact .inl (lookup_of_mem fit.keys h)
    · exact .inr h

/-- Two files of two rows. -/
def sampleFlatFiles : String → Option Text := fun n =>
  if n = "a" then some "# dtype=raw_floats\n1\n2\n".toList
  else if n = "b" then some "# dtype=raw_floats\n3\nx\n".toList
  else none

/-- Their columns. -/
def sampleFlatColumns : String → Column Nat := fun n =>
  if n = "a" then .raw ⟨.ok, [.num 1, .num 2]⟩ else .raw ⟨.ok, [.num 3, .nan]⟩

/-- The hypotheses hold of the two files, `a` requested twice, on an empty store. -/
theorem sampleFlatFit : FlatFilesFit (1000 : Nat) digitParse sampleFlatFiles [] ["a", "b", "a"] sampleFlatColumns 2 where
  keys := by simp
  held := by simp
  file := by
    intro n hn _
    have : n = "a" ∨ n = "b" ∨ n = "a" := by simpa using hn
    rcases this with rfl | rfl | rfl
    · exact ⟨⟨_, rfl, rfl⟩, rfl⟩
    · exact ⟨⟨_, rfl, rfl⟩, rfl⟩
    · exact ⟨⟨_, rfl, rfl⟩, rfl⟩

example : (match runFF (1000 : Nat) digitParse id sampleFlatFiles [0, 2, 1, 0, 2, 1, 1, 0, 2, 0, 1, 2]
      (startFF [] 0 ["a", "b", "a"]) with
    | .ok st => st.store.map (fun e => (e.1, e.2.1))
    | _ => []) = [("a", 2), ("b", 0)] := by decide +kernel

/-- A pointer returned by a finished call that no longer points at the column in the store: its object was destroyed. -/
def DanglingCall (st : FFState A) (k : Nat) : Prop :=
  ∃ name id, st.calls[k]? = some ⟨name, .done (some id)⟩ ∧ (st.store.lookup name).map Prod.fst ≠ some id

/-- C61 in full: whatever the interleaving, a pointer returned by `GetColumn` stays valid while the store lives. -/
def C61_full : Prop :=
  ∀ (A : Type) [LinearOrder A] (fmax : A) (parse : Text → Option (Fl A)) (files : String → Option Text)
    (store : FFStore A) (next : Nat) (names : List String) (col : String → Column A) (rows : Nat),
    FlatFilesFit fmax parse files store names col rows → ∀ (sched : List Nat) (st : FFState A),
    runFF fmax parse id files sched (startFF store next names) = ok st → ∀ k, ¬ DanglingCall st k

/-- **C61 (partial).** It holds when no name is requested twice.
Missing: concurrent requests of one name, for which it is false. -/
theorem C61_distinct_names_partial (fmax : A) (parse : Text → Option (Fl A)) (place : FFStore A → FFStore A)
    (hplace : ∀ s, (place s).Perm s) (files : String → Option Text) (store : FFStore A) (next : Nat)
    (names : List String) (distinct : names.Nodup) (col : String → Column A) (rows : Nat)
    (fit : FlatFilesFit fmax parse files store names col rows) (sched : List Nat) (st : FFState A)
    (h : runFF fmax parse place files sched (startFF store next names) = ok st) (k : Nat) : ¬ DanglingCall st k := by
  have inv0 := FFInv.start (col := col) names next fit.keys fit.held
  obtain ⟨st', h1, -, -, hp⟩ := ffInv_run hplace fit.file sched _ inv0
  rw [h] at h1
  cases h1
  have := hp distinct (by
    intro x hx p hxp
    obtain ⟨n, _, rfl⟩ := List.mem_map.mp hx
    cases hxp)
  rintro ⟨name, id, hc, hne⟩
  exact hne (this _ (List.mem_of_getElem? hc) _ rfl).symm

/-- **C61 (partial).** A column held before the calls begin is never replaced, so calls that ask for it get pointers that
stay valid, however many they are. -/
theorem C61_loaded_partial (fmax : A) (parse : Text → Option (Fl A)) (place : FFStore A → FFStore A)
    (hplace : ∀ s, (place s).Perm s) (files : String → Option Text) (store : FFStore A) (next : Nat)
    (names : List String) (col : String → Column A) (rows : Nat)
    (fit : FlatFilesFit fmax parse files store names col rows) (sched : List Nat) (st : FFState A)
    (h : runFF fmax parse place files sched (startFF store next names) = ok st) (name : String) (id : Nat) (c : Column A)
    (held : store.lookup name = some (id, c)) : st.store.lookup name = some (id, c) := by
  obtain ⟨st', h1, -, h3, -⟩ := C20_concurrent_get_column fmax parse place hplace files store next names col rows fit sched
  rw [h] at h1
  cases h1
  exact h3 _ _ held

/-- **C61 is false**: two threads ask for the same column, both find it absent and both load it; the second insertion
destroys the column the first one returned. -/
theorem C61_refuted : ¬ C61_full := by
  intro h
  have key : (match runFF (1000 : Nat) digitParse id sampleFlatFiles [0, 2, 0, 2, 0, 0, 2] (startFF [] 0 ["a", "b", "a"]) with
      | .ok st => (match st.calls[0]? with
        | some (Call.mk n (CallState.done p)) => some (n, p, (st.store.lookup n).map Prod.fst)
        | _ => none)
      | _ => none) = some ("a", some 0, some 1) := by decide +kernel
  generalize hr : runFF (1000 : Nat) digitParse id sampleFlatFiles [0, 2, 0, 2, 0, 0, 2] (startFF [] 0 ["a", "b", "a"]) = r at key
  cases r with
  | ok st =>
    refine h Nat 1000 digitParse sampleFlatFiles [] 0 ["a", "b", "a"] sampleFlatColumns 2 sampleFlatFit _ st hr 0 ?_
    simp only at key
    split at key
    · rename_i n p hc
      simp only [Option.some.injEq, Prod.mk.injEq] at key
      obtain ⟨rfl, rfl, e⟩ := key
      exact ⟨"a", 0, hc, by rw [e]; decide⟩
    · cases key
  | _ => cases key

end Gbdt
