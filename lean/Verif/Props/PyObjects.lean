import Mathlib.Data.List.Nodup
import Verif.Model.PyObjects

/-!
# C92: how long a column object can be used
-/

set_option autoImplicit false

namespace Gbdt

open Outcome

/-- A store as it comes about: different names, and different addresses, all given out before. -/
structure StoreObj.Ok (s : StoreObj) : Prop where
  names : ((s.columns.getD []).map Prod.fst).Nodup
  addresses : ((s.columns.getD []).map Prod.snd).Nodup
  old : ∀ p ∈ s.columns.getD [], p.2 < s.next

/-- A loaded store has each name once: the names are the keys of a hash map (`data_store.h:52`). -/
def PyOp.Sane : PyOp → Prop
  | .load (some names) => names.Nodup
  | _ => True

/-- The operations that destroy the column of the given name. -/
def PyOp.Destroys (name : String) : PyOp → Prop
  | .erase n => n = name
  | .clear => True
  | .load (some _) => True
  | .drop => True
  | _ => False

theorem mem_zipIdx_map {names : List String} {n : Nat} {p : String × Nat} (h : p ∈ names.zipIdx n) :
    n ≤ p.2 ∧ p.2 < n + names.length := by
  obtain ⟨x, i⟩ := p
  have := List.mem_zipIdx h
  exact ⟨this.1, this.2.1⟩

theorem StoreObj.Ok.step {s : StoreObj} (h : s.Ok) {op : PyOp} (hop : op.Sane) : (op.step s).Ok := by
  cases op with
  | add name fits =>
    unfold PyOp.step
    simp only
    split
    · next hc =>
      refine ⟨?_, ?_, ?_⟩
      · simp only [Option.getD_some, List.map_cons, List.nodup_cons]
        refine ⟨fun hm => ?_, h.names⟩
        obtain ⟨p, hp, hp'⟩ := List.mem_map.mp hm
        exact hc.2 p hp hp'
      · simp only [Option.getD_some, List.map_cons, List.nodup_cons]
        refine ⟨fun hm => ?_, h.addresses⟩
        obtain ⟨p, hp, hp'⟩ := List.mem_map.mp hm
        have := h.old p hp
        omega
      · intro p hp
        rcases List.mem_cons.mp hp with rfl | hp
        · exact Nat.lt_succ_self _
        · exact Nat.lt_succ_of_lt (h.old p hp)
    · exact ⟨h.names, h.addresses, fun p hp => Nat.lt_succ_of_lt (h.old p hp)⟩
  | erase name =>
    cases hc : s.columns with
    | none => simp only [PyOp.step, hc]; exact ⟨by simp, by simp, by simp⟩
    | some l =>
      have h1 := h.names
      have h2 := h.addresses
      have h3 := h.old
      simp only [hc, Option.getD_some] at h1 h2 h3
      simp only [PyOp.step, hc, Option.map_some]
      exact ⟨h1.sublist (List.filter_sublist.map _), h2.sublist (List.filter_sublist.map _),
        fun p hp => h3 p (List.mem_of_mem_filter hp)⟩
  | clear => exact ⟨by simp [PyOp.step], by simp [PyOp.step], by simp [PyOp.step]⟩
  | drop => exact ⟨by simp [PyOp.step], by simp [PyOp.step], by simp [PyOp.step]⟩
  | read => exact h
  | load names =>
    cases names with
    | none => exact h
    | some names =>
      refine ⟨?_, ?_, ?_⟩
      · simp only [PyOp.step, Option.getD_some]
        rw [List.zipIdx_map_fst]
        exact hop
      · simp only [PyOp.step, Option.getD_some]
        rw [List.zipIdx_map_snd]
        exact List.nodup_range' ..
      · intro p hp
        simp only [PyOp.step, Option.getD_some] at hp ⊢
        exact (mem_zipIdx_map hp).2

/-- One operation keeps a column exactly when it does not destroy it, and never brings back an old one. -/
theorem StoreObj.Ok.keeps {s : StoreObj} (h : s.Ok) {name : String} {a : Nat} (hm : (name, a) ∈ s.columns.getD []) (op : PyOp) :
    (¬ op.Destroys name → (name, a) ∈ (op.step s).columns.getD []) ∧
    (op.Destroys name → a ∉ ((op.step s).columns.getD []).map Prod.snd) := by
  cases op with
  | add n fits =>
    refine ⟨fun _ => ?_, fun hd => absurd hd (by simp [PyOp.Destroys])⟩
    unfold PyOp.step
    simp only
    split
    · exact List.mem_cons_of_mem _ hm
    · exact hm
  | erase n =>
    cases hc : s.columns with
    | none => simp [hc] at hm
    | some l =>
      have h2 := h.addresses
      simp only [hc, Option.getD_some] at h2 hm
      simp only [PyOp.step, hc, Option.map_some, Option.getD_some, PyOp.Destroys]
      constructor
      · intro hn
        exact List.mem_filter.mpr ⟨hm, by simpa using fun h => hn h.symm⟩
      · rintro rfl ha
        obtain ⟨p, hp, rfl⟩ := List.mem_map.mp ha
        rw [List.mem_filter] at hp
        have := List.inj_on_of_nodup_map h2 hp.1 hm rfl
        rw [this] at hp
        simp at hp
  | clear => simp [PyOp.Destroys, PyOp.step]
  | drop => simp [PyOp.Destroys, PyOp.step]
  | read => exact ⟨fun _ => hm, fun hd => absurd hd (by simp [PyOp.Destroys])⟩
  | load names =>
    cases names with
    | none => exact ⟨fun _ => hm, fun hd => absurd hd (by simp [PyOp.Destroys])⟩
    | some names =>
      refine ⟨fun hd => absurd trivial hd, fun _ ha => ?_⟩
      obtain ⟨p, hp, rfl⟩ := List.mem_map.mp ha
      have h1 := (mem_zipIdx_map hp).1
      have h2 := h.old _ hm
      simp only at h2
      omega

theorem StoreObj.gone {s : StoreObj} {a : Nat} (ha : a < s.next) (hn : a ∉ (s.columns.getD []).map Prod.snd)
    (op : PyOp) : a < (op.step s).next ∧ a ∉ ((op.step s).columns.getD []).map Prod.snd := by
  cases op with
  | add n fits =>
    unfold PyOp.step
    simp only
    split
    · refine ⟨Nat.lt_succ_of_lt ha, ?_⟩
      simp only [Option.getD_some, List.map_cons, List.mem_cons, not_or]
      exact ⟨by omega, hn⟩
    · exact ⟨Nat.lt_succ_of_lt ha, hn⟩
  | erase n =>
    refine ⟨ha, ?_⟩
    cases hc : s.columns with
    | none => simp [PyOp.step, hc]
    | some l =>
      simp only [hc, Option.getD_some] at hn
      simp only [PyOp.step, hc, Option.map_some, Option.getD_some]
      intro hm
      obtain ⟨p, hp, rfl⟩ := List.mem_map.mp hm
      exact hn (List.mem_map.mpr ⟨p, List.mem_of_mem_filter hp, rfl⟩)
  | clear => exact ⟨ha, by simp [PyOp.step]⟩
  | drop => exact ⟨ha, by simp [PyOp.step]⟩
  | read => exact ⟨ha, hn⟩
  | load names =>
    cases names with
    | none => exact ⟨ha, hn⟩
    | some names =>
      refine ⟨Nat.lt_of_lt_of_le ha (Nat.le_add_right ..), fun hm => ?_⟩
      obtain ⟨p, hp, rfl⟩ := List.mem_map.mp hm
      have h1 := (mem_zipIdx_map hp).1
      omega

theorem gone_run {a : Nat} : ∀ (ops : List PyOp) (s : StoreObj), s.Ok → (∀ op ∈ ops, op.Sane) → a < s.next →
    a ∉ (s.columns.getD []).map Prod.snd → a ∉ ((PyOp.run s ops).columns.getD []).map Prod.snd
  | [], _, _, _, _, hn => hn
  | op :: ops, s, h, hops, ha, hn => by
    obtain ⟨h1, h2⟩ := StoreObj.gone ha hn op
    exact gone_run ops _ (h.step (hops op (List.mem_cons_self ..))) (fun o ho => hops o (List.mem_cons_of_mem _ ho)) h1 h2

theorem mem_of_lookup {l : List (String × Nat)} {name : String} {a : Nat} (h : l.lookup name = some a) : (name, a) ∈ l := by
  induction l with
  | nil => cases h
  | cons p l ih =>
    obtain ⟨n, b⟩ := p
    rw [List.lookup_cons] at h
    split at h
    · next heq =>
      rw [Option.some.injEq] at h
      rw [beq_iff_eq] at heq
      rw [h, heq]
      exact List.mem_cons_self ..
    · exact List.mem_cons_of_mem _ (ih h)

/-- The full statement: a column that Python has taken from a store can be used from then on. -/
def C92_full : Prop :=
  ∀ (s : StoreObj), s.Ok → ∀ (name : String) (a : Nat), s.column name = some a → ∀ ops : List PyOp, (∀ op ∈ ops, op.Sane) →
    (PyOp.run s ops).follow a = ok ()

/-- **C92 (partial).** A column taken from a store can be used exactly as long as the column is not erased, the store is not
cleared or loaded anew, and the store lives: adding columns, failed loads and reading do no harm.  Afterwards any use of the column
is undefined. -/
theorem C92_exactly_partial {s : StoreObj} (h : s.Ok) {name : String} {a : Nat} (hc : s.column name = some a) {ops : List PyOp}
    (hops : ∀ op ∈ ops, op.Sane) :
    ((PyOp.run s ops).follow a = ok () ↔ ∀ op ∈ ops, ¬ op.Destroys name) ∧
    ((PyOp.run s ops).follow a = ub ↔ ∃ op ∈ ops, op.Destroys name) := by
  have hm := mem_of_lookup hc
  have key : a ∈ ((PyOp.run s ops).columns.getD []).map Prod.snd ↔ ∀ op ∈ ops, ¬ op.Destroys name := by
    clear hc
    induction ops generalizing s with
    | nil => exact ⟨fun _ _ h => (by cases h), fun _ => List.mem_map.mpr ⟨_, hm, rfl⟩⟩
    | cons op ops ih =>
      have hs := h.step (hops op (List.mem_cons_self ..))
      have hops' : ∀ o ∈ ops, o.Sane := fun o ho => hops o (List.mem_cons_of_mem _ ho)
      by_cases hd : op.Destroys name
      · refine ⟨fun ha => ?_, fun hall => absurd hd (hall op (List.mem_cons_self ..))⟩
        have hlt : a < s.next := h.old _ hm
        have hnext : a < (op.step s).next := by
          cases op with
          | add n f => exact absurd hd (by simp [PyOp.Destroys])
          | load names =>
            cases names with
            | none => exact hlt
            | some names => exact Nat.lt_of_lt_of_le hlt (Nat.le_add_right ..)
          | erase n => exact hlt
          | clear => exact hlt
          | drop => exact hlt
          | read => exact hlt
        exact absurd ha (gone_run ops _ hs hops' hnext ((h.keeps hm op).2 hd))
      · rw [show PyOp.run s (op :: ops) = PyOp.run (op.step s) ops from rfl, ih hs hops' ((h.keeps hm op).1 hd)]
        constructor
        · intro hall o ho
          rcases List.mem_cons.mp ho with rfl | ho
          · exact hd
          · exact hall o ho
        · exact fun hall o ho => hall o (List.mem_cons_of_mem _ ho)
  unfold StoreObj.follow
  constructor
  · rw [← key]
    split
    · next hin => simp [hin]
    · next hin => simp [hin]
  · have : (∃ op ∈ ops, op.Destroys name) ↔ ¬ a ∈ ((PyOp.run s ops).columns.getD []).map Prod.snd := by
      rw [key]
      simp
    rw [this]
    split
    · next hin => simp [hin]
    · next hin => simp [hin]

/-- A store with two columns. -/
def twoColumns : StoreObj := PyOp.run ⟨none, 0⟩ [.add "x" true, .add "y" true]

theorem twoColumns_ok : twoColumns.Ok :=
  ⟨by decide, by decide, by decide⟩

/-- **C92 (refuted).** `from_dict(...)['x'][0]`: the column is used after the store, to which nothing refers any more, has been
destroyed. -/
theorem C92_refuted : ¬ C92_full := by
  intro h
  have := h twoColumns twoColumns_ok "x" 0 rfl [.drop] (by simp [PyOp.Sane])
  cases this

/-- **C92 (refuted).** The same with a store that lives on but whose column is erased. -/
theorem C92_refuted_erase : ¬ C92_full := by
  intro h
  have := h twoColumns twoColumns_ok "x" 0 rfl [.erase "x"] (by simp [PyOp.Sane])
  cases this

/-- Erasing another column, adding one of the same name (refused) and a failed load do no harm; loading does. -/
example : (PyOp.run twoColumns [.erase "y", .add "x" true, .load none, .read]).follow 0 = ok () ∧
    (PyOp.run twoColumns [.load (some ["x", "y"])]).follow 0 = ub ∧
    (PyOp.run twoColumns [.erase "x", .add "x" true]).follow 0 = ub := by
  decide

end Gbdt
