import Verif.Lemmas.DataStore
import Verif.Props.BucketColumn

/-!
# C11 - C14, C59: data stores and their Python wrapper
-/

set_option linter.unusedSectionVars false

set_option autoImplicit false

namespace Gbdt

open Outcome

variable {A : Type} [LinearOrder A]

/-- The hash map may reorder its entries but neither loses nor invents any. -/
def StoreOp.Fair : StoreOp A → Prop
  | .add _ _ place => ∀ l, (place l).Perm l
  | .remove _ => True

/-- What a call with a given status does to the entry of name `n` of a finite map (specification). -/
def specStep (n : String) (cur : Option (Column A)) : StoreOp A × Code → Option (Column A)
  | (.add m c _, .ok) => if m = n then some c else cur
  | (.remove m, _) => if m = n then none else cur
  | _ => cur

/-- What a finite map holds under `n` after a history of calls with the given statuses (specification). -/
def specStore (l : List (StoreOp A × Code)) (n : String) : Option (Column A) := l.foldl (specStep n) none

theorem step_keys {s t : DataStore A} {op : StoreOp A} {code : Code} (hk : s.Keys) (hf : op.Fair)
    (h : op.step s = ok (code, t)) :
    t.Keys ∧ ∀ n, t.getColumn n = specStep n (s.getColumn n) (op, code) := by
  cases op with
  | remove m =>
    simp only [StoreOp.step, Outcome.ok.injEq, Prod.mk.injEq] at h
    obtain ⟨rfl, rfl⟩ := h
    refine ⟨DataStore.keys_remove hk m, ?_⟩
    intro n
    rw [DataStore.get_remove hk]
    simp only [specStep, eq_comm]
  | add m c place =>
    rcases DataStore.add_cases h with ⟨rfl, rfl, h3⟩ | ⟨rfl, rfl, h3, _⟩ | ⟨rfl, rfl, h3, _⟩
    · exact ⟨hk, fun n => rfl⟩
    · exact ⟨hk, fun n => rfl⟩
    · have hk' : DataStore.Keys ((m, c) :: s) := by
        unfold DataStore.Keys
        rw [List.map_cons, List.nodup_cons]
        exact ⟨(DataStore.get_none m).mp h3, hk⟩
      have hp := hf ((m, c) :: s)
      refine ⟨(hp.map Prod.fst).nodup_iff.mpr hk', ?_⟩
      intro n
      rw [← DataStore.get_perm hp.symm hk']
      simp only [DataStore.getColumn, List.lookup_cons, specStep]
      by_cases e : m = n
      · subst e; simp
      · have : (n == m) = false := by simpa using fun h => e h.symm
        simp [this, e]

theorem run_keys {s t : DataStore A} {ops : List (StoreOp A)} {codes : List Code} (hk : s.Keys)
    (hf : ∀ op ∈ ops, op.Fair) (h : StoreOp.run s ops = ok (codes, t)) :
    t.Keys ∧ codes.length = ops.length ∧ ∀ n, t.getColumn n = (ops.zip codes).foldl (specStep n) (s.getColumn n) := by
  induction ops generalizing s codes with
  | nil =>
    simp only [StoreOp.run, Outcome.ok.injEq, Prod.mk.injEq] at h
    obtain ⟨rfl, rfl⟩ := h
    exact ⟨hk, rfl, fun n => rfl⟩
  | cons op ops ih =>
    unfold StoreOp.run at h
    obtain ⟨⟨code, u⟩, h1, h⟩ := bind_eq_ok.mp h
    obtain ⟨⟨codes', v⟩, h2, h⟩ := bind_eq_ok.mp h
    simp only [pure_eq, Outcome.ok.injEq, Prod.mk.injEq] at h
    obtain ⟨rfl, rfl⟩ := h
    obtain ⟨hk1, hg1⟩ := step_keys hk (hf op (List.mem_cons_self ..)) h1
    obtain ⟨hk2, hl2, hg2⟩ := ih hk1 (fun o ho => hf o (List.mem_cons_of_mem _ ho)) h2
    refine ⟨hk2, by simp [hl2], ?_⟩
    intro n
    rw [hg2, hg1]
    rfl

/-- **C11 (contents).** After any history of `Add` and `Remove` calls on a new store, the column found under a name is
that of the last successful `Add` of the name with no `Remove` after it. -/
theorem C11_store_is_finite_map {ops : List (StoreOp A)} {codes : List Code} {t : DataStore A}
    (hf : ∀ op ∈ ops, op.Fair) (h : StoreOp.run [] ops = ok (codes, t)) (n : String) :
    t.getColumn n = specStore (ops.zip codes) n := by
  exact (run_keys (s := []) List.nodup_nil hf h).2.2 n

/-- **C11 (statuses).** In any store, `Add` reports `ALREADY_EXISTS` exactly when the name is taken; a
rejected `Add` and the removal of an absent name change nothing; a successful `Add` adds one column. -/
theorem C11_statuses (s : DataStore A) (name : String) (c : Column A)
    (place : DataStore A → DataStore A) (hplace : ∀ l, (place l).Perm l) :
    (∀ code t, s.add place name c = ok (code, t) →
      (code = .alreadyExists ↔ s.getColumn name ≠ none) ∧ (code ≠ .ok → t = s) ∧
      (code = .ok → t.length = s.length + 1)) ∧
    (s.getColumn name = none → s.remove name = s) := by
  refine ⟨?_, ?_⟩
  · intro code t hadd
    rcases DataStore.add_cases hadd with ⟨rfl, rfl, h3⟩ | ⟨rfl, rfl, h3, _⟩ | ⟨rfl, rfl, h3, _⟩
    · simp [h3]
    · simp [h3]
    · simp only [h3, reduceCtorEq, ne_eq, not_true_eq_false, false_implies, forall_const, true_and]
      simpa using (hplace ((name, c) :: s)).length_eq
  · intro hn
    unfold DataStore.remove
    rw [List.eraseP_of_forall_not]
    intro p hp
    have := (DataStore.get_none name).mp hn
    simp only [beq_iff_eq]
    intro e
    exact this (e ▸ List.mem_map_of_mem hp)

/-- **C11 (types).** The typed getters find a column exactly when one of that type is held under the name. -/
theorem C11_typed_getters (s : DataStore A) (name : String) :
    (∀ c, s.getRaw name = some c ↔ s.getColumn name = some (.raw c)) ∧
    (∀ c, s.getBucketized name = some c ↔ s.getColumn name = some (.bkt c)) ∧
    (∀ c, s.getString name = some c ↔ s.getColumn name = some (.str c)) := by
  unfold DataStore.getRaw DataStore.getBucketized DataStore.getString
  refine ⟨?_, ?_, ?_⟩ <;>
  · intro c
    cases s.getColumn name with
    | none => simp
    | some d => cases d <;> simp

theorem DataStore.allNames_perm (s : DataStore A) : s.allNames.Perm (s.map Prod.fst) := by
  unfold DataStore.allNames DataStore.namesOf
  rw [← List.map_append, ← List.map_append]
  refine List.Perm.map _ ?_
  induction s with
  | nil => simp
  | cons p s ih =>
    obtain ⟨k, c⟩ := p
    cases c with
    | bkt c =>
      have e : (Column.bkt c).type = .bucketized := rfl
      simpa [e, List.filter_cons] using ih
    | str c =>
      have e : (Column.str (A := A) c).type = .string := rfl
      simp only [e, List.filter_cons, beq_iff_eq, reduceCtorEq, if_false, BEq.rfl, if_true]
      refine List.Perm.trans ?_ (List.Perm.cons _ ih)
      simp only [List.append_assoc, List.cons_append]
      exact List.perm_middle
    | raw c =>
      have e : (Column.raw c).type = .raw := rfl
      simp only [e, List.filter_cons, beq_iff_eq, reduceCtorEq, if_false, BEq.rfl, if_true]
      exact List.Perm.trans List.perm_middle (List.Perm.cons _ ih)

/-- **C11 (names).** The column names listed are exactly the names that can be looked up, each once; `num_cols` counts them. -/
theorem C11_names {ops : List (StoreOp A)} {codes : List Code} {s : DataStore A}
    (hf : ∀ op ∈ ops, op.Fair) (h : StoreOp.run [] ops = ok (codes, s)) :
    s.allNames.Nodup ∧ (∀ n, n ∈ s.allNames ↔ s.getColumn n ≠ none) ∧ (s.allNames.length < 2 ^ 32 → s.numCols = s.allNames.length) := by
  have hk := (run_keys (s := []) List.nodup_nil hf h).1
  have hp := s.allNames_perm
  refine ⟨hp.nodup_iff.mpr hk, fun n => ?_, fun hl => ?_⟩
  · rw [hp.mem_iff, Ne, DataStore.get_none, not_not]
  · rw [hp.length_eq, List.length_map] at hl
    rw [hp.length_eq, List.length_map, DataStore.numCols, u32]
    exact Nat.mod_eq_of_lt hl

/-- A column of strings, for examples. -/
def sampleCol (l : List String) : Column Int := Column.createString l

/-- Hash maps that put the new entry last, for examples. -/
def rotate1 (l : DataStore A) : DataStore A := l.tail ++ l.take 1

theorem rotate1_perm (l : DataStore A) : (rotate1 l).Perm l := by
  unfold rotate1
  cases l with
  | nil => simp
  | cons p l => simp

/-- A history with a rejected duplicate, a rejected size, a removal and a second addition. -/
def sampleOps : List (StoreOp Int) :=
  [.add "a" (sampleCol ["x", "y"]) id, .add "a" (sampleCol ["z"]) id, .add "b" (sampleCol ["z"]) id,
   .add "b" (sampleCol ["u", "v"]) rotate1, .remove "a", .remove "q"]

example : (∀ op ∈ sampleOps, op.Fair) ∧
    (StoreOp.run [] sampleOps >>= fun r => ok r.1) = ok [.ok, .alreadyExists, .outOfRange, .ok, .ok, .ok] ∧
    (StoreOp.run [] sampleOps >>= fun r => ok ((r.2.getString "b").map StrCol.size)) = ok (some (ok 2)) ∧
    (StoreOp.run [] sampleOps >>= fun r => ok ((r.2.getString "a").map StrCol.size)) = ok none := by
  refine ⟨?_, by decide +kernel, by decide +kernel, by decide +kernel⟩
  intro op hop
  simp only [sampleOps, List.mem_cons, List.not_mem_nil, or_false] at hop
  rcases hop with rfl | rfl | rfl | rfl | rfl | rfl <;> simp [StoreOp.Fair, rotate1_perm]

/-! ## C12 -/

/-- Every column handed to the store is a finished column with at least one row. -/
def StoreOp.NonEmpty : StoreOp A → Prop
  | .add _ c _ => ∃ n, c.size = ok n ∧ 0 < n
  | .remove _ => True

/-- **C12.** As long as no column without rows is added, histories never crash, all columns have the same number of
rows and `num_rows()` is that number; a new name is accepted exactly when the store is empty or the sizes agree. -/
theorem C12_equal_row_counts {ops : List (StoreOp A)} (hf : ∀ op ∈ ops, op.Fair) (hne : ∀ op ∈ ops, op.NonEmpty) :
    ∃ codes s, StoreOp.run [] ops = ok (codes, s) ∧ ∃ rows, s.numRows = ok rows ∧
      (∀ p ∈ s, p.2.size = ok rows) ∧ (rows = 0 ↔ s = []) ∧
      ∀ name c place n, s.getColumn name = none → c.size = ok n → 0 < n →
        ∃ t, s.add place name c = ok (if s = [] ∨ n = rows then .ok else .outOfRange, t) := by
  have key : ∀ (ops : List (StoreOp A)) (s : DataStore A), (∀ op ∈ ops, op.Fair) → (∀ op ∈ ops, op.NonEmpty) →
      (∃ rows, 0 < rows ∧ ∀ p ∈ s, p.2.size = ok rows) →
      ∃ codes t, StoreOp.run s ops = ok (codes, t) ∧ ∃ rows, 0 < rows ∧ ∀ p ∈ t, p.2.size = ok rows := by
    intro ops
    induction ops with
    | nil => intro s _ _ hs; exact ⟨[], s, rfl, hs⟩
    | cons op ops ih =>
      intro s hf hne ⟨rows, hpos, hs⟩
      have : ∃ code t, op.step s = ok (code, t) ∧ ∃ rows, 0 < rows ∧ ∀ p ∈ t, p.2.size = ok rows := by
        cases op with
        | remove m =>
          exact ⟨_, _, rfl, rows, hpos, fun p hp => hs p (List.eraseP_sublist.subset hp)⟩
        | add m c place =>
          obtain ⟨n, hn, hn0⟩ := hne _ (List.mem_cons_self ..)
          have hfair := hf _ (List.mem_cons_self ..)
          cases s with
          | nil =>
            refine ⟨.ok, place [(m, c)], by rfl, n, hn0, ?_⟩
            intro p hp
            have := (hfair [(m, c)]).mem_iff.mp hp
            simp only [List.mem_singleton] at this
            rw [this]
            exact hn
          | cons q s =>
            have hq : DataStore.numRows (q :: s) = ok rows := hs q (List.mem_cons_self ..)
            simp only [StoreOp.step, DataStore.add, hq, ok_bind, hn, gt_iff_lt, hpos, if_true]
            split
            · exact ⟨_, _, rfl, rows, hpos, hs⟩
            · split
              · exact ⟨_, _, rfl, rows, hpos, hs⟩
              · rename_i heq
                refine ⟨_, _, rfl, rows, hpos, ?_⟩
                intro p hp
                have := (hfair _).mem_iff.mp hp
                rcases List.mem_cons.mp this with rfl | hp'
                · rw [hn, not_not.mp heq]
                · exact hs p hp'
      obtain ⟨code, t, h1, h2⟩ := this
      obtain ⟨codes, u, h3, h4⟩ := ih t (fun o ho => hf o (List.mem_cons_of_mem _ ho))
        (fun o ho => hne o (List.mem_cons_of_mem _ ho)) h2
      refine ⟨code :: codes, u, ?_, h4⟩
      unfold StoreOp.run
      rw [h1, ok_bind]
      simp only
      rw [h3]
      rfl
  obtain ⟨codes, s, h1, rows, hpos, h2⟩ := key ops [] hf hne ⟨1, Nat.one_pos, by simp⟩
  refine ⟨codes, s, h1, ?_⟩
  cases s with
  | nil =>
    refine ⟨0, rfl, by simp, by simp, ?_⟩
    intro name c place n _ _ _
    exact ⟨place [(name, c)], by simp [DataStore.add, DataStore.getColumn, DataStore.numRows]⟩
  | cons q s =>
    have hq : DataStore.numRows (q :: s) = ok rows := h2 q (List.mem_cons_self ..)
    refine ⟨rows, hq, h2, by simp; omega, ?_⟩
    intro name c place n hget hn hn0
    simp only [DataStore.add, hget, Option.isSome_none, Bool.false_eq_true, if_false, hq, ok_bind, hn, gt_iff_lt, hpos,
      if_true]
    by_cases e : n = rows
    · subst e
      exact ⟨place ((name, c) :: q :: s), by simp⟩
    · have e' : rows ≠ n := fun h => e h.symm
      exact ⟨q :: s, by simp [e, e']⟩

example : ∀ op ∈ sampleOps, op.NonEmpty := by
  intro op hop
  simp only [sampleOps, List.mem_cons, List.not_mem_nil, or_false] at hop
  have h : ∀ l : List String, (sampleCol l).size = (StrCol.build [l]).size := fun _ => rfl
  rcases hop with rfl | rfl | rfl | rfl | rfl | rfl
  · exact ⟨2, by decide +kernel, by decide⟩
  · exact ⟨1, by decide +kernel, by decide⟩
  · exact ⟨1, by decide +kernel, by decide⟩
  · exact ⟨2, by decide +kernel, by decide⟩
  · trivial
  · trivial

/-- C59: equal row counts for every history of finished columns, empty ones included. -/
def C59_full : Prop :=
  ∀ (A : Type) [LinearOrder A] (ops : List (StoreOp A)) (codes : List Code) (s : DataStore A),
    (∀ op ∈ ops, op.Fair) → StoreOp.run [] ops = ok (codes, s) →
    ∃ rows, s.numRows = ok rows ∧ ∀ p ∈ s, p.2.size = ok rows

/-- The call adds a finished column (any number of rows, none included). -/
def StoreOp.Adds : StoreOp A → Prop
  | .add _ c _ => ∃ n, c.size = ok n
  | .remove _ => False

/-- **C59 for stores that start with a column that has rows**: if the first column added has rows and nothing is
removed, columns without rows are refused and all columns keep the same number of rows.  Missing: histories in which a
column without rows meets an empty store (`C59_refuted`). -/
theorem C59_first_has_rows_partial {name : String} {c : Column A} {place : DataStore A → DataStore A}
    {ops : List (StoreOp A)} (hp : ∀ l, (place l).Perm l) {n : Nat} (hc : c.size = ok n) (hn : 0 < n)
    (hf : ∀ op ∈ ops, op.Fair) (ha : ∀ op ∈ ops, op.Adds) :
    ∃ codes s, StoreOp.run [] (.add name c place :: ops) = ok (codes, s) ∧ s.numRows = ok n ∧
      (∀ p ∈ s, p.2.size = ok n) ∧
      ∀ name' c' place', s.getColumn name' = none → c'.size = ok 0 → s.add place' name' c' = ok (.outOfRange, s) := by
  have key : ∀ (ops : List (StoreOp A)) (s : DataStore A), (∀ op ∈ ops, op.Fair) → (∀ op ∈ ops, op.Adds) →
      s ≠ [] → (∀ p ∈ s, p.2.size = ok n) →
      ∃ codes t, StoreOp.run s ops = ok (codes, t) ∧ t ≠ [] ∧ ∀ p ∈ t, p.2.size = ok n := by
    intro ops
    induction ops with
    | nil => intro s _ _ h1 h2; exact ⟨[], s, rfl, h1, h2⟩
    | cons op ops ih =>
      intro s hf ha h1 h2
      have hstep : ∃ code t, op.step s = ok (code, t) ∧ t ≠ [] ∧ ∀ p ∈ t, p.2.size = ok n := by
        cases op with
        | remove m => exact absurd (ha _ (List.mem_cons_self ..)) id
        | add m c place =>
          obtain ⟨k, hk⟩ := ha _ (List.mem_cons_self ..)
          have hfair := hf _ (List.mem_cons_self ..)
          have hrows : s.numRows = ok n := by
            cases s with
            | nil => exact absurd rfl h1
            | cons a s => exact h2 a (List.mem_cons_self ..)
          show ∃ code t, DataStore.add place s m c = ok (code, t) ∧ _
          unfold DataStore.add
          by_cases h3 : (s.getColumn m).isSome
          · exact ⟨_, s, if_pos h3, h1, h2⟩
          · rw [if_neg h3, hrows, ok_bind, if_pos hn, hk, ok_bind]
            by_cases h4 : n = k
            · rw [if_neg (not_not.mpr h4)]
              refine ⟨_, _, rfl, ?_, ?_⟩
              · intro h5
                have := (hfair ((m, c) :: s)).length_eq
                rw [h5] at this
                simp at this
              · intro p hp
                rcases List.mem_cons.mp ((hfair _).mem_iff.mp hp) with rfl | hp
                · rw [hk, h4]
                · exact h2 p hp
            · rw [if_pos h4]
              exact ⟨_, s, rfl, h1, h2⟩
      obtain ⟨code, t, h3, h4, h5⟩ := hstep
      obtain ⟨codes, u, h6, h7⟩ := ih t (fun op h => hf op (List.mem_cons_of_mem _ h))
        (fun op h => ha op (List.mem_cons_of_mem _ h)) h4 h5
      exact ⟨code :: codes, u, by unfold StoreOp.run; rw [h3, ok_bind]; simp only [h6, ok_bind]; rfl, h7⟩
  have h0 : (StoreOp.add name c place).step [] = ok (.ok, place [(name, c)]) := rfl
  obtain ⟨codes, t, h1, h2, h3⟩ := key ops (place [(name, c)]) hf ha
    (fun h => by have := (hp [(name, c)]).length_eq; rw [h] at this; simp at this)
    (fun p h => by
      have := (hp _).mem_iff.mp h
      simp only [List.mem_cons, List.not_mem_nil, or_false] at this
      rw [this]; exact hc)
  have hrows : t.numRows = ok n := by
    cases t with
    | nil => exact absurd rfl h2
    | cons a s => exact h3 a (List.mem_cons_self ..)
  refine ⟨.ok :: codes, t, ?_, hrows, h3, ?_⟩
  · unfold StoreOp.run; rw [h0, ok_bind]; simp only [h1, ok_bind]; rfl
  · intro name' c' place' hg hc'
    unfold DataStore.add
    rw [if_neg (by simp [hg]), hrows, ok_bind, if_pos hn, hc', ok_bind, if_pos (by omega)]
    rfl

/-- A column of two rows, then one without rows (refused), then another of two rows. -/
example : (StoreOp.run [] [StoreOp.add "a" (sampleCol ["x", "y"]) id, .add "b" (sampleCol []) id,
    .add "c" (sampleCol ["u", "v"]) id] >>= fun r => ok r.1) = ok [.ok, .outOfRange, .ok] := by decide +kernel

/-- **C59 is false**: a column without rows and one with two rows are both accepted. -/
theorem C59_refuted : ¬ C59_full := by
  intro h
  have e : (StoreOp.run [] [StoreOp.add "a" (sampleCol []) id, .add "b" (sampleCol ["x", "y"]) id] >>= fun r =>
      ok r.1) = ok [.ok, .ok] := by decide +kernel
  obtain ⟨⟨codes, s⟩, h1, h2⟩ := bind_eq_ok.mp e
  have h3 : s = [("b", sampleCol ["x", "y"]), ("a", sampleCol [])] := by
    have : StoreOp.run [] [StoreOp.add "a" (sampleCol []) id, .add "b" (sampleCol ["x", "y"]) id] =
      ok ([.ok, .ok], [("b", sampleCol ["x", "y"]), ("a", sampleCol [])]) := rfl
    rw [this] at h1
    simp only [Outcome.ok.injEq, Prod.mk.injEq] at h1
    exact h1.2.symm
  obtain ⟨rows, _, h5⟩ := h Int _ codes s (by
    intro op hop
    simp only [List.mem_cons, List.not_mem_nil, or_false] at hop
    rcases hop with rfl | rfl <;> simp [StoreOp.Fair]) h1
  subst h3
  have a1 := h5 ("b", sampleCol ["x", "y"]) (by simp)
  have a2 := h5 ("a", sampleCol []) (by simp)
  have b1 : (sampleCol ["x", "y"]).size = ok 2 := by decide +kernel
  have b2 : (sampleCol []).size = ok 0 := by decide +kernel
  simp only [b1, Outcome.ok.injEq] at a1
  simp only [b2, Outcome.ok.injEq] at a2
  omega

/-! ## C13 -/

/-- A Python `int` that pybind11 converts to a C++ `int`. -/
def IsInt32 (i : Int) : Prop := -2147483648 ≤ i ∧ i < 2147483648

/-- **C13 (strings).** Reading row `i` of a string column from Python gives the string fed for that row, or raises
`IndexError`; it never reads out of bounds. -/
theorem C13_string_get (blocks : List (List String)) (h : blocks.flatten.length < 2 ^ 31) (i : Int) (hi : IsInt32 i) :
    pyGet (some (StrCol.build blocks)) StrCol.size StrCol.rowString i =
      ok (if hr : 0 ≤ i ∧ i.toNat < blocks.flatten.length then .ok blocks.flatten[i.toNat] else .error .outOfRange) := by
  obtain ⟨h1, h2⟩ := C01_string_roundtrip blocks (by omega)
  unfold IsInt32 at hi
  simp only [pyGet, h1, ok_bind]
  by_cases hr : 0 ≤ i ∧ i.toNat < blocks.flatten.length
  · have e : intToUint i = i.toNat := by unfold intToUint; rw [Int.emod_eq_of_lt hr.1 (by omega)]
    rw [e, if_neg (by omega), h2 i.toNat hr.2, dif_pos hr]
    rfl
  · have e : intToUint i ≥ blocks.flatten.length := by
      unfold intToUint
      omega
    rw [if_pos e, dif_neg hr]
    rfl

/-- **C13 (raw floats).** The same for raw float columns. -/
theorem C13_raw_get (vals : List (Fl A)) (h : vals.length < 2 ^ 31) (i : Int) (hi : IsInt32 i) :
    pyGet (some ((RawCol.add {} vals).finalize)) (fun c => ok c.size) RawCol.get i =
      ok (if hr : 0 ≤ i ∧ i.toNat < vals.length then .ok vals[i.toNat] else .error .outOfRange) := by
  have h0 : (RawCol.add {} vals).finalize = { status := .ok, raw := vals } := by
    simp [RawCol.add, RawCol.finalize]
  have h1 : ({ status := .ok, raw := vals } : RawCol A).size = vals.length := by
    unfold RawCol.size; exact u32_of_lt (show vals.length < 4294967296 by omega)
  unfold IsInt32 at hi
  simp only [pyGet, h0, h1, ok_bind]
  by_cases hr : 0 ≤ i ∧ i.toNat < vals.length
  · have e : intToUint i = i.toNat := by unfold intToUint; rw [Int.emod_eq_of_lt hr.1 (by omega)]
    rw [e, if_neg (by omega), RawCol.get, vecGet_lt hr.2, dif_pos hr]
    rfl
  · have e : intToUint i ≥ vals.length := by
      unfold intToUint
      omega
    rw [if_pos e, dif_neg hr]
    rfl

/-- **C13 (bucketized floats).** Reading row `i` of a bucketized column from Python gives that row's reported minimum,
which exists, or raises `IndexError`; it never reads out of bounds. -/
theorem C13_bucketized_get {fmax : A} {nb : Nat} {blocks : List (List (Fl A))} {c : BktCol A}
    (hf : Fits nb blocks) (hok : BktCol.build fmax nb blocks = ok c) (h : blocks.flatten.length < 2 ^ 31)
    (i : Int) (hi : IsInt32 i) :
    ∃ r, pyGet (some c) BktCol.size BktCol.rowMin i = ok r ∧
      if 0 ≤ i ∧ i.toNat < blocks.flatten.length then ∃ v, r = .ok v ∧ c.rowMin i.toNat = ok v
      else r = .error .outOfRange := by
  obtain ⟨h1, _⟩ := C03_missing_iff_nan hf hok
  unfold IsInt32 at hi
  simp only [pyGet, h1, ok_bind]
  by_cases hr : 0 ≤ i ∧ i.toNat < blocks.flatten.length
  · have e : intToUint i = i.toNat := by unfold intToUint; rw [Int.emod_eq_of_lt hr.1 (by omega)]
    have hrow : ∃ v, c.rowMin i.toNat = ok v := by
      obtain ⟨buf, rest, M, _, _, _, _, r⟩ := build_ok hf.1 hf.2 hok
      cases hx : blocks.flatten[i.toNat] with
      | nan =>
        refine ⟨.nan, ?_⟩
        unfold BktCol.rowMin
        rw [r.code (x := .nan) (by rw [List.getElem?_eq_getElem hr.2, hx]), ok_bind]
        unfold BktCol.bucketMin
        rw [vecGet_eq_ok]
        exact r.placed.zero
      | num v =>
        obtain ⟨k, m, _, _, h2, _⟩ := r.row (i := i.toNat) (v := v) (by rw [List.getElem?_eq_getElem hr.2, hx])
        exact ⟨_, h2⟩
    obtain ⟨v, hv⟩ := hrow
    rw [e, if_neg (by omega), hv]
    exact ⟨.ok v, rfl, by rw [if_pos hr]; exact ⟨v, rfl, rfl⟩⟩
  · have e : intToUint i ≥ blocks.flatten.length := by
      unfold intToUint
      omega
    rw [if_pos e]
    exact ⟨.error .outOfRange, rfl, by rw [if_neg hr]⟩

/-- **C13 (null wrapper).** A wrapper without a column raises. -/
theorem C13_null_get {C α : Type} (size : C → Outcome Nat) (row : C → Nat → Outcome α) (i : Int) :
    pyGet none size row i = ok (.error .iosFailure) := rfl

example : pyGet (some (StrCol.build sampleBlocks)) StrCol.size StrCol.rowString 1 = ok (.ok "a") ∧
    pyGet (some (StrCol.build sampleBlocks)) StrCol.size StrCol.rowString (-1) = ok (.error .outOfRange) ∧
    IsInt32 (-1) ∧ IsInt32 1 ∧ sampleBlocks.flatten.length < 2 ^ 31 := by
  refine ⟨rfl, rfl, ⟨by decide, by decide⟩, ⟨by decide, by decide⟩, by decide⟩

/-! ## C14 -/

/-- C14 in full: every status other than OK becomes an exception when a column is added from Python. -/
def C14_full : Prop :=
  ∀ (A : Type) [LinearOrder A] (place : DataStore A → DataStore A) (s : Option (DataStore A)) (name : String)
    (c : Column A) (code : Code) (t : DataStore A),
    DataStore.add place (s.getD []) name c = ok (code, t) → code ≠ .ok →
    ∃ e t', DataStorePy.add place s name (ok c) = ok (some e, t')

/-- **C14**, except for `ALREADY_EXISTS` and `ABORTED`, which are dropped: adding a column from Python raises when the
sizes disagree, and every other non-OK status has an exception.  Missing: those two codes. -/
theorem C14_failures_raise_partial :
    (∀ code, code ≠ .ok → code ≠ .alreadyExists → code ≠ .aborted → (throwException code).isSome) ∧
    (∀ (place : DataStore A → DataStore A) (s : Option (DataStore A)) (name : String) (c : Column A) (r n : Nat),
      (s.getD []).getColumn name = none → (s.getD []).numRows = ok r → c.size = ok n → 0 < r → r ≠ n →
      DataStorePy.add place s name (ok c) = ok (some .outOfRange, some (s.getD []))) := by
  refine ⟨?_, ?_⟩
  · intro code h1 h2 h3
    cases code <;> simp_all [throwException]
  · intro place s name c r n h1 h2 h3 h4 h5
    simp [DataStorePy.add, DataStore.add, h1, h2, h3, h4, h5, throwException]

/-- **C14 is false**: adding a column under a taken name changes nothing and raises nothing, whatever the column. -/
theorem C14_duplicate_silently_ignored (place : DataStore A → DataStore A) (s : DataStore A) (name : String)
    (c : Column A) (h : s.getColumn name ≠ none) :
    DataStore.add place s name c = ok (.alreadyExists, s) ∧
    DataStorePy.add place (some s) name (ok c) = ok (none, some s) := by
  have h' : (s.getColumn name).isSome := Option.isSome_iff_ne_none.mpr h
  simp [DataStorePy.add, DataStore.add, h', throwException]

theorem C14_refuted : ¬ C14_full := by
  intro h
  obtain ⟨h1, h2⟩ := C14_duplicate_silently_ignored id [("a", sampleCol ["x"])] "a" (sampleCol ["y"])
    (by simp [DataStore.getColumn])
  obtain ⟨e, t', h3⟩ := h Int id (some [("a", sampleCol ["x"])]) "a" (sampleCol ["y"]) _ _ h1 (by simp)
  rw [h2] at h3
  simp at h3

end Gbdt
