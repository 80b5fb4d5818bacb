import Verif.Model.Flatfile

/-!
# Lemmas on concurrent requests to a flat file store
-/

set_option linter.unusedSectionVars false

set_option autoImplicit false

namespace Gbdt

open Outcome

variable {A : Type} [LinearOrder A]

theorem lookup_mem {β : Type} {l : List (String × β)} {n : String} {b : β} (h : l.lookup n = some b) : (n, b) ∈ l := by
  induction l with
  | nil => cases h
  | cons p l ih =>
    rw [List.lookup_cons] at h
    by_cases e : n = p.1
    · subst e
      simp only [BEq.rfl, Option.some.injEq] at h
      subst h
      simp
    · have : (n == p.1) = false := by simpa using e
      rw [this] at h
      exact List.mem_cons_of_mem _ (ih h)

theorem lookup_isSome_iff {β : Type} (l : List (String × β)) (n : String) :
    (l.lookup n).isSome ↔ n ∈ l.map Prod.fst := by
  induction l with
  | nil => simp
  | cons p l ih =>
    rw [List.lookup_cons, List.map_cons, List.mem_cons]
    by_cases e : n = p.1
    · subst e; simp
    · have : (n == p.1) = false := by simpa using e
      rw [this]
      simp [ih, e]

theorem lookup_of_mem {β : Type} {l : List (String × β)} (nd : (l.map Prod.fst).Nodup) {n : String} {b : β}
    (h : (n, b) ∈ l) : l.lookup n = some b := by
  induction l with
  | nil => cases h
  | cons p l ih =>
    rw [List.map_cons, List.nodup_cons] at nd
    rw [List.lookup_cons]
    rcases List.mem_cons.mp h with h | h
    · subst h; simp
    · have : n ≠ p.1 := by
        rintro rfl
        exact nd.1 (List.mem_map.mpr ⟨_, h, rfl⟩)
      have : (n == p.1) = false := by simpa using this
      rw [this]
      exact ih nd.2 h

/-- What holds at any time of a run started on `store0`. -/
structure FFInv (col : String → Column A) (store0 : FFStore A) (names : List String) (rows : Nat) (st : FFState A) :
    Prop where
  keys : (st.store.map Prod.fst).Nodup
  cols : ∀ n id c, (n, id, c) ∈ st.store → c.size = ok rows ∧
    ((n, id, c) ∈ store0 ∨ (n ∉ store0.map Prod.fst ∧ n ∈ names ∧ c = col n))
  old : ∀ e ∈ store0, e ∈ st.store
  calls : st.calls.map Call.name = names
  load : ∀ x ∈ st.calls, x.state = .load → x.name ∉ store0.map Prod.fst
  ins : ∀ x ∈ st.calls, ∀ c, x.state = .insert c → x.name ∉ store0.map Prod.fst ∧ c = col x.name
  fetch : ∀ x ∈ st.calls, x.state = .fetch → x.name ∈ st.store.map Prod.fst
  ret : ∀ x ∈ st.calls, ∀ p, x.state = .done p → p.isSome ∧ x.name ∈ st.store.map Prod.fst

theorem FFInv.start {col : String → Column A} {store0 : FFStore A} (names : List String) {rows : Nat} (next : Nat)
    (nd : (store0.map Prod.fst).Nodup) (hs : ∀ n id c, (n, id, c) ∈ store0 → c.size = ok rows) :
    FFInv col store0 names rows (startFF store0 next names) := by
  have hst : ∀ x ∈ (startFF store0 next names).calls, x.state = .check := by
    intro x hx
    obtain ⟨n, _, rfl⟩ := List.mem_map.mp hx
    rfl
  refine ⟨nd, fun n id c h => ⟨hs n id c h, .inl h⟩, fun e h => h, ?_, ?_, ?_, ?_, ?_⟩
  · simp [startFF, Function.comp_def]
  · intro x hx h; rw [hst x hx] at h; cases h
  · intro x hx c h; rw [hst x hx] at h; cases h
  · intro x hx h; rw [hst x hx] at h; cases h
  · intro x hx p h; rw [hst x hx] at h; cases h

/-- Steps a call may still need. -/
def CallState.rank : CallState A → Nat
  | .check => 4
  | .load => 3
  | .insert _ => 2
  | .fetch => 1
  | .done _ => 0

/-- One step keeps the invariant, keeps the other calls, and brings the call nearer its end. -/
theorem ffInv_step {fmax : A} {parse : Text → Option (Fl A)} {place : FFStore A → FFStore A}
    {files : String → Option Text} {col : String → Column A} {store0 : FFStore A} {names : List String} {rows : Nat}
    (hplace : ∀ s, (place s).Perm s)
    (hfiles : ∀ n ∈ names, n ∉ store0.map Prod.fst →
      (∃ s, files n = some s ∧ loadFile fmax parse s = ok (some (col n))) ∧ (col n).size = ok rows)
    {st : FFState A} (inv : FFInv col store0 names rows st) {k : Nat} {x : Call A} (hk : st.calls[k]? = some x) :
    ∃ store' next' ns, stepFF fmax parse place files st k =
        ok ⟨store', next', st.calls.set k { x with state := ns }⟩ ∧
      FFInv col store0 names rows ⟨store', next', st.calls.set k { x with state := ns }⟩ ∧
      ns.rank ≤ x.state.rank - 1 ∧
      (∀ n, n ≠ x.name → store'.lookup n = st.store.lookup n) ∧
      (∀ p, ns = .done p → x.state ≠ .done p → store' = st.store ∧ p = (st.store.lookup x.name).map Prod.fst) ∧
      ((∀ c, x.state ≠ .insert c) → store' = st.store) := by
  have hx := List.mem_of_getElem? hk
  have hkl := (List.getElem?_eq_some_iff.mp hk).1
  have hxn : x.name ∈ names := by
    rw [← inv.calls]
    exact List.mem_map_of_mem hx
  have hnames : ∀ ns : CallState A, (st.calls.set k { x with state := ns }).map Call.name = names := by
    intro ns
    rw [List.map_set, ← inv.calls]
    apply List.ext_getElem?
    intro j
    by_cases hj : k = j
    · subst hj
      simp [hkl, (List.getElem?_eq_some_iff.mp hk).2]
    · rw [List.getElem?_set_ne hj]
  have hm : ∀ (ns : CallState A), ∀ y ∈ st.calls.set k { x with state := ns },
      y = { x with state := ns } ∨ y ∈ st.calls := by
    intro ns y hy
    rcases List.mem_or_eq_of_mem_set hy with h | h
    · exact .inr h
    · exact .inl h
  have same : ∀ ns : CallState A,
      (ns = .load → x.name ∉ store0.map Prod.fst) →
      (∀ c, ns = .insert c → x.name ∉ store0.map Prod.fst ∧ c = col x.name) →
      (ns = .fetch → x.name ∈ st.store.map Prod.fst) →
      (∀ p, ns = .done p → p.isSome ∧ x.name ∈ st.store.map Prod.fst) →
      FFInv col store0 names rows ⟨st.store, st.next, st.calls.set k { x with state := ns }⟩ := by
    intro ns h0 h1 h2 h3
    refine ⟨inv.keys, inv.cols, inv.old, hnames ns, ?_, ?_, ?_, ?_⟩
    · intro y hy hc
      rcases hm ns y hy with rfl | hy
      · exact h0 hc
      · exact inv.load y hy hc
    · intro y hy c hc
      rcases hm ns y hy with rfl | hy
      · exact h1 c hc
      · exact inv.ins y hy c hc
    · intro y hy hc
      rcases hm ns y hy with rfl | hy
      · exact h2 hc
      · exact inv.fetch y hy hc
    · intro y hy p hc
      rcases hm ns y hy with rfl | hy
      · exact h3 p hc
      · exact inv.ret y hy p hc
  have old_keys : ∀ n ∈ store0.map Prod.fst, n ∈ st.store.map Prod.fst := by
    intro n hn
    obtain ⟨e, he, rfl⟩ := List.mem_map.mp hn
    exact List.mem_map_of_mem (inv.old e he)
  unfold stepFF
  rw [hk]
  simp only [stepCall]
  cases hst : x.state with
  | check =>
    by_cases hin : (st.store.lookup x.name).isSome
    · refine ⟨st.store, st.next, .fetch, by simp [hin], same _ (by simp) (by simp) ?_ (by simp), by simp [CallState.rank],
        fun _ _ => rfl, by simp, fun _ => rfl⟩
      intro _
      exact (lookup_isSome_iff _ _).mp hin
    · refine ⟨st.store, st.next, .load, by simp [hin], same _ ?_ (by simp) (by simp) (by simp), by simp [CallState.rank],
        fun _ _ => rfl, by simp, fun _ => rfl⟩
      intro _ hc
      exact hin ((lookup_isSome_iff _ _).mpr (old_keys _ hc))
  | load =>
    have hl := inv.load x hx hst
    obtain ⟨⟨s, hs, hc⟩, -⟩ := hfiles x.name hxn hl
    simp only [hs, hc, ok_bind, pure_eq]
    refine ⟨st.store, st.next, .insert (col x.name), rfl, same _ (by simp) ?_ (by simp) (by simp), by simp [CallState.rank],
      fun _ _ => rfl, by simp, fun _ => rfl⟩
    intro c' hc'
    cases hc'
    exact ⟨hl, rfl⟩
  | fetch =>
    have := inv.fetch x hx hst
    refine ⟨st.store, st.next, _, rfl, same _ (by simp) (by simp) (by simp) ?_, by simp [CallState.rank],
      fun _ _ => rfl, ?_, fun _ => rfl⟩
    · intro p hp
      cases hp
      refine ⟨?_, this⟩
      rw [Option.isSome_map]
      exact (lookup_isSome_iff _ _).mpr this
    · intro p hp _
      cases hp
      exact ⟨rfl, rfl⟩
  | done p =>
    refine ⟨st.store, st.next, _, rfl, same _ (by simp) (by simp) (by simp) ?_, by simp [CallState.rank],
      fun _ _ => rfl, ?_, fun _ => rfl⟩
    · intro p' hp'
      cases hp'
      exact inv.ret x hx _ hst
    · intro p' hp' h
      exact absurd hp' h
  | insert c =>
    obtain ⟨hl, rfl⟩ := inv.ins x hx c hst
    obtain ⟨-, hcs⟩ := hfiles x.name hxn hl
    have hrows : ∃ r, st.store.numRows = ok r ∧ (r = 0 ∨ r = rows) := by
      unfold FFStore.numRows
      cases hstore : st.store with
      | nil => exact ⟨0, rfl, .inl rfl⟩
      | cons q qs =>
        obtain ⟨n, id, c⟩ := q
        exact ⟨rows, (inv.cols n id c (by rw [hstore]; simp)).1, .inr rfl⟩
    obtain ⟨r, hr, hr'⟩ := hrows
    have hcond : ¬ (r > 0 ∧ r ≠ rows) := by omega
    simp only [insertColumn, hr, hcs, ok_bind, hcond, if_false, pure_eq]
    have hp := hplace ((x.name, st.next, col x.name) :: st.store.filter (fun p => p.1 != x.name))
    have hnd : (((x.name, st.next, col x.name) :: st.store.filter (fun p => p.1 != x.name)).map Prod.fst).Nodup := by
      rw [List.map_cons, List.nodup_cons]
      refine ⟨?_, inv.keys.sublist (List.filter_sublist.map _)⟩
      intro h
      obtain ⟨e, he, h⟩ := List.mem_map.mp h
      have := (List.mem_filter.mp he).2
      simp [h] at this
    have hnd' := (hp.map Prod.fst).nodup_iff.mpr hnd
    have keep : ∀ n, n ∈ st.store.map Prod.fst ∨ n = x.name →
        n ∈ (place ((x.name, st.next, col x.name) :: st.store.filter (fun p => p.1 != x.name))).map Prod.fst := by
      intro n hn
      rw [(hp.map Prod.fst).mem_iff]
      by_cases e : n = x.name
      · simp [e]
      · rcases hn with hn | hn
        · obtain ⟨q, hq, rfl⟩ := List.mem_map.mp hn
          rw [List.map_cons, List.mem_cons]
          right
          exact List.mem_map.mpr ⟨q, by simp [hq, e], rfl⟩
        · exact absurd hn e
    refine ⟨_, _, .fetch, rfl, ⟨hnd', ?_, ?_, hnames _, ?_, ?_, ?_, ?_⟩, by simp [CallState.rank], ?_, by simp, ?_⟩
    · intro n id c hmem
      rcases List.mem_cons.mp (hp.mem_iff.mp hmem) with h | h
      · cases h
        exact ⟨hcs, .inr ⟨hl, hxn, rfl⟩⟩
      · exact inv.cols n id c (List.mem_filter.mp h).1
    · intro e he
      apply hp.mem_iff.mpr
      refine List.mem_cons_of_mem _ (List.mem_filter.mpr ⟨inv.old e he, ?_⟩)
      have : e.1 ≠ x.name := fun h => hl (h ▸ List.mem_map_of_mem he)
      simpa using this
    · intro y hy hc
      rcases hm _ y hy with rfl | hy
      · cases hc
      · exact inv.load y hy hc
    · intro y hy c hc
      rcases hm _ y hy with rfl | hy
      · cases hc
      · exact inv.ins y hy c hc
    · intro y hy hc
      rcases hm _ y hy with rfl | hy
      · exact keep _ (.inr rfl)
      · exact keep _ (.inl (inv.fetch y hy hc))
    · intro y hy p hc
      rcases hm _ y hy with rfl | hy
      · cases hc
      · exact ⟨(inv.ret y hy p hc).1, keep _ (.inl (inv.ret y hy p hc).2)⟩
    · intro n hn
      cases hlk : st.store.lookup n with
      | some b =>
        refine lookup_of_mem hnd' (hp.mem_iff.mpr (List.mem_cons_of_mem _ ?_))
        exact List.mem_filter.mpr ⟨lookup_mem hlk, by simpa using hn⟩
      | none =>
        rw [← Option.not_isSome_iff_eq_none, lookup_isSome_iff] at hlk ⊢
        intro h
        rw [(hp.map Prod.fst).mem_iff, List.map_cons, List.mem_cons] at h
        rcases h with h | h
        · exact hn h
        · obtain ⟨e, he, rfl⟩ := List.mem_map.mp h
          exact hlk (List.mem_map_of_mem (List.mem_filter.mp he).1)
    · intro h
      exact absurd rfl (h _)

/-- Pointers returned point at the columns in the store. -/
def PtrInv (st : FFState A) : Prop :=
  ∀ x ∈ st.calls, ∀ p, x.state = .done p → p = (st.store.lookup x.name).map Prod.fst

theorem ffInv_run {fmax : A} {parse : Text → Option (Fl A)} {place : FFStore A → FFStore A}
    {files : String → Option Text} {col : String → Column A} {store0 : FFStore A} {names : List String} {rows : Nat}
    (hplace : ∀ s, (place s).Perm s)
    (hfiles : ∀ n ∈ names, n ∉ store0.map Prod.fst →
      (∃ s, files n = some s ∧ loadFile fmax parse s = ok (some (col n))) ∧ (col n).size = ok rows)
    (sched : List Nat) (st : FFState A) (inv : FFInv col store0 names rows st) :
    ∃ st', runFF fmax parse place files sched st = ok st' ∧ FFInv col store0 names rows st' ∧
      (∀ k x, st.calls[k]? = some x → ∃ x' : Call A, st'.calls[k]? = some x' ∧ x'.name = x.name ∧
        x'.state.rank ≤ x.state.rank - sched.count k) ∧
      (names.Nodup → PtrInv st → PtrInv st') := by
  induction sched generalizing st with
  | nil => exact ⟨st, rfl, inv, fun k x h => ⟨x, h, rfl, by simp⟩, fun _ h => h⟩
  | cons j sched ih =>
    unfold runFF
    rw [List.foldlM_cons]
    cases hj : st.calls[j]? with
    | none =>
      have hs : stepFF fmax parse place files st j = ok st := by
        unfold stepFF; rw [hj]
      rw [hs, ok_bind]
      obtain ⟨st', h1, h2, h3, h4⟩ := ih st inv
      refine ⟨st', h1, h2, ?_, h4⟩
      intro k x hk
      have hne : j ≠ k := by rintro rfl; rw [hj] at hk; cases hk
      obtain ⟨x', e1, e2, e3⟩ := h3 k x hk
      refine ⟨x', e1, e2, ?_⟩
      rw [List.count_cons_of_ne hne]
      exact e3
    | some x =>
      obtain ⟨store', next', ns, hs, inv', hr, hother, hdone, hsame⟩ := ffInv_step hplace hfiles inv hj
      have hjl := (List.getElem?_eq_some_iff.mp hj).1
      rw [hs, ok_bind]
      obtain ⟨st', h1, h2, h3, h4⟩ := ih _ inv'
      refine ⟨st', h1, h2, ?_, ?_⟩
      · intro k y hk
        by_cases e : j = k
        · subst e
          rw [hj] at hk
          cases hk
          obtain ⟨x', e1, e2, e3⟩ := h3 j { x with state := ns } (by simp [hjl])
          refine ⟨x', e1, e2, ?_⟩
          rw [List.count_cons_self]
          simp only at e3
          omega
        · obtain ⟨x', e1, e2, e3⟩ := h3 k y (by simp only; rw [List.getElem?_set_ne e]; exact hk)
          refine ⟨x', e1, e2, ?_⟩
          rw [List.count_cons_of_ne e]
          exact e3
      · intro nd hptr
        refine h4 nd ?_
        intro y hy p hp
        obtain ⟨k, hk⟩ := List.getElem?_of_mem hy
        simp only at hk
        by_cases e : j = k
        · subst e
          rw [List.getElem?_set_self hjl] at hk
          cases hk
          simp only at hp
          by_cases hold : x.state = .done p
          · have : store' = st.store := hsame (by rw [hold]; simp)
            simp only [this]
            exact hptr x (List.mem_of_getElem? hj) p hold
          · obtain ⟨e1, e2⟩ := hdone p hp hold
            simp only [e1]
            exact e2
        · rw [List.getElem?_set_ne e] at hk
          have hne : y.name ≠ x.name := by
            intro hn
            rw [← inv.calls] at nd
            have hkl := (List.getElem?_eq_some_iff.mp hk).1
            refine e ((List.Nodup.getElem_inj_iff nd (hi := by simpa using hjl) (hj := by simpa using hkl)).mp ?_)
            simp only [List.getElem_map]
            rw [(List.getElem?_eq_some_iff.mp hk).2, (List.getElem?_eq_some_iff.mp hj).2, hn]
          simp only
          rw [hother _ hne]
          exact hptr y (List.mem_of_getElem? hk) p hp

end Gbdt
