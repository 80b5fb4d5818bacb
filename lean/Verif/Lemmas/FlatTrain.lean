import Verif.Lemmas.Flatfile
import Verif.Lemmas.NamedColumns
import Verif.Spec.FlatDisk
import Verif.Props.TsvLoad

/-!
# Flat file stores whose columns have one number of rows
-/

set_option autoImplicit false
set_option linter.unusedSectionVars false

namespace Gbdt

open Outcome

section mem
variable {A : Type} [LinearOrder A]

theorem intCol_finalize_size (c : IntCol) : ∃ k, c.finalize.size = ok k := by
  unfold IntCol.finalize IntCol.size IntCol.data
  dsimp only
  split
  · next h => split at h <;> [cases h; (split at h <;> cases h)]
  all_goals exact ⟨_, rfl⟩

theorem createString_fine (l : List String) :
    (Column.createString l : Column A).status = .ok ∧ ∃ k, (Column.createString l : Column A).size = ok k := by
  have hk := StrCol.add_keeps StrCol.new l
  have h1 : (StrCol.new.add l).status = .ok := hk.1
  have h2 : (StrCol.new.add l).ints.finalized = false := hk.2
  show (StrCol.finalize (StrCol.new.add l)).status = .ok ∧ ∃ k, (StrCol.finalize (StrCol.new.add l)).size = ok k
  unfold StrCol.finalize
  rw [if_neg (by simp [h1]), if_neg (by simp [h2])]
  exact ⟨h1, intCol_finalize_size _⟩

theorem createBucketized_fine {fmax : A} {l : List (Fl A)} {c : Column A} (h : Column.createBucketized fmax l = ok c) :
    c.status = .ok ∧ ∃ k, c.size = ok k := by
  obtain ⟨b, hb, h⟩ := bind_eq_ok.mp h
  cases h
  obtain ⟨c1, hc1, hb⟩ := bind_eq_ok.mp hb
  obtain ⟨c0, hc0, e⟩ := bind_eq_ok.mp hc1
  cases e
  obtain ⟨h1, h2⟩ := BktCol.add_fresh (by rfl) (by rfl) hc0
  unfold BktCol.finalize at hb
  rw [if_neg (by simp [h1]), if_neg (by simp [h2])] at hb
  dsimp only at hb
  split at hb
  · obtain ⟨c2, hc2, e⟩ := bind_eq_ok.mp hb
    cases e
    exact ⟨(BktCol.buildBuckets_keeps hc2).1.trans h1, intCol_finalize_size _⟩
  · obtain ⟨c2, hc2, e⟩ := bind_eq_ok.mp hb
    cases hc2
    cases e
    exact ⟨h1, intCol_finalize_size _⟩

theorem loadFile_size {fmax : A} {parse : Text → Option (Fl A)} {s : Text} {c : Column A} (h : loadFile fmax parse s = ok (some c)) :
    c.status = .ok ∧ ∃ k, c.size = ok k := by
  unfold loadFile at h
  dsimp only at h
  split at h
  · cases h
  · split at h
    · obtain ⟨ls, _, h⟩ := bind_eq_ok.mp h
      cases h
      exact createString_fine _
    · split at h
      · obtain ⟨ls, _, h⟩ := bind_eq_ok.mp h
        cases h
        exact ⟨rfl, _, rfl⟩
      · split at h
        · obtain ⟨ls, _, h⟩ := bind_eq_ok.mp h
          obtain ⟨c', hc, h⟩ := bind_eq_ok.mp h
          cases h
          exact createBucketized_fine hc
        · cases h

/-- A store with columns from files, all of `n` rows. -/
structure GoodMem (d : FlatDisk A) (n : Nat) (s : FFStore A) : Prop where
  keys : (s.map Prod.fst).Nodup
  good : ∀ e ∈ s, d.columnOf n e.1 = some e.2.2
  nonempty : s ≠ []

theorem columnOf_size {d : FlatDisk A} {n : Nat} {name : String} {c : Column A} (h : d.columnOf n name = some c) :
    d.column name = some c ∧ c.size = ok n := by
  unfold FlatDisk.columnOf at h
  split at h
  · cases h
  · next c' hc =>
    split at h
    · next hs => cases h; exact ⟨hc, hs⟩
    · cases h

theorem column_load {d : FlatDisk A} {name : String} {c : Column A} (h : d.column name = some c) :
    ∃ s, d.files name = some s ∧ loadFile d.fmax d.parse s = ok (some c) := by
  unfold FlatDisk.column at h
  split at h
  · cases h
  · next s hs =>
    split at h
    · next c' hc => exact ⟨s, hs, by rw [hc, h]⟩
    · cases h

theorem GoodMem.numRows {d : FlatDisk A} {n : Nat} {s : FFStore A} (h : GoodMem d n s) : s.numRows = ok n := by
  obtain ⟨h1, h2, h3⟩ := h
  cases s with
  | nil => exact absurd rfl h3
  | cons e s => exact (columnOf_size (h2 e List.mem_cons_self)).2

/-- Inserting a column of a file into a good store. -/
theorem insertColumn_good {d : FlatDisk A} (hplace : ∀ s, (d.place s).Perm s) {n : Nat} (hn : 0 < n) {st : FFState A}
    (h : GoodMem d n st.store) {name : String} {c : Column A} (hc : d.column name = some c) :
    insertColumn d.place st name c = ok none ∧ d.columnOf n name = none ∨
    d.columnOf n name = some c ∧ ∃ s', insertColumn d.place st name c = ok (some { st with store := s', next := st.next + 1 }) ∧
      GoodMem d n s' ∧ s'.lookup name = some (st.next, c) ∧ ∀ x, (st.store.lookup x).isSome → (s'.lookup x).isSome := by
  obtain ⟨f, _, hf⟩ := column_load hc
  obtain ⟨_, k, hk⟩ := loadFile_size hf
  unfold insertColumn
  simp only [h.numRows, hk, ok_bind]
  by_cases hkn : k = n
  · subst hkn
    right
    have hgood : d.columnOf k name = some c := by
      unfold FlatDisk.columnOf
      simp only [hc, hk, if_true]
    refine ⟨hgood, _, by rw [if_neg (by simp)]; rfl, ?_, ?_, ?_⟩
    all_goals have hp := hplace ((name, st.next, c) :: st.store.filter (fun p => p.1 != name))
    · have hkeys : (((name, st.next, c) :: st.store.filter (fun p => p.1 != name)).map Prod.fst).Nodup := by
        rw [List.map_cons, List.nodup_cons]
        refine ⟨?_, (List.filter_sublist.map _).nodup h.keys⟩
        intro hm
        obtain ⟨p, hp, e⟩ := List.mem_map.mp hm
        have := (List.mem_filter.mp hp).2
        simp only [bne_iff_ne, ne_eq] at this
        exact this e
      refine ⟨(hp.map _).nodup_iff.mpr hkeys, ?_, ?_⟩
      · intro e he
        rcases List.mem_cons.mp (hp.mem_iff.mp he) with rfl | he
        · exact hgood
        · exact h.good e (List.mem_filter.mp he).1
      · intro e
        have := hp.length_eq
        rw [e] at this
        cases this
    all_goals
      have hkeys : ((d.place ((name, st.next, c) :: st.store.filter (fun p => p.1 != name))).map Prod.fst).Nodup := by
        rw [(hp.map _).nodup_iff, List.map_cons, List.nodup_cons]
        refine ⟨?_, (List.filter_sublist.map _).nodup h.keys⟩
        intro hm
        obtain ⟨p, hp, e⟩ := List.mem_map.mp hm
        have := (List.mem_filter.mp hp).2
        simp only [bne_iff_ne, ne_eq] at this
        exact this e
    · exact lookup_of_mem hkeys (hp.mem_iff.mpr List.mem_cons_self)
    · intro x hx
      rw [lookup_isSome_iff] at hx ⊢
      obtain ⟨e, he, rfl⟩ := List.mem_map.mp hx
      by_cases hne : e.1 = name
      · rw [hne]
        exact List.mem_map.mpr ⟨_, hp.mem_iff.mpr List.mem_cons_self, rfl⟩
      · exact List.mem_map.mpr ⟨e, hp.mem_iff.mpr (List.mem_cons_of_mem _ (List.mem_filter.mpr ⟨he, by simpa using hne⟩)), rfl⟩
  · left
    refine ⟨by rw [if_pos ⟨hn, Ne.symm hkn⟩]; rfl, ?_⟩
    unfold FlatDisk.columnOf
    simp only [hc, hk, Outcome.ok.injEq, if_neg hkn]

/-- What holds during calls on a good store. -/
structure GoodState (d : FlatDisk A) (n : Nat) (st : FFState A) : Prop where
  mem : GoodMem d n st.store
  ins : ∀ x ∈ st.calls, ∀ c, x.state = .insert c → d.column x.name = some c

theorem goodState_step {d : FlatDisk A} (hd : d.Sound) (hplace : ∀ s, (d.place s).Perm s) {n : Nat} (hn : 0 < n) {st : FFState A}
    (h : GoodState d n st) (k : Nat) : ∃ st', stepFF d.fmax d.parse d.place d.files st k = ok st' ∧ GoodState d n st' ∧
      ∀ x, (st.store.lookup x).isSome → (st'.store.lookup x).isSome := by
  unfold stepFF
  cases hk : st.calls[k]? with
  | none => exact ⟨st, rfl, h, fun _ h => h⟩
  | some x =>
    have hx := List.mem_of_getElem? hk
    have same : ∀ ns : CallState A, (∀ c, ns = .insert c → d.column x.name = some c) →
        GoodState d n { st with calls := st.calls.set k { x with state := ns } } := by
      intro ns hns
      refine ⟨h.mem, ?_⟩
      intro y hy c hc
      rcases List.mem_or_eq_of_mem_set hy with h' | rfl
      · exact h.ins y h' c hc
      · exact hns c hc
    dsimp only
    unfold stepCall
    cases hs : x.state with
    | check => exact ⟨_, rfl, same _ (by intro c hc; split at hc <;> cases hc), fun _ h => h⟩
    | fetch => exact ⟨_, rfl, same _ (by intro c hc; cases hc), fun _ h => h⟩
    | done p => exact ⟨_, rfl, same _ (by intro c hc; cases hc), fun _ h => h⟩
    | load =>
      cases hf : d.files x.name with
      | none => exact ⟨_, by simp only [ok_bind]; rfl, same (.done none) (by intro c hc; cases hc), fun _ h => h⟩
      | some s =>
        obtain ⟨o, ho⟩ := hd _ _ hf
        cases o with
        | none => exact ⟨_, by simp only [ho, ok_bind, pure_eq], same (.done none) (by intro c hc; cases hc), fun _ h => h⟩
        | some col =>
          refine ⟨_, by simp only [ho, ok_bind, pure_eq], same (.insert col) ?_, fun _ h => h⟩
          intro c hc
          cases hc
          unfold FlatDisk.column
          simp only [hf, ho]
    | insert col =>
      rcases insertColumn_good hplace hn h.mem (h.ins x hx col hs) with ⟨h1, _⟩ | ⟨_, s', h1, h2, _, h4⟩
      · exact ⟨_, by simp only [h1, ok_bind, pure_eq], same (.done none) (by intro c hc; cases hc), fun _ h => h⟩
      · refine ⟨_, by simp only [h1, ok_bind, pure_eq]; rfl, ⟨h2, ?_⟩, h4⟩
        exact (same .fetch (by intro c hc; cases hc)).ins

theorem goodState_run {d : FlatDisk A} (hd : d.Sound) (hplace : ∀ s, (d.place s).Perm s) {n : Nat} (hn : 0 < n) :
    ∀ (sched : List Nat) (st : FFState A), GoodState d n st → ∃ st', runFF d.fmax d.parse d.place d.files sched st = ok st' ∧
      GoodState d n st' ∧ ∀ x, (st.store.lookup x).isSome → (st'.store.lookup x).isSome
  | [], st, h => ⟨st, rfl, h, fun _ h => h⟩
  | k :: sched, st, h => by
    obtain ⟨st1, h1, h2, h3⟩ := goodState_step hd hplace hn h k
    obtain ⟨st2, h4, h5, h6⟩ := goodState_run hd hplace hn sched st1 h2
    refine ⟨st2, ?_, h5, fun x hx => h6 x (h3 x hx)⟩
    unfold runFF at h4 ⊢
    rw [List.foldlM_cons, h1, ok_bind, h4]

theorem ffPool_good {d : FlatDisk A} (hd : d.Sound) (hplace : ∀ s, (d.place s).Perm s) {n : Nat} (hn : 0 < n) (sched : List Nat)
    {m : FFMem A} (h : GoodMem d n m.store) (names : List String) : ∃ m', ffPool d sched m names = ok m' ∧ GoodMem d n m'.store ∧
      ∀ x, (m.store.lookup x).isSome → (m'.store.lookup x).isSome := by
  obtain ⟨st, h1, h2, h3⟩ := goodState_run hd hplace hn (sched ++ (List.range names.length).flatMap (List.replicate 4))
    (startFF m.store m.next names) ⟨h, by
      intro x hx c hc
      obtain ⟨y, _, rfl⟩ := List.mem_map.mp hx
      cases hc⟩
  unfold ffPool
  rw [h1, ok_bind]
  exact ⟨_, rfl, h2.mem, h3⟩

theorem ffGet_found {d : FlatDisk A} {m : FFMem A} {name : String} {id : Nat} {c : Column A} (h : m.store.lookup name = some (id, c)) :
    ffGet d m name = ok (m, some c) := by
  simp [ffGet, runFF, stepFF, stepCall, startFF, h]

theorem ffGet_absent {d : FlatDisk A} (hd : d.Sound) {m : FFMem A} {name : String} (h : m.store.lookup name = none) (hc : d.column name = none) :
    ffGet d m name = ok (m, none) := by
  unfold FlatDisk.column at hc
  cases hf : d.files name with
  | none => simp [ffGet, runFF, stepFF, stepCall, startFF, h, hf]
  | some s =>
    obtain ⟨o, ho⟩ := hd _ _ hf
    simp only [hf, ho] at hc
    subst hc
    simp [ffGet, runFF, stepFF, stepCall, startFF, h, hf, ho]

theorem ffGet_refused {d : FlatDisk A} {m : FFMem A} {name : String} (h : m.store.lookup name = none) {c : Column A}
    (hc : d.column name = some c) (hi : ∀ calls, insertColumn d.place ⟨m.store, m.next, calls⟩ name c = ok none) :
    ffGet d m name = ok (m, none) := by
  obtain ⟨s, hf, hs⟩ := column_load hc
  simp [ffGet, runFF, stepFF, stepCall, startFF, h, hf, hs, hi]

theorem ffGet_inserted {d : FlatDisk A} {m : FFMem A} {name : String} (h : m.store.lookup name = none) {c : Column A}
    (hc : d.column name = some c) {s' : FFStore A} (hs' : s'.lookup name = some (m.next, c))
    (hi : ∀ calls, insertColumn d.place ⟨m.store, m.next, calls⟩ name c = ok (some ⟨s', m.next + 1, calls⟩)) :
    ffGet d m name = ok (⟨s', m.next + 1⟩, some c) := by
  obtain ⟨s, hf, hs⟩ := column_load hc
  simp [ffGet, runFF, stepFF, stepCall, startFF, h, hf, hs, hi, hs']

/-- `GetColumn` on a good store: the column of the file if it has the right number of rows. -/
theorem ffGet_good {d : FlatDisk A} (hd : d.Sound) (hplace : ∀ s, (d.place s).Perm s) {n : Nat} (hn : 0 < n) {m : FFMem A}
    (h : GoodMem d n m.store) (name : String) : ∃ m', ffGet d m name = ok (m', d.columnOf n name) ∧ GoodMem d n m'.store ∧
      m'.column name = d.columnOf n name ∧ ∀ x, (m.store.lookup x).isSome → (m'.store.lookup x).isSome := by
  cases hl : m.store.lookup name with
  | some e =>
    obtain ⟨id, c⟩ := e
    have hg := h.good _ (lookup_mem hl)
    simp only at hg
    rw [hg]
    exact ⟨m, ffGet_found hl, h, by simp [FFMem.column, hl], fun _ h => h⟩
  | none =>
    cases hc : d.column name with
    | none =>
      have : d.columnOf n name = none := by simp [FlatDisk.columnOf, hc]
      rw [this]
      exact ⟨m, ffGet_absent hd hl hc, h, by simp [FFMem.column, hl], fun _ h => h⟩
    | some c =>
      rcases insertColumn_good (st := ⟨m.store, m.next, []⟩) hplace hn h hc with ⟨h1, h2⟩ | ⟨h1, s', h2, h3, h4, h5⟩
      · rw [h2]
        refine ⟨m, ffGet_refused hl hc ?_, h, by simp [FFMem.column, hl], fun _ h => h⟩
        intro calls
        rcases insertColumn_good (st := ⟨m.store, m.next, calls⟩) hplace hn h hc with ⟨h1', _⟩ | ⟨h1', _⟩
        · exact h1'
        · rw [h2] at h1'; cases h1'
      · rw [h1]
        refine ⟨⟨s', m.next + 1⟩, ffGet_inserted hl hc h4 ?_, h3, by simp [FFMem.column, h4], h5⟩
        intro calls
        unfold insertColumn at h2 ⊢
        obtain ⟨r, hr, h2⟩ := bind_eq_ok.mp h2
        obtain ⟨k, hk, h2⟩ := bind_eq_ok.mp h2
        simp only [hr, hk, ok_bind]
        split at h2
        · cases h2
        · next hif =>
          rw [if_neg hif]
          simp only [pure_eq, Outcome.ok.injEq, Option.some.injEq, FFState.mk.injEq] at h2 ⊢
          exact ⟨h2.1, trivial, trivial⟩

/-- The columns of a good store at names that have been asked for. -/
def Settled (d : FlatDisk A) (n : Nat) (m : FFMem A) (name : String) : Prop := m.column name = d.columnOf n name

theorem GoodMem.settled_of_isSome {d : FlatDisk A} {n : Nat} {m : FFMem A} (h : GoodMem d n m.store) {name : String}
    (hs : (m.store.lookup name).isSome) : Settled d n m name := by
  obtain ⟨⟨id, c⟩, he⟩ := Option.isSome_iff_exists.mp hs
  have := h.good _ (lookup_mem he)
  unfold Settled FFMem.column
  rw [he]
  exact this.symm

theorem GoodMem.settled_mono {d : FlatDisk A} {n : Nat} {m m' : FFMem A} (h' : GoodMem d n m'.store)
    (hm : ∀ x, (m.store.lookup x).isSome → (m'.store.lookup x).isSome) {name : String} (hs : Settled d n m name) : Settled d n m' name := by
  by_cases hx : (m'.store.lookup name).isSome
  · exact h'.settled_of_isSome hx
  · have h1 : ¬ (m.store.lookup name).isSome := fun h => hx (hm name h)
    unfold Settled FFMem.column at *
    simp only [Option.not_isSome_iff_eq_none] at hx h1
    rw [hx]
    rw [h1] at hs
    exact hs

/-- The loop of `LoadFeatures` on a good store. -/
theorem ffGets_good {d : FlatDisk A} (hd : d.Sound) (hplace : ∀ s, (d.place s).Perm s) {n : Nat} (hn : 0 < n) :
    ∀ (names : List String) {m : FFMem A}, GoodMem d n m.store → ∃ m' loaded, ffGets d m names = ok (m', loaded) ∧ GoodMem d n m'.store ∧
      (∀ x, (m.store.lookup x).isSome → (m'.store.lookup x).isSome) ∧
      (loaded = true ∧ (∀ name ∈ names, Settled d n m' name ∧ (d.columnOf n name).isSome) ∨
        loaded = false ∧ ∃ name ∈ names, d.columnOf n name = none)
  | [], m, h => ⟨m, true, rfl, h, fun _ h => h, Or.inl ⟨rfl, fun _ h => by cases h⟩⟩
  | name :: names, m, h => by
    obtain ⟨m1, h1, h2, h3, h4⟩ := ffGet_good hd hplace hn h name
    rw [ffGets, h1, ok_bind]
    cases hc : d.columnOf n name with
    | none => exact ⟨m1, false, rfl, h2, h4, Or.inr ⟨rfl, name, List.mem_cons_self, hc⟩⟩
    | some c =>
      obtain ⟨s, _, hs⟩ := column_load (columnOf_size hc).1
      obtain ⟨m2, loaded, e1, e2, e3, e4⟩ := ffGets_good hd hplace hn names h2
      refine ⟨m2, loaded, ?_, e2, fun x hx => e3 x (h4 x hx), ?_⟩
      · simp only [(loadFile_size hs).1, ne_eq, not_true_eq_false, if_false, e1]
      · rcases e4 with ⟨k1, k2⟩ | ⟨k1, x, k2, k3⟩
        · refine Or.inl ⟨k1, ?_⟩
          intro x hx
          rcases List.mem_cons.mp hx with rfl | hx
          · exact ⟨e2.settled_mono e3 h3, by rw [hc]; rfl⟩
          · exact k2 x hx
        · exact Or.inr ⟨k1, x, List.mem_cons_of_mem _ k2, k3⟩

/-- What holds during calls on a store that may be empty. -/
structure FairState (d : FlatDisk A) (st : FFState A) : Prop where
  mem : st.store = [] ∨ ∃ n, 0 < n ∧ GoodMem d n st.store
  ins : ∀ x ∈ st.calls, ∀ c, x.state = .insert c → d.column x.name = some c

theorem fairState_step {d : FlatDisk A} (hd : d.Sound) (hz : d.NoEmpty) (hplace : ∀ s, (d.place s).Perm s) {st : FFState A}
    (h : FairState d st) (k : Nat) : ∃ st', stepFF d.fmax d.parse d.place d.files st k = ok st' ∧ FairState d st' := by
  rcases h.mem with hm | ⟨n, hn, hm⟩
  · unfold stepFF
    cases hk : st.calls[k]? with
    | none => exact ⟨st, rfl, h⟩
    | some x =>
      have hx := List.mem_of_getElem? hk
      have same : ∀ ns : CallState A, (∀ c, ns = .insert c → d.column x.name = some c) →
          FairState d { st with calls := st.calls.set k { x with state := ns } } := by
        intro ns hns
        refine ⟨h.mem, ?_⟩
        intro y hy c hc
        rcases List.mem_or_eq_of_mem_set hy with h' | rfl
        · exact h.ins y h' c hc
        · exact hns c hc
      dsimp only
      unfold stepCall
      cases hs : x.state with
      | check => exact ⟨_, rfl, same _ (by intro c hc; split at hc <;> cases hc)⟩
      | fetch => exact ⟨_, rfl, same _ (by intro c hc; cases hc)⟩
      | done p => exact ⟨_, rfl, same _ (by intro c hc; cases hc)⟩
      | load =>
        cases hf : d.files x.name with
        | none => exact ⟨_, by simp only [ok_bind]; rfl, same (.done none) (by intro c hc; cases hc)⟩
        | some s =>
          obtain ⟨o, ho⟩ := hd _ _ hf
          cases o with
          | none => exact ⟨_, by simp only [ho, ok_bind, pure_eq], same (.done none) (by intro c hc; cases hc)⟩
          | some col =>
            refine ⟨_, by simp only [ho, ok_bind, pure_eq], same (.insert col) ?_⟩
            intro c hc
            cases hc
            unfold FlatDisk.column
            simp only [hf, ho]
      | insert col =>
        have hc := h.ins x hx col hs
        obtain ⟨f, _, hf⟩ := column_load hc
        obtain ⟨_, m, hsize⟩ := loadFile_size hf
        have hp : d.place [(x.name, st.next, col)] = [(x.name, st.next, col)] := List.perm_singleton.mp (hplace _)
        have hi : insertColumn d.place st x.name col = ok (some { st with store := [(x.name, st.next, col)], next := st.next + 1 }) := by
          unfold insertColumn
          rw [hm]
          simp [FFStore.numRows, hsize, hp]
        refine ⟨⟨[(x.name, st.next, col)], st.next + 1, st.calls.set k { x with state := .fetch }⟩, by simp only [hi, ok_bind, pure_eq], ?_, ?_⟩
        · refine Or.inr ⟨m, ?_, by simp, ?_, by simp⟩
          · rcases Nat.eq_zero_or_pos m with rfl | h
            · exact absurd hsize (hz _ _ hc)
            · exact h
          · intro e he
            rw [List.mem_singleton.mp he]
            simp [FlatDisk.columnOf, hc, hsize]
        · exact (same .fetch (by intro c hc; cases hc)).ins
  · obtain ⟨st', h1, h2, _⟩ := goodState_step hd hplace hn ⟨hm, h.ins⟩ k
    exact ⟨st', h1, Or.inr ⟨n, hn, h2.mem⟩, h2.ins⟩

theorem fairState_run {d : FlatDisk A} (hd : d.Sound) (hz : d.NoEmpty) (hplace : ∀ s, (d.place s).Perm s) :
    ∀ (sched : List Nat) (st : FFState A), FairState d st → ∃ st', runFF d.fmax d.parse d.place d.files sched st = ok st' ∧ FairState d st'
  | [], st, h => ⟨st, rfl, h⟩
  | k :: sched, st, h => by
    obtain ⟨st1, h1, h2⟩ := fairState_step hd hz hplace h k
    obtain ⟨st2, h4, h5⟩ := fairState_run hd hz hplace sched st1 h2
    refine ⟨st2, ?_, h5⟩
    unfold runFF at h4 ⊢
    rw [List.foldlM_cons, h1, ok_bind, h4]

theorem fairState_start (d : FlatDisk A) (names : List String) : FairState d (startFF [] 0 names) :=
  ⟨Or.inl rfl, by
    intro x hx c hc
    obtain ⟨y, _, rfl⟩ := List.mem_map.mp hx
    cases hc⟩

/-- The column as raw floats. -/
def asRaw : Option (Column A) → Option (RawCol A)
  | some (.raw r) => some r
  | _ => none

theorem getRaw_eq (t : DataStore A) (name : String) : t.getRaw name = asRaw (t.getColumn name) := by
  unfold DataStore.getRaw asRaw
  split <;> simp_all

theorem asRaw_length {d : FlatDisk A} {n : Nat} {name : String} {r : RawCol A} (h : asRaw (d.columnOf n name) = some r) : n ≤ r.raw.length := by
  unfold asRaw at h
  split at h
  · next r' hr =>
    cases h
    have := (columnOf_size hr).2
    simp only [Column.size, RawCol.size, Outcome.ok.injEq] at this
    rw [← this]
    exact Nat.mod_le _ _
  · cases h

theorem ffRaw_good {d : FlatDisk A} (hd : d.Sound) (hplace : ∀ s, (d.place s).Perm s) {n : Nat} (hn : 0 < n) {m : FFMem A}
    (h : GoodMem d n m.store) (name : String) : ∃ m', ffRaw d m name = ok (m', asRaw (d.columnOf n name)) ∧ GoodMem d n m'.store := by
  obtain ⟨m', h1, h2, _⟩ := ffGet_good hd hplace hn h name
  refine ⟨m', ?_, h2⟩
  unfold ffRaw
  rw [h1, ok_bind]
  dsimp only
  unfold asRaw
  split <;> simp_all

theorem ffGet_first {d : FlatDisk A} (hplace : ∀ s, (d.place s).Perm s) {name : String} {c : Column A} (hc : d.column name = some c) :
    ∃ m', ffGet d {} name = ok (m', some c) ∧ ∀ k, c.size = ok k → GoodMem d k m'.store := by
  obtain ⟨f, _, hf⟩ := column_load hc
  obtain ⟨_, k, hk⟩ := loadFile_size hf
  have hp : d.place [(name, 0, c)] = [(name, 0, c)] := List.perm_singleton.mp (hplace _)
  refine ⟨⟨[(name, 0, c)], 1⟩, ffGet_inserted rfl hc (by simp [List.lookup]) ?_, ?_⟩
  · intro calls
    simp [insertColumn, FFStore.numRows, hk, hp]
  · intro k hk
    refine ⟨by simp, ?_, by simp⟩
    intro e he
    rw [List.mem_singleton.mp he]
    simp [FlatDisk.columnOf, hc, hk]

/-- The first column that is asked for. -/
theorem ffRaw_first {d : FlatDisk A} (hd : d.Sound) (hplace : ∀ s, (d.place s).Perm s) (name : String) :
    ∃ m', ffRaw d {} name = ok (m', asRaw (d.column name)) ∧ ∀ k c, d.column name = some c → c.size = ok k → GoodMem d k m'.store := by
  cases hc : d.column name with
  | none =>
    refine ⟨{}, ?_, fun k c h => by cases h⟩
    unfold ffRaw
    rw [ffGet_absent hd (by rfl) hc, ok_bind]
    rfl
  | some c =>
    obtain ⟨m', h1, h2⟩ := ffGet_first hplace hc
    refine ⟨m', ?_, fun k c' h hk => by cases h; exact h2 k hk⟩
    unfold ffRaw
    rw [h1, ok_bind]
    dsimp only
    unfold asRaw
    split <;> simp_all

end mem

section train
variable {D A : Type} [Dbl D] [FpOrder D] [EqOrder D] [LinearOrder A] [ThrOps A]

/-- What the loading of weights and targets comes to, against the memory store `t`. -/
structure VectorsFit (d : FlatDisk A) (n : Nat) (mc : Machine D A) (c : Config D) (t : DataStore A)
    (r : FFMem A × Option (List (Fl A)) × List (Fl A)) : Prop where
  mem : GoodMem d n r.1.store
  weights : sampleWeightsOrDie mc c t = ok (flatWeights mc r.2.1)
  targets : targetsOrDie mc c t = ok (flatTargets mc c r.2.2)
  wlen : n ≤ (r.2.1.map List.length).getD n
  ylen : n ≤ r.2.2.length

theorem ffWeights_good {d : FlatDisk A} (hd : d.Sound) (hplace : ∀ s, (d.place s).Perm s) {n : Nat} (hn : 0 < n) {m : FFMem A}
    (h : GoodMem d n m.store) (mc : Machine D A) (c : Config D) (t : DataStore A)
    (ht : c.weightColumn ≠ "" → t.getColumn c.weightColumn = d.columnOf n c.weightColumn) :
    (∃ m' ws, ffWeights d m c = ok (m', ws) ∧ GoodMem d n m'.store ∧ sampleWeightsOrDie mc c t = ok (flatWeights mc ws) ∧
      n ≤ (ws.map List.length).getD n) ∨ ffWeights d m c = fatal ∧ sampleWeightsOrDie mc c t = fatal := by
  unfold ffWeights sampleWeightsOrDie
  by_cases hw : c.weightColumn = ""
  · left
    simp only [if_pos hw]
    exact ⟨m, none, rfl, h, rfl, le_refl _⟩
  · simp only [if_neg hw, getRaw_eq, ht hw]
    obtain ⟨m', h1, h2⟩ := ffRaw_good hd hplace hn h c.weightColumn
    rw [h1, ok_bind]
    dsimp only
    cases hr : asRaw (d.columnOf n c.weightColumn) with
    | none => right; exact ⟨rfl, rfl⟩
    | some r => left; exact ⟨m', some r.raw, rfl, h2, rfl, asRaw_length hr⟩

theorem ffTargets_good {d : FlatDisk A} (hd : d.Sound) (hplace : ∀ s, (d.place s).Perm s) {n : Nat} (hn : 0 < n) {m : FFMem A}
    (h : GoodMem d n m.store) (mc : Machine D A) (c : Config D) (t : DataStore A)
    (ht : c.targetColumn ≠ "" → t.getColumn c.targetColumn = d.columnOf n c.targetColumn) :
    (∃ m' ys, ffTargets d m c = ok (m', ys) ∧ GoodMem d n m'.store ∧ targetsOrDie mc c t = ok (flatTargets mc c ys) ∧
      n ≤ ys.length) ∨ ffTargets d m c = fatal ∧ targetsOrDie mc c t = fatal := by
  unfold ffTargets targetsOrDie
  by_cases hw : c.targetColumn = ""
  · right
    simp only [if_pos hw]
    exact ⟨trivial, trivial⟩
  · simp only [if_neg hw, getRaw_eq, ht hw]
    obtain ⟨m', h1, h2⟩ := ffRaw_good hd hplace hn h c.targetColumn
    rw [h1, ok_bind]
    dsimp only
    cases hr : asRaw (d.columnOf n c.targetColumn) with
    | none => right; exact ⟨rfl, rfl⟩
    | some r =>
      left
      refine ⟨m', r.raw, rfl, h2, ?_, asRaw_length hr⟩
      unfold flatTargets
      cases c.binarize <;> rfl

theorem asRaw_columnOf {d : FlatDisk A} {n : Nat} {name : String} (h : asRaw (d.column name) = none) : asRaw (d.columnOf n name) = none := by
  unfold FlatDisk.columnOf
  split
  · rfl
  · next c hc =>
    rw [hc] at h
    split
    · exact h
    · rfl

/-- Both orders of loading weights and targets. -/
theorem ffVectors_fit {d : FlatDisk A} (hd : d.Sound) (hplace : ∀ s, (d.place s).Perm s) {n : Nat} (hn : 0 < n)
    (mc : Machine D A) (c : Config D) (t : DataStore A) (weightsFirst : Bool)
    (htw : c.weightColumn ≠ "" → t.getColumn c.weightColumn = d.columnOf n c.weightColumn)
    (hty : t.getColumn c.targetColumn = d.columnOf n c.targetColumn)
    (htarget : (d.columnOf n c.targetColumn).isSome) (hweight : c.weightColumn ≠ "" → d.columnOf 0 c.weightColumn = none) :
    (∃ r, ffVectors d weightsFirst c = ok r ∧ VectorsFit d n mc c t r) ∨
    ffVectors d weightsFirst c = fatal ∧ (sampleWeightsOrDie mc c t = fatal ∨ ∃ w, sampleWeightsOrDie mc c t = ok w ∧ targetsOrDie mc c t = fatal) := by
  -- the targets loaded first
  have hfirst : (∃ m' ys, ffTargets d {} c = ok (m', ys) ∧ GoodMem d n m'.store ∧ targetsOrDie mc c t = ok (flatTargets mc c ys) ∧
      n ≤ ys.length) ∨ ffTargets d {} c = fatal ∧ targetsOrDie mc c t = fatal := by
    unfold ffTargets targetsOrDie
    by_cases hw : c.targetColumn = ""
    · right
      simp only [if_pos hw]
      exact ⟨trivial, trivial⟩
    · simp only [if_neg hw, getRaw_eq, hty]
      obtain ⟨m', h1, h2⟩ := ffRaw_first hd hplace c.targetColumn
      obtain ⟨col, hcol⟩ := Option.isSome_iff_exists.mp htarget
      obtain ⟨hcol1, hcol2⟩ := columnOf_size hcol
      rw [h1, ok_bind]
      have he : d.column c.targetColumn = d.columnOf n c.targetColumn := by rw [hcol1, hcol]
      dsimp only
      rw [he]
      cases hr : asRaw (d.columnOf n c.targetColumn) with
      | none => right; exact ⟨rfl, rfl⟩
      | some r =>
        left
        refine ⟨m', r.raw, rfl, h2 n col hcol1 hcol2, ?_, asRaw_length hr⟩
        unfold flatTargets
        cases c.binarize <;> rfl
  have hwcases : (∃ w, sampleWeightsOrDie mc c t = ok w) ∨ sampleWeightsOrDie mc c t = fatal := by
    unfold sampleWeightsOrDie
    split
    · exact Or.inl ⟨_, rfl⟩
    · split
      · exact Or.inr rfl
      · exact Or.inl ⟨_, rfl⟩
  have hfat : targetsOrDie mc c t = fatal → (sampleWeightsOrDie mc c t = fatal ∨ ∃ w, sampleWeightsOrDie mc c t = ok w ∧ targetsOrDie mc c t = fatal) := by
    intro h
    rcases hwcases with ⟨w, hw⟩ | hw
    · exact Or.inr ⟨w, hw, h⟩
    · exact Or.inl hw
  unfold ffVectors
  cases weightsFirst with
  | false =>
    simp only [Bool.false_eq_true, if_false]
    rcases hfirst with ⟨m1, ys, h1, h2, h3, h4⟩ | ⟨h1, h3⟩
    · simp only [h1, ok_bind]
      rcases ffWeights_good hd hplace hn h2 mc c t htw with ⟨m2, ws, k1, k2, k3, k4⟩ | ⟨k1, k3⟩
      · simp only [k1, ok_bind]
        exact Or.inl ⟨_, rfl, k2, k3, h3, k4, h4⟩
      · simp only [k1]
        exact Or.inr ⟨rfl, Or.inl k3⟩
    · simp only [h1]
      exact Or.inr ⟨rfl, hfat h3⟩
  | true =>
    simp only [if_true]
    by_cases hw : c.weightColumn = ""
    · have e1 : ffWeights d {} c = ok ({}, none) := by unfold ffWeights; rw [if_pos hw]
      have e2 : sampleWeightsOrDie mc c t = ok (flatWeights mc none) := by unfold sampleWeightsOrDie; rw [if_pos hw]; rfl
      simp only [e1, ok_bind]
      rcases hfirst with ⟨m1, ys, h1, h2, h3, h4⟩ | ⟨h1, h3⟩
      · simp only [h1, ok_bind]
        exact Or.inl ⟨_, rfl, h2, e2, h3, le_refl _, h4⟩
      · simp only [h1]
        exact Or.inr ⟨rfl, hfat h3⟩
    · obtain ⟨m', h1, h2⟩ := ffRaw_first hd hplace c.weightColumn
      have e1 : ffWeights d {} c = (match asRaw (d.column c.weightColumn) with
          | none => Outcome.fatal
          | some col => Outcome.ok (m', some col.raw)) := by
        unfold ffWeights
        rw [if_neg hw, h1, ok_bind]
        rfl
      have e2 : sampleWeightsOrDie mc c t = (match asRaw (d.columnOf n c.weightColumn) with
          | none => Outcome.fatal
          | some col => Outcome.ok (vecFn mc col.raw)) := by
        unfold sampleWeightsOrDie
        rw [if_neg hw, getRaw_eq, htw hw]
        rfl
      cases hr : asRaw (d.column c.weightColumn) with
      | none =>
        rw [hr] at e1
        rw [asRaw_columnOf hr] at e2
        simp only [e1]
        exact Or.inr ⟨rfl, Or.inl e2⟩
      | some r =>
        rw [hr] at e1
        simp only [e1, ok_bind]
        obtain ⟨col, hcol⟩ : ∃ col, d.column c.weightColumn = some col := by
          cases hc : d.column c.weightColumn with
          | none => rw [hc] at hr; cases hr
          | some col => exact ⟨col, rfl⟩
        obtain ⟨f, _, hf⟩ := column_load hcol
        obtain ⟨_, k, hk⟩ := loadFile_size hf
        have hof : d.columnOf k c.weightColumn = some col := by simp [FlatDisk.columnOf, hcol, hk]
        have hkp : 0 < k := by
          rcases Nat.eq_zero_or_pos k with rfl | h
          · rw [hweight hw] at hof; cases hof
          · exact h
        have hg := h2 k col hcol hk
        by_cases hkn : k = n
        · subst hkn
          rw [hof, ← hcol, hr] at e2
          rcases ffTargets_good hd hplace hkp hg mc c t (fun _ => hty) with ⟨m2, ys, k1, k2, k3, k4⟩ | ⟨k1, k3⟩
          · simp only [k1, ok_bind]
            refine Or.inl ⟨_, rfl, k2, e2, k3, ?_, k4⟩
            exact asRaw_length (d := d) (n := k) (name := c.weightColumn) (by rw [hof, ← hcol]; exact hr)
          · simp only [k1]
            exact Or.inr ⟨rfl, hfat k3⟩
        · have e3 : d.columnOf n c.weightColumn = none := by simp [FlatDisk.columnOf, hcol, hk, hkn]
          have e4 : d.columnOf k c.targetColumn = none := by
            obtain ⟨tc, htc⟩ := Option.isSome_iff_exists.mp htarget
            obtain ⟨htc1, htc2⟩ := columnOf_size htc
            simp [FlatDisk.columnOf, htc1, htc2, Ne.symm hkn]
          rw [e3] at e2
          refine Or.inr ⟨?_, Or.inl e2⟩
          obtain ⟨m2, h3, _⟩ := ffRaw_good hd hplace hkp hg c.targetColumn
          rw [e4] at h3
          unfold ffTargets
          by_cases hy : c.targetColumn = ""
          · rw [if_pos hy]; rfl
          · rw [if_neg hy, h3]; rfl

theorem loadFeatures_lacks {cols : String → Option (Column A)} : ∀ {names : List String}, (∃ name ∈ names, cols name = none) →
    loadFeatures cols names = .error .notFound
  | [], h => by obtain ⟨_, h, _⟩ := h; cases h
  | x :: xs, h => by
    unfold loadFeatures
    cases hx : cols x with
    | none => rfl
    | some c =>
      obtain ⟨y, hy, hn⟩ := h
      rcases List.mem_cons.mp hy with rfl | hy
      · rw [hx] at hn; cases hn
      · dsimp only
        rw [loadFeatures_lacks ⟨y, hy, hn⟩]

/-- Training on flat files is training on a store with the same columns. -/
theorem cliTrainFF_eq {d : FlatDisk A} (hd : d.Sound) (hplace : ∀ s, (d.place s).Perm s) {n : Nat} (hn : 0 < n)
    {mc : Machine D A} (hlist : ∀ l, ∀ name, name ∈ mc.listing l ↔ name ∈ l) {c : Config D} {t : DataStore A} {base : Option (List (Tree D A))}
    (hrows : t.numRows = ok n)
    (hcols : ∀ name ∈ c.weightColumn :: c.targetColumn :: c.groupColumn :: featuresOf c, t.getColumn name = d.columnOf n name)
    (he : t.getColumn "" = none ∧ d.column "" = none)
    (htarget : (d.columnOf n c.targetColumn).isSome) (hweight : c.weightColumn ≠ "" → d.columnOf 0 c.weightColumn = none)
    (hbase : ∀ name ∈ forestFeatures (base.getD []), name ∈ featuresOf c)
    (weightsFirst : Bool) (sched : List Nat) (seed nt : Int) :
    cliTrainFF d mc weightsFirst sched c base seed nt = cliTrain mc t c base seed nt := by
  have hkey : ∀ (S : Type) (loss : (w y : Nat → D) → LossFunc S D), (do
      let (m1, ws, ys) ← ffVectors d weightsFirst c
      if checkConfig (mc.ofNat 1) (c.train mc 0) ≠ Code.ok then Outcome.fatal
      else do
        let (m2, loaded) ← ffLoadFeatures d sched m1 (mc.listing (featuresOf c))
        if loaded = false then Outcome.fatal
        else do
          let m3 ← ffGroup d m2 c.groupColumn
          ffTrainGBDT mc m3 ws ys loss c base seed nt) = (do
      let w ← sampleWeightsOrDie mc c t
      let y ← targetsOrDie mc c t
      let n ← t.numRows
      let r ← trainGBDT (mkEnv mc t n w seed nt) (loss w y) (mc.listing (featuresOf c)) (c.train mc 0) base [] 0
      if r.code = Code.ok then Outcome.ok r.forest else Outcome.fatal) := by
    intro S loss
    rcases ffVectors_fit hd hplace hn mc c t weightsFirst (fun _ => hcols _ (by simp)) (hcols _ (by simp)) htarget hweight with
      ⟨⟨m1, ws, ys⟩, h1, h2⟩ | ⟨h1, h2 | ⟨w, h2, h3⟩⟩
    · obtain ⟨g1, hw, hy, lw, ly⟩ := h2
      simp only at g1 hw hy lw ly
      simp only [h1, hw, hy, hrows, ok_bind]
      by_cases hc : checkConfig (mc.ofNat 1) (c.train mc 0) = Code.ok
      · rw [if_neg (by simpa using hc)]
        obtain ⟨m1', p1, p2, _⟩ := ffPool_good hd hplace hn sched g1 (mc.listing (featuresOf c))
        obtain ⟨m2, loaded, q1, q2, _, q4⟩ := ffGets_good hd hplace hn (mc.listing (featuresOf c)) p2
        have hload : ffLoadFeatures d sched m1 (mc.listing (featuresOf c)) = ok (m2, loaded) := by
          unfold ffLoadFeatures
          rw [p1, ok_bind, q1]
        simp only [hload, ok_bind]
        rcases q4 with ⟨rfl, q4⟩ | ⟨rfl, name, q4, q5⟩
        · rw [if_neg (by simp)]
          obtain ⟨m3, r1, r2, r3, r4⟩ : ∃ m3, ffGroup d m2 c.groupColumn = ok m3 ∧ GoodMem d n m3.store ∧
              (c.groupColumn ≠ "" → Settled d n m3 c.groupColumn) ∧
              ∀ x, (m2.store.lookup x).isSome → (m3.store.lookup x).isSome := by
            unfold ffGroup
            by_cases hgc : c.groupColumn = ""
            · rw [if_pos hgc]
              exact ⟨m2, rfl, q2, fun h => absurd hgc h, fun _ h => h⟩
            · obtain ⟨m3, r1, r2, r3, r4⟩ := ffGet_good hd hplace hn q2 c.groupColumn
              rw [if_neg hgc, r1, ok_bind]
              exact ⟨m3, rfl, r2, fun _ => r3, r4⟩
          rw [r1, ok_bind]
          have hset : ∀ name ∈ featuresOf c, Settled d n m3 name ∧ (d.columnOf n name).isSome := by
            intro name hname
            obtain ⟨s1, s2⟩ := q4 name ((hlist _ _).mpr hname)
            exact ⟨r2.settled_mono r4 s1, s2⟩
          have hempty : m3.column "" = none := by
            cases hl : m3.column "" with
            | none => rfl
            | some col =>
              unfold FFMem.column at hl
              obtain ⟨e, hl', _⟩ := Option.map_eq_some_iff.mp hl
              have := (columnOf_size (r2.good _ (lookup_mem hl'))).1
              simp only [he.2] at this
              cases this
          unfold ffTrainGBDT
          rw [r2.numRows, ok_bind, if_neg (by omega), if_neg]
          · rw [trainGBDT_named (env := mkEnv mc t n (flatWeights mc ws) seed nt) (cols' := m3.column)]
            · rfl
            · rintro name ((h | h) | rfl)
              · have h' := (hlist _ _).mp h
                have e1 := (hset name h').1
                unfold Settled at e1
                rw [e1]
                exact hcols name (by simp [h'])
              · have h' := hbase name h
                have e1 := (hset name h').1
                unfold Settled at e1
                rw [e1]
                exact hcols name (by simp [h'])
              · rw [hempty]; exact he.1
            · intro h
              have e1 := r3 h
              unfold Settled at e1
              show t.getColumn c.groupColumn = m3.column c.groupColumn
              rw [e1]
              exact hcols _ (by simp)
          · simp only [Bool.not_eq_true, List.any_eq_false, Option.isNone_iff_eq_none]
            intro name hname
            have := hset name (hbase name hname)
            unfold Settled at this
            intro hnone
            rw [hnone] at this
            rw [← this.1] at this
            exact absurd this.2 (by simp)
        · rw [if_pos rfl]
          have hmiss : loadFeatures t.getColumn (mc.listing (featuresOf c)) = .error .notFound :=
            loadFeatures_lacks ⟨name, q4, by rw [hcols name (by simp [(hlist _ _).mp q4]), q5]⟩
          unfold trainGBDT
          have hc' : checkConfig ((mkEnv mc t n (flatWeights mc ws) seed nt).ofNat 1) (c.train mc 0) = Code.ok := hc
          rw [if_neg (by simpa using hc')]
          have : loadFeatures (mkEnv mc t n (flatWeights mc ws) seed nt).columns (mc.listing (featuresOf c)) = .error .notFound := hmiss
          rw [this]
          rfl
      · rw [if_pos hc]
        unfold trainGBDT
        have hc' : checkConfig ((mkEnv mc t n (flatWeights mc ws) seed nt).ofNat 1) (c.train mc 0) ≠ Code.ok := hc
        rw [if_pos hc', ok_bind, if_neg hc']
    · simp only [h1, h2]
      rfl
    · simp only [h1, h2, h3, ok_bind]
      rfl
  unfold cliTrainFF cliTrain
  have key : ∀ k k' : ∀ S : Type, ((w y : Nat → D) → LossFunc S D) → Outcome (List (Tree D A)), (∀ S loss, k S loss = k' S loss) →
      withLoss mc c seed nt k = withLoss mc c seed nt k' := by
    intro k k' h
    have : k = k' := by funext S loss; exact h S loss
    rw [this]
  rw [key _ _ (fun S loss => hkey S loss)]
  rfl

/-- The pool on an empty store, if all columns asked for have the same number of rows. -/
theorem ffPool_empty {d : FlatDisk A} (hplace : ∀ s, (d.place s).Perm s) {n : Nat} (sched : List Nat) {names : List String} (hne : names ≠ [])
    (hcols : ∀ name ∈ names, (d.columnOf n name).isSome) : ∃ m', ffPool d sched {} names = ok m' ∧ GoodMem d n m'.store := by
  obtain ⟨col, hcol⟩ : ∃ col : String → Column A, ∀ name ∈ names, d.columnOf n name = some (col name) := by
    refine ⟨fun name => (d.columnOf n name).getD (.raw ⟨.ok, []⟩), ?_⟩
    intro name hname
    obtain ⟨c, hc⟩ := Option.isSome_iff_exists.mp (hcols name hname)
    simp [hc]
  have hfiles : ∀ x ∈ names, x ∉ (([] : FFStore A)).map Prod.fst →
      (∃ s, d.files x = some s ∧ loadFile d.fmax d.parse s = ok (some (col x))) ∧ (col x).size = ok n := by
    intro x hx _
    have := columnOf_size (hcol x hx)
    exact ⟨column_load this.1, this.2⟩
  obtain ⟨st, h1, inv, h3, -⟩ := ffInv_run hplace hfiles (sched ++ (List.range names.length).flatMap (List.replicate 4)) _
    (FFInv.start (col := col) (store0 := []) names 0 (by simp) (by simp))
  refine ⟨⟨st.store, st.next⟩, ?_, ⟨inv.keys, ?_, ?_⟩⟩
  · unfold ffPool
    show (do
      let st ← runFF d.fmax d.parse d.place d.files (sched ++ (List.range names.length).flatMap (List.replicate 4)) (startFF [] 0 names)
      pure (⟨st.store, st.next⟩ : FFMem A)) = _
    rw [h1]
    rfl
  · rintro ⟨x, id, c⟩ he
    obtain ⟨_, h | ⟨_, hx, rfl⟩⟩ := inv.cols x id c he
    · cases h
    · exact hcol x hx
  · cases names with
    | nil => exact absurd rfl hne
    | cons x xs =>
      obtain ⟨x', e1, e2, e3⟩ := h3 0 ⟨x, .check⟩ (by simp [startFF])
      have hcount : 4 ≤ (sched ++ (List.range (x :: xs).length).flatMap (List.replicate 4)).count 0 := by
        rw [List.count_append, List.length_cons, List.range_succ_eq_map, List.flatMap_cons, List.count_append]
        simp
        omega
      have hr : x'.state.rank = 0 := by
        have e4 : (Call.mk x CallState.check : Call A).state.rank = 4 := rfl
        omega
      obtain ⟨p, hp⟩ : ∃ p, x'.state = .done p := by
        cases hs : x'.state with
        | done p => exact ⟨p, rfl⟩
        | _ => rw [hs] at hr; cases hr
      have := (inv.ret x' (List.mem_of_getElem? e1) p hp).2
      intro e
      have e' : st.store = [] := e
      rw [e'] at this
      cases this

/-- `LoadFeatures` on an empty store that ends with OK has found all columns with the same number of rows. -/
theorem ffLoadFeatures_loaded {d : FlatDisk A} (hd : d.Sound) (hz : d.NoEmpty) (hplace : ∀ s, (d.place s).Perm s) (sched : List Nat)
    {names : List String} (hne : names ≠ []) {m : FFMem A} (h : ffLoadFeatures d sched {} names = ok (m, true)) :
    ∃ n, 0 < n ∧ ∀ name ∈ names, (d.columnOf n name).isSome := by
  unfold ffLoadFeatures at h
  obtain ⟨m1, h1, h⟩ := bind_eq_ok.mp h
  obtain ⟨st, e1, e2⟩ := fairState_run hd hz hplace (sched ++ (List.range names.length).flatMap (List.replicate 4)) _ (fairState_start d names)
  have hm1 : m1 = ⟨st.store, st.next⟩ := by
    unfold ffPool at h1
    have h1' : (do
      let st ← runFF d.fmax d.parse d.place d.files (sched ++ (List.range names.length).flatMap (List.replicate 4)) (startFF [] 0 names)
      pure (⟨st.store, st.next⟩ : FFMem A)) = ok m1 := h1
    rw [e1] at h1'
    cases h1'
    rfl
  have key : ∀ names : List String, names ≠ [] → ∀ m0 : FFMem A, (m0.store = [] ∨ ∃ n, 0 < n ∧ GoodMem d n m0.store) → ∀ m,
      ffGets d m0 names = ok (m, true) → ∃ n, 0 < n ∧ ∀ name ∈ names, (d.columnOf n name).isSome := by
    intro names hne m0 hm0 m h
    rcases hm0 with hm0 | ⟨n, hn, hm0⟩
    · cases names with
      | nil => exact absurd rfl hne
      | cons x xs =>
        rw [ffGets] at h
        cases hc : d.column x with
        | none =>
          rw [ffGet_absent hd (by rw [hm0]; rfl) hc, ok_bind] at h
          cases h
        | some c =>
          obtain ⟨f, _, hf⟩ := column_load hc
          obtain ⟨hst, k, hk⟩ := loadFile_size hf
          have hp : d.place [(x, m0.next, c)] = [(x, m0.next, c)] := List.perm_singleton.mp (hplace _)
          have hget : ffGet d m0 x = ok (⟨[(x, m0.next, c)], m0.next + 1⟩, some c) := by
            refine ffGet_inserted (by rw [hm0]; rfl) hc (by simp [List.lookup]) ?_
            intro calls
            simp [insertColumn, hm0, FFStore.numRows, hk, hp]
          have hk0 : 0 < k := by
            rcases Nat.eq_zero_or_pos k with rfl | h
            · exact absurd hk (hz _ _ hc)
            · exact h
          have hof : d.columnOf k x = some c := by simp [FlatDisk.columnOf, hc, hk]
          have hgood : GoodMem d k (⟨[(x, m0.next, c)], m0.next + 1⟩ : FFMem A).store := by
            refine ⟨by simp, ?_, by simp⟩
            intro e he
            rw [List.mem_singleton.mp he]
            exact hof
          rw [hget, ok_bind] at h
          simp only [hst, ne_eq, not_true_eq_false, if_false] at h
          obtain ⟨m2, loaded, q1, _, _, q4⟩ := ffGets_good hd hplace hk0 xs hgood
          rw [q1] at h
          cases h
          rcases q4 with ⟨_, q4⟩ | ⟨q4, _⟩
          · refine ⟨k, hk0, ?_⟩
            intro y hy
            rcases List.mem_cons.mp hy with rfl | hy
            · rw [hof]; rfl
            · exact (q4 y hy).2
          · cases q4
    · obtain ⟨m2, loaded, q1, _, _, q4⟩ := ffGets_good hd hplace hn names hm0
      rw [q1] at h
      cases h
      rcases q4 with ⟨_, q4⟩ | ⟨q4, _⟩
      · exact ⟨n, hn, fun name hname => (q4 name hname).2⟩
      · cases q4
  exact key names hne m1 (by rw [hm1]; exact e2.mem) m h

theorem evaluateLoop_length {cols : String → Option (Column A)} : ∀ {forest : List (Tree D A)} {i : Nat} {points : List Int} {slices : List (List Nat)}
    {scores : List D} {files : List (Int × List D)}, evaluateLoop cols forest i points slices scores = ok files →
    ∀ f ∈ files, f.2.length = scores.length
  | [], i, points, slices, scores, files, h, f, hf => by cases h; cases hf
  | t :: ts, i, [], slices, scores, files, h, f, hf => by cases h; cases hf
  | t :: ts, i, p :: ps, slices, scores, files, h, f, hf => by
    rw [evaluateLoop] at h
    obtain ⟨⟨ss, sc⟩, h1, h⟩ := bind_eq_ok.mp h
    dsimp only at h
    obtain ⟨rest, h2, h⟩ := bind_eq_ok.mp h
    have e1 := addTreeScores_length _ _ _ _ _ h1
    have ih := evaluateLoop_length h2
    cases h
    have : f = (p, sc) ∨ f ∈ rest := by
      split at hf
      · exact List.mem_cons.mp hf
      · exact Or.inr hf
    rcases this with rfl | hf
    · exact e1
    · exact (ih f hf).trans e1

theorem evaluateCheckpoints_length {cols : String → Option (Column A)} {n : Nat} {nt : Int} {forest : List (Tree D A)} {points : List Int}
    {e : Code} {files : List (Int × List D)} (h : evaluateCheckpoints cols n nt forest points = ok (e, files)) : ∀ f ∈ files, f.2.length = n := by
  unfold evaluateCheckpoints at h
  split at h
  · cases h; intro f hf; cases hf
  · obtain ⟨slices, _, h⟩ := bind_eq_ok.mp h
    obtain ⟨files', h1, h⟩ := bind_eq_ok.mp h
    cases h
    intro f hf
    rw [evaluateLoop_length h1 f hf, List.length_replicate]

/-- Testing on flat files is testing on a store with the same columns. -/
theorem cliTestFFMain_eq {N : Type} {d : FlatDisk A} (hd : d.Sound) (hplace : ∀ s, (d.place s).Perm s) {n : Nat} (hn : 0 < n)
    {listing : List String → List String} (hlist : ∀ l, ∀ name, name ∈ listing l ↔ name ∈ l) (nc : NumCodec D A N) (zero : A)
    {model : Option (Json N)} {forest : List (Tree D A)} (hmodel : loadForestOrDie nc zero model = ok forest)
    (hne : forestFeatures forest ≠ []) (hsome : ∀ name ∈ forestFeatures forest, (d.columnOf n name).isSome)
    (cols : String → Option (Column A)) (hcols : ∀ name ∈ forestFeatures forest, cols name = d.columnOf n name)
    (he : cols "" = none ∧ d.column "" = none) (sched : List Nat) (interval : Int) (nt : Int) :
    cliTestFFMain d listing nc zero sched interval model nt = (do
      let (e, scores) ← evaluateCheckpoints cols n nt forest (getTestPoints interval forest.length)
      if e = Code.ok then Outcome.ok scores else Outcome.fatal) := by
  have hmem : ∀ name, name ∈ listing (forestFeatures forest).dedup ↔ name ∈ forestFeatures forest := by
    intro name
    rw [hlist, List.mem_dedup]
  have hnames : listing (forestFeatures forest).dedup ≠ [] := by
    obtain ⟨x, hx⟩ := List.exists_mem_of_ne_nil _ hne
    exact List.ne_nil_of_mem ((hmem x).mpr hx)
  obtain ⟨m1, p1, p2⟩ := ffPool_empty hplace sched hnames (fun name h => hsome name ((hmem name).mp h))
  obtain ⟨m2, loaded, q1, q2, _, q4⟩ := ffGets_good hd hplace hn (listing (forestFeatures forest).dedup) p2
  unfold cliTestFFMain
  have hload : ffLoadFeatures d sched {} (listing (forestFeatures forest).dedup) = ok (m2, loaded) := by
    unfold ffLoadFeatures
    rw [p1, ok_bind, q1]
  simp only [hmodel, ok_bind, hload]
  rcases q4 with ⟨rfl, q4⟩ | ⟨rfl, name, q4, q5⟩
  · rw [if_neg (by simp), q2.numRows, ok_bind]
    have hempty : m2.column "" = none := by
      cases hl : m2.column "" with
      | none => rfl
      | some col =>
        unfold FFMem.column at hl
        obtain ⟨e, hl', _⟩ := Option.map_eq_some_iff.mp hl
        have := (columnOf_size (q2.good _ (lookup_mem hl'))).1
        simp only [he.2] at this
        cases this
    have hag : AgreeOn (fun name => name ∈ forestFeatures forest) m2.column cols := by
      rintro name (h | rfl)
      · have := (q4 name ((hmem name).mpr h)).1
        unfold Settled at this
        rw [this, hcols name h]
      · rw [hempty, he.1]
    rw [evaluateCheckpoints_named hag]
  · have := hsome name ((hmem name).mp q4)
    rw [q5] at this
    cases this

end train

end Gbdt
