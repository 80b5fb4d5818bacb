import Verif.Lemmas.Tsv
import Mathlib.Data.List.Perm.Basic

/-!
# Lemmas on the TSV loader: setup of the columns, and running the pool's tasks
-/

set_option linter.unusedSectionVars false

set_option autoImplicit false

namespace Gbdt

open Outcome

variable {A : Type} [LinearOrder A]

/-- The index vector that holds the cell indices of a kind of column. -/
def Setup.idxOf (s : Setup A) : ColType → List Nat
  | .string => s.sidx
  | _ => s.fidx

/-- What `SetupColumns` has built after the requests `done`, all of different names. -/
structure SetupInv (headers : List Text) (done : List (ColType × String)) (s : Setup A) : Prop where
  heap : s.heap = done.map (fun r => some (newColumn r.1))
  map : s.map = (done.zipIdx.map (fun p => (p.1.2, p.2))).reverse
  len : s.handles.length = done.length
  handle : ∀ (k : Nat) (r : ColType × String), done[k]? = some r → ∃ slot i, s.handles[k]? = some ⟨r.1, k, slot⟩ ∧
    headerIndex headers r.2 = some i ∧ (s.idxOf r.1)[slot]? = some i

theorem setupInv_nil (headers : List Text) : SetupInv headers [] ({} : Setup A) :=
  ⟨rfl, rfl, rfl, fun k r h => by simp at h⟩

theorem lookup_none_of_notMem {β : Type} (l : List (String × β)) (n : String) (h : n ∉ l.map Prod.fst) :
    l.lookup n = none := by
  rw [List.lookup_eq_none_iff]
  intro p hp
  have : n ≠ p.1 := by
    rintro rfl
    exact h (List.mem_map_of_mem hp)
  simpa using this

theorem setupInv_step {headers : List Text} {done : List (ColType × String)} {s s' : Setup A} {r : ColType × String}
    (inv : SetupInv headers done s) (hn : r.2 ∉ done.map Prod.snd) (h : setupOne headers s r = .ok s') :
    SetupInv headers (done ++ [r]) s' := by
  have hmap : s.map.map Prod.fst = (done.map Prod.snd).reverse := by
    rw [inv.map, List.map_reverse, List.map_map]
    congr 1
    apply List.ext_getElem <;> simp
  have hl : s.map.lookup r.2 = none := lookup_none_of_notMem _ _ (by rw [hmap]; simpa using hn)
  have hf : s.map.filter (fun p => p.1 != r.2) = s.map := by
    rw [List.filter_eq_self]
    intro p hp
    simp only [bne_iff_ne, ne_eq]
    intro e
    apply hn
    have : p.1 ∈ s.map.map Prod.fst := List.mem_map_of_mem hp
    rw [hmap] at this
    rw [← e]
    simpa using this
  have hlen : s.heap.length = done.length := by rw [inv.heap]; simp
  unfold setupOne at h
  cases hi : headerIndex headers r.2 with
  | none => rw [hi] at h; cases h
  | some i =>
    rw [hi] at h
    simp only [Setup.reset, hl, hf] at h
    have mapeq : (r.2, s.heap.length) :: s.map =
        ((done ++ [r]).zipIdx.map (fun p => (p.1.2, p.2))).reverse := by
      rw [inv.map, hlen]
      simp [List.zipIdx_append]
    have old : ∀ (k : Nat) (x : ColType × String), done[k]? = some x → ∀ (extra : Handle) (ei : ColType → List Nat), ∃ slot i,
        (s.handles ++ [extra])[k]? = some ⟨x.1, k, slot⟩ ∧
        headerIndex headers x.2 = some i ∧ (s.idxOf x.1 ++ ei x.1)[slot]? = some i := by
      intro k x hk extra ei
      obtain ⟨slot, j, h1, h2, h3⟩ := inv.handle k x hk
      have hk1 := (List.getElem?_eq_some_iff.mp h1).1
      have hk3 := (List.getElem?_eq_some_iff.mp h3).1
      exact ⟨slot, j, by rw [List.getElem?_append_left hk1, h1], h2, by rw [List.getElem?_append_left hk3, h3]⟩
    obtain ⟨rk, rn⟩ := r
    cases rk with
    | string =>
      cases h
      refine ⟨by simp [inv.heap], mapeq, by simp [inv.len], ?_⟩
      intro k x hk
      by_cases hkd : k < done.length
      · rw [List.getElem?_append_left hkd] at hk
        obtain ⟨slot, j, h1, h2, h3⟩ := old k x hk ⟨.string, s.heap.length, s.sidx.length⟩
          (fun t => match t with | .string => [i] | _ => [])
        refine ⟨slot, j, h1, h2, ?_⟩
        obtain ⟨xk, xn⟩ := x
        cases xk <;> simpa [Setup.idxOf] using h3
      · rw [List.getElem?_append_right (by omega)] at hk
        have hk0 : k = done.length := by
          have := (List.getElem?_eq_some_iff.mp hk).1
          simp at this
          omega
        subst hk0
        simp only [Nat.sub_self, List.getElem?_cons_zero, Option.some.injEq] at hk
        subst hk
        exact ⟨s.sidx.length, i, by simp [inv.len, hlen], hi, by simp [Setup.idxOf]⟩
    | bucketized =>
      cases h
      refine ⟨by simp [inv.heap], mapeq, by simp [inv.len], ?_⟩
      intro k x hk
      by_cases hkd : k < done.length
      · rw [List.getElem?_append_left hkd] at hk
        obtain ⟨slot, j, h1, h2, h3⟩ := old k x hk ⟨.bucketized, s.heap.length, s.fidx.length⟩
          (fun t => match t with | .string => [] | _ => [i])
        refine ⟨slot, j, h1, h2, ?_⟩
        obtain ⟨xk, xn⟩ := x
        cases xk <;> simpa [Setup.idxOf] using h3
      · rw [List.getElem?_append_right (by omega)] at hk
        have hk0 : k = done.length := by
          have := (List.getElem?_eq_some_iff.mp hk).1
          simp at this
          omega
        subst hk0
        simp only [Nat.sub_self, List.getElem?_cons_zero, Option.some.injEq] at hk
        subst hk
        exact ⟨s.fidx.length, i, by simp [inv.len, hlen], hi, by simp [Setup.idxOf]⟩
    | raw =>
      cases h
      refine ⟨by simp [inv.heap], mapeq, by simp [inv.len], ?_⟩
      intro k x hk
      by_cases hkd : k < done.length
      · rw [List.getElem?_append_left hkd] at hk
        obtain ⟨slot, j, h1, h2, h3⟩ := old k x hk ⟨.raw, s.heap.length, s.fidx.length⟩
          (fun t => match t with | .string => [] | _ => [i])
        refine ⟨slot, j, h1, h2, ?_⟩
        obtain ⟨xk, xn⟩ := x
        cases xk <;> simpa [Setup.idxOf] using h3
      · rw [List.getElem?_append_right (by omega)] at hk
        have hk0 : k = done.length := by
          have := (List.getElem?_eq_some_iff.mp hk).1
          simp at this
          omega
        subst hk0
        simp only [Nat.sub_self, List.getElem?_cons_zero, Option.some.injEq] at hk
        subst hk
        exact ⟨s.fidx.length, i, by simp [inv.len, hlen], hi, by simp [Setup.idxOf]⟩

theorem setupInv_fold {headers : List Text} (reqs done : List (ColType × String)) (s s' : Setup A)
    (inv : SetupInv headers done s) (hn : ((done ++ reqs).map Prod.snd).Nodup)
    (h : reqs.foldlM (setupOne headers) s = .ok s') : SetupInv headers (done ++ reqs) s' := by
  induction reqs generalizing done s with
  | nil =>
    cases h
    simpa using inv
  | cons r reqs ih =>
    rw [List.foldlM_cons] at h
    cases h1 : setupOne headers s r with
    | error e => rw [h1] at h; cases h
    | ok s1 =>
      rw [h1] at h
      have hr : r.2 ∉ done.map Prod.snd := by
        intro hm
        rw [List.map_append, List.nodup_append] at hn
        exact hn.2.2 _ hm _ (by simp) rfl
      have := ih (done ++ [r]) s1 (setupInv_step inv hr h1) (by simpa using hn) h
      simpa using this

/-- The setup fails exactly when a requested header is not found. -/
theorem setup_fold_ok {headers : List Text} (reqs : List (ColType × String)) (s : Setup A) :
    (∃ s', reqs.foldlM (setupOne headers) s = .ok s') ↔ ∀ r ∈ reqs, (headerIndex headers r.2).isSome := by
  induction reqs generalizing s with
  | nil => simp only [List.foldlM_nil, List.not_mem_nil, false_imp_iff, implies_true, iff_true]; exact ⟨s, rfl⟩
  | cons r reqs ih =>
    rw [List.foldlM_cons]
    simp only [List.mem_cons, forall_eq_or_imp]
    cases hi : headerIndex headers r.2 with
    | none =>
      have : setupOne headers s r = .error .notFound := by simp [setupOne, hi]
      rw [this]
      constructor
      · rintro ⟨s', h⟩; cases h
      · rintro ⟨h, _⟩; cases h
    | some i =>
      obtain ⟨s1, hs1⟩ : ∃ s1, setupOne headers s r = .ok s1 := by
        unfold setupOne
        rw [hi]
        obtain ⟨rk, rn⟩ := r
        cases rk <;> exact ⟨_, rfl⟩
      rw [hs1]
      have := ih s1
      simp only [Option.isSome_some, true_and, ← this]
      rfl

theorem setup_fold_error {headers : List Text} (reqs : List (ColType × String)) (s : Setup A) (e : Code)
    (h : reqs.foldlM (setupOne headers) s = .error e) : e = .notFound := by
  induction reqs generalizing s with
  | nil => cases h
  | cons r reqs ih =>
    rw [List.foldlM_cons] at h
    cases h1 : setupOne headers s r with
    | error e' =>
      rw [h1] at h
      cases h
      unfold setupOne at h1
      cases hi : headerIndex headers r.2 with
      | none => rw [hi] at h1; cases h1; rfl
      | some i =>
        rw [hi] at h1
        obtain ⟨rk, rn⟩ := r
        cases rk <;> cases h1
    | ok s1 =>
      rw [h1] at h
      exact ih s1 h

/-- Running tasks on different columns: each column is changed by its own task only. -/
theorem runTasks_ok (f : Handle → Column A → Outcome (Column A)) (hs : List Handle)
    (heap heap' : List (Option (Column A))) (hn : (hs.map Handle.obj).Nodup)
    (h : hs.foldlM (runTask f) heap = ok heap') :
    heap'.length = heap.length ∧
    (∀ x ∈ hs, ∃ c c', heap[x.obj]? = some (some c) ∧ f x c = ok c' ∧ heap'[x.obj]? = some (some c')) ∧
    ∀ i, i ∉ hs.map Handle.obj → heap'[i]? = heap[i]? := by
  induction hs generalizing heap with
  | nil =>
    cases h
    exact ⟨rfl, by simp, fun _ _ => rfl⟩
  | cons x hs ih =>
    rw [List.foldlM_cons, bind_eq_ok] at h
    obtain ⟨heap1, h1, h2⟩ := h
    rw [List.map_cons, List.nodup_cons] at hn
    obtain ⟨l1, l2, l3⟩ := ih heap1 hn.2 h2
    unfold runTask at h1
    cases hc : heap[x.obj]? with
    | none => rw [hc] at h1; cases h1
    | some o =>
      cases o with
      | none => rw [hc] at h1; cases h1
      | some c =>
        rw [hc] at h1
        simp only [bind_eq_ok, pure_eq, Outcome.ok.injEq] at h1
        obtain ⟨c1, hf, rfl⟩ := h1
        have hlt := (List.getElem?_eq_some_iff.mp hc).1
        refine ⟨by rw [l1]; simp, ?_, ?_⟩
        · intro y hy
          rcases List.mem_cons.mp hy with rfl | hy
          · refine ⟨c, c1, hc, hf, ?_⟩
            rw [l3 _ hn.1]
            simp [hlt]
          · obtain ⟨d, d', e1, e2, e3⟩ := l2 y hy
            refine ⟨d, d', ?_, e2, e3⟩
            have hne : x.obj ≠ y.obj := fun e => hn.1 (by rw [e]; exact List.mem_map_of_mem hy)
            rwa [List.getElem?_set_ne hne] at e1
        · intro i hi
          rw [List.map_cons, List.mem_cons, not_or] at hi
          rw [l3 i hi.2, List.getElem?_set_ne (fun e => hi.1 e.symm)]

/-- Running tasks on different live columns succeeds when each task does. -/
theorem runTasks_exists (f : Handle → Column A → Outcome (Column A)) (hs : List Handle)
    (heap : List (Option (Column A))) (hn : (hs.map Handle.obj).Nodup)
    (h : ∀ x ∈ hs, ∃ c c', heap[x.obj]? = some (some c) ∧ f x c = ok c') :
    ∃ heap', hs.foldlM (runTask f) heap = ok heap' := by
  induction hs generalizing heap with
  | nil => exact ⟨heap, rfl⟩
  | cons x hs ih =>
    rw [List.map_cons, List.nodup_cons] at hn
    obtain ⟨c, c', h1, h2⟩ := h x (by simp)
    have hx : runTask f heap x = ok (heap.set x.obj (some c')) := by
      simp [runTask, h1, h2]
    rw [List.foldlM_cons, hx, ok_bind]
    apply ih _ hn.2
    intro y hy
    obtain ⟨d, d', e1, e2⟩ := h y (by simp [hy])
    refine ⟨d, d', ?_, e2⟩
    have hne : x.obj ≠ y.obj := fun e => hn.1 (by rw [e]; exact List.mem_map_of_mem hy)
    rw [List.getElem?_set_ne hne, e1]

/-- A task on a destroyed column cannot complete. -/
theorem runTasks_dangling (f : Handle → Column A → Outcome (Column A)) (hs : List Handle)
    (heap : List (Option (Column A))) (x : Handle) (hx : x ∈ hs) (hd : heap[x.obj]? = some none) (r : List (Option (Column A))) :
    hs.foldlM (runTask f) heap ≠ ok r := by
  induction hs generalizing heap with
  | nil => cases hx
  | cons y hs ih =>
    rw [List.foldlM_cons]
    intro h
    rw [bind_eq_ok] at h
    obtain ⟨heap1, h1, h2⟩ := h
    rcases List.mem_cons.mp hx with rfl | hx
    · simp [runTask, hd] at h1
    · refine ih heap1 hx ?_ h2
      unfold runTask at h1
      cases hc : heap[y.obj]? with
      | none => rw [hc] at h1; cases h1
      | some o =>
        cases o with
        | none => rw [hc] at h1; cases h1
        | some c =>
          rw [hc] at h1
          simp only [bind_eq_ok, pure_eq, Outcome.ok.injEq] at h1
          obtain ⟨c1, _, rfl⟩ := h1
          have hne : y.obj ≠ x.obj := by
            intro e
            rw [e, hd] at hc
            simp at hc
          rw [List.getElem?_set_ne hne, hd]

/-- Adding the cells of blocks one after the other to one column. -/
def addAll (fmax : A) (slot : Nat) (c : Column A) (bs : List (Block A)) : Outcome (Column A) :=
  bs.foldlM (fun c b => Column.addCells fmax b slot c) c

/-- The blocks read from the files, the first file being number `n`. -/
def ReadAll (parse : Text → Option (Fl A)) (fidx sidx : List Nat) (n : Nat) (files : List (Option Text))
    (bs : List (Block A)) : Prop :=
  List.Forall₂ (fun p b => readTSV parse p.1 fidx sidx (p.2 == 0) = .ok b) (files.zipIdx n) bs

theorem perm_obj_nodup {hs hs' : List Handle} (h : hs'.Perm hs) (hn : (hs.map Handle.obj).Nodup) :
    (hs'.map Handle.obj).Nodup := ((h.map Handle.obj).nodup_iff).mpr hn

theorem processBlocks_ok {fmax : A} {parse : Text → Option (Fl A)} {sched : Nat → List Handle → List Handle}
    (hsched : ∀ n l, (sched n l).Perm l) {s : Setup A} (hn : (s.handles.map Handle.obj).Nodup)
    (files : List (Option Text)) (n : Nat) (heap heap' : List (Option (Column A)))
    (h : processBlocks fmax parse sched s files n heap = ok (.ok heap'))
    (hlive : ∀ x ∈ s.handles, ∃ c, heap[x.obj]? = some (some c)) :
    ∃ bs, ReadAll parse s.fidx s.sidx n files bs ∧ heap'.length = heap.length ∧
      ∀ x ∈ s.handles, ∃ c c', heap[x.obj]? = some (some c) ∧ addAll fmax x.slot c bs = ok c' ∧
        heap'[x.obj]? = some (some c') := by
  induction files generalizing n heap with
  | nil =>
    simp only [processBlocks, Outcome.ok.injEq, Except.ok.injEq] at h
    subst h
    refine ⟨[], .nil, rfl, ?_⟩
    intro x hx
    obtain ⟨c, hc⟩ := hlive x hx
    exact ⟨c, c, hc, rfl, hc⟩
  | cons file files ih =>
    simp only [processBlocks] at h
    cases hr : readTSV parse file s.fidx s.sidx (n == 0) with
    | error e => rw [hr] at h; cases h
    | ok b =>
      rw [hr] at h
      simp only [bind_eq_ok] at h
      obtain ⟨heap1, h1, st, h2, h3⟩ := h
      split at h3
      · cases h3
      · obtain ⟨l1, l2, l3⟩ := runTasks_ok _ _ _ _ (perm_obj_nodup (hsched n s.handles) hn) h1
        have l2' : ∀ x ∈ s.handles, ∃ c c', heap[x.obj]? = some (some c) ∧
            Column.addCells fmax b x.slot c = ok c' ∧ heap1[x.obj]? = some (some c') :=
          fun x hx => l2 x ((hsched n s.handles).mem_iff.mpr hx)
        obtain ⟨bs, r1, r2, r3⟩ := ih (n + 1) heap1 h3 (fun x hx => by
          obtain ⟨c, c', _, _, e⟩ := l2' x hx
          exact ⟨c', e⟩)
        refine ⟨b :: bs, ?_, by omega, ?_⟩
        · unfold ReadAll
          rw [List.zipIdx_cons]
          exact .cons hr r1
        · intro x hx
          obtain ⟨c, c', e1, e2, e3⟩ := l2' x hx
          obtain ⟨d, d', f1, f2, f3⟩ := r3 x hx
          rw [e3] at f1
          simp only [Option.some.injEq] at f1
          subst f1
          refine ⟨c, d', e1, ?_, f3⟩
          simp only [addAll, List.foldlM_cons, e2, ok_bind]
          exact f2

theorem firstNotOk_exists (heap : List (Option (Column A))) (m : List (String × Nat))
    (h : ∀ p ∈ m, ∃ c, heap[p.2]? = some (some c)) : ∃ st, firstNotOk heap m = ok st := by
  induction m with
  | nil => exact ⟨_, rfl⟩
  | cons p m ih =>
    obtain ⟨c, hc⟩ := h p (by simp)
    simp only [firstNotOk, hc]
    split
    · exact ⟨_, rfl⟩
    · exact ih (fun q hq => h q (by simp [hq]))

theorem firstNotOk_ok (heap : List (Option (Column A))) (m : List (String × Nat))
    (h : ∀ p ∈ m, ∃ c, heap[p.2]? = some (some c) ∧ c.status = .ok) : firstNotOk heap m = ok .ok := by
  induction m with
  | nil => rfl
  | cons p m ih =>
    obtain ⟨c, hc, hs⟩ := h p (by simp)
    simp only [firstNotOk, hc, hs, ne_eq, not_true_eq_false, if_false]
    exact ih (fun q hq => h q (by simp [hq]))

/-- Processing completes when every prefix of readable blocks can be added to every column. -/
theorem processBlocks_total {fmax : A} {parse : Text → Option (Fl A)} {sched : Nat → List Handle → List Handle}
    (hsched : ∀ n l, (sched n l).Perm l) {s : Setup A} (hn : (s.handles.map Handle.obj).Nodup)
    (hmap : ∀ p ∈ s.map, ∃ x ∈ s.handles, x.obj = p.2)
    (files : List (Option Text)) (n : Nat) (heap : List (Option (Column A)))
    (hadd : ∀ x ∈ s.handles, ∃ c, heap[x.obj]? = some (some c) ∧
      ∀ m bs, ReadAll parse s.fidx s.sidx n (files.take m) bs → ∃ c', addAll fmax x.slot c bs = ok c') :
    ∃ r, processBlocks fmax parse sched s files n heap = ok r := by
  induction files generalizing n heap with
  | nil => exact ⟨_, rfl⟩
  | cons file files ih =>
    simp only [processBlocks]
    cases hr : readTSV parse file s.fidx s.sidx (n == 0) with
    | error e => exact ⟨_, rfl⟩
    | ok b =>
      simp only
      have one : ReadAll parse s.fidx s.sidx n ((file :: files).take 1) [b] := by
        unfold ReadAll
        simp only [List.take_succ_cons, List.take_zero, List.zipIdx_cons, List.zipIdx_nil]
        exact .cons hr .nil
      obtain ⟨heap1, h1⟩ := runTasks_exists (fun h => Column.addCells fmax b h.slot) (sched n s.handles) heap
        (perm_obj_nodup (hsched n s.handles) hn) (by
          intro x hx
          obtain ⟨c, hc, ha⟩ := hadd x ((hsched n s.handles).mem_iff.mp hx)
          obtain ⟨c', hc'⟩ := ha 1 [b] one
          refine ⟨c, c', hc, ?_⟩
          simp only [addAll, List.foldlM_cons, List.foldlM_nil, bind_eq_ok] at hc'
          obtain ⟨d, h1, h2⟩ := hc'
          cases h2
          exact h1)
      obtain ⟨l1, l2, l3⟩ := runTasks_ok _ _ _ _ (perm_obj_nodup (hsched n s.handles) hn) h1
      have l2' : ∀ x ∈ s.handles, ∃ c c', heap[x.obj]? = some (some c) ∧
          Column.addCells fmax b x.slot c = ok c' ∧ heap1[x.obj]? = some (some c') :=
        fun x hx => l2 x ((hsched n s.handles).mem_iff.mpr hx)
      obtain ⟨st, h2⟩ := firstNotOk_exists heap1 s.map (by
        intro p hp
        obtain ⟨x, hx, e⟩ := hmap p hp
        obtain ⟨c, c', _, _, e3⟩ := l2' x hx
        exact ⟨c', by rw [← e, e3]⟩)
      rw [h1, ok_bind, h2, ok_bind]
      split
      · exact ⟨_, rfl⟩
      · apply ih
        intro x hx
        obtain ⟨c, c', e1, e2, e3⟩ := l2' x hx
        refine ⟨c', e3, ?_⟩
        intro m bs hbs
        obtain ⟨d, hd, ha⟩ := hadd x hx
        rw [e1] at hd
        simp only [Option.some.injEq] at hd
        subst hd
        obtain ⟨d', hd'⟩ := ha (m + 1) (b :: bs) (by
          unfold ReadAll
          rw [List.take_succ_cons, List.zipIdx_cons]
          exact .cons hr hbs)
        simp only [addAll, List.foldlM_cons, e2, ok_bind] at hd'
        exact ⟨d', hd'⟩

/-- A column that is not finalized and in good order. -/
def Column.Fresh : Column A → Prop
  | .str c => c.status = .ok ∧ c.ints.finalized = false
  | .bkt c => c.status = .ok ∧ c.ints.finalized = false
  | .raw c => c.status = .ok

theorem StrCol.addOne_keeps (c : StrCol) (s : String) :
    (c.addOne s).status = c.status ∧ (c.addOne s).ints.finalized = c.ints.finalized := by
  unfold StrCol.addOne
  split <;> exact ⟨rfl, rfl⟩

theorem StrCol.add_keeps (c : StrCol) (v : List String) :
    (c.add v).status = c.status ∧ (c.add v).ints.finalized = c.ints.finalized := by
  unfold StrCol.add
  split
  · exact ⟨rfl, rfl⟩
  · rename_i hs
    clear hs
    induction v generalizing c with
    | nil => exact ⟨rfl, rfl⟩
    | cons s v ih =>
      have h1 := StrCol.addOne_keeps c s
      have h2 := ih (c.addOne s)
      exact ⟨h2.1.trans h1.1, h2.2.trans h1.2⟩

theorem BktCol.addBucketizedVec_keeps {c c' : BktCol A} {v : List (Fl A)} (h : c.addBucketizedVec v = ok c') :
    c'.status = c.status ∧ c'.ints.finalized = c.ints.finalized := by
  unfold BktCol.addBucketizedVec at h
  repeat' split at h
  all_goals
    rw [bind_eq_ok] at h
    obtain ⟨x, _, h2⟩ := h
    cases h2
    exact ⟨rfl, rfl⟩

theorem BktCol.buildBuckets_keeps {fmax : A} {c c' : BktCol A} (h : c.buildBuckets fmax = ok c') :
    c'.status = c.status ∧ c'.ints.finalized = c.ints.finalized := by
  unfold BktCol.buildBuckets at h
  simp only [bind_eq_ok] at h
  obtain ⟨_, _, _, _, _, _, _, _, c2, h5, h6⟩ := h
  cases h6
  have := BktCol.addBucketizedVec_keeps h5
  exact this

theorem BktCol.add_fresh {fmax : A} {c c' : BktCol A} {v : List (Fl A)} (hs : c.status = .ok)
    (hf : c.ints.finalized = false) (h : c.add fmax v = ok c') : c'.status = .ok ∧ c'.ints.finalized = false := by
  unfold BktCol.add at h
  rw [if_neg (by simp [hs]), if_neg (by simp [hf])] at h
  split at h
  · simp only at h
    split at h
    · have := BktCol.buildBuckets_keeps h
      exact ⟨this.1.trans hs, this.2.trans hf⟩
    · cases h
      exact ⟨hs, hf⟩
  · have := BktCol.addBucketizedVec_keeps h
    exact ⟨this.1.trans hs, this.2.trans hf⟩

theorem Column.fresh_new (k : ColType) : (newColumn k : Column A).Fresh := by
  cases k <;> simp [newColumn, Column.Fresh, StrCol.new, BktCol.new]

theorem Column.fresh_add {fmax : A} {b : Block A} {slot : Nat} {c c' : Column A} (hf : c.Fresh)
    (h : Column.addCells fmax b slot c = ok c') : c'.Fresh := by
  cases c with
  | str c =>
    simp only [Column.addCells, bind_eq_ok] at h
    obtain ⟨v, _, h⟩ := h
    cases h
    have := StrCol.add_keeps c v
    exact ⟨this.1.trans hf.1, this.2.trans hf.2⟩
  | bkt c =>
    simp only [Column.addCells, bind_eq_ok] at h
    obtain ⟨v, _, c1, h1, h⟩ := h
    cases h
    exact BktCol.add_fresh hf.1 hf.2 h1
  | raw c =>
    simp only [Column.addCells, bind_eq_ok] at h
    obtain ⟨v, _, h⟩ := h
    cases h
    simp only [Column.Fresh] at hf
    simp [Column.Fresh, RawCol.add, hf]

theorem Column.fresh_status {c : Column A} (hf : c.Fresh) : c.status = .ok := by
  cases c
  · exact hf.1
  · exact hf.1
  · exact hf

theorem Column.fresh_finalize {fmax : A} {c c' : Column A} (hf : c.Fresh) (h : Column.finalize fmax c = ok c') :
    c'.status = .ok := by
  cases c with
  | str c =>
    cases h
    simp only [Column.Fresh] at hf
    simp [Column.status, StrCol.finalize, hf]
  | bkt c =>
    simp only [Column.finalize, bind_eq_ok] at h
    obtain ⟨c1, h1, h⟩ := h
    cases h
    unfold BktCol.finalize at h1
    rw [if_neg (by simp [hf.1]), if_neg (by simp [hf.2])] at h1
    dsimp only at h1
    split at h1
    · rw [bind_eq_ok] at h1
      obtain ⟨c2, h2, h3⟩ := h1
      cases h3
      exact (BktCol.buildBuckets_keeps h2).1.trans hf.1
    · rw [bind_eq_ok] at h1
      obtain ⟨c2, h2, h3⟩ := h1
      cases h2
      cases h3
      exact hf.1
  | raw c =>
    cases h
    exact hf

/-- Processing readable blocks into good columns never ends with a bad status. -/
theorem processBlocks_fresh {fmax : A} {parse : Text → Option (Fl A)} {sched : Nat → List Handle → List Handle}
    (hsched : ∀ n l, (sched n l).Perm l) {s : Setup A} (hn : (s.handles.map Handle.obj).Nodup)
    (hmap : ∀ p ∈ s.map, ∃ x ∈ s.handles, x.obj = p.2)
    (files : List (Option Text)) (n : Nat) (heap : List (Option (Column A))) (e : Code)
    (hfresh : ∀ x ∈ s.handles, ∃ c, heap[x.obj]? = some (some c) ∧ c.Fresh)
    (h : processBlocks fmax parse sched s files n heap = ok (.error e)) :
    ∃ k file, files[k]? = some file ∧ readTSV parse file s.fidx s.sidx (n + k == 0) = .error e := by
  induction files generalizing n heap with
  | nil => cases h
  | cons file files ih =>
    simp only [processBlocks] at h
    cases hr : readTSV parse file s.fidx s.sidx (n == 0) with
    | error e' =>
      rw [hr] at h
      cases h
      exact ⟨0, file, rfl, hr⟩
    | ok b =>
      rw [hr] at h
      simp only [bind_eq_ok] at h
      obtain ⟨heap1, h1, st, h2, h3⟩ := h
      obtain ⟨l1, l2, l3⟩ := runTasks_ok _ _ _ _ (perm_obj_nodup (hsched n s.handles) hn) h1
      have hfresh1 : ∀ x ∈ s.handles, ∃ c, heap1[x.obj]? = some (some c) ∧ c.Fresh := by
        intro x hx
        obtain ⟨c, c', e1, e2, e3⟩ := l2 x ((hsched n s.handles).mem_iff.mpr hx)
        obtain ⟨d, hd, hdf⟩ := hfresh x hx
        rw [e1] at hd
        simp only [Option.some.injEq] at hd
        subst hd
        exact ⟨c', e3, Column.fresh_add hdf e2⟩
      have hst : firstNotOk heap1 s.map = ok .ok := firstNotOk_ok _ _ (by
        intro p hp
        obtain ⟨x, hx, e⟩ := hmap p hp
        obtain ⟨c, h1, h2⟩ := hfresh1 x hx
        exact ⟨c, by rw [← e, h1], Column.fresh_status h2⟩)
      rw [hst] at h2
      cases h2
      rw [if_neg (by simp)] at h3
      obtain ⟨k, f, hk, hf⟩ := ih (n + 1) heap1 hfresh1 h3
      exact ⟨k + 1, f, by simpa using hk, by rw [← hf]; congr 2; omega⟩

theorem storeOf_lookup (heap : List (Option (Column A))) (m : List (String × Nat)) (name : String) (k : Nat)
    (c : Column A) (hm : m.lookup name = some k) (hk : heap[k]? = some (some c)) :
    (storeOf heap m).lookup name = some c := by
  induction m with
  | nil => cases hm
  | cons p m ih =>
    rw [List.lookup_cons] at hm
    by_cases e : name = p.1
    · subst e
      simp only [BEq.rfl, Option.some.injEq] at hm
      subst hm
      simp [storeOf, hk]
    · have : (name == p.1) = false := by simpa using e
      simp only [this] at hm
      simp only [storeOf]
      split
      · simp [List.lookup_cons, this, ih hm]
      · exact ih hm

/-- The order in which tasks on different columns run does not matter. -/
theorem runTasks_perm (f : Handle → Column A → Outcome (Column A)) {hs hs' : List Handle} (hp : hs'.Perm hs)
    (heap heap' : List (Option (Column A))) (hn : (hs.map Handle.obj).Nodup)
    (h : hs.foldlM (runTask f) heap = ok heap') : hs'.foldlM (runTask f) heap = ok heap' := by
  obtain ⟨l1, l2, l3⟩ := runTasks_ok f hs heap heap' hn h
  have hn' := perm_obj_nodup hp hn
  obtain ⟨heap2, h2⟩ := runTasks_exists f hs' heap hn' (by
    intro x hx
    obtain ⟨c, c', e1, e2, _⟩ := l2 x (hp.mem_iff.mp hx)
    exact ⟨c, c', e1, e2⟩)
  obtain ⟨m1, m2, m3⟩ := runTasks_ok f hs' heap heap2 hn' h2
  rw [h2]
  congr 1
  apply List.ext_getElem?
  intro i
  by_cases hi : i ∈ hs.map Handle.obj
  · obtain ⟨x, hx, rfl⟩ := List.mem_map.mp hi
    obtain ⟨c, c', e1, e2, e3⟩ := l2 x hx
    obtain ⟨d, d', f1, f2, f3⟩ := m2 x (hp.mem_iff.mpr hx)
    rw [e1] at f1
    simp only [Option.some.injEq] at f1
    subst f1
    rw [e2] at f2
    cases f2
    rw [e3, f3]
  · rw [l3 i hi, m3 i (by rwa [(hp.map Handle.obj).mem_iff])]

theorem processBlocks_sched {fmax : A} {parse : Text → Option (Fl A)} {sched sched' : Nat → List Handle → List Handle}
    (hs : ∀ n l, (sched n l).Perm l) (hs' : ∀ n l, (sched' n l).Perm l) {s : Setup A}
    (hn : (s.handles.map Handle.obj).Nodup)
    (files : List (Option Text)) (n : Nat) (heap : List (Option (Column A)))
    (r : Except Code (List (Option (Column A))))
    (h : processBlocks fmax parse sched s files n heap = ok r) :
    processBlocks fmax parse sched' s files n heap = ok r := by
  induction files generalizing n heap with
  | nil => exact h
  | cons file files ih =>
    simp only [processBlocks] at h ⊢
    cases hr : readTSV parse file s.fidx s.sidx (n == 0) with
    | error e => rw [hr] at h; exact h
    | ok b =>
      rw [hr] at h
      simp only [bind_eq_ok] at h
      obtain ⟨heap1, h1, st, h2, h3⟩ := h
      have h1' := runTasks_perm _ ((hs' n s.handles).trans (hs n s.handles).symm) _ _
        (perm_obj_nodup (hs n s.handles) hn) h1
      simp only [h1', ok_bind, h2]
      split
      · rename_i hst
        rw [if_pos hst] at h3
        exact h3
      · rename_i hst
        rw [if_neg hst] at h3
        exact ih (n + 1) heap1 h3

/-- With or without repeated names: a column that is alive is the one the map holds under its name. -/
structure DupInv (done : List (ColType × String)) (s : Setup A) : Prop where
  len : s.heap.length = done.length
  objs : s.handles.map Handle.obj = List.range done.length
  live : ∀ (k : Nat) (r : ColType × String), done[k]? = some r → s.heap[k]? = some none ∨ s.map.lookup r.2 = some k

theorem lookup_filter_ne {β : Type} (m : List (String × β)) (n x : String) (h : x ≠ n) :
    (m.filter (fun p => p.1 != n)).lookup x = m.lookup x := by
  induction m with
  | nil => rfl
  | cons p m ih =>
    by_cases e : p.1 = n
    · have hx : (x == p.1) = false := by rw [e]; simpa using h
      rw [List.filter_cons_of_neg (by simp [e]), ih, List.lookup_cons, hx]
    · rw [List.filter_cons_of_pos (by simpa using e), List.lookup_cons, List.lookup_cons, ih]

theorem dupInv_step {headers : List Text} {done : List (ColType × String)} {s s' : Setup A} {r : ColType × String}
    (inv : DupInv done s) (h : setupOne headers s r = .ok s') : DupInv (done ++ [r]) s' := by
  have key : s'.heap = (match s.map.lookup r.2 with
      | some old => s.heap.set old none
      | none => s.heap) ++ [some (newColumn r.1)] ∧
      s'.map = (r.2, s.heap.length) :: s.map.filter (fun p => p.1 != r.2) ∧
      s'.handles.map Handle.obj = s.handles.map Handle.obj ++ [s.heap.length] := by
    unfold setupOne at h
    cases hi : headerIndex headers r.2 with
    | none => rw [hi] at h; cases h
    | some i =>
      rw [hi] at h
      obtain ⟨rk, rn⟩ := r
      cases rk <;> (cases h; exact ⟨rfl, rfl, by simp [Setup.reset]⟩)
  obtain ⟨kh, km, ko⟩ := key
  have hlen' : ∀ m : Option Nat, (match m with
      | some old => s.heap.set old none
      | none => s.heap).length = done.length := by
    intro m
    cases m <;> simp [inv.len]
  refine ⟨?_, ?_, ?_⟩
  · rw [kh, List.length_append, hlen']
    simp
  · rw [ko, inv.objs, inv.len, List.length_append, List.length_singleton, List.range_succ]
  · intro k x hk
    by_cases hkd : k < done.length
    · rw [List.getElem?_append_left hkd] at hk
      rw [kh, List.getElem?_append_left (by rw [hlen']; exact hkd), km, List.lookup_cons]
      rcases inv.live k x hk with hl | hl
      · left
        cases hm : s.map.lookup r.2 with
        | none => exact hl
        | some old =>
          simp only
          by_cases e : old = k
          · subst e
            simp [inv.len, hkd]
          · rw [List.getElem?_set_ne e, hl]
      · by_cases e : x.2 = r.2
        · left
          rw [e] at hl
          rw [hl]
          simp [inv.len, hkd]
        · right
          have : (x.2 == r.2) = false := by simpa using e
          rw [this]
          simp only
          rw [lookup_filter_ne _ _ _ e, hl]
    · rw [List.getElem?_append_right (by omega)] at hk
      have hk0 : k = done.length := by
        have := (List.getElem?_eq_some_iff.mp hk).1
        simp at this
        omega
      subst hk0
      simp only [Nat.sub_self, List.getElem?_cons_zero, Option.some.injEq] at hk
      subst hk
      right
      rw [km, List.lookup_cons]
      simp [inv.len]

theorem dupInv_fold {headers : List Text} (reqs done : List (ColType × String)) (s s' : Setup A)
    (inv : DupInv done s) (h : reqs.foldlM (setupOne headers) s = .ok s') : DupInv (done ++ reqs) s' := by
  induction reqs generalizing done s with
  | nil =>
    cases h
    simpa using inv
  | cons r reqs ih =>
    rw [List.foldlM_cons] at h
    cases h1 : setupOne headers s r with
    | error e => rw [h1] at h; cases h
    | ok s1 =>
      rw [h1] at h
      have := ih (done ++ [r]) s1 (dupInv_step inv h1) h
      simpa using this

/-- Where the cell indices come from. -/
structure IdxInv (headers : List Text) (done : List (ColType × String)) (s : Setup A) : Prop where
  f : ∀ i ∈ s.fidx, ∃ r ∈ done, r.1 ≠ .string ∧ headerIndex headers r.2 = some i
  s : ∀ i ∈ s.sidx, ∃ r ∈ done, r.1 = .string ∧ headerIndex headers r.2 = some i

theorem idxInv_step {headers : List Text} {done : List (ColType × String)} {s s' : Setup A} {r : ColType × String}
    (inv : IdxInv headers done s) (h : setupOne headers s r = .ok s') : IdxInv headers (done ++ [r]) s' := by
  unfold setupOne at h
  cases hi : headerIndex headers r.2 with
  | none => rw [hi] at h; cases h
  | some i =>
    rw [hi] at h
    obtain ⟨rk, rn⟩ := r
    have wf : ∀ j ∈ s.fidx, ∃ r ∈ done ++ [(rk, rn)], r.1 ≠ .string ∧ headerIndex headers r.2 = some j := by
      intro j hj
      obtain ⟨x, hx, h1⟩ := inv.f j hj
      exact ⟨x, by simp [hx], h1⟩
    have ws : ∀ j ∈ s.sidx, ∃ r ∈ done ++ [(rk, rn)], r.1 = .string ∧ headerIndex headers r.2 = some j := by
      intro j hj
      obtain ⟨x, hx, h1⟩ := inv.s j hj
      exact ⟨x, by simp [hx], h1⟩
    cases rk with
    | string =>
      cases h
      refine ⟨wf, ?_⟩
      intro j hj
      simp only [Setup.reset, List.mem_append, List.mem_singleton] at hj
      rcases hj with hj | rfl
      · exact ws j hj
      · exact ⟨_, by simp, rfl, hi⟩
    | bucketized =>
      cases h
      refine ⟨?_, ws⟩
      intro j hj
      simp only [Setup.reset, List.mem_append, List.mem_singleton] at hj
      rcases hj with hj | rfl
      · exact wf j hj
      · exact ⟨(.bucketized, rn), by simp, by simp, hi⟩
    | raw =>
      cases h
      refine ⟨?_, ws⟩
      intro j hj
      simp only [Setup.reset, List.mem_append, List.mem_singleton] at hj
      rcases hj with hj | rfl
      · exact wf j hj
      · exact ⟨(.raw, rn), by simp, by simp, hi⟩

theorem idxInv_fold {headers : List Text} (reqs done : List (ColType × String)) (s s' : Setup A)
    (inv : IdxInv headers done s) (h : reqs.foldlM (setupOne headers) s = .ok s') :
    IdxInv headers (done ++ reqs) s' := by
  induction reqs generalizing done s with
  | nil =>
    cases h
    simpa using inv
  | cons r reqs ih =>
    rw [List.foldlM_cons] at h
    cases h1 : setupOne headers s r with
    | error e => rw [h1] at h; cases h
    | ok s1 =>
      rw [h1] at h
      have := ih (done ++ [r]) s1 (idxInv_step inv h1) h
      simpa using this

end Gbdt
