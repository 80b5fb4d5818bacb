import Verif.Model.ThreadPool
import Mathlib.Data.List.Perm.Basic
import Mathlib.Algebra.BigOperators.Group.List.Basic

/-!
# Invariant and measure of the thread pool
-/

set_option linter.unnecessarySeqFocus false

set_option autoImplicit false

namespace Gbdt

/-- The tasks enqueued by a list of operations. -/
def enqueued : List PoolOp → List Nat
  | [] => []
  | .enqueue t :: l => t :: enqueued l
  | .await _ :: l => enqueued l

theorem enqueued_append (a b : List PoolOp) : enqueued (a ++ b) = enqueued a ++ enqueued b := by
  induction a with
  | nil => rfl
  | cons x a ih => cases x <;> simp [enqueued, ih]

theorem mem_enqueued {t : Nat} {l : List PoolOp} : t ∈ enqueued l ↔ PoolOp.enqueue t ∈ l := by
  induction l with
  | nil => simp [enqueued]
  | cons x a ih => cases x <;> simp [enqueued, ih]

namespace Pool

/-- Operations of the owning thread that are still to come. -/
def MPhase.remaining : MPhase → List PoolOp
  | .ops r => r
  | .pushing t r => .enqueue t :: r
  | .notifying r => r
  | _ => []

/-- Whether `to_be_shutdown_` has been set. -/
def MPhase.closed : MPhase → Bool
  | .notifyingAll => true
  | .joining _ => true
  | .returned => true
  | _ => false

/-- Whether the owning thread holds the lock. -/
def MPhase.locks : MPhase → Bool
  | .pushing _ _ => true
  | .closing => true
  | _ => false

structure Inv (n : Nat) (prog : List PoolOp) (s : Pool) : Prop where
  len : s.workers.length = n
  lockW : ∀ k, s.mutex = some (.worker k) ↔ s.workers[k]? = some .crit
  lockM : s.mutex = some .main ↔ MPhase.locks s.main = true
  prog : ∃ pre, prog = pre ++ MPhase.remaining s.main ∧ enqueued pre = s.started ++ s.queue
  cnt : ∀ t, s.started.count t = s.done.count t + s.workers.countP (· == .running t)
  exited : .exited ∈ s.workers → s.queue = [] ∧ s.shutdown = true
  closed : s.shutdown = MPhase.closed s.main
  awake : s.main = .returned ∨ (∃ i, s.main = .joining i) → .waiting ∉ s.workers
  joined : ∀ i, s.main = .joining i → ∀ j < i, s.workers[j]? = some .exited
  ret : s.main = .returned → ∀ w ∈ s.workers, w = .exited
  wake : s.queue ≠ [] → 0 < n → (∃ w ∈ s.workers, w ≠ .waiting) ∨ ∃ r, s.main = .notifying r

theorem Inv.new (n : Nat) (prog : List PoolOp) : Inv n prog (Pool.new n prog) where
  len := by simp [Pool.new]
  lockW := by intro k; simp [Pool.new, List.getElem?_replicate]
  lockM := by simp [Pool.new, MPhase.locks]
  prog := ⟨[], rfl, rfl⟩
  cnt := by
    intro t
    simp [Pool.new, List.countP_replicate]
  exited := by simp [Pool.new]
  closed := rfl
  awake := by simp [Pool.new]
  joined := by simp [Pool.new]
  ret := by simp [Pool.new]
  wake := by simp [Pool.new]

theorem countP_set_running {l : List WPhase} {k : Nat} {w w' : WPhase} (h : l[k]? = some w) (p : WPhase → Bool) :
    (l.set k w').countP p + (if p w then 1 else 0) = l.countP p + (if p w' then 1 else 0) := by
  obtain ⟨hk, rfl⟩ := List.getElem?_eq_some_iff.mp h
  rw [List.countP_set hk]
  have : p l[k] = true → 0 < l.countP p := fun hp => List.countP_pos_iff.mpr ⟨l[k], List.getElem_mem hk, hp⟩
  split <;> split <;> simp_all

theorem getElem?_set_ite {l : List WPhase} {k j : Nat} {w w' : WPhase} (h : l[k]? = some w) :
    (l.set k w')[j]? = if k = j then some w' else l[j]? := by
  have := (List.getElem?_eq_some_iff.mp h).1
  by_cases e : k = j
  · subst e; simp [this]
  · simp [e]

theorem mem_set_of {l : List WPhase} {k : Nat} {w' x : WPhase} (hx : x ∈ l.set k w') : x = w' ∨ x ∈ l := by
  rcases List.mem_or_eq_of_mem_set hx with h | h
  · exact .inr h
  · exact .inl h

theorem mem_set_new {l : List WPhase} {k : Nat} {w w' : WPhase} (h : l[k]? = some w) : w' ∈ l.set k w' := by
  have := (List.getElem?_eq_some_iff.mp h).1
  exact List.mem_of_getElem? (i := k) (by simp [this])

theorem Inv.stepWorker {n : Nat} {prog : List PoolOp} {s s' : Pool} (inv : Inv n prog s) {k : Nat}
    (h : s.stepWorker k = some s') : Inv n prog s' := by
  unfold Pool.stepWorker at h
  split at h
  · -- start
    rename_i hk
    split at h
    · rename_i hm
      cases h
      have hnocrit : ∀ j, s.workers[j]? ≠ some WPhase.crit := fun j hj => by
        have := (inv.lockW j).mpr hj
        rw [hm] at this
        cases this
      refine ⟨by simp [inv.len], ?_, ?_, inv.prog, ?_, ?_, inv.closed, ?_, ?_, ?_, ?_⟩
      · intro j
        rw [getElem?_set_ite hk]
        by_cases e : k = j
        · simp [e]
        · simp [e, hnocrit j]
      · constructor
        · intro h; cases h
        · intro h
          have := inv.lockM.mpr h
          rw [hm] at this
          cases this
      · intro t
        have := countP_set_running (w' := .crit) hk (· == .running t)
        have h2 := inv.cnt t
        simp at this
        simp only [this]
        exact h2
      · intro he
        rcases mem_set_of he with h | h
        · cases h
        · exact inv.exited h
      · intro hc hw
        rcases mem_set_of hw with h | h
        · cases h
        · exact inv.awake hc h
      · intro i hi j hj
        have := inv.joined i hi j hj
        rw [getElem?_set_ite hk]
        by_cases e : k = j
        · subst e; rw [hk] at this; cases this
        · simp [e, this]
      · intro hr w hw
        have := inv.ret hr _ (List.mem_of_getElem? hk)
        cases this
      · intro _ _
        exact .inl ⟨_, mem_set_new hk, by simp⟩
    · cases h
  · -- crit
    rename_i hk
    have hown := (inv.lockW k).mpr hk
    have honly : ∀ j, s.workers[j]? = some .crit → j = k := fun j hj => by
      have := (inv.lockW j).mpr hj
      rw [hown] at this
      cases this
      rfl
    have hmain : MPhase.locks s.main = false := by
      cases hl : MPhase.locks s.main with
      | false => rfl
      | true =>
        have := inv.lockM.mpr hl
        rw [hown] at this
        cases this
    have lockM' : (none : Option Owner) = some .main ↔ MPhase.locks s.main = true := by simp [hmain]
    have lockW' : ∀ w, w ≠ .crit → ∀ j, (none : Option Owner) = some (.worker j) ↔ (s.workers.set k w)[j]? = some .crit := by
      intro w hw j
      rw [getElem?_set_ite hk]
      by_cases e : k = j
      · simp [e, hw]
      · simp only [e, if_false, reduceCtorEq, false_iff]
        intro hj
        exact e (honly j hj).symm
    have joined' : ∀ w, ∀ i, s.main = .joining i → ∀ j < i, (s.workers.set k w)[j]? = some .exited := by
      intro w i hi j hj
      have := inv.joined i hi j hj
      rw [getElem?_set_ite hk]
      by_cases e : k = j
      · subst e; rw [hk] at this; cases this
      · simp [e, this]
    have ret' : s.main = .returned → False := by
      intro hr
      have := inv.ret hr _ (List.mem_of_getElem? hk)
      cases this
    have cnt' : ∀ w, (∀ t, w ≠ .running t) → ∀ t,
        s.started.count t = s.done.count t + (s.workers.set k w).countP (· == .running t) := by
      intro w hw t
      have := countP_set_running (w' := w) hk (· == .running t)
      have h2 := inv.cnt t
      have hwt := hw t
      simp [hwt] at this
      rw [this]
      exact h2
    split at h
    · rename_i hq
      split at h
      · rename_i hsd
        cases h
        refine ⟨by simp [inv.len], lockW' _ (by simp), lockM', inv.prog, cnt' _ (by simp), fun _ => ⟨hq, hsd⟩, inv.closed,
          ?_, joined' _, fun hr => (ret' hr).elim, ?_⟩
        · intro hc hw
          rcases mem_set_of hw with h | h
          · cases h
          · exact inv.awake hc h
        · intro h; exact absurd hq h
      · rename_i hsd
        cases h
        refine ⟨by simp [inv.len], lockW' _ (by simp), lockM', inv.prog, cnt' _ (by simp), ?_, inv.closed,
          ?_, joined' _, fun hr => (ret' hr).elim, ?_⟩
        · intro he
          rcases mem_set_of he with h | h
          · cases h
          · exact inv.exited h
        · intro hc
          have : MPhase.closed s.main = true := by
            rcases hc with hc | ⟨i, hc⟩
            · rw [show s.main = .returned from hc]; rfl
            · rw [show s.main = .joining i from hc]; rfl
          rw [← inv.closed] at this
          exact absurd this hsd
        · intro h; exact absurd hq h
    · rename_i t q hq
      cases h
      refine ⟨by simp [inv.len], lockW' _ (by simp), lockM', ?_, ?_, ?_, inv.closed, ?_, joined' _, fun hr => (ret' hr).elim, ?_⟩
      · obtain ⟨pre, h1, h2⟩ := inv.prog
        refine ⟨pre, h1, ?_⟩
        rw [h2, hq]
        simp
      · intro t'
        have := countP_set_running (w' := .running t) hk (· == .running t')
        have h2 := inv.cnt t'
        simp only [List.count_append, List.count_singleton, beq_iff_eq, WPhase.running.injEq, reduceCtorEq, if_false] at this ⊢
        split at this <;> simp_all <;> omega
      · intro he
        rcases mem_set_of he with h | h
        · cases h
        · have := (inv.exited h).1
          rw [hq] at this
          cases this
      · intro hc hw
        rcases mem_set_of hw with h | h
        · cases h
        · exact inv.awake hc h
      · intro _ _
        exact .inl ⟨_, mem_set_new hk, by simp⟩
  · -- running
    rename_i t hk
    cases h
    refine ⟨by simp [inv.len], ?_, inv.lockM, inv.prog, ?_, ?_, inv.closed, ?_, ?_, ?_, ?_⟩
    · intro j
      rw [inv.lockW j, getElem?_set_ite hk]
      by_cases e : k = j
      · subst e; simp [hk]
      · simp [e]
    · intro t'
      have := countP_set_running (w' := .start) hk (· == .running t')
      have h2 := inv.cnt t'
      simp only [List.count_append, List.count_singleton, beq_iff_eq, WPhase.running.injEq, reduceCtorEq, if_false] at this ⊢
      split at this <;> simp_all <;> omega
    · intro he
      rcases mem_set_of he with h | h
      · cases h
      · exact inv.exited h
    · intro hc hw
      rcases mem_set_of hw with h | h
      · cases h
      · exact inv.awake hc h
    · intro i hi j hj
      have := inv.joined i hi j hj
      rw [getElem?_set_ite hk]
      by_cases e : k = j
      · subst e; rw [hk] at this; cases this
      · simp [e, this]
    · intro hr w hw
      have := inv.ret hr _ (List.mem_of_getElem? hk)
      cases this
    · intro _ _
      exact .inl ⟨_, mem_set_new hk, by simp⟩
  · cases h
  · cases h
  · cases h

theorem Inv.spurious {n : Nat} {prog : List PoolOp} {s s' : Pool} (inv : Inv n prog s) {k : Nat}
    (h : s.stepSpurious k = some s') : Inv n prog s' := by
  unfold Pool.stepSpurious at h
  split at h
  · rename_i hk
    cases h
    refine ⟨by simp [inv.len], ?_, inv.lockM, inv.prog, ?_, ?_, inv.closed, ?_, ?_, ?_, ?_⟩
    · intro j
      rw [inv.lockW j, getElem?_set_ite hk]
      by_cases e : k = j
      · subst e; simp [hk]
      · simp [e]
    · intro t'
      have := countP_set_running (w' := .start) hk (· == .running t')
      have h2 := inv.cnt t'
      simp at this
      rw [h2, this]
    · intro he
      rcases mem_set_of he with h | h
      · cases h
      · exact inv.exited h
    · intro hc hw
      rcases mem_set_of hw with h | h
      · cases h
      · exact inv.awake hc h
    · intro i hi j hj
      have := inv.joined i hi j hj
      rw [getElem?_set_ite hk]
      by_cases e : k = j
      · subst e; rw [hk] at this; cases this
      · simp [e, this]
    · intro hr w hw
      have := inv.ret hr _ (List.mem_of_getElem? hk)
      cases this
    · intro _ _
      exact .inl ⟨_, mem_set_new hk, by simp⟩
  · cases h

theorem wake_ne (w : WPhase) : Pool.wake w ≠ .waiting := by cases w <;> simp [Pool.wake]

theorem Inv.stepMain {n : Nat} {prog : List PoolOp} {s s' : Pool} (inv : Inv n prog s) {pick : Nat}
    (h : s.stepMain pick = some s') : Inv n prog s' := by
  have nocrit : s.mutex = none → ∀ j, s.workers[j]? ≠ some WPhase.crit := fun hm j hj => by
    have := (inv.lockW j).mpr hj
    rw [hm] at this
    cases this
  have nocrit' : MPhase.locks s.main = true → ∀ j, s.workers[j]? ≠ some WPhase.crit := fun hm j hj => by
    have := (inv.lockW j).mpr hj
    rw [inv.lockM.mpr hm] at this
    cases this
  unfold Pool.stepMain at h
  split at h
  · -- enqueue
    rename_i t rest hmain
    split at h
    · rename_i hm
      cases h
      refine ⟨inv.len, ?_, by simp [MPhase.locks], ?_, inv.cnt, inv.exited, ?_, by simp, by simp, by simp, ?_⟩
      · intro k; simp [nocrit hm k]
      · obtain ⟨pre, h1, h2⟩ := inv.prog
        rw [hmain] at h1
        exact ⟨pre, h1, h2⟩
      · rw [inv.closed, hmain]; rfl
      · intro hq hn
        rcases inv.wake hq hn with h | ⟨r, h⟩
        · exact .inl h
        · rw [hmain] at h; cases h
    · cases h
  · -- await
    rename_i t rest hmain
    split at h
    · cases h
      refine ⟨inv.len, inv.lockW, ?_, ?_, inv.cnt, inv.exited, ?_, by simp, by simp, by simp, ?_⟩
      · rw [inv.lockM, hmain]; simp [MPhase.locks]
      · obtain ⟨pre, h1, h2⟩ := inv.prog
        rw [hmain] at h1
        refine ⟨pre ++ [.await t], by simpa [MPhase.remaining] using h1, ?_⟩
        rw [enqueued_append, h2]
        simp [enqueued]
      · rw [inv.closed, hmain]; rfl
      · intro hq hn
        rcases inv.wake hq hn with h | ⟨r, h⟩
        · exact .inl h
        · rw [hmain] at h; cases h
    · cases h
  · -- lock for shut down
    rename_i hmain
    split at h
    · rename_i hm
      cases h
      refine ⟨inv.len, ?_, by simp [MPhase.locks], ?_, inv.cnt, inv.exited, ?_, by simp, by simp, by simp, ?_⟩
      · intro k; simp [nocrit hm k]
      · obtain ⟨pre, h1, h2⟩ := inv.prog
        rw [hmain] at h1
        exact ⟨pre, h1, h2⟩
      · rw [inv.closed, hmain]; rfl
      · intro hq hn
        rcases inv.wake hq hn with h | ⟨r, h⟩
        · exact .inl h
        · rw [hmain] at h; cases h
    · cases h
  · -- push
    rename_i t rest hmain
    cases h
    have hnc := nocrit' (by rw [hmain]; rfl)
    refine ⟨inv.len, ?_, by simp [MPhase.locks], ?_, inv.cnt, ?_, ?_, by simp, by simp, by simp, fun _ _ => .inr ⟨rest, rfl⟩⟩
    · intro k; simp [hnc k]
    · obtain ⟨pre, h1, h2⟩ := inv.prog
      rw [hmain] at h1
      refine ⟨pre ++ [.enqueue t], by simpa [MPhase.remaining] using h1, ?_⟩
      rw [enqueued_append, h2]
      simp [enqueued]
    · intro he
      have := (inv.exited he).2
      rw [inv.closed, hmain] at this
      cases this
    · rw [inv.closed, hmain]; rfl
  · -- notify one
    rename_i rest hmain
    split at h
    · split at h
      · rename_i hw hk
        cases h
        refine ⟨by simp [inv.len], ?_, ?_, ?_, ?_, ?_, ?_, by simp, by simp, by simp, ?_⟩
        · intro j
          rw [inv.lockW j, getElem?_set_ite hk]
          by_cases e : pick = j
          · subst e; simp [hk]
          · simp [e]
        · rw [inv.lockM, hmain]; simp [MPhase.locks]
        · obtain ⟨pre, h1, h2⟩ := inv.prog
          rw [hmain] at h1
          exact ⟨pre, h1, h2⟩
        · intro t'
          have := countP_set_running (w' := .start) hk (· == .running t')
          have h2 := inv.cnt t'
          simp at this
          rw [h2, this]
        · intro he
          rcases mem_set_of he with h | h
          · cases h
          · exact inv.exited h
        · rw [inv.closed, hmain]; rfl
        · intro _ _
          exact .inl ⟨_, mem_set_new hk, by simp⟩
      · cases h
    · rename_i hw
      cases h
      refine ⟨inv.len, inv.lockW, ?_, ?_, inv.cnt, inv.exited, ?_, by simp, by simp, by simp, ?_⟩
      · rw [inv.lockM, hmain]; simp [MPhase.locks]
      · obtain ⟨pre, h1, h2⟩ := inv.prog
        rw [hmain] at h1
        exact ⟨pre, h1, h2⟩
      · rw [inv.closed, hmain]; rfl
      · intro _ hn
        left
        have : 0 < s.workers.length := by rw [inv.len]; exact hn
        refine ⟨s.workers[0], List.getElem_mem this, fun h => hw (h ▸ List.getElem_mem this)⟩
  · -- set the flag
    rename_i hmain
    cases h
    have hnc := nocrit' (by rw [hmain]; rfl)
    refine ⟨inv.len, ?_, by simp [MPhase.locks], ?_, inv.cnt, ?_, rfl, by simp, by simp, by simp, ?_⟩
    · intro k; simp [hnc k]
    · obtain ⟨pre, h1, h2⟩ := inv.prog
      rw [hmain] at h1
      exact ⟨pre, h1, h2⟩
    · intro he
      exact ⟨(inv.exited he).1, rfl⟩
    · intro hq hn
      rcases inv.wake hq hn with h | ⟨r, h⟩
      · exact .inl h
      · rw [hmain] at h; cases h
  · -- notify all
    rename_i hmain
    cases h
    refine ⟨by simp [inv.len], ?_, ?_, ?_, ?_, ?_, ?_, ?_, ?_, by simp, ?_⟩
    · intro j
      rw [inv.lockW j, List.getElem?_map]
      cases hj : s.workers[j]? with
      | none => simp
      | some w => cases w <;> simp [Pool.wake]
    · rw [inv.lockM, hmain]; simp [MPhase.locks]
    · obtain ⟨pre, h1, h2⟩ := inv.prog
      rw [hmain] at h1
      exact ⟨pre, h1, h2⟩
    · intro t
      rw [inv.cnt t, List.countP_map]
      congr 1
      apply List.countP_congr
      intro w _
      cases w <;> simp [Pool.wake]
    · intro he
      obtain ⟨w, hw, e⟩ := List.mem_map.mp he
      have : w = .exited := by cases w <;> simp [Pool.wake] at e ⊢
      subst this
      exact inv.exited hw
    · rw [inv.closed, hmain]; rfl
    · intro _ hw
      obtain ⟨w, hw, e⟩ := List.mem_map.mp hw
      cases w <;> simp [Pool.wake] at e
    · intro i hi
      cases hi
      intro j hj
      omega
    · intro hq hn
      left
      have hl : 0 < (s.workers.map Pool.wake).length := by simp [inv.len, hn]
      refine ⟨(s.workers.map Pool.wake)[0], List.getElem_mem hl, ?_⟩
      rw [List.getElem_map]
      exact wake_ne _
  · -- join
    rename_i i hmain
    split at h
    · split at h
      · rename_i hi hk
        cases h
        refine ⟨inv.len, inv.lockW, ?_, ?_, inv.cnt, inv.exited, ?_, ?_, ?_, by simp, ?_⟩
        · rw [inv.lockM, hmain]; simp [MPhase.locks]
        · obtain ⟨pre, h1, h2⟩ := inv.prog
          rw [hmain] at h1
          exact ⟨pre, h1, h2⟩
        · rw [inv.closed, hmain]; rfl
        · intro _
          exact inv.awake (.inr ⟨i, hmain⟩)
        · intro i' hi' j hj
          cases hi'
          by_cases e : j = i
          · subst e; exact hk
          · exact inv.joined i hmain j (by omega)
        · intro hq hn
          rcases inv.wake hq hn with h | ⟨r, h⟩
          · exact .inl h
          · rw [hmain] at h; cases h
      · cases h
    · rename_i hi
      cases h
      refine ⟨inv.len, inv.lockW, ?_, ?_, inv.cnt, inv.exited, ?_, ?_, by simp, ?_, ?_⟩
      · rw [inv.lockM, hmain]; simp [MPhase.locks]
      · obtain ⟨pre, h1, h2⟩ := inv.prog
        rw [hmain] at h1
        exact ⟨pre, h1, h2⟩
      · rw [inv.closed, hmain]; rfl
      · intro _
        exact inv.awake (.inr ⟨i, hmain⟩)
      · intro _ w hw
        obtain ⟨j, hj⟩ := List.getElem?_of_mem hw
        have hl : j < s.workers.length := (List.getElem?_eq_some_iff.mp hj).1
        have := inv.joined i hmain j (by omega)
        rw [hj] at this
        cases this
        rfl
      · intro hq hn
        rcases inv.wake hq hn with h | ⟨r, h⟩
        · exact .inl h
        · rw [hmain] at h; cases h
  · cases h

theorem Inv.step {n : Nat} {prog : List PoolOp} {s s' : Pool} (inv : Inv n prog s) {l : PoolStep}
    (h : s.step l = some s') : Inv n prog s' := by
  cases l with
  | worker k => exact inv.stepWorker h
  | main p => exact inv.stepMain h
  | spurious k => exact inv.spurious h

theorem Inv.run {n : Nat} {prog : List PoolOp} {s s' : Pool} (inv : Inv n prog s) {ls : List PoolStep}
    (h : s.run ls = some s') : Inv n prog s' := by
  induction ls generalizing s with
  | nil => cases h; exact inv
  | cons l ls ih =>
    rw [Pool.run] at h
    split at h
    · cases h
    · rename_i s1 h1
      exact ih (inv.step h1) h

/-- What a worker may still do without new tasks or wake-ups. -/
def weight : WPhase → Nat
  | .start => 2
  | .crit => 1
  | .waiting => 0
  | .running _ => 3
  | .exited => 0

/-- Steps left to the owning thread, counting the work it causes. -/
def opWeight : List PoolOp → Nat
  | [] => 0
  | .enqueue _ :: l => 8 + opWeight l
  | .await _ :: l => 1 + opWeight l

/-- The same by phase, for `n` workers. -/
def mainWeight (n : Nat) : MPhase → Nat
  | .ops r => opWeight r + (3 * n + 5)
  | .pushing _ r => 7 + opWeight r + (3 * n + 5)
  | .notifying r => 3 + opWeight r + (3 * n + 5)
  | .closing => 3 * n + 4
  | .notifyingAll => 3 * n + 3
  | .joining i => 1 + (n - i)
  | .returned => 0

/-- The measure. -/
def measure (s : Pool) : Nat :=
  mainWeight s.workers.length s.main + 3 * s.queue.length + (s.workers.map weight).sum

theorem sum_set {l : List WPhase} {k : Nat} {w w' : WPhase} (h : l[k]? = some w) :
    ((l.set k w').map weight).sum + weight w = (l.map weight).sum + weight w' := by
  induction l generalizing k with
  | nil => cases h
  | cons x l ih =>
    cases k with
    | zero =>
      simp only [List.getElem?_cons_zero, Option.some.injEq] at h
      subst h
      simp only [List.set_cons_zero, List.map_cons, List.sum_cons]
      omega
    | succ k =>
      rw [List.getElem?_cons_succ] at h
      have := ih h
      simp only [List.set_cons_succ, List.map_cons, List.sum_cons]
      omega

theorem sum_wake (l : List WPhase) : ((l.map wake).map weight).sum ≤ (l.map weight).sum + 2 * l.length := by
  induction l with
  | nil => simp
  | cons x l ih =>
    simp only [List.map_cons, List.sum_cons, List.length_cons]
    have : weight (wake x) ≤ weight x + 2 := by cases x <;> simp [wake, weight]
    omega

theorem measure_worker {s s' : Pool} {k : Nat} (h : s.stepWorker k = some s') : measure s' + 1 ≤ measure s := by
  unfold Pool.stepWorker at h
  split at h
  · rename_i hk
    split at h
    · cases h
      have := sum_set (w' := .crit) hk
      simp only [weight, measure, List.length_set] at this ⊢
      omega
    · cases h
  · rename_i hk
    split at h
    · split at h
      · cases h
        have := sum_set (w' := .exited) hk
        simp only [weight, measure, List.length_set] at this ⊢
        omega
      · cases h
        have := sum_set (w' := .waiting) hk
        simp only [weight, measure, List.length_set] at this ⊢
        omega
    · rename_i t q hq
      cases h
      have := sum_set (w' := .running t) hk
      simp only [weight, measure, List.length_set, hq, List.length_cons] at this ⊢
      omega
  · rename_i t hk
    cases h
    have := sum_set (w' := .start) hk
    simp only [weight, measure, List.length_set] at this ⊢
    omega
  · cases h
  · cases h
  · cases h

theorem measure_main {s s' : Pool} {p : Nat} (h : s.stepMain p = some s') : measure s' + 1 ≤ measure s := by
  unfold Pool.stepMain at h
  split at h
  · rename_i t rest hmain
    split at h
    · cases h
      simp only [measure, hmain, mainWeight, opWeight]
      omega
    · cases h
  · rename_i t rest hmain
    split at h
    · cases h
      simp only [measure, hmain, mainWeight, opWeight]
      omega
    · cases h
  · rename_i hmain
    split at h
    · cases h
      simp only [measure, hmain, mainWeight, opWeight]
      omega
    · cases h
  · rename_i t rest hmain
    cases h
    simp only [measure, hmain, mainWeight, List.length_append, List.length_singleton]
    omega
  · rename_i rest hmain
    split at h
    · split at h
      · rename_i hk
        cases h
        have := sum_set (w' := .start) hk
        simp only [weight, measure, hmain, mainWeight, List.length_set] at this ⊢
        omega
      · cases h
    · cases h
      simp only [measure, hmain, mainWeight]
      omega
  · rename_i hmain
    cases h
    simp only [measure, hmain, mainWeight]
    omega
  · rename_i hmain
    cases h
    have := sum_wake s.workers
    simp only [measure, hmain, mainWeight, List.length_map]
    omega
  · rename_i i hmain
    split at h
    · split at h
      · cases h
        simp only [measure, hmain, mainWeight]
        omega
      · cases h
    · cases h
      simp only [measure, hmain, mainWeight]
      omega
  · cases h

theorem measure_spurious {s s' : Pool} {k : Nat} (h : s.stepSpurious k = some s') : measure s' = measure s + 2 := by
  unfold Pool.stepSpurious at h
  split at h
  · rename_i hk
    cases h
    have := sum_set (w' := .start) hk
    simp only [weight, measure, List.length_set] at this ⊢
    omega
  · cases h

end Pool

end Gbdt
