import Verif.Lemmas.ThreadPool

/-!
# C23, C24: the thread pool

`prog` is what the owning thread does with the pool before its destructor runs: tasks enqueued, results awaited.
A schedule picks at each step a thread that can move, the thread `notify_one` wakes, and spurious wake-ups.
-/

set_option autoImplicit false

namespace Gbdt

/-- The tasks a program enqueues, in order. -/
def tasksOf (prog : List PoolOp) : List Nat :=
  prog.filterMap (fun o => match o with
    | .enqueue t => some t
    | .await _ => none)

theorem enqueued_eq_tasksOf (prog : List PoolOp) : enqueued prog = tasksOf prog := by
  induction prog with
  | nil => rfl
  | cons x l ih => cases x <;> simp [enqueued, tasksOf, ih]

/-- The tasks being run by workers. -/
def runningTasks (s : Pool) : List Nat :=
  s.workers.filterMap (fun w => match w with
    | .running t => some t
    | _ => none)

theorem count_runningTasks (s : Pool) (t : Nat) : (runningTasks s).count t = s.workers.countP (· == .running t) := by
  unfold runningTasks
  induction s.workers with
  | nil => rfl
  | cons w l ih =>
    cases w with
    | running u =>
      by_cases e : u = t
      · subst e; simp [ih]
      · simp [ih, e]
    | _ => simp [ih]

/-- **C23.** In every reachable state, of any pool, under any schedule: the tasks finished, being run, queued and still to be
enqueued are together exactly the tasks of the program, each as often as it is enqueued; and tasks are taken from the
queue in the order of enqueuing. -/
theorem C23_each_task_once (threads : Nat) (prog : List PoolOp) (sched : List PoolStep) (s : Pool)
    (h : (Pool.new threads prog).run sched = some s) :
    (∃ pending, (s.done ++ runningTasks s ++ s.queue ++ pending).Perm (tasksOf prog)) ∧ s.started <+: tasksOf prog := by
  have inv := (Pool.Inv.new threads prog).run h
  obtain ⟨pre, h1, h2⟩ := inv.prog
  have h3 : tasksOf prog = s.started ++ s.queue ++ enqueued (Pool.MPhase.remaining s.main) := by
    rw [← enqueued_eq_tasksOf, h1, enqueued_append, h2]
  refine ⟨⟨enqueued (Pool.MPhase.remaining s.main), ?_⟩, ?_⟩
  · rw [h3, List.perm_iff_count]
    intro t
    have := inv.cnt t
    simp only [List.count_append, count_runningTasks]
    omega
  · rw [h3, List.append_assoc]
    exact List.prefix_append _ _

/-- **C23.** When the destructor of a pool with at least one thread has returned, the tasks finished are exactly the tasks
enqueued, each as often as it was enqueued; no task is queued or still running. -/
theorem C23_all_done_at_return (threads : Nat) (hpos : 0 < threads) (prog : List PoolOp) (sched : List PoolStep) (s : Pool)
    (h : (Pool.new threads prog).run sched = some s) (hret : s.main = .returned) :
    s.done.Perm (tasksOf prog) ∧ s.queue = [] ∧ runningTasks s = [] ∧ ∀ w ∈ s.workers, w = .exited := by
  have inv := (Pool.Inv.new threads prog).run h
  obtain ⟨pre, h1, h2⟩ := inv.prog
  rw [hret] at h1
  simp only [Pool.MPhase.remaining, List.append_nil] at h1
  subst h1
  have hall := inv.ret hret
  have hq : s.queue = [] := by
    have hl : 0 < s.workers.length := by rw [inv.len]; exact hpos
    have hm := List.getElem_mem hl
    have he := hall _ hm
    rw [he] at hm
    exact (inv.exited hm).1
  have hr : runningTasks s = [] := by
    unfold runningTasks
    rw [List.filterMap_eq_nil_iff]
    intro w hw
    rw [hall w hw]
  refine ⟨?_, hq, hr, hall⟩
  rw [← enqueued_eq_tasksOf, h2, hq, List.append_nil, List.perm_iff_count]
  intro t
  have := inv.cnt t
  rw [← count_runningTasks, hr] at this
  simp only [List.count_nil] at this
  omega

/-- **C23.** With a single thread tasks finish in the order in which they were enqueued. -/
theorem C23_single_thread_in_order (prog : List PoolOp) (sched : List PoolStep) (s : Pool)
    (h : (Pool.new 1 prog).run sched = some s) : s.done <+: tasksOf prog := by
  have hpre := (C23_each_task_once 1 prog sched s h).2
  -- what is finished is what was started, but for the task being run
  have key : ∀ (ls : List PoolStep) (a b : Pool), a.workers.length = 1 → a.started = a.done ++ runningTasks a →
      a.run ls = some b → b.started = b.done ++ runningTasks b := by
    intro ls
    induction ls with
    | nil => intro a b _ h1 h2; cases h2; exact h1
    | cons l ls ih =>
      intro a b hl h1 h2
      rw [Pool.run] at h2
      split at h2
      · cases h2
      · rename_i a1 ha
        obtain ⟨w, hw⟩ := List.length_eq_one_iff.mp hl
        refine ih a1 b ?_ ?_ h2
        · cases l with
          | worker k =>
            simp only [Pool.step, Pool.stepWorker] at ha
            split at ha
            · split at ha
              · cases ha; simp [hl]
              · cases ha
            · split at ha
              · split at ha <;> (cases ha; simp [hl])
              · cases ha; simp [hl]
            · cases ha; simp [hl]
            · cases ha
            · cases ha
            · cases ha
          | main p =>
            simp only [Pool.step, Pool.stepMain] at ha
            split at ha <;> (repeat' split at ha) <;> first | (cases ha; simp [hl]) | cases ha
          | spurious k =>
            simp only [Pool.step, Pool.stepSpurious] at ha
            split at ha
            · cases ha; simp [hl]
            · cases ha
        · simp only [runningTasks] at h1 ⊢
          cases l with
          | worker k =>
            simp only [Pool.step, Pool.stepWorker] at ha
            cases k with
            | zero =>
              rw [hw] at ha h1
              simp only [List.getElem?_cons_zero] at ha
              cases w with
              | start =>
                simp only at ha
                split at ha
                · cases ha; simpa using h1
                · cases ha
              | crit =>
                simp only at ha
                split at ha
                · split at ha <;> (cases ha; simpa using h1)
                · cases ha; simpa using h1
              | running t => cases ha; simpa using h1
              | waiting => cases ha
              | exited => cases ha
            | succ k =>
              rw [hw] at ha
              simp at ha
          | main p =>
            simp only [Pool.step, Pool.stepMain] at ha
            split at ha
            · split at ha <;> first | (cases ha; exact h1) | cases ha
            · split at ha <;> first | (cases ha; exact h1) | cases ha
            · split at ha <;> first | (cases ha; exact h1) | cases ha
            · cases ha; exact h1
            · split at ha
              · split at ha
                · rename_i hp
                  cases ha
                  rw [hw] at hp h1 ⊢
                  cases p with
                  | zero =>
                    simp only [List.getElem?_cons_zero, Option.some.injEq] at hp
                    subst hp
                    simpa using h1
                  | succ p => simp at hp
                · cases ha
              · cases ha; exact h1
            · cases ha; exact h1
            · cases ha
              rw [hw] at h1 ⊢
              cases w <;> simpa [Pool.wake] using h1
            · repeat' split at ha
              · cases ha; exact h1
              · cases ha
              · cases ha; exact h1
            · cases ha
          | spurious k =>
            simp only [Pool.step, Pool.stepSpurious] at ha
            split at ha
            · rename_i hp
              cases ha
              rw [hw] at hp h1 ⊢
              cases k with
              | zero =>
                simp only [List.getElem?_cons_zero, Option.some.injEq] at hp
                subst hp
                simpa using h1
              | succ p => simp at hp
            · cases ha
  have := key sched (Pool.new 1 prog) s (by simp [Pool.new]) (by simp [Pool.new, runningTasks]) h
  rw [this] at hpre
  exact (List.prefix_append _ _).trans hpre


/-- Runs a pool by always moving the first thread that can. -/
def greedy : Nat → Pool → List PoolStep → List PoolStep
  | 0, _, acc => acc.reverse
  | fuel + 1, s, acc =>
    match ([.main 0, .main 1, .worker 0, .worker 1] : List PoolStep).find? (fun l => (s.step l).isSome) with
    | none => acc.reverse
    | some l => match s.step l with
      | some s1 => greedy fuel s1 (l :: acc)
      | none => acc.reverse

/-- A program with three tasks, one of them awaited. -/
def samplePoolProg : List PoolOp := [.enqueue 7, .enqueue 8, .await 7, .enqueue 9]

example : ((Pool.new 2 samplePoolProg).run (greedy 100 (Pool.new 2 samplePoolProg) [])).map
    (fun s => (s.main, s.done)) = some (.returned, [7, 8, 9]) := by decide +kernel

/-- **C23** needs a thread: a pool of no threads (`num_threads ≤ 0`) returns from its destructor with the tasks unrun. -/
theorem C23_no_threads : ∃ sched s, (Pool.new 0 [.enqueue 7]).run sched = some s ∧ s.main = .returned ∧ s.done = [] :=
  ⟨List.replicate 7 (.main 0), _, rfl, rfl, rfl⟩

/-! ## C24 -/

/-- A program waits only for tasks it has enqueued. -/
def AwaitsOwn (prog : List PoolOp) : Prop :=
  ∀ pre t post, prog = pre ++ .await t :: post → .enqueue t ∈ pre

/-- **C24.** No deadlock: whatever has happened, as long as the destructor has not returned some thread can move (without
relying on spurious wake-ups). -/
theorem C24_no_deadlock (threads : Nat) (hpos : 0 < threads) (prog : List PoolOp) (wf : AwaitsOwn prog)
    (sched : List PoolStep) (s : Pool) (h : (Pool.new threads prog).run sched = some s) (hret : s.main ≠ .returned) :
    ∃ l s', (∀ k, l ≠ .spurious k) ∧ s.step l = some s' := by
  have inv := (Pool.Inv.new threads prog).run h
  -- a worker that runs or holds the lock can move
  have hrun : ∀ (k t : Nat), s.workers[k]? = some (WPhase.running t) → ∃ l s', (∀ k, l ≠ .spurious k) ∧ s.step l = some s' := by
    intro k t hk
    refine ⟨.worker k, ?_⟩
    simp only [Pool.step, Pool.stepWorker, hk]
    exact ⟨_, by simp, rfl⟩
  have hcrit : ∀ k : Nat, s.workers[k]? = some WPhase.crit → ∃ l s', (∀ k, l ≠ .spurious k) ∧ s.step l = some s' := by
    intro k hk
    refine ⟨.worker k, ?_⟩
    simp only [Pool.step, Pool.stepWorker, hk]
    cases s.queue with
    | nil => cases s.shutdown <;> exact ⟨_, by simp, rfl⟩
    | cons t q => exact ⟨_, by simp, rfl⟩
  -- if the lock is not held by the owning thread, a worker wanting it can move, or the holder can
  have hstart : Pool.MPhase.locks s.main = false → ∀ k : Nat, s.workers[k]? = some WPhase.start →
      ∃ l s', (∀ k, l ≠ .spurious k) ∧ s.step l = some s' := by
    intro hm k hk
    cases hmu : s.mutex with
    | none =>
      refine ⟨.worker k, ?_⟩
      simp only [Pool.step, Pool.stepWorker, hk, hmu, if_true]
      exact ⟨_, by simp, rfl⟩
    | some o =>
      cases o with
      | main =>
        have := inv.lockM.mp hmu
        rw [hm] at this
        cases this
      | worker j => exact hcrit j ((inv.lockW j).mp hmu)
  have hlock : ∀ b, (s.mutex = none → ∃ s', s.stepMain 0 = some s') → Pool.MPhase.locks s.main = b → b = false →
      ∃ l s', (∀ k, l ≠ .spurious k) ∧ s.step l = some s' := by
    intro b h1 h2 h3
    subst h3
    cases hmu : s.mutex with
    | none =>
      obtain ⟨s', hs⟩ := h1 hmu
      exact ⟨.main 0, s', by simp, hs⟩
    | some o =>
      cases o with
      | main =>
        have := inv.lockM.mp hmu
        rw [h2] at this
        cases this
      | worker j => exact hcrit j ((inv.lockW j).mp hmu)
  -- a worker that is neither waiting nor gone gives a move
  have hlive : Pool.MPhase.locks s.main = false → ∀ w ∈ s.workers, w ≠ .waiting → w ≠ .exited →
      ∃ l s', (∀ k, l ≠ .spurious k) ∧ s.step l = some s' := by
    intro hm w hw h1 h2
    obtain ⟨k, hk⟩ := List.getElem?_of_mem hw
    cases w with
    | start => exact hstart hm k hk
    | crit => exact hcrit k hk
    | waiting => exact absurd rfl h1
    | running t => exact hrun k t hk
    | exited => exact absurd rfl h2
  cases hmain : s.main with
  | ops r =>
    cases r with
    | nil =>
      refine hlock false ?_ (by rw [hmain]; rfl) rfl
      intro hmu
      simp only [Pool.stepMain, hmain, hmu, if_true]; exact ⟨_, rfl⟩
    | cons o r =>
      cases o with
      | enqueue t =>
        refine hlock false ?_ (by rw [hmain]; rfl) rfl
        intro hmu
        simp only [Pool.stepMain, hmain, hmu, if_true]; exact ⟨_, rfl⟩
      | await t =>
        by_cases hd : t ∈ s.done
        · refine ⟨.main 0, ?_⟩; simp only [Pool.step, Pool.stepMain, hmain, hd, if_true]; exact ⟨_, by simp, rfl⟩
        · obtain ⟨pre, h1, h2⟩ := inv.prog
          rw [hmain] at h1
          have he := mem_enqueued.mpr (wf pre t r h1)
          rw [h2, List.mem_append] at he
          have hm : Pool.MPhase.locks s.main = false := by rw [hmain]; rfl
          have hnotrun : s.shutdown = false := by rw [inv.closed, hmain]; rfl
          rcases he with he | he
          · -- started but not done: some worker runs it
            have hc := inv.cnt t
            have h3 : 0 < s.started.count t := List.count_pos_iff.mpr he
            have h4 : s.done.count t = 0 := List.count_eq_zero.mpr hd
            have h5 : 0 < s.workers.countP (· == .running t) := by omega
            obtain ⟨w, hw, hwt⟩ := List.countP_pos_iff.mp h5
            obtain ⟨k, hk⟩ := List.getElem?_of_mem hw
            have : w = .running t := by simpa using hwt
            subst this
            exact hrun k t hk
          · have hq : s.queue ≠ [] := List.ne_nil_of_mem he
            rcases inv.wake hq hpos with ⟨w, hw, hne⟩ | ⟨r', hr'⟩
            · refine hlive hm w hw hne ?_
              rintro rfl
              exact hq (inv.exited hw).1
            · rw [hmain] at hr'; cases hr'
  | pushing t r => refine ⟨.main 0, ?_⟩; simp only [Pool.step, Pool.stepMain, hmain]; exact ⟨_, by simp, rfl⟩
  | notifying r =>
    by_cases hw : WPhase.waiting ∈ s.workers
    · obtain ⟨k, hk⟩ := List.getElem?_of_mem hw
      refine ⟨.main k, ?_⟩; simp only [Pool.step, Pool.stepMain, hmain, hw, hk, if_true]; exact ⟨_, by simp, rfl⟩
    · refine ⟨.main 0, ?_⟩; simp only [Pool.step, Pool.stepMain, hmain, hw, if_false]; exact ⟨_, by simp, rfl⟩
  | closing => refine ⟨.main 0, ?_⟩; simp only [Pool.step, Pool.stepMain, hmain]; exact ⟨_, by simp, rfl⟩
  | notifyingAll => refine ⟨.main 0, ?_⟩; simp only [Pool.step, Pool.stepMain, hmain]; exact ⟨_, by simp, rfl⟩
  | joining i =>
    have hm : Pool.MPhase.locks s.main = false := by rw [hmain]; rfl
    by_cases hi : i < s.workers.length
    · by_cases he : s.workers[i]? = some .exited
      · refine ⟨.main 0, ?_⟩; simp only [Pool.step, Pool.stepMain, hmain, hi, he, if_true]; exact ⟨_, by simp, rfl⟩
      · refine hlive hm s.workers[i] (List.getElem_mem hi) ?_ ?_
        · intro hw
          exact inv.awake (.inr ⟨i, hmain⟩) (hw ▸ List.getElem_mem hi)
        · intro hx
          exact he (by rw [List.getElem?_eq_getElem hi, hx])
    · refine ⟨.main 0, ?_⟩; simp only [Pool.step, Pool.stepMain, hmain, hi, if_false]; exact ⟨_, by simp, rfl⟩
  | returned => exact absurd hmain hret

/-- The number of spurious wake-ups in a schedule. -/
def spuriousCount (sched : List PoolStep) : Nat :=
  sched.countP (fun l => match l with
    | .spurious _ => true
    | _ => false)

/-- **C24.** Termination: with `n` threads and a program of `m` operations no run is longer than
`8 * m + 5 * n + 5` steps, plus three for each spurious wake-up.  So every run with finitely many spurious
wake-ups ends, and with `C24_no_deadlock` it ends with the destructor returned. -/
theorem C24_terminates (threads : Nat) (prog : List PoolOp) (sched : List PoolStep) (s : Pool)
    (h : (Pool.new threads prog).run sched = some s) :
    sched.length ≤ 8 * prog.length + 5 * threads + 5 + 3 * spuriousCount sched := by
  have key : ∀ (ls : List PoolStep) (a b : Pool), a.run ls = some b →
      Pool.measure b + ls.length ≤ Pool.measure a + 3 * spuriousCount ls := by
    intro ls
    induction ls with
    | nil => intro a b h; cases h; simp [spuriousCount]
    | cons l ls ih =>
      intro a b h
      rw [Pool.run] at h
      split at h
      · cases h
      · rename_i a1 ha
        have h1 := ih a1 b h
        cases l with
        | worker k =>
          have := Pool.measure_worker ha
          have e : spuriousCount (PoolStep.worker k :: ls) = spuriousCount ls := by simp [spuriousCount]
          rw [e, List.length_cons]
          omega
        | main p =>
          have := Pool.measure_main ha
          have e : spuriousCount (PoolStep.main p :: ls) = spuriousCount ls := by simp [spuriousCount]
          rw [e, List.length_cons]
          omega
        | spurious k =>
          have := Pool.measure_spurious ha
          have e : spuriousCount (PoolStep.spurious k :: ls) = spuriousCount ls + 1 := by simp [spuriousCount]
          rw [e, List.length_cons]
          omega
  have h1 := key sched _ s h
  have h2 : Pool.opWeight prog ≤ 8 * prog.length := by
    clear h h1
    induction prog with
    | nil => simp [Pool.opWeight]
    | cons o l ih => cases o <;> simp only [Pool.opWeight, List.length_cons] <;> omega
  have h3 : Pool.measure (Pool.new threads prog) = Pool.opWeight prog + (3 * threads + 5) + 2 * threads := by
    simp [Pool.measure, Pool.new, Pool.mainWeight, Pool.weight, Nat.mul_comm]
  omega

example : AwaitsOwn samplePoolProg := by
  intro pre t post h
  rcases pre with _ | ⟨a, _ | ⟨b, _ | ⟨c, _ | ⟨d, _ | ⟨e, pre⟩⟩⟩⟩⟩ <;> simp_all [samplePoolProg]
  obtain ⟨rfl, rfl, rfl, rfl⟩ := h
  simp

/-- Two workers fall asleep, a task is enqueued, the wrong one wakes up spuriously and takes it: nothing is lost. -/
example : ((Pool.new 2 [.enqueue 7]).run
    [.worker 0, .worker 0, .worker 1, .worker 1, .main 0, .main 0, .spurious 1, .main 0, .worker 1, .worker 1, .worker 0,
     .worker 0, .worker 1, .main 0, .main 0, .main 0, .worker 0, .worker 0, .worker 1, .worker 1, .main 0, .main 0,
     .main 0]).map (fun s => (s.main, s.done)) = some (.returned, [7]) := by decide +kernel

end Gbdt
