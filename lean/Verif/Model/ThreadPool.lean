/-!
# Model of `ThreadPool`

A transition system: the thread that owns the pool, the worker threads, the mutex, the condition variable with spurious
wake-ups.  Every function below is a partial step: `none` means that the thread cannot move (it waits for the mutex, a
wake-up, a future or a join).  Tasks are shown by numbers; what a task does is not modelled here, only that it takes a
step to finish.
-/

set_option autoImplicit false

namespace Gbdt

/-- Where a worker is in `Invoke` (`threadpool.cc:37-62`): before taking the lock (at the top of the loop, or woken up inside
`wait`), holding the lock, blocked in `wait`, running a task, returned. -/
inductive WPhase where
  | start
  | crit
  | waiting
  | running (task : Nat)
  | exited
  deriving Repr, DecidableEq

/-- What the owning thread does with the pool before destroying it: `Enqueue`, or waiting until a task is done through a
future the task sets (`tsv_data_store.cc:80-84`, `tsv_block.cc:31-36`). -/
inductive PoolOp where
  | enqueue (task : Nat)
  | await (task : Nat)
  deriving Repr, DecidableEq

/-- Where the owning thread is: between two calls, in `Enqueue` holding the lock, in `Enqueue` before `notify_one`
(`threadpool.cc:27-35`), in `ShutDown` holding the lock, before `notify_all`, joining the `i`-th thread
(`threadpool.cc:64-78`), returned from the destructor (`threadpool.cc:80-82`). -/
inductive MPhase where
  | ops (rest : List PoolOp)
  | pushing (task : Nat) (rest : List PoolOp)
  | notifying (rest : List PoolOp)
  | closing
  | notifyingAll
  | joining (i : Nat)
  | returned
  deriving Repr, DecidableEq

/-- The holder of `queue_mutex_`. -/
inductive Owner where
  | main
  | worker (k : Nat)
  deriving Repr, DecidableEq

/-- The pool (`threadpool.h:36-46`).  `started` and `done` record the tasks taken from the queue and the tasks finished;
the code has no such members. -/
structure Pool where
  queue : List Nat := []
  shutdown : Bool := false
  mutex : Option Owner := none
  workers : List WPhase
  main : MPhase
  started : List Nat := []
  done : List Nat := []
  deriving Repr, DecidableEq

namespace Pool

/-- After the constructor (`threadpool.cc:20-25`). -/
def new (threads : Nat) (prog : List PoolOp) : Pool :=
  { workers := List.replicate threads .start, main := .ops prog }

/-- One step of worker `k` (`threadpool.cc:37-62`). -/
def stepWorker (s : Pool) (k : Nat) : Option Pool :=
  match s.workers[k]? with
  | some .start =>
    if s.mutex = none then some { s with mutex := some (.worker k), workers := s.workers.set k .crit } else none
  | some .crit =>
    match s.queue with
    | [] =>
      if s.shutdown then some { s with mutex := none, workers := s.workers.set k .exited }
      else some { s with mutex := none, workers := s.workers.set k .waiting }
    | t :: q =>
      some { s with mutex := none, queue := q, started := s.started ++ [t], workers := s.workers.set k (.running t) }
  | some (.running t) => some { s with done := s.done ++ [t], workers := s.workers.set k .start }
  | some .waiting => none
  | some .exited => none
  | none => none

/-- `notify_all` (`threadpool.cc:72`). -/
def wake : WPhase → WPhase
  | .waiting => .start
  | w => w

/-- One step of the owning thread (`threadpool.cc:27-35, 64-82`).  `pick` is the thread that `notify_one` wakes up, which
must be waiting if any is. -/
def stepMain (s : Pool) (pick : Nat) : Option Pool :=
  match s.main with
  | .ops (.enqueue t :: rest) =>
    if s.mutex = none then some { s with mutex := some .main, main := .pushing t rest } else none
  | .ops (.await t :: rest) => if t ∈ s.done then some { s with main := .ops rest } else none
  | .ops [] => if s.mutex = none then some { s with mutex := some .main, main := .closing } else none
  | .pushing t rest => some { s with queue := s.queue ++ [t], mutex := none, main := .notifying rest }
  | .notifying rest =>
    if WPhase.waiting ∈ s.workers then
      if s.workers[pick]? = some .waiting then
        some { s with workers := s.workers.set pick .start, main := .ops rest }
      else none
    else some { s with main := .ops rest }
  | .closing => some { s with shutdown := true, mutex := none, main := .notifyingAll }
  | .notifyingAll => some { s with workers := s.workers.map wake, main := .joining 0 }
  | .joining i =>
    if i < s.workers.length then
      if s.workers[i]? = some .exited then some { s with main := .joining (i + 1) } else none
    else some { s with main := .returned }
  | .returned => none

/-- A spurious wake-up of worker `k` inside `wait` (`threadpool.cc:46`). -/
def stepSpurious (s : Pool) (k : Nat) : Option Pool :=
  if s.workers[k]? = some .waiting then some { s with workers := s.workers.set k .start } else none

end Pool

/-- The choice the scheduler makes at each step. -/
inductive PoolStep where
  | worker (k : Nat)
  | main (pick : Nat)
  | spurious (k : Nat)
  deriving Repr, DecidableEq

/-- One step of the system. -/
def Pool.step (s : Pool) : PoolStep → Option Pool
  | .worker k => s.stepWorker k
  | .main pick => s.stepMain pick
  | .spurious k => s.stepSpurious k

/-- A run of the system under a schedule; `none` if the schedule picks a thread that cannot move. -/
def Pool.run (s : Pool) : List PoolStep → Option Pool
  | [] => some s
  | l :: ls => match s.step l with
    | none => none
    | some s1 => s1.run ls

end Gbdt
