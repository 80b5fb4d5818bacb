import Verif.Model.Tasks

/-!
# Specification: a pool at work gives one result, whatever the schedule
-/

set_option autoImplicit false

namespace Gbdt

variable {L : Type} {V : L → Type} [DecidableEq L]

/-- Two threads are about to access cell `l`, and one of them writes. -/
def DataRaceOn (s : Work L V) (l : L) : Prop :=
  ∃ (k k' t t' : Nat), k ≠ k' ∧ s.pool.workers[k]? = some (WPhase.running t) ∧
    s.pool.workers[k']? = some (WPhase.running t') ∧ (s.tasks t).writes = some l ∧
    ((s.tasks t').reads = some l ∨ (s.tasks t').writes = some l)

/-- Two threads are about to access the same cell, and one of them writes. -/
def DataRace (s : Work L V) : Prop := ∃ l, DataRaceOn s l

/-- A running task has done something undefined, or aborts. -/
def TaskCrashed (s : Work L V) : Prop :=
  ∃ (k t : Nat), s.pool.workers[k]? = some (WPhase.running t) ∧ (s.tasks t = .out .ub ∨ s.tasks t = .out .fatal)

/-- The spurious wake-ups of a schedule. -/
def wakeUps (ls : List WorkStep) : Nat :=
  ls.countP (fun l => match l with
    | .pool (.spurious _) => true
    | _ => false)

/-- Whatever the schedule, the pool goes from this state to its end without data races or crashes, and memory then is
`result`. -/
structure EverySchedule (start : Work L V) (result : ∀ l, V l) : Prop where
  no_race : ∀ ls s, start.run ls = some s → ¬ DataRace s
  no_crash : ∀ ls s, start.run ls = some s → ¬ TaskCrashed s
  no_deadlock : ∀ ls s, start.run ls = some s → s.pool.main ≠ .returned →
    ∃ l s', (∀ k, l ≠ .pool (.spurious k)) ∧ s.step l = some s'
  ends : ∃ bound, ∀ ls s, start.run ls = some s → ls.length ≤ bound + 3 * wakeUps ls
  result : ∀ ls s, start.run ls = some s → s.pool.main = .returned → s.mem = result

end Gbdt
