/-!
# Outcomes and status codes

Vocabulary shared by all parts of the model.  Nothing here is specific to one file of `/repo`.
-/

set_option autoImplicit false

namespace Gbdt

/-- The outcome of running a piece of C++ code.
`ok a`: it returned `a`.  `ub`: it executed undefined behaviour (out-of-bounds access, division by zero,
null or dangling dereference, invalid conversion).  `fatal`: a `CHECK`/`LOG(FATAL)` aborted the process.
(Used for every function of `/repo/src` in which such an outcome is possible.) -/
inductive Outcome (α : Type) where
  | ok (a : α)
  | ub
  | fatal
  deriving Repr, DecidableEq

namespace Outcome

/-- Sequencing: undefined behaviour and aborts end the run (C++ statement sequencing). -/
def bind {α β : Type} (x : Outcome α) (f : α → Outcome β) : Outcome β :=
  match x with
  | ok a => f a
  | ub => ub
  | fatal => fatal

instance : Monad Outcome where
  pure := ok
  bind := bind

@[simp] theorem pure_eq {α : Type} (a : α) : (pure a : Outcome α) = ok a := rfl
@[simp] theorem ok_bind {α β : Type} (a : α) (f : α → Outcome β) : (ok a >>= f) = f a := rfl
@[simp] theorem ub_bind {α β : Type} (f : α → Outcome β) : ((ub : Outcome α) >>= f) = ub := rfl
@[simp] theorem fatal_bind {α β : Type} (f : α → Outcome β) : ((fatal : Outcome α) >>= f) = fatal := rfl

theorem bind_eq_ok {α β : Type} {x : Outcome α} {f : α → Outcome β} {b : β} :
    (x >>= f) = ok b ↔ ∃ a, x = ok a ∧ f a = ok b := by
  cases x with
  | ok a => simp
  | ub => simp
  | fatal => simp

instance : LawfulMonad Outcome := LawfulMonad.mk'
  (id_map := by intro α x; cases x <;> rfl)
  (pure_bind := by intros; rfl)
  (bind_assoc := by intro α β γ x f g; cases x <;> rfl)
  (bind_pure_comp := by intro α β f x; cases x <;> rfl)

/-- Reading `v[i]` of a `std::vector`: undefined behaviour when `i` is out of bounds. -/
def vecGet {α : Type} (l : List α) (i : Nat) : Outcome α :=
  match l[i]? with
  | some a => ok a
  | none => ub

theorem vecGet_eq_ok {α : Type} {l : List α} {i : Nat} {a : α} : vecGet l i = ok a ↔ l[i]? = some a := by
  unfold vecGet; split <;> simp_all

theorem vecGet_lt {α : Type} {l : List α} {i : Nat} (h : i < l.length) : vecGet l i = ok l[i] := by
  simp [vecGet, h]

end Outcome

/-- The codes of `google::protobuf::error::Code` that occur in `/repo/src`
(`google/protobuf/stubs/status.h`, used through `src/base/base.h:23-28`). -/
inductive Code where
  | ok
  | invalidArgument
  | notFound
  | alreadyExists
  | failedPrecondition
  | aborted
  | outOfRange
  | internal
  deriving Repr, DecidableEq

/-- Conversion to a 32-bit unsigned integer (`uint`, `src/base/base.h:38`). -/
def u32 (n : Nat) : Nat := n % 4294967296

/-- Conversion of a signed integer to a 64-bit unsigned one (`size_t`, `unsigned long`, `uint64`). -/
def u64 (z : Int) : Nat := (z % 18446744073709551616).toNat

end Gbdt
