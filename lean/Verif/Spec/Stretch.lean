import Verif.Model.Train

/-!
# Specification: runs whose numbers correspond

Gradients, hessians, gains and scores of one run of training correspond to those of another by four functions.
-/

set_option autoImplicit false

namespace Gbdt

/-- How gradients, hessians, gains and scores of one run become those of another. -/
structure Stretch (D : Type) where
  grad : D → D
  hess : D → D
  gain : D → D
  score : D → D

/-- The four functions go with the operations that training uses. -/
structure Stretch.Ok {D : Type} [Dbl D] (m : Stretch D) : Prop where
  grad_zero : m.grad 0 = 0
  grad_add : ∀ a b, m.grad (a + b) = m.grad a + m.grad b
  grad_sub : ∀ a b, m.grad (a - b) = m.grad a - m.grad b
  grad_eq : ∀ a, Dbl.eqb (m.grad a) 0 = Dbl.eqb a 0
  hess_zero : m.hess 0 = 0
  hess_add : ∀ a b, m.hess (a + b) = m.hess a + m.hess b
  hess_sub : ∀ a b, m.hess (a - b) = m.hess a - m.hess b
  hess_eq : ∀ a, Dbl.eqb (m.hess a) 0 = Dbl.eqb a 0
  hess_lt : ∀ a b, Dbl.ltb (m.hess a) (m.hess b) = Dbl.ltb a b
  gain_zero : m.gain 0 = 0
  gain_add : ∀ a b, m.gain (a + b) = m.gain a + m.gain b
  gain_sub : ∀ a b, m.gain (a - b) = m.gain a - m.gain b
  gain_lt : ∀ a b, Dbl.ltb (m.gain a) (m.gain b) = Dbl.ltb a b
  energy : ∀ g h, Dbl.eqb h 0 = false → m.grad g * m.grad g / m.hess h = m.gain (g * g / h)
  newton : ∀ g h, Dbl.eqb h 0 = false → m.grad g / m.hess h = m.score (g / h)
  score_zero : m.score 0 = 0
  score_add : ∀ a b, m.score (a + b) = m.score a + m.score b
  score_mul : ∀ a b, m.score (a * b) = m.score a * b

/-- A tree with its scores and gains replaced. -/
def Stretch.tree {D A : Type} (m : Stretch D) : Tree D A → Tree D A
  | .absent => .absent
  | .node score split left right =>
    .node (m.score score) (split.map (fun s => { s with gain := m.gain s.gain })) (m.tree left) (m.tree right)

end Gbdt
