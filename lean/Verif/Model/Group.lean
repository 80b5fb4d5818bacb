import Verif.Model.Subsampling
import Verif.Model.StringColumn

/-!
# Model of `Group` (`src/loss_func/group.h`, `group.cc`)

Targets and function values are kept as `D`; a `float` is converted to `double` without change.
-/

set_option autoImplicit false

namespace Gbdt

/-- `Group` (`group.h:58-68`).  `pairMap` is the ordered map: (key, (number of rows in the block, start of the negatives)),
by increasing key.  The targets are passed separately. -/
structure Group where
  rows : List Nat
  ranks : List Nat
  numPairs : Nat
  pairMap : List (Nat × Nat × Nat)
  deriving Repr, DecidableEq

/-- `map::insert` (`group.cc:42`): keeps the keys in order and does not replace an entry. -/
def pairMapInsert (k : Nat) (v : Nat × Nat) : List (Nat × Nat × Nat) → List (Nat × Nat × Nat)
  | [] => [(k, v)]
  | e :: rest =>
    if k < e.1 then (k, v) :: e :: rest
    else if k = e.1 then e :: rest
    else e :: pairMapInsert k v rest

section group
variable {D : Type} [Dbl D]

/-- The loop that looks for changes of the target (`group.cc:37-45`): `prev` is `group_[i - 1]`, the list holds
`group_[i], ...`, `n` is the size of the group. -/
def blockLoop (y : Nat → D) (n : Nat) : Nat → Nat → Nat → List Nat → Nat → List (Nat × Nat × Nat) →
    Nat × List (Nat × Nat × Nat)
  | _, _, _, [], numPairs, m => (numPairs, m)
  | last, i, prev, r :: rest, numPairs, m =>
    if Dbl.eqb (y prev) (y r) then blockLoop y n last (i + 1) r rest numPairs m
    else
      let block := i - last
      let numPairs1 := numPairs + block * (n - i)
      blockLoop y n i (i + 1) r rest numPairs1 (pairMapInsert numPairs1 (block, i) m)

/-- `std::sort` by decreasing key (`group.cc:27-28, 56-57`): any rearrangement in which no element comes before one with a
larger key. -/
def DescSortSpec (sort : (Nat → D) → List Nat → List Nat) : Prop :=
  ∀ key l, (sort key l).Perm l ∧ (sort key l).Pairwise (fun a b => Dbl.ltb (key a) (key b) = false)

/-- `std::sort` with the comparison `key(i) > key(j)`.  With a NaN among the keys that need not be a strict weak ordering,
which is undefined behaviour; it is taken as undefined whenever there is a NaN. -/
def sortDesc (sort : (Nat → D) → List Nat → List Nat) (key : Nat → D) (l : List Nat) : Outcome (List Nat) :=
  if l.any (fun i => !Dbl.eqb (key i) (key i)) then .ub else .ok (sort key l)

/-- `Group::Group` (`group.cc:25-46`). -/
def mkGroup (sort : (Nat → D) → List Nat → List Nat) (y : Nat → D) (group : List Nat) : Outcome Group := do
  let rows ← sortDesc sort y group
  let (numPairs, m) := match rows with
    | [] => (0, [])
    | r :: rest => blockLoop y rows.length 0 1 r rest 0 []
  pure { rows := rows, ranks := List.range rows.length, numPairs := numPairs, pairMap := m }

/-- The assignments `ranks_[ranking[i]] = i` (`group.cc:59-61`). -/
def assignRanks : Nat → List Nat → List Nat → Outcome (List Nat)
  | _, [], ranks => .ok ranks
  | i, r :: ranking, ranks =>
    if r < ranks.length then assignRanks (i + 1) ranking (ranks.set r i) else .ub

/-- Reading one value per position: `f[group_[i]]` for all `i` (`group.cc:57`). -/
def groupValues (f : List D) (rows : List Nat) : Outcome (List D) := rows.mapM (fun r => Outcome.vecGet f r)

/-- The key by which positions are sorted, `f[group_[i]]` (`group.cc:57`).  Only positions of the group are sorted, so the
other case does not arise. -/
def positionKey (values : List D) (i : Nat) : D :=
  match values[i]? with
  | some v => v
  | none => 0

/-- `Group::Rerank` (`group.cc:48-62`).  All values are read before sorting. -/
def rerank (sort : (Nat → D) → List Nat → List Nat) (f : List D) (g : Group) : Outcome Group := do
  let values ← groupValues f g.rows
  let ranking ← sortDesc sort (positionKey values) (List.range g.rows.length)
  let ranks ← assignRanks 0 ranking g.ranks
  pure { g with ranks := ranks }

end group

/-- `SamplePair` for a given random index (`group.cc:68-75`).  Dereferencing `end()` is undefined. -/
def pairAt (g : Group) (index : Nat) : Outcome (Nat × Nat) :=
  match g.pairMap.find? (fun e => decide (index + 1 ≤ e.1)) with
  | none => .ub
  | some (key, block, start) =>
    let local_ := key - index - 1
    .ok (start - 1 - local_ % block, start + local_ / block)

end Gbdt
