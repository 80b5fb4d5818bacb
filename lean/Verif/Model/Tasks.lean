import Verif.Model.ThreadPool
import Verif.Model.Pointwise

/-!
# Tasks as programs that access memory

The tasks that training hands to a `ThreadPool`, with the accesses to shared memory that they make, one by one.  Memory is
a function from cells to values.  What no thread changes while a pool is at work (columns, weights, targets, gradients that
are only summed, the tree that is scored) is not in memory: programs use it directly.

Memory is sequentially consistent here: accesses of all threads happen in one order.  C++ promises that for programs without
data races, and that there are none is part of C25.
-/

set_option autoImplicit false

namespace Gbdt

/-- A program over memory with cells `L` and values `V l`: it ends (with a result, or crashes), reads a cell and goes on with
what it read, or writes a cell and goes on. -/
inductive Prog (L : Type) (V : L → Type) (α : Type) where
  | out (r : Outcome α)
  | read (l : L) (k : V l → Prog L V α)
  | write (l : L) (v : V l) (k : Prog L V α)

namespace Prog

variable {L : Type} {V : L → Type} {α β : Type}

/-- One program after the other. -/
def bind : Prog L V α → (α → Prog L V β) → Prog L V β
  | .out (.ok a), f => f a
  | .out .ub, _ => .out .ub
  | .out .fatal, _ => .out .fatal
  | .read l k, f => .read l (fun v => (k v).bind f)
  | .write l v k, f => .write l v (k.bind f)

variable [DecidableEq L]

/-- Running a program to its end with nobody else accessing memory. -/
def run : Prog L V α → (∀ l, V l) → Outcome (α × (∀ l, V l))
  | .out (.ok a), m => .ok (a, m)
  | .out .ub, _ => .ub
  | .out .fatal, _ => .fatal
  | .read l k, m => (k (m l)).run m
  | .write l v k, m => k.run (Function.update m l v)

/-- One access of a program: what is left of it, and memory.  `none` if it has ended. -/
def step : Prog L V α → (∀ l, V l) → Option (Prog L V α × (∀ l, V l))
  | .out _, _ => none
  | .read l k, m => some (k (m l), m)
  | .write l v k, m => some (k, Function.update m l v)

/-- The cell that the next access reads, if it reads. -/
def reads : Prog L V α → Option L
  | .read l _ => some l
  | _ => none

/-- The cell that the next access writes, if it writes. -/
def writes : Prog L V α → Option L
  | .write l _ _ => some l
  | _ => none

end Prog

/-- A pool at work: the pool (`Model/ThreadPool.lean`), what is left of each task, and memory. -/
structure Work (L : Type) (V : L → Type) where
  pool : Pool
  tasks : Nat → Prog L V Unit
  mem : ∀ l, V l

/-- The choice of the scheduler: a step of the pool, or one memory access of the task that worker `k` runs. -/
inductive WorkStep where
  | pool (l : PoolStep)
  | access (k : Nat)

section work
variable {L : Type} {V : L → Type} [DecidableEq L]

/-- Whether a step of the pool ends a task that has not come to its end. -/
def endsEarly (s : Work L V) : PoolStep → Bool
  | .worker k => match s.pool.workers[k]? with
    | some (.running t) => match s.tasks t with
      | .out (.ok _) => false
      | _ => true
    | _ => false
  | _ => false

/-- One step of a pool at work (`threadpool.cc:60`: a task is done when its function returns). -/
def Work.step (s : Work L V) : WorkStep → Option (Work L V)
  | .pool l => if endsEarly s l then none else match s.pool.step l with
    | none => none
    | some p => some { s with pool := p }
  | .access k => match s.pool.workers[k]? with
    | some (.running t) => match (s.tasks t).step s.mem with
      | none => none
      | some (q, m) => some { s with tasks := Function.update s.tasks t q, mem := m }
    | _ => none

/-- A run under a schedule. -/
def Work.run (s : Work L V) : List WorkStep → Option (Work L V)
  | [] => some s
  | l :: ls => match s.step l with
    | none => none
    | some s1 => s1.run ls

/-- Before the first task is enqueued: `n` tasks for a pool of `threads` threads, to be enqueued in order. -/
def Work.new (threads n : Nat) (tasks : Nat → Prog L V Unit) (mem : ∀ l, V l) : Work L V :=
  { pool := Pool.new threads ((List.range n).map PoolOp.enqueue), tasks := tasks, mem := mem }

end work

/-! ## Scoring a tree (`compute_tree_scores.cc:32-64`) -/

/-- Shared memory: the samples of each slice (a part of `allsamples_`), and the scores. -/
inductive ScoreCell where
  | slice (k : Nat)
  | score (i : Nat)
  deriving DecidableEq

/-- What a cell holds. -/
abbrev ScoreVal (D : Type) : ScoreCell → Type
  | .slice _ => List Nat
  | .score _ => D

section scoring
variable {D A : Type} [Dbl D] [LinearOrder A]

/-- `(*scores)[index] += x` for each of the samples (`compute_tree_scores.cc:45-47`), with `n` scores. -/
def addAllProg (n : Nat) (x : D) : List Nat → Prog ScoreCell (ScoreVal D) Unit
  | [] => .out (.ok ())
  | i :: rest =>
    if i < n then .read (.score i) (fun (old : D) => .write (.score i) (old + x : D) (addAllProg n x rest))
    else .out .ub

/-- `AddSampleTreeScores` (`compute_tree_scores.cc:32-49`) on the samples it is given; the result is the order in which
`Partition` leaves them. -/
def addSampleProg (columns : String → Option (Column A)) (constant : D) (n : Nat) :
    Tree D A → List Nat → Prog ScoreCell (ScoreVal D) (List Nat)
  | .absent, samples => (addAllProg n (0 + constant) samples).bind (fun _ => .out (.ok samples))
  | .node score split left right, samples =>
    if left.isSet then
      match columns ((Tree.node score split left right).splitOf.feature) with
      | none => .out .fatal
      | some c => (Prog.out (partition c (Tree.node score split left right).splitOf samples)).bind fun x =>
        (addSampleProg columns constant n left x.1).bind fun ls =>
          (addSampleProg columns constant n right x.2).bind fun rs => .out (.ok (ls ++ rs))
    else (addAllProg n (score + constant) samples).bind (fun _ => .out (.ok samples))

/-- The task for slice `k` (`compute_tree_scores.cc:61-63`).  The slice is read once and written back once; in the code
`Partition` moves its elements in place, and nothing else touches them. -/
def scoreTask (columns : String → Option (Column A)) (t : Tree D A) (constant : D) (n k : Nat) :
    Prog ScoreCell (ScoreVal D) Unit :=
  .read (.slice k) (fun (samples : List Nat) => (addSampleProg columns constant n t samples).bind (fun out =>
    .write (.slice k) (out : List Nat) (.out (.ok ()))))

/-- Memory with the slices and scores of the sequential model. -/
def scoreMem (slices : List (List Nat)) (scores : List D) : ∀ l, ScoreVal D l
  | .slice k => (slices.getD k [] : List Nat)
  | .score i => (scores.getD i 0 : D)

end scoring

/-! ## Summing gradients (`tree_algo.cc:43-62`) -/

/-- `total += w(index) * gradient_data_vec[index]` for each sample of slice `j` (`tree_algo.cc:53-57`); cell `j` is
`totals[j]`. -/
def sumTask {D : Type} [Dbl D] (w : Nat → D) (grads : List (GD D)) (j : Nat) : List Nat → Prog Nat (fun _ => GD D) Unit
  | [] => .out (.ok ())
  | i :: rest => match grads[i]? with
    | none => .out .ub
    | some d => .read j (fun total => .write j (total.add (d.scale (w i))) (sumTask w grads j rest))

/-! ## Gradients of a pointwise loss (`loss_func_pointwise.cc:64-82`) -/

/-- Shared memory: the gradients and the totals of the slices. -/
inductive GradCell where
  | grad (i : Nat)
  | total (j : Nat)
  deriving DecidableEq

/-- The task for slice `j` (`loss_func_pointwise.cc:69-80`), from row `i` for `left` rows; `n` gradients.  `*c` is only
written between the pools (`loss_func_pointwise.cc:85`).  The sum of the loss is not modelled. -/
def pointTask {D : Type} [Dbl D] (e : PointLoss D) (f : List D) (c : D) (n j : Nat) :
    Nat → Nat → Prog GradCell (fun _ => GD D) Unit
  | 0, _ => .out (.ok ())
  | left + 1, i => match f[i]? with
    | none => .out .ub
    | some fi =>
      if i < n then
        .write (.grad i) ⟨(e.lossFn (e.y i) (fi + c)).2.1, (e.lossFn (e.y i) (fi + c)).2.2⟩
          (.read (.total j) (fun total => .read (.grad i) (fun d =>
            .write (.total j) (total.add (d.scale (e.w i))) (pointTask e f c n j left (i + 1)))))
      else .out .ub

/-- Memory with the gradients and totals of the sequential model. -/
def gradMem {D : Type} [Dbl D] (grads totals : List (GD D)) : GradCell → GD D
  | .grad i => grads.getD i GD.zero
  | .total j => totals.getD j GD.zero

/-! ## Splits of the features (`tree_algo.cc:83-94`) -/

/-- What the task for feature `j` computes (`tree_algo.cc:90-91`); an empty split has gain 0. -/
def featureSplit {D A : Type} [Dbl D] [LinearOrder A] [ThrOps A] (env : FitEnv D A) (cfg : FitConfig D) (samples : List Nat)
    (total : GD D) (j : Nat) : Outcome (Split D A) := do
  let f ← Outcome.vecGet env.features j
  let s ← findBestSplit env.sort f.2 env.w env.grads samples cfg.toSplitConfig total
  pure (s.getD { gain := 0 })

/-- The task for the `i`-th chosen feature (`tree_algo.cc:89-92`): cell `i` is `splits[i]`. -/
def splitTask {β : Type} (find : Nat → Outcome β) (chosen : List Nat) (i : Nat) : Prog Nat (fun _ => Option β) Unit :=
  (Prog.out (Outcome.vecGet chosen i >>= find)).bind (fun s => .write i (some s) (.out (.ok ())))

end Gbdt
