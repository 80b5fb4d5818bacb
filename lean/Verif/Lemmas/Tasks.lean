import Verif.Spec.Schedule
import Mathlib.Algebra.BigOperators.Group.Finset.Basic
import Verif.Props.ThreadPool

/-!
# Programs with separate footprints do not interfere
-/

set_option autoImplicit false
set_option linter.unusedSectionVars false

namespace Gbdt

open Outcome

section
variable {L : Type} {V : L → Type} {α β : Type} [DecidableEq L]

/-- The program reads only cells in `R` and writes only cells in `W`, writes only values allowed by `I` (provided it reads
such values), and what it returns is in `Q`. -/
def Within (R W : L → Prop) (I : ∀ l, V l → Prop) (Q : α → Prop) : Prog L V α → Prop
  | .out (.ok a) => Q a
  | .out .ub => True
  | .out .fatal => True
  | .read l k => R l ∧ ∀ v, I l v → Within R W I Q (k v)
  | .write l v k => W l ∧ I l v ∧ Within R W I Q k

theorem Within.bind {R W : L → Prop} {I : ∀ l, V l → Prop} {Q : α → Prop} {Q' : β → Prop} {p : Prog L V α}
    {f : α → Prog L V β} (hp : Within R W I Q p) (hf : ∀ a, Q a → Within R W I Q' (f a)) :
    Within R W I Q' (p.bind f) := by
  induction p with
  | out r =>
    cases r with
    | ok a => exact hf a hp
    | ub => trivial
    | fatal => trivial
  | read l k ih => exact ⟨hp.1, fun v hv => ih v (hp.2 v hv)⟩
  | write l v k ih => exact ⟨hp.1, hp.2.1, ih hp.2.2⟩

theorem Within.mono {R W R' W' : L → Prop} {I : ∀ l, V l → Prop} {Q Q' : α → Prop} {p : Prog L V α}
    (hp : Within R W I Q p) (hR : ∀ l, R l → R' l) (hW : ∀ l, W l → W' l) (hQ : ∀ a, Q a → Q' a) :
    Within R' W' I Q' p := by
  induction p with
  | out r =>
    cases r with
    | ok a => exact hQ a hp
    | ub => trivial
    | fatal => trivial
  | read l k ih => exact ⟨hR l hp.1, fun v hv => ih v (hp.2 v hv)⟩
  | write l v k ih => exact ⟨hW l hp.1, hp.2.1, ih hp.2.2⟩

theorem run_bind (p : Prog L V α) (f : α → Prog L V β) (m : ∀ l, V l) :
    (p.bind f).run m = p.run m >>= fun x => (f x.1).run x.2 := by
  induction p generalizing m with
  | out r => cases r <;> rfl
  | read l k ih => exact ih (m l) m
  | write l v k ih => exact ih _

/-- A program leaves the cells outside `W` alone, and memory allowed. -/
theorem run_frame {R W : L → Prop} {I : ∀ l, V l → Prop} {Q : α → Prop} {p : Prog L V α} (hp : Within R W I Q p)
    {m m1 : ∀ l, V l} {a : α} (hm : ∀ l, I l (m l)) (h : p.run m = ok (a, m1)) :
    (∀ l, ¬ W l → m1 l = m l) ∧ ∀ l, I l (m1 l) := by
  induction p generalizing m with
  | out r =>
    cases r with
    | ok b =>
      rw [Prog.run, Outcome.ok.injEq, Prod.mk.injEq] at h
      obtain ⟨_, rfl⟩ := h
      exact ⟨fun _ _ => rfl, hm⟩
    | ub => cases h
    | fatal => cases h
  | read l k ih => exact ih (m l) (hp.2 _ (hm l)) hm h
  | write l v k ih =>
    obtain ⟨h1, h2, h3⟩ := hp
    have hm' : ∀ l', I l' (Function.update m l v l') := by
      intro l'
      by_cases e : l' = l
      · subst e; rw [Function.update_self]; exact h2
      · rw [Function.update_of_ne e]; exact hm l'
    obtain ⟨k1, k2⟩ := ih h3 hm' h
    refine ⟨fun l' hl' => ?_, k2⟩
    rw [k1 l' hl', Function.update_of_ne]
    rintro rfl
    exact hl' h1

/-- What a program does depends only on the cells in `R`. -/
theorem run_congr {R W : L → Prop} {I : ∀ l, V l → Prop} {Q : α → Prop} {p : Prog L V α}
    (hp : Within R W I Q p) {m m' m1 : ∀ l, V l} {a : α} (hm : ∀ l, I l (m l)) (hR : ∀ l, R l → m' l = m l)
    (h : p.run m = ok (a, m1)) : ∃ m1', p.run m' = ok (a, m1') ∧ ∀ l, R l → m1' l = m1 l := by
  induction p generalizing m m' with
  | out r =>
    cases r with
    | ok b =>
      rw [Prog.run, Outcome.ok.injEq, Prod.mk.injEq] at h
      obtain ⟨rfl, rfl⟩ := h
      exact ⟨m', rfl, hR⟩
    | ub => cases h
    | fatal => cases h
  | read l k ih =>
    rw [Prog.run] at h ⊢
    rw [hR l hp.1]
    exact ih _ (hp.2 _ (hm l)) hm hR h
  | write l v k ih =>
    obtain ⟨h1, h2, h3⟩ := hp
    refine ih h3 (m := Function.update m l v) (m' := Function.update m' l v) ?_ ?_ h
    · intro l'
      by_cases e : l' = l
      · subst e; rw [Function.update_self]; exact h2
      · rw [Function.update_of_ne e]; exact hm l'
    · intro l' hl'
      by_cases e : l' = l
      · subst e; simp
      · rw [Function.update_of_ne e, Function.update_of_ne e]; exact hR l' hl'

/-- Running programs one after the other. -/
def runAll : List (Prog L V Unit) → (∀ l, V l) → Outcome (∀ l, V l)
  | [], m => ok m
  | p :: ps, m => p.run m >>= fun x => runAll ps x.2

/-- `n` tasks with separate footprints: no task accesses a cell that another one writes. -/
structure Apart (n : Nat) (tasks : Nat → Prog L V Unit) (R W : Nat → L → Prop) (I : ∀ l, V l → Prop) : Prop where
  within : ∀ t, t < n → Within (R t) (W t) I (fun _ => True) (tasks t)
  sub : ∀ t l, W t l → R t l
  apart : ∀ t u l, t < n → u < n → t ≠ u → W t l → ¬ R u l

/-- The result of running the tasks one after the other, cell by cell. -/
theorem runAll_cells {n : Nat} {tasks : Nat → Prog L V Unit} {R W : Nat → L → Prop} {I : ∀ l, V l → Prop}
    (ha : Apart n tasks R W I) {m0 : ∀ l, V l} (h0 : ∀ l, I l (m0 l)) : ∀ (ts : List Nat) {m m1 : ∀ l, V l},
    ts.Nodup → (∀ t ∈ ts, t < n) → (∀ l, I l (m l)) → (∀ t ∈ ts, ∀ l, R t l → m l = m0 l) →
    runAll (ts.map tasks) m = ok m1 →
    (∀ t ∈ ts, ∃ sol, (tasks t).run m0 = ok ((), sol) ∧ ∀ l, W t l → m1 l = sol l) ∧
      ∀ l, (∀ t ∈ ts, ¬ W t l) → m1 l = m l
  | [], m, m1, _, _, _, _, h => by
    rw [List.map_nil, runAll, Outcome.ok.injEq] at h
    subst h
    exact ⟨by simp, fun _ _ => rfl⟩
  | t :: ts, m, m1, hn, hlt, hI, hR, h => by
    rw [List.map_cons, runAll, bind_eq_ok] at h
    obtain ⟨⟨⟨⟩, m2⟩, h1, h2⟩ := h
    rw [List.nodup_cons] at hn
    have ht := ha.within t (hlt t (by simp))
    obtain ⟨f1, f2⟩ := run_frame ht hI h1
    obtain ⟨sol, s1, s2⟩ := run_congr ht (m' := m0) hI (fun l hl => (hR t (by simp) l hl).symm) h1
    obtain ⟨g1, g2⟩ := runAll_cells ha h0 ts (m := m2) hn.2 (fun u hu => hlt u (by simp [hu])) f2
      (fun u hu l hl => by
        rw [f1 l (fun hw => ha.apart t u l (hlt t (by simp)) (hlt u (by simp [hu])) (fun e => hn.1 (e ▸ hu)) hw hl)]
        exact hR u (by simp [hu]) l hl) h2
    refine ⟨?_, ?_⟩
    · intro u hu
      rcases List.mem_cons.mp hu with rfl | hu
      · refine ⟨sol, s1, fun l hl => ?_⟩
        rw [g2 l (fun v hv hw => ha.apart v u l (hlt v (by simp [hv])) (hlt u (by simp)) (fun e => hn.1 (e ▸ hv)) hw
          (ha.sub u l hl)), s2 l (ha.sub u l hl)]
      · exact g1 u hu
    · intro l hl
      rw [g2 l (fun u hu => hl u (by simp [hu])), f1 l (hl t (by simp))]

/-! ## The pool -/

theorem tasksOf_enqueues (l : List Nat) : tasksOf (l.map PoolOp.enqueue) = l := by
  induction l with
  | nil => rfl
  | cons a l ih => simp [tasksOf]

theorem pool_run_append {a b c : Pool} : ∀ (l1 : List PoolStep) {l2 : List PoolStep}, a.run l1 = some b → b.run l2 = some c →
    a.run (l1 ++ l2) = some c
  | [], l2, h1, h2 => by
    rw [Pool.run, Option.some.injEq] at h1
    subst h1
    exact h2
  | l :: l1, l2, h1, h2 => by
    rw [List.cons_append, Pool.run]
    rw [Pool.run] at h1
    cases hs : a.step l with
    | none => rw [hs] at h1; cases h1
    | some a1 =>
      rw [hs] at h1
      exact pool_run_append l1 h1 h2

theorem mem_runningTasks {s : Pool} {k t : Nat} (h : s.workers[k]? = some (.running t)) : t ∈ runningTasks s :=
  List.mem_filterMap.mpr ⟨_, List.mem_of_getElem? h, rfl⟩

/-- A task that is running is one of the `n` tasks, and not done. -/
theorem running_lt {threads n : Nat} {sched : List PoolStep} {s : Pool}
    (h : (Pool.new threads ((List.range n).map PoolOp.enqueue)).run sched = some s) {k t : Nat}
    (hk : s.workers[k]? = some (.running t)) : t < n ∧ t ∉ s.done := by
  obtain ⟨⟨pending, hp⟩, _⟩ := C23_each_task_once _ _ _ _ h
  rw [tasksOf_enqueues] at hp
  have hm := mem_runningTasks hk
  refine ⟨List.mem_range.mp (hp.mem_iff.mp (by simp [hm])), fun hd => ?_⟩
  have hnd := hp.nodup_iff.mpr List.nodup_range
  rw [List.append_assoc, List.append_assoc, List.nodup_append] at hnd
  exact hnd.2.2 t hd t (by simp [hm]) rfl

theorem running_ne {threads n : Nat} {sched : List PoolStep} {s : Pool}
    (h : (Pool.new threads ((List.range n).map PoolOp.enqueue)).run sched = some s) {k k' t t' : Nat} (hkk : k ≠ k')
    (hk : s.workers[k]? = some (.running t)) (hk' : s.workers[k']? = some (.running t')) : t ≠ t' := by
  rintro rfl
  obtain ⟨⟨pending, hp⟩, _⟩ := C23_each_task_once _ _ _ _ h
  rw [tasksOf_enqueues] at hp
  have hnd := hp.nodup_iff.mpr List.nodup_range
  have hc : (runningTasks s).count t ≤ 1 :=
    List.nodup_iff_count_le_one.mp ((List.nodup_append.mp (List.nodup_append.mp (List.nodup_append.mp hnd).1).1).2.1) t
  have h2 : ∀ (l : List WPhase) (a b : Nat), a < b → l[a]? = some (.running t) → l[b]? = some (.running t) →
      2 ≤ (l.filterMap (fun w => match w with
        | .running t => some t
        | _ => none)).count t := by
    intro l
    induction l with
    | nil => intro a b _ ha; simp at ha
    | cons w l ih =>
      intro a b hab ha hb
      obtain ⟨b, rfl⟩ : ∃ b', b = b' + 1 := ⟨b - 1, by omega⟩
      rw [List.getElem?_cons_succ] at hb
      cases a with
      | zero =>
        rw [List.getElem?_cons_zero, Option.some.injEq] at ha
        subst ha
        have : t ∈ l.filterMap (fun w => match w with
          | .running t => some t
          | _ => none) := List.mem_filterMap.mpr ⟨_, List.mem_of_getElem? hb, rfl⟩
        have := List.count_pos_iff.mpr this
        simp only [List.filterMap_cons, List.count_cons_self]
        omega
      | succ a =>
        rw [List.getElem?_cons_succ] at ha
        have := ih a b (by omega) ha hb
        refine le_trans this ?_
        rw [List.filterMap_cons]
        split
        · exact le_refl _
        · rw [List.count_cons]; omega
  rcases Nat.lt_or_gt_of_ne hkk with hlt | hlt
  · have : 2 ≤ (runningTasks s).count t := h2 s.workers k k' hlt hk hk'
    omega
  · have : 2 ≤ (runningTasks s).count t := h2 s.workers k' k hlt hk' hk
    omega

/-- What holds of a pool at work on tasks with separate footprints. -/
structure WorkInv (threads n : Nat) (tasks : Nat → Prog L V Unit) (R W : Nat → L → Prop) (I : ∀ l, V l → Prop)
    (m0 : ∀ l, V l) (s : Work L V) : Prop where
  pool : ∃ sched, (Pool.new threads ((List.range n).map PoolOp.enqueue)).run sched = some s.pool
  mem : ∀ l, I l (s.mem l)
  within : ∀ t, t < n → Within (R t) (W t) I (fun _ => True) (s.tasks t)
  rest : ∀ t, t < n → ∀ sol, (tasks t).run m0 = ok ((), sol) →
    ∃ m', (s.tasks t).run s.mem = ok ((), m') ∧ ∀ l, R t l → m' l = sol l
  frame : ∀ l, (∀ t, t < n → ¬ W t l) → s.mem l = m0 l
  done : ∀ t ∈ s.pool.done, ∃ u, s.tasks t = .out (.ok u)

theorem step_done {s s' : Pool} {l : PoolStep} (h : s.step l = some s') :
    s'.done = s.done ∨ ∃ k t, l = .worker k ∧ s.workers[k]? = some (.running t) ∧ s'.done = s.done ++ [t] := by
  cases l with
  | worker k =>
    simp only [Pool.step, Pool.stepWorker] at h
    split at h
    · split at h
      · cases h; exact Or.inl rfl
      · cases h
    · split at h
      · split at h <;> (cases h; exact Or.inl rfl)
      · cases h; exact Or.inl rfl
    · next t hk => cases h; exact Or.inr ⟨k, t, rfl, hk, rfl⟩
    · cases h
    · cases h
    · cases h
  | main pick =>
    left
    simp only [Pool.step, Pool.stepMain] at h
    repeat' split at h
    all_goals first
      | cases h; rfl
      | cases h
  | spurious k =>
    left
    simp only [Pool.step, Pool.stepSpurious] at h
    split at h
    · cases h; rfl
    · cases h

theorem WorkInv.start {threads n : Nat} {tasks : Nat → Prog L V Unit} {R W : Nat → L → Prop} {I : ∀ l, V l → Prop}
    (ha : Apart n tasks R W I) {m0 : ∀ l, V l} (h0 : ∀ l, I l (m0 l)) :
    WorkInv threads n tasks R W I m0 (Work.new threads n tasks m0) where
  pool := ⟨[], rfl⟩
  mem := h0
  within := ha.within
  rest := fun _ _ sol h => ⟨sol, h, fun _ _ => rfl⟩
  frame := fun _ _ => rfl
  done := by intro t ht; cases ht

theorem WorkInv.step {threads n : Nat} {tasks : Nat → Prog L V Unit} {R W : Nat → L → Prop} {I : ∀ l, V l → Prop}
    (ha : Apart n tasks R W I) {m0 : ∀ l, V l} {s s' : Work L V} (hs : WorkInv threads n tasks R W I m0 s)
    {l : WorkStep} (h : s.step l = some s') : WorkInv threads n tasks R W I m0 s' := by
  obtain ⟨sched, hp⟩ := hs.pool
  cases l with
  | pool l =>
    simp only [Work.step] at h
    split at h
    · cases h
    · next he =>
      cases hl : s.pool.step l with
      | none => rw [hl] at h; cases h
      | some p =>
        rw [hl] at h
        simp only [Option.some.injEq] at h
        subst h
        refine ⟨⟨sched ++ [l], pool_run_append sched hp (by simp [Pool.run, hl])⟩, hs.mem, hs.within, hs.rest, hs.frame, ?_⟩
        intro t ht
        rcases step_done hl with hd | ⟨k, u, rfl, hk, hd⟩
        · exact hs.done t (hd ▸ ht)
        · simp only [hd, List.mem_append, List.mem_singleton] at ht
          rcases ht with ht | rfl
          · exact hs.done t ht
          · simp only [endsEarly, hk] at he
            split at he
            · next u hu => exact ⟨u, hu⟩
            · simp at he
  | access k =>
    simp only [Work.step] at h
    split at h
    · next t hk =>
      obtain ⟨hlt, hnd⟩ := running_lt hp hk
      cases hst : (s.tasks t).step s.mem with
      | none => rw [hst] at h; cases h
      | some x =>
        obtain ⟨q, m⟩ := x
        rw [hst] at h
        simp only [Option.some.injEq] at h
        subst h
        -- one access: what is left does the same, and only a cell in `W t` changes
        have key : (q.run m = (s.tasks t).run s.mem) ∧ Within (R t) (W t) I (fun _ => True) q ∧ (∀ l, I l (m l)) ∧
            ∀ l, ¬ W t l → m l = s.mem l := by
          have hw := hs.within t hlt
          cases hq : s.tasks t with
          | out r => rw [hq] at hst; cases hst
          | read l0 k0 =>
            rw [hq] at hst hw
            simp only [Prog.step, Option.some.injEq, Prod.mk.injEq] at hst
            obtain ⟨rfl, rfl⟩ := hst
            exact ⟨rfl, hw.2 _ (hs.mem l0), hs.mem, fun _ _ => rfl⟩
          | write l0 v k0 =>
            rw [hq] at hst hw
            simp only [Prog.step, Option.some.injEq, Prod.mk.injEq] at hst
            obtain ⟨rfl, rfl⟩ := hst
            refine ⟨rfl, hw.2.2, ?_, ?_⟩
            · intro l'
              by_cases e : l' = l0
              · subst e; rw [Function.update_self]; exact hw.2.1
              · rw [Function.update_of_ne e]; exact hs.mem l'
            · intro l' hl'
              rw [Function.update_of_ne]
              rintro rfl
              exact hl' hw.1
        obtain ⟨k1, k2, k3, k4⟩ := key
        refine ⟨⟨sched, hp⟩, k3, ?_, ?_, ?_, ?_⟩
        · intro u hu
          by_cases e : u = t
          · subst e; simp only [Function.update_self]; exact k2
          · simp only [Function.update_of_ne e]; exact hs.within u hu
        · intro u hu sol hsu
          obtain ⟨m', r1, r2⟩ := hs.rest u hu sol hsu
          by_cases e : u = t
          · subst e
            simp only [Function.update_self, k1]
            exact ⟨m', r1, r2⟩
          · simp only [Function.update_of_ne e]
            obtain ⟨m1', c1, c2⟩ := run_congr (hs.within u hu) (m' := m) hs.mem
              (fun l hl => k4 l (fun hw => ha.apart t u l hlt hu (fun h => e h.symm) hw hl)) r1
            exact ⟨m1', c1, fun l hl => by rw [c2 l hl, r2 l hl]⟩
        · intro l hl
          simp only [k4 l (hl t hlt)]
          exact hs.frame l hl
        · intro u hu
          have hne : u ≠ t := fun e => hnd (e ▸ hu)
          simp only [Function.update_of_ne hne]
          exact hs.done u hu
    · cases h

theorem WorkInv.run {threads n : Nat} {tasks : Nat → Prog L V Unit} {R W : Nat → L → Prop} {I : ∀ l, V l → Prop}
    (ha : Apart n tasks R W I) {m0 : ∀ l, V l} :
    ∀ (ls : List WorkStep) {s s' : Work L V}, WorkInv threads n tasks R W I m0 s → s.run ls = some s' →
    WorkInv threads n tasks R W I m0 s'
  | [], s, s', hs, h => by
    rw [Work.run, Option.some.injEq] at h
    exact h ▸ hs
  | l :: ls, s, s', hs, h => by
    rw [Work.run] at h
    cases hl : s.step l with
    | none => rw [hl] at h; cases h
    | some s1 =>
      rw [hl] at h
      exact WorkInv.run ha ls (hs.step ha hl) h

/-- The accesses that a program makes when nobody else accesses memory. -/
def Prog.accesses : Prog L V α → (∀ l, V l) → Nat
  | .out _, _ => 0
  | .read l k, m => (k (m l)).accesses m + 1
  | .write l v k, m => k.accesses (Function.update m l v) + 1

theorem accesses_congr {R W : L → Prop} {I : ∀ l, V l → Prop} {Q : α → Prop} {p : Prog L V α}
    (hp : Within R W I Q p) {m m' : ∀ l, V l} (hm : ∀ l, I l (m l)) (hR : ∀ l, R l → m' l = m l) :
    p.accesses m' = p.accesses m := by
  induction p generalizing m m' with
  | out r => rfl
  | read l k ih =>
    rw [Prog.accesses, Prog.accesses, hR l hp.1, ih _ (hp.2 _ (hm l)) hm hR]
  | write l v k ih =>
    obtain ⟨h1, h2, h3⟩ := hp
    rw [Prog.accesses, Prog.accesses, ih h3 (m := Function.update m l v)]
    · intro l'
      by_cases e : l' = l
      · subst e; rw [Function.update_self]; exact h2
      · rw [Function.update_of_ne e]; exact hm l'
    · intro l' hl'
      by_cases e : l' = l
      · subst e; simp
      · rw [Function.update_of_ne e, Function.update_of_ne e]; exact hR l' hl'

/-- The accesses that are left. -/
def Work.left (n : Nat) (s : Work L V) : Nat := ∑ t ∈ Finset.range n, (s.tasks t).accesses s.mem

/-- One access. -/
theorem WorkInv.access {threads n : Nat} {tasks : Nat → Prog L V Unit} {R W : Nat → L → Prop} {I : ∀ l, V l → Prop}
    (ha : Apart n tasks R W I) {m0 : ∀ l, V l} {s s' : Work L V} (hs : WorkInv threads n tasks R W I m0 s)
    {k : Nat} (h : s.step (.access k) = some s') : s'.left n + 1 = s.left n := by
  obtain ⟨sched, hp⟩ := hs.pool
  simp only [Work.step] at h
  split at h
  · next t hk =>
    obtain ⟨hlt, hnd⟩ := running_lt hp hk
    cases hst : (s.tasks t).step s.mem with
    | none => rw [hst] at h; cases h
    | some x =>
      obtain ⟨q, m⟩ := x
      rw [hst] at h
      simp only [Option.some.injEq] at h
      subst h
      have key : q.accesses m + 1 = (s.tasks t).accesses s.mem ∧ ∀ l, ¬ W t l → m l = s.mem l := by
        have hw := hs.within t hlt
        cases hq : s.tasks t with
        | out r => rw [hq] at hst; cases hst
        | read l0 k0 =>
          rw [hq] at hst hw
          simp only [Prog.step, Option.some.injEq, Prod.mk.injEq] at hst
          obtain ⟨rfl, rfl⟩ := hst
          exact ⟨rfl, fun _ _ => rfl⟩
        | write l0 v k0 =>
          rw [hq] at hst hw
          simp only [Prog.step, Option.some.injEq, Prod.mk.injEq] at hst
          obtain ⟨rfl, rfl⟩ := hst
          refine ⟨rfl, fun l' hl' => ?_⟩
          rw [Function.update_of_ne]
          rintro rfl
          exact hl' hw.1
      have hmem : t ∈ Finset.range n := Finset.mem_range.mpr hlt
      unfold Work.left
      rw [← Finset.sum_erase_add _ _ hmem, ← Finset.sum_erase_add (Finset.range n) _ hmem]
      simp only [Function.update_self]
      rw [Nat.add_assoc, key.1]
      congr 1
      apply Finset.sum_congr rfl
      intro u hu
      rw [Finset.mem_erase, Finset.mem_range] at hu
      rw [Function.update_of_ne hu.1]
      exact accesses_congr (hs.within u hu.2) hs.mem
        (fun l hl => key.2 l (fun hw => ha.apart t u l hlt hu.2 (fun h => hu.1 h.symm) hw hl))
  · cases h

/-- The steps of the pool in a schedule. -/
def poolSteps (ls : List WorkStep) : List PoolStep :=
  ls.filterMap (fun l => match l with
    | .pool l => some l
    | .access _ => none)

theorem WorkInv.length {threads n : Nat} {tasks : Nat → Prog L V Unit} {R W : Nat → L → Prop} {I : ∀ l, V l → Prop}
    (ha : Apart n tasks R W I) {m0 : ∀ l, V l} : ∀ (ls : List WorkStep) {s s' : Work L V},
    WorkInv threads n tasks R W I m0 s → s.run ls = some s' →
    s.pool.run (poolSteps ls) = some s'.pool ∧ ls.length + s'.left n = (poolSteps ls).length + s.left n
  | [], s, s', hs, h => by
    rw [Work.run, Option.some.injEq] at h
    subst h
    exact ⟨rfl, by simp [poolSteps]⟩
  | l :: ls, s, s', hs, h => by
    rw [Work.run] at h
    cases hl : s.step l with
    | none => rw [hl] at h; cases h
    | some s1 =>
      rw [hl] at h
      obtain ⟨k1, k2⟩ := WorkInv.length ha ls (hs.step ha hl) h
      cases l with
      | access k =>
        have hd := hs.access ha hl
        have hpool : s1.pool = s.pool := by
          simp only [Work.step] at hl
          split at hl
          · split at hl
            · cases hl
            · cases hl; rfl
          · cases hl
        refine ⟨?_, ?_⟩
        · rw [← hpool]; exact k1
        · have : poolSteps (WorkStep.access k :: ls) = poolSteps ls := rfl
          rw [this, List.length_cons]
          omega
      | pool p =>
        simp only [Work.step] at hl
        split at hl
        · cases hl
        · cases hp : s.pool.step p with
          | none => rw [hp] at hl; cases hl
          | some p1 =>
            rw [hp] at hl
            simp only [Option.some.injEq] at hl
            subst hl
            have he : poolSteps (WorkStep.pool p :: ls) = p :: poolSteps ls := rfl
            refine ⟨?_, ?_⟩
            · rw [he, Pool.run, hp]
              exact k1
            · rw [he, List.length_cons, List.length_cons]
              have : Work.left n ({ s with pool := p1 } : Work L V) = s.left n := rfl
              omega

theorem spuriousCount_poolSteps (ls : List WorkStep) : spuriousCount (poolSteps ls) = wakeUps ls := by
  induction ls with
  | nil => rfl
  | cons l ls ih =>
    cases l with
    | access k =>
      have h1 : poolSteps (WorkStep.access k :: ls) = poolSteps ls := rfl
      rw [h1, ih]; rfl
    | pool p =>
      have h1 : poolSteps (WorkStep.pool p :: ls) = p :: poolSteps ls := rfl
      rw [h1]
      unfold spuriousCount wakeUps at ih ⊢
      rw [List.countP_cons, List.countP_cons, ih]
      cases p <;> rfl

/-- Tasks that can be run one after the other can be run by a pool, and every schedule gives the same memory. -/
theorem work_result {threads n : Nat} (hpos : 0 < threads) {tasks : Nat → Prog L V Unit} {R W : Nat → L → Prop}
    {I : ∀ l, V l → Prop} (ha : Apart n tasks R W I) {m0 m1 : ∀ l, V l} (h0 : ∀ l, I l (m0 l))
    (hseq : runAll ((List.range n).map tasks) m0 = ok m1) {ls : List WorkStep} {s : Work L V}
    (h : (Work.new threads n tasks m0).run ls = some s) :
    -- no data race
    (∀ (k k' t t' : Nat) (l : L), k ≠ k' → s.pool.workers[k]? = some (WPhase.running t) → s.pool.workers[k']? = some (WPhase.running t') →
      (s.tasks t).writes = some l → (s.tasks t').reads ≠ some l ∧ (s.tasks t').writes ≠ some l) ∧
    -- no crash
    (∀ (k t : Nat), s.pool.workers[k]? = some (WPhase.running t) → s.tasks t ≠ .out .ub ∧ s.tasks t ≠ .out .fatal) ∧
    -- some thread can go on
    (s.pool.main ≠ .returned → ∃ l s', (∀ k, l ≠ .pool (.spurious k)) ∧ s.step l = some s') ∧
    -- the result
    (s.pool.main = .returned → s.mem = m1) := by
  obtain ⟨c1, c2⟩ := runAll_cells ha h0 (List.range n) (m := m0) List.nodup_range (fun t ht => List.mem_range.mp ht) h0
    (fun _ _ _ _ => rfl) hseq
  have hsol : ∀ t, t < n → ∃ sol, (tasks t).run m0 = ok ((), sol) := fun t ht => by
    obtain ⟨sol, h1, _⟩ := c1 t (List.mem_range.mpr ht)
    exact ⟨sol, h1⟩
  have inv := WorkInv.run ha ls (WorkInv.start (threads := threads) ha h0) h
  obtain ⟨sched, hp⟩ := inv.pool
  have hcrash : ∀ (k t : Nat), s.pool.workers[k]? = some (WPhase.running t) → s.tasks t ≠ .out .ub ∧ s.tasks t ≠ .out .fatal := by
    intro k t hk
    obtain ⟨sol, hs⟩ := hsol t (running_lt hp hk).1
    obtain ⟨m', r1, _⟩ := inv.rest t (running_lt hp hk).1 sol hs
    constructor <;> (intro e; rw [e] at r1; cases r1)
  refine ⟨?_, hcrash, ?_, ?_⟩
  · intro k k' t t' l hkk hk hk' hw
    have hne := running_ne hp hkk hk hk'
    have ht := (running_lt hp hk).1
    have ht' := (running_lt hp hk').1
    have w1 := inv.within t ht
    have w2 := inv.within t' ht'
    have hW : W t l := by
      cases hq : s.tasks t with
      | out r => rw [hq] at hw; cases hw
      | read _ _ => rw [hq] at hw; cases hw
      | write l0 v k0 =>
        rw [hq] at hw w1
        simp only [Prog.writes, Option.some.injEq] at hw
        subst hw
        exact w1.1
    constructor
    · intro hr
      cases hq : s.tasks t' with
      | out r => rw [hq] at hr; cases hr
      | write _ _ _ => rw [hq] at hr; cases hr
      | read l0 k0 =>
        rw [hq] at hr w2
        simp only [Prog.reads, Option.some.injEq] at hr
        subst hr
        exact ha.apart t t' l0 ht ht' hne hW w2.1
    · intro hr
      cases hq : s.tasks t' with
      | out r => rw [hq] at hr; cases hr
      | read _ _ => rw [hq] at hr; cases hr
      | write l0 v k0 =>
        rw [hq] at hr w2
        simp only [Prog.writes, Option.some.injEq] at hr
        subst hr
        exact ha.apart t t' l0 ht ht' hne hW (ha.sub t' l0 w2.1)
  · intro hret
    have hwf : AwaitsOwn ((List.range n).map PoolOp.enqueue) := by
      intro pre t post he
      have : PoolOp.await t ∈ (List.range n).map PoolOp.enqueue := by rw [he]; simp
      obtain ⟨_, _, hx⟩ := List.mem_map.mp this
      cases hx
    obtain ⟨l, p', hns, hl⟩ := C24_no_deadlock threads hpos _ hwf sched s.pool hp hret
    by_cases he : endsEarly s l = true
    · unfold endsEarly at he
      cases l with
      | main _ => cases he
      | spurious _ => cases he
      | worker k =>
        cases hk : s.pool.workers[k]? with
        | none => simp only [hk] at he; cases he
        | some w =>
          cases w with
          | running t =>
            refine ⟨.access k, ?_⟩
            obtain ⟨n1, n2⟩ := hcrash k t hk
            cases hq : s.tasks t with
            | out r =>
              cases r with
              | ok u => simp only [hk, hq] at he; cases he
              | ub => exact absurd hq n1
              | fatal => exact absurd hq n2
            | read l0 k0 => simp only [Work.step, hk, hq, Prog.step]; exact ⟨_, by simp, rfl⟩
            | write l0 v k0 => simp only [Work.step, hk, hq, Prog.step]; exact ⟨_, by simp, rfl⟩
          | start => simp only [hk] at he; cases he
          | crit => simp only [hk] at he; cases he
          | waiting => simp only [hk] at he; cases he
          | exited => simp only [hk] at he; cases he
    · exact ⟨.pool l, { s with pool := p' }, fun k e => hns k (by cases e; rfl), by simp only [Work.step, he, hl]; rfl⟩
  · intro hret
    obtain ⟨hd, _⟩ := C23_all_done_at_return threads hpos _ sched s.pool hp hret
    rw [tasksOf_enqueues] at hd
    funext l
    by_cases hw : ∃ t, t < n ∧ W t l
    · obtain ⟨t, ht, hw⟩ := hw
      obtain ⟨sol, s1, s2⟩ := c1 t (List.mem_range.mpr ht)
      rw [s2 l hw]
      obtain ⟨m', r1, r2⟩ := inv.rest t ht sol s1
      obtain ⟨u, hu⟩ := inv.done t (hd.mem_iff.mpr (List.mem_range.mpr ht))
      rw [hu, Prog.run, Outcome.ok.injEq, Prod.mk.injEq] at r1
      rw [r1.2]
      exact r2 l (ha.sub t l hw)
    · rw [inv.frame l (fun t ht hwt => hw ⟨t, ht, hwt⟩), c2 l (fun t ht hwt => hw ⟨t, List.mem_range.mp ht, hwt⟩)]

/-- Tasks with separate footprints that can be run one after the other: every schedule of a pool gives that result. -/
theorem everySchedule {threads n : Nat} (hpos : 0 < threads) {tasks : Nat → Prog L V Unit} {R W : Nat → L → Prop}
    {I : ∀ l, V l → Prop} (ha : Apart n tasks R W I) {m0 m1 : ∀ l, V l} (h0 : ∀ l, I l (m0 l))
    (hseq : runAll ((List.range n).map tasks) m0 = ok m1) : EverySchedule (Work.new threads n tasks m0) m1 where
  no_race := by
    rintro ls s h ⟨l, k, k', t, t', h1, h2, h3, h4, h5⟩
    obtain ⟨a, b⟩ := (work_result hpos ha h0 hseq h).1 k k' t t' l h1 h2 h3 h4
    exact h5.elim a b
  no_crash := by
    rintro ls s h ⟨k, t, h1, h2⟩
    obtain ⟨a, b⟩ := (work_result hpos ha h0 hseq h).2.1 k t h1
    exact h2.elim a b
  no_deadlock := fun ls s h => (work_result hpos ha h0 hseq h).2.2.1
  ends := by
    refine ⟨8 * n + 5 * threads + 5 + (Work.new threads n tasks m0).left n, fun ls s h => ?_⟩
    obtain ⟨k1, k2⟩ := WorkInv.length ha ls (WorkInv.start (threads := threads) ha h0) h
    have := C24_terminates threads _ _ _ k1
    rw [spuriousCount_poolSteps, List.length_map, List.length_range] at this
    omega
  result := fun ls s h => (work_result hpos ha h0 hseq h).2.2.2

end

end Gbdt
