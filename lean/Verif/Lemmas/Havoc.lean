import Verif.Lemmas.Tasks

/-!
# Tasks that share a few cells

As `Lemmas/Tasks.lean`, but the tasks may all access the cells in `S`; what a task reads there is left open.
-/

set_option autoImplicit false
set_option linter.unusedSectionVars false

namespace Gbdt

open Outcome

section
variable {L : Type} {V : L → Type} {α β : Type} [DecidableEq L]

/-- `o` is a possible outcome of the program when reading a cell in `S` gives any value allowed by `I`; final memory is
only described on the cells in `A`. -/
def Outs (S A : L → Prop) (I : ∀ l, V l → Prop) : Prog L V α → (∀ l, V l) → Outcome (α × (∀ l, V l)) → Prop
  | .out (.ok a), m, o => ∃ m', o = ok (a, m') ∧ ∀ l, A l → m' l = m l
  | .out .ub, _, o => o = .ub
  | .out .fatal, _, o => o = .fatal
  | .read l k, m, o => (S l ∧ ∃ v, I l v ∧ Outs S A I (k v) m o) ∨ (¬ S l ∧ Outs S A I (k (m l)) m o)
  | .write l v k, m, o => Outs S A I k (Function.update m l v) o

/-- What a program can do depends only on the cells in `A`. -/
theorem Outs.congr {S A : L → Prop} {I : ∀ l, V l → Prop} {Q : α → Prop} {p : Prog L V α}
    (hp : Within (fun l => A l ∨ S l) (fun l => A l ∨ S l) I Q p) {m m' : ∀ l, V l} {o : Outcome (α × (∀ l, V l))}
    (hm : ∀ l, A l → I l (m l)) (hA : ∀ l, A l → m' l = m l) (h : Outs S A I p m o) : Outs S A I p m' o := by
  induction p generalizing m m' with
  | out r =>
    cases r with
    | ok a =>
      obtain ⟨m1, rfl, h1⟩ := h
      exact ⟨m1, rfl, fun l hl => by rw [h1 l hl, hA l hl]⟩
    | ub => exact h
    | fatal => exact h
  | read l k ih =>
    rcases h with ⟨hS, v, hv, h⟩ | ⟨hS, h⟩
    · exact Or.inl ⟨hS, v, hv, ih v (hp.2 v hv) hm hA h⟩
    · refine Or.inr ⟨hS, ?_⟩
      rcases hp.1 with h1 | h1
      · rw [hA l h1]
        exact ih _ (hp.2 _ (hm l h1)) hm hA h
      · exact absurd h1 hS
  | write l v k ih =>
    refine ih hp.2.2 (m := Function.update m l v) ?_ ?_ h
    · intro l' hl'
      by_cases e : l' = l
      · subst e; rw [Function.update_self]; exact hp.2.1
      · rw [Function.update_of_ne e]; exact hm l' hl'
    · intro l' hl'
      by_cases e : l' = l
      · subst e; rw [Function.update_self, Function.update_self]
      · rw [Function.update_of_ne e, Function.update_of_ne e]; exact hA l' hl'

/-- What one program after the other can do. -/
theorem Outs.bind {S A : L → Prop} {I : ∀ l, V l → Prop} {Q : α → Prop} {p : Prog L V α} {f : α → Prog L V β}
    (hp : Within (fun l => A l ∨ S l) (fun l => A l ∨ S l) I Q p) {m : ∀ l, V l} {o : Outcome (β × (∀ l, V l))}
    (hm : ∀ l, A l → I l (m l)) (h : Outs S A I (p.bind f) m o) :
    (∃ a m1, Q a ∧ (∀ l, A l → I l (m1 l)) ∧ Outs S A I p m (ok (a, m1)) ∧ Outs S A I (f a) m1 o) ∨
      (Outs S A I p m .ub ∧ o = .ub) ∨ (Outs S A I p m .fatal ∧ o = .fatal) := by
  induction p generalizing m with
  | out r =>
    cases r with
    | ok a => exact Or.inl ⟨a, m, hp, hm, ⟨m, rfl, fun _ _ => rfl⟩, h⟩
    | ub => exact Or.inr (Or.inl ⟨rfl, h⟩)
    | fatal => exact Or.inr (Or.inr ⟨rfl, h⟩)
  | read l k ih =>
    rcases h with ⟨hS, v, hv, h⟩ | ⟨hS, h⟩
    · rcases ih v (hp.2 v hv) hm h with ⟨a, m1, q, i, h1, h2⟩ | ⟨h1, h2⟩ | ⟨h1, h2⟩
      · exact Or.inl ⟨a, m1, q, i, Or.inl ⟨hS, v, hv, h1⟩, h2⟩
      · exact Or.inr (Or.inl ⟨Or.inl ⟨hS, v, hv, h1⟩, h2⟩)
      · exact Or.inr (Or.inr ⟨Or.inl ⟨hS, v, hv, h1⟩, h2⟩)
    · have hA : A l := hp.1.resolve_right hS
      rcases ih (m l) (hp.2 _ (hm l hA)) hm h with ⟨a, m1, q, i, h1, h2⟩ | ⟨h1, h2⟩ | ⟨h1, h2⟩
      · exact Or.inl ⟨a, m1, q, i, Or.inr ⟨hS, h1⟩, h2⟩
      · exact Or.inr (Or.inl ⟨Or.inr ⟨hS, h1⟩, h2⟩)
      · exact Or.inr (Or.inr ⟨Or.inr ⟨hS, h1⟩, h2⟩)
  | write l v k ih =>
    refine ih hp.2.2 ?_ h
    intro l' hl'
    by_cases e : l' = l
    · subst e; rw [Function.update_self]; exact hp.2.1
    · rw [Function.update_of_ne e]; exact hm l' hl'

theorem Outs.bind_intro {S A : L → Prop} {I : ∀ l, V l → Prop} {Q : β → Prop} {p : Prog L V α} {f : α → Prog L V β}
    {m m1 : ∀ l, V l} {a : α} {o : Outcome (β × (∀ l, V l))} (h1 : Outs S A I p m (ok (a, m1)))
    (hf : Within (fun l => A l ∨ S l) (fun l => A l ∨ S l) I Q (f a)) (hm : ∀ l, A l → I l (m1 l))
    (h2 : Outs S A I (f a) m1 o) : Outs S A I (p.bind f) m o := by
  induction p generalizing m with
  | out r =>
    cases r with
    | ok b =>
      obtain ⟨m', e, hA⟩ := h1
      rw [Outcome.ok.injEq, Prod.mk.injEq] at e
      obtain ⟨rfl, rfl⟩ := e
      exact Outs.congr hf hm (fun l hl => (hA l hl).symm) h2
    | ub => cases h1
    | fatal => cases h1
  | read l k ih =>
    rcases h1 with ⟨hS, v, hv, h1⟩ | ⟨hS, h1⟩
    · exact Or.inl ⟨hS, v, hv, ih v h1⟩
    · exact Or.inr ⟨hS, ih _ h1⟩
  | write l v k ih => exact ih h1

theorem Outs.bind_crash {S A : L → Prop} {I : ∀ l, V l → Prop} {p : Prog L V α} {f : α → Prog L V β} {m : ∀ l, V l} :
    (Outs S A I p m .ub → Outs S A I (p.bind f) m .ub) ∧ (Outs S A I p m .fatal → Outs S A I (p.bind f) m .fatal) := by
  induction p generalizing m with
  | out r =>
    cases r with
    | ok b => exact ⟨fun ⟨_, e, _⟩ => (by cases e), fun ⟨_, e, _⟩ => (by cases e)⟩
    | ub => exact ⟨fun _ => rfl, fun h => (by cases h)⟩
    | fatal => exact ⟨fun h => (by cases h), fun _ => rfl⟩
  | read l k ih =>
    constructor
    · rintro (⟨hS, v, hv, h1⟩ | ⟨hS, h1⟩)
      · exact Or.inl ⟨hS, v, hv, (ih v).1 h1⟩
      · exact Or.inr ⟨hS, (ih _).1 h1⟩
    · rintro (⟨hS, v, hv, h1⟩ | ⟨hS, h1⟩)
      · exact Or.inl ⟨hS, v, hv, (ih v).2 h1⟩
      · exact Or.inr ⟨hS, (ih _).2 h1⟩
  | write l v k ih => exact ih

/-- A program that stays away from `S` has one outcome. -/
theorem Outs.run {S A : L → Prop} {I : ∀ l, V l → Prop} {Q : α → Prop} (hAS : ∀ l, A l → ¬ S l) {p : Prog L V α}
    (hp : Within A A I Q p) {m : ∀ l, V l} {o : Outcome (α × (∀ l, V l))} (hm : ∀ l, I l (m l)) (h : Outs S A I p m o) :
    (∀ a m', o = ok (a, m') → ∃ m1, p.run m = ok (a, m1) ∧ ∀ l, A l → m' l = m1 l) ∧ (o = .ub → p.run m = .ub) ∧
      (o = .fatal → p.run m = .fatal) := by
  induction p generalizing m with
  | out r =>
    cases r with
    | ok a =>
      obtain ⟨m1, rfl, h1⟩ := h
      refine ⟨?_, fun h => (by cases h), fun h => (by cases h)⟩
      intro b m' e
      rw [Outcome.ok.injEq, Prod.mk.injEq] at e
      obtain ⟨rfl, rfl⟩ := e
      exact ⟨m, rfl, h1⟩
    | ub =>
      have h : o = .ub := h
      subst h
      exact ⟨fun _ _ h => (by cases h), fun _ => rfl, fun h => (by cases h)⟩
    | fatal =>
      have h : o = .fatal := h
      subst h
      exact ⟨fun _ _ h => (by cases h), fun h => (by cases h), fun _ => rfl⟩
  | read l k ih =>
    rcases h with ⟨hS, _⟩ | ⟨hS, h⟩
    · exact absurd hS (hAS l hp.1)
    · exact ih _ (hp.2 _ (hm l)) hm h
  | write l v k ih =>
    refine ih hp.2.2 ?_ h
    intro l'
    by_cases e : l' = l
    · subst e; rw [Function.update_self]; exact hp.2.1
    · rw [Function.update_of_ne e]; exact hm l'

/-- `n` tasks whose footprints are separate up to the cells in `S`. -/
structure ApartBut (n : Nat) (tasks : Nat → Prog L V Unit) (S : L → Prop) (A : Nat → L → Prop) (I : ∀ l, V l → Prop) :
    Prop where
  within : ∀ t, t < n → Within (fun l => A t l ∨ S l) (fun l => A t l ∨ S l) I (fun _ => True) (tasks t)
  own : ∀ t l, A t l → ¬ S l
  apart : ∀ t u l, t < n → u < n → t ≠ u → A t l → ¬ A u l

/-- What holds of a pool at work on such tasks. -/
structure SharedInv (threads n : Nat) (tasks : Nat → Prog L V Unit) (S : L → Prop) (A : Nat → L → Prop)
    (I : ∀ l, V l → Prop) (m0 : ∀ l, V l) (s : Work L V) : Prop where
  pool : ∃ sched, (Pool.new threads ((List.range n).map PoolOp.enqueue)).run sched = some s.pool
  mem : ∀ l, I l (s.mem l)
  within : ∀ t, t < n → Within (fun l => A t l ∨ S l) (fun l => A t l ∨ S l) I (fun _ => True) (s.tasks t)
  outs : ∀ t, t < n → ∀ o, Outs S (A t) I (s.tasks t) s.mem o → Outs S (A t) I (tasks t) m0 o
  frame : ∀ l, ¬ S l → (∀ t, t < n → ¬ A t l) → s.mem l = m0 l
  done : ∀ t ∈ s.pool.done, ∃ u, s.tasks t = .out (.ok u)

theorem SharedInv.start {threads n : Nat} {tasks : Nat → Prog L V Unit} {S : L → Prop} {A : Nat → L → Prop}
    {I : ∀ l, V l → Prop} (ha : ApartBut n tasks S A I) {m0 : ∀ l, V l} (h0 : ∀ l, I l (m0 l)) :
    SharedInv threads n tasks S A I m0 (Work.new threads n tasks m0) where
  pool := ⟨[], rfl⟩
  mem := h0
  within := ha.within
  outs := fun _ _ _ h => h
  frame := fun _ _ _ => rfl
  done := by intro t ht; cases ht

theorem SharedInv.step {threads n : Nat} {tasks : Nat → Prog L V Unit} {S : L → Prop} {A : Nat → L → Prop}
    {I : ∀ l, V l → Prop} (ha : ApartBut n tasks S A I) {m0 : ∀ l, V l} {s s' : Work L V}
    (hs : SharedInv threads n tasks S A I m0 s) {l : WorkStep} (h : s.step l = some s') :
    SharedInv threads n tasks S A I m0 s' := by
  obtain ⟨sched, hp⟩ := hs.pool
  cases l with
  | pool l =>
    simp only [Work.step] at h
    split at h
    · cases h
    · next he =>
      cases hl : s.pool.step l with
      | none => rw [hl] at h; cases h
      | some p =>
        rw [hl] at h
        simp only [Option.some.injEq] at h
        subst h
        refine ⟨⟨sched ++ [l], pool_run_append sched hp (by simp [Pool.run, hl])⟩, hs.mem, hs.within, hs.outs, hs.frame, ?_⟩
        intro t ht
        rcases step_done hl with hd | ⟨k, u, rfl, hk, hd⟩
        · exact hs.done t (hd ▸ ht)
        · simp only [hd, List.mem_append, List.mem_singleton] at ht
          rcases ht with ht | rfl
          · exact hs.done t ht
          · simp only [endsEarly, hk] at he
            split at he
            · next u hu => exact ⟨u, hu⟩
            · simp at he
  | access k =>
    simp only [Work.step] at h
    split at h
    · next t hk =>
      obtain ⟨hlt, hnd⟩ := running_lt hp hk
      cases hst : (s.tasks t).step s.mem with
      | none => rw [hst] at h; cases h
      | some x =>
        obtain ⟨q, m⟩ := x
        rw [hst] at h
        simp only [Option.some.injEq] at h
        subst h
        have key : (∀ o, Outs S (A t) I q m o → Outs S (A t) I (s.tasks t) s.mem o) ∧
            Within (fun l => A t l ∨ S l) (fun l => A t l ∨ S l) I (fun _ => True) q ∧ (∀ l, I l (m l)) ∧
            ∀ l, ¬ (A t l ∨ S l) → m l = s.mem l := by
          have hw := hs.within t hlt
          cases hq : s.tasks t with
          | out r => rw [hq] at hst; cases hst
          | read l0 k0 =>
            rw [hq] at hst hw
            simp only [Prog.step, Option.some.injEq, Prod.mk.injEq] at hst
            obtain ⟨rfl, rfl⟩ := hst
            refine ⟨fun o ho => ?_, hw.2 _ (hs.mem l0), hs.mem, fun _ _ => rfl⟩
            by_cases hS : S l0
            · exact Or.inl ⟨hS, _, hs.mem l0, ho⟩
            · exact Or.inr ⟨hS, ho⟩
          | write l0 v k0 =>
            rw [hq] at hst hw
            simp only [Prog.step, Option.some.injEq, Prod.mk.injEq] at hst
            obtain ⟨rfl, rfl⟩ := hst
            refine ⟨fun o ho => ho, hw.2.2, ?_, ?_⟩
            · intro l'
              by_cases e : l' = l0
              · subst e; rw [Function.update_self]; exact hw.2.1
              · rw [Function.update_of_ne e]; exact hs.mem l'
            · intro l' hl'
              rw [Function.update_of_ne]
              rintro rfl
              exact hl' hw.1
        obtain ⟨k1, k2, k3, k4⟩ := key
        refine ⟨⟨sched, hp⟩, k3, ?_, ?_, ?_, ?_⟩
        · intro u hu
          by_cases e : u = t
          · subst e; simp only [Function.update_self]; exact k2
          · simp only [Function.update_of_ne e]; exact hs.within u hu
        · intro u hu o ho
          refine hs.outs u hu o ?_
          by_cases e : u = t
          · subst e
            simp only [Function.update_self] at ho
            exact k1 o ho
          · simp only [Function.update_of_ne e] at ho
            exact Outs.congr (hs.within u hu) (fun l _ => k3 l)
              (fun l hl => (k4 l (fun hw => hw.elim (fun hw => ha.apart t u l hlt hu (fun h => e h.symm) hw hl)
                (ha.own u l hl))).symm) ho
        · intro l hS hl
          simp only [k4 l (fun h => h.elim (hl t hlt) hS)]
          exact hs.frame l hS hl
        · intro u hu
          have hne : u ≠ t := fun e => hnd (e ▸ hu)
          simp only [Function.update_of_ne hne]
          exact hs.done u hu
    · cases h

theorem SharedInv.run {threads n : Nat} {tasks : Nat → Prog L V Unit} {S : L → Prop} {A : Nat → L → Prop}
    {I : ∀ l, V l → Prop} (ha : ApartBut n tasks S A I) {m0 : ∀ l, V l} :
    ∀ (ls : List WorkStep) {s s' : Work L V}, SharedInv threads n tasks S A I m0 s → s.run ls = some s' →
    SharedInv threads n tasks S A I m0 s'
  | [], s, s', hs, h => by
    rw [Work.run, Option.some.injEq] at h
    exact h ▸ hs
  | l :: ls, s, s', hs, h => by
    rw [Work.run] at h
    cases hl : s.step l with
    | none => rw [hl] at h; cases h
    | some s1 =>
      rw [hl] at h
      exact SharedInv.run ha ls (hs.step ha hl) h

/-- When the pool has ended, final memory is a possible outcome of each task; and a task that has crashed had that as a
possible outcome. -/
theorem shared_result {threads n : Nat} (hpos : 0 < threads) {tasks : Nat → Prog L V Unit} {S : L → Prop}
    {A : Nat → L → Prop} {I : ∀ l, V l → Prop} (ha : ApartBut n tasks S A I) {m0 : ∀ l, V l} (h0 : ∀ l, I l (m0 l))
    {ls : List WorkStep} {s : Work L V} (h : (Work.new threads n tasks m0).run ls = some s) :
    (∀ l, DataRaceOn s l → S l) ∧ (TaskCrashed s → ∃ t, t < n ∧ (Outs S (A t) I (tasks t) m0 .ub ∨ Outs S (A t) I (tasks t) m0 .fatal)) ∧
    (s.pool.main = .returned → (∀ t, t < n → Outs S (A t) I (tasks t) m0 (ok ((), s.mem))) ∧
      ∀ l, ¬ S l → (∀ t, t < n → ¬ A t l) → s.mem l = m0 l) := by
  have inv := SharedInv.run ha ls (SharedInv.start (threads := threads) ha h0) h
  obtain ⟨sched, hp⟩ := inv.pool
  refine ⟨?_, ?_, ?_⟩
  · rintro l ⟨k, k', t, t', hkk, hk, hk', hw, hrw⟩
    have hne := running_ne hp hkk hk hk'
    have ht := (running_lt hp hk).1
    have ht' := (running_lt hp hk').1
    have w1 := inv.within t ht
    have w2 := inv.within t' ht'
    have h1 : A t l ∨ S l := by
      cases hq : s.tasks t with
      | out r => rw [hq] at hw; cases hw
      | read _ _ => rw [hq] at hw; cases hw
      | write l0 v k0 =>
        rw [hq] at hw w1
        simp only [Prog.writes, Option.some.injEq] at hw
        subst hw
        exact w1.1
    have h2 : A t' l ∨ S l := by
      cases hq : s.tasks t' with
      | out r => rw [hq] at hrw; rcases hrw with h | h <;> cases h
      | read l0 k0 =>
        rw [hq] at hrw w2
        rcases hrw with h | h
        · simp only [Prog.reads, Option.some.injEq] at h
          subst h
          exact w2.1
        · cases h
      | write l0 v k0 =>
        rw [hq] at hrw w2
        rcases hrw with h | h
        · cases h
        · simp only [Prog.writes, Option.some.injEq] at h
          subst h
          exact w2.1
    rcases h1 with h1 | h1
    · rcases h2 with h2 | h2
      · exact absurd h2 (ha.apart t t' l ht ht' hne h1)
      · exact h2
    · exact h1
  · rintro ⟨k, t, hk, hc⟩
    have hlt := (running_lt hp hk).1
    refine ⟨t, hlt, ?_⟩
    rcases hc with hc | hc
    · exact Or.inl (inv.outs t hlt _ (by rw [hc]; rfl))
    · exact Or.inr (inv.outs t hlt _ (by rw [hc]; rfl))
  · intro hret
    obtain ⟨hd, _⟩ := C23_all_done_at_return threads hpos _ sched s.pool hp hret
    rw [tasksOf_enqueues] at hd
    refine ⟨fun t ht => ?_, inv.frame⟩
    obtain ⟨u, hu⟩ := inv.done t (hd.mem_iff.mpr (List.mem_range.mpr ht))
    exact inv.outs t ht _ (by rw [hu]; exact ⟨s.mem, rfl, fun _ _ => rfl⟩)

/-- Tasks with separate footprints that can each be run alone can be run one after the other. -/
theorem runAll_defined {n : Nat} {tasks : Nat → Prog L V Unit} {R W : Nat → L → Prop} {I : ∀ l, V l → Prop}
    (ha : Apart n tasks R W I) {m0 : ∀ l, V l} : ∀ (ts : List Nat) {m : ∀ l, V l},
    ts.Nodup → (∀ t ∈ ts, t < n) → (∀ l, I l (m l)) → (∀ t ∈ ts, ∀ l, R t l → m l = m0 l) →
    (∀ l, I l (m0 l)) → (∀ t ∈ ts, ∃ sol, (tasks t).run m0 = ok ((), sol)) → ∃ m1, runAll (ts.map tasks) m = ok m1
  | [], m, _, _, _, _, _, _ => ⟨m, rfl⟩
  | t :: ts, m, hn, hlt, hI, hR, h0, hsol => by
    rw [List.nodup_cons] at hn
    have ht := ha.within t (hlt t (by simp))
    obtain ⟨sol, hs⟩ := hsol t (by simp)
    obtain ⟨m2, h1, _⟩ := run_congr ht (m' := m) h0 (hR t (by simp)) hs
    obtain ⟨f1, f2⟩ := run_frame ht hI h1
    obtain ⟨m1, h2⟩ := runAll_defined ha ts (m := m2) hn.2 (fun u hu => hlt u (by simp [hu])) f2
      (fun u hu l hl => by
        rw [f1 l (fun hw => ha.apart t u l (hlt t (by simp)) (hlt u (by simp [hu])) (fun e => hn.1 (e ▸ hu)) hw hl)]
        exact hR u (by simp [hu]) l hl) h0 (fun u hu => hsol u (by simp [hu]))
    exact ⟨m1, by rw [List.map_cons, runAll, h1, ok_bind, h2]⟩

/-! ## One thread -/

/-- What holds of a pool of one thread: it runs the tasks one after the other. -/
structure SoloInv (n : Nat) (tasks : Nat → Prog L V Unit) (m0 : ∀ l, V l) (s : Work L V) : Prop where
  pool : ∃ sched, (Pool.new 1 ((List.range n).map PoolOp.enqueue)).run sched = some s.pool
  one : s.pool.workers.length = 1
  rest : ∀ t, t ∉ s.pool.started → s.tasks t = tasks t
  idle : (∀ t, s.pool.workers[0]? ≠ some (WPhase.running t)) → s.pool.started = s.pool.done ∧
    runAll (s.pool.done.map tasks) m0 = ok s.mem
  busy : ∀ t, s.pool.workers[0]? = some (WPhase.running t) → s.pool.started = s.pool.done ++ [t] ∧
    ∃ m1, runAll (s.pool.done.map tasks) m0 = ok m1 ∧ (tasks t).run m1 = (s.tasks t).run s.mem

theorem runAll_append {ps qs : List (Prog L V Unit)} {m m1 : ∀ l, V l} (h : runAll ps m = ok m1) :
    runAll (ps ++ qs) m = runAll qs m1 := by
  induction ps generalizing m with
  | nil =>
    rw [runAll, Outcome.ok.injEq] at h
    subst h
    rfl
  | cons p ps ih =>
    rw [runAll, bind_eq_ok] at h
    obtain ⟨x, h1, h2⟩ := h
    rw [List.cons_append, runAll, h1, ok_bind]
    exact ih h2

theorem run_step {p q : Prog L V α} {m m1 : ∀ l, V l} (h : p.step m = some (q, m1)) : q.run m1 = p.run m := by
  cases p with
  | out r => cases h
  | read l k =>
    simp only [Prog.step, Option.some.injEq, Prod.mk.injEq] at h
    obtain ⟨rfl, rfl⟩ := h
    rfl
  | write l v k =>
    simp only [Prog.step, Option.some.injEq, Prod.mk.injEq] at h
    obtain ⟨rfl, rfl⟩ := h
    rfl

/-- A step of the pool that neither starts nor ends a task keeps the invariant. -/
theorem SoloInv.keep {n : Nat} {tasks : Nat → Prog L V Unit} {m0 : ∀ l, V l} {s : Work L V} {p : Pool}
    (hs : SoloInv n tasks m0 s) (hpool : ∃ sched, (Pool.new 1 ((List.range n).map PoolOp.enqueue)).run sched = some p)
    (h1 : p.workers.length = 1) (h2 : p.started = s.pool.started) (h3 : p.done = s.pool.done)
    (h4 : ∀ t, p.workers[0]? = some (WPhase.running t) ↔ s.pool.workers[0]? = some (WPhase.running t)) :
    SoloInv n tasks m0 { s with pool := p } where
  pool := hpool
  one := h1
  rest := by intro t ht; exact hs.rest t (h2 ▸ ht)
  idle := by
    intro h
    obtain ⟨a, b⟩ := hs.idle (fun t ht => h t ((h4 t).mpr ht))
    exact ⟨by rw [h2, h3, a], by rw [h3]; exact b⟩
  busy := by
    intro t ht
    obtain ⟨a, b⟩ := hs.busy t ((h4 t).mp ht)
    exact ⟨by rw [h2, h3, a], by rw [h3]; exact b⟩

theorem SoloInv.start {n : Nat} {tasks : Nat → Prog L V Unit} {m0 : ∀ l, V l} :
    SoloInv n tasks m0 (Work.new 1 n tasks m0) where
  pool := ⟨[], rfl⟩
  one := rfl
  rest := fun _ _ => rfl
  idle := fun _ => ⟨rfl, rfl⟩
  busy := by intro t ht; cases ht

theorem SoloInv.step {n : Nat} {tasks : Nat → Prog L V Unit} {m0 : ∀ l, V l} {s s' : Work L V}
    (hs : SoloInv n tasks m0 s) {l : WorkStep} (h : s.step l = some s') : SoloInv n tasks m0 s' := by
  obtain ⟨sched, hp⟩ := hs.pool
  have h0 : ∀ k w, s.pool.workers[k]? = some w → k = 0 := by
    intro k w hk
    have := (List.getElem?_eq_some_iff.mp hk).1
    have := hs.one
    omega
  cases l with
  | access k =>
    simp only [Work.step] at h
    split at h
    · next t hk =>
      obtain rfl := h0 k _ hk
      cases hst : (s.tasks t).step s.mem with
      | none => rw [hst] at h; cases h
      | some x =>
        obtain ⟨q, m⟩ := x
        rw [hst] at h
        simp only [Option.some.injEq] at h
        subst h
        obtain ⟨b1, m1, b2, b3⟩ := hs.busy t hk
        refine ⟨⟨sched, hp⟩, hs.one, ?_, fun hi => absurd hk (hi t), ?_⟩
        · intro u hu
          have hne : u ≠ t := by
            rintro rfl
            exact hu (by simp only [b1]; simp)
          simp only [Function.update_of_ne hne]
          exact hs.rest u hu
        · intro u hu
          simp only [hk, Option.some.injEq, WPhase.running.injEq] at hu
          subst hu
          refine ⟨b1, m1, b2, ?_⟩
          simp only [Function.update_self]
          rw [run_step hst]
          exact b3
    · cases h
  | pool l =>
    simp only [Work.step] at h
    split at h
    · cases h
    · next he =>
      cases hl : s.pool.step l with
      | none => rw [hl] at h; cases h
      | some p =>
        rw [hl] at h
        simp only [Option.some.injEq] at h
        subst h
        have hpool : ∃ sched, (Pool.new 1 ((List.range n).map PoolOp.enqueue)).run sched = some p :=
          ⟨sched ++ [l], pool_run_append sched hp (by simp [Pool.run, hl])⟩
        have hsub : ∀ w w' : WPhase, s.pool.workers[0]? = some w → (∀ t, w ≠ .running t) → (∀ t, w' ≠ .running t) → ∀ t,
            (s.pool.workers.set 0 w')[0]? = some (WPhase.running t) ↔ s.pool.workers[0]? = some (WPhase.running t) := by
          intro w w' hw hn hn' t
          rw [hw, List.getElem?_set_self (by rw [hs.one]; omega)]
          simp only [Option.some.injEq]
          exact ⟨fun h => absurd h (hn' t), fun h => absurd h (hn t)⟩
        cases l with
        | spurious k =>
          simp only [Pool.step, Pool.stepSpurious] at hl
          split at hl
          · next hk =>
            obtain rfl := h0 k _ hk
            cases hl
            exact hs.keep hpool (by simp [hs.one]) rfl rfl (hsub _ _ hk (by simp) (by simp))
          · cases hl
        | main pick =>
          simp only [Pool.step, Pool.stepMain] at hl
          split at hl
          · split at hl
            · cases hl; exact hs.keep hpool hs.one rfl rfl (fun _ => Iff.rfl)
            · cases hl
          · split at hl
            · cases hl; exact hs.keep hpool hs.one rfl rfl (fun _ => Iff.rfl)
            · cases hl
          · split at hl
            · cases hl; exact hs.keep hpool hs.one rfl rfl (fun _ => Iff.rfl)
            · cases hl
          · cases hl; exact hs.keep hpool hs.one rfl rfl (fun _ => Iff.rfl)
          · split at hl
            · split at hl
              · next hk =>
                obtain rfl := h0 pick _ hk
                cases hl
                exact hs.keep hpool (by simp [hs.one]) rfl rfl (hsub _ _ hk (by simp) (by simp))
              · cases hl
            · cases hl; exact hs.keep hpool hs.one rfl rfl (fun _ => Iff.rfl)
          · cases hl; exact hs.keep hpool hs.one rfl rfl (fun _ => Iff.rfl)
          · cases hl
            refine hs.keep hpool (by simp [hs.one]) rfl rfl (fun t => ?_)
            simp only [List.getElem?_map]
            cases s.pool.workers[0]? with
            | none => simp
            | some w => cases w <;> simp [Pool.wake]
          · split at hl
            · split at hl
              · cases hl; exact hs.keep hpool hs.one rfl rfl (fun _ => Iff.rfl)
              · cases hl
            · cases hl; exact hs.keep hpool hs.one rfl rfl (fun _ => Iff.rfl)
          · cases hl
        | worker k =>
          simp only [Pool.step, Pool.stepWorker] at hl
          split at hl
          · next hk =>
            obtain rfl := h0 k _ hk
            split at hl
            · cases hl
              exact hs.keep hpool (by simp [hs.one]) rfl rfl (hsub _ _ hk (by simp) (by simp))
            · cases hl
          · next hk =>
            obtain rfl := h0 k _ hk
            split at hl
            · split at hl
              · cases hl
                exact hs.keep hpool (by simp [hs.one]) rfl rfl (hsub _ _ hk (by simp) (by simp))
              · cases hl
                exact hs.keep hpool (by simp [hs.one]) rfl rfl (hsub _ _ hk (by simp) (by simp))
            · next t q hq =>
              cases hl
              obtain ⟨i1, i2⟩ := hs.idle (fun u hu => by rw [hk] at hu; cases hu)
              have hw : (s.pool.workers.set 0 (WPhase.running t))[0]? = some (WPhase.running t) := by
                rw [List.getElem?_set_self (by rw [hs.one]; omega)]
              have hnt : t ∉ s.pool.started := by
                obtain ⟨⟨pending, hpd⟩, _⟩ := C23_each_task_once _ _ _ _ hp
                rw [tasksOf_enqueues] at hpd
                have hnd := hpd.nodup_iff.mpr List.nodup_range
                rw [i1]
                intro hd
                rw [List.append_assoc, List.append_assoc, List.nodup_append] at hnd
                exact hnd.2.2 t hd t (by simp [hq]) rfl
              refine ⟨hpool, by simp [hs.one], ?_, ?_, ?_⟩
              · intro u hu
                refine hs.rest u (fun h => hu ?_)
                simp only [List.mem_append]
                exact Or.inl h
              · intro hi
                exact absurd hw (hi t)
              · intro u hu
                simp only [hw, Option.some.injEq, WPhase.running.injEq] at hu
                subst hu
                refine ⟨by simp only [i1], s.mem, i2, ?_⟩
                rw [hs.rest t hnt]
          · next t hk =>
            obtain rfl := h0 k _ hk
            cases hl
            obtain ⟨b1, m1, b2, b3⟩ := hs.busy t hk
            have hend : ∃ u, s.tasks t = .out (.ok u) := by
              simp only [endsEarly, hk] at he
              split at he
              · next u hu => exact ⟨u, hu⟩
              · simp at he
            obtain ⟨u, hu⟩ := hend
            have hw : (s.pool.workers.set 0 WPhase.start)[0]? = some WPhase.start := by
              rw [List.getElem?_set_self (by rw [hs.one]; omega)]
            refine ⟨hpool, by simp [hs.one], hs.rest, ?_, ?_⟩
            · intro _
              refine ⟨b1, ?_⟩
              rw [hu] at b3
              simp only [List.map_append, List.map_cons, List.map_nil]
              rw [runAll_append b2, runAll, b3, Prog.run, ok_bind, runAll]
            · intro v hv
              rw [hw] at hv
              cases hv
          · cases hl
          · cases hl
          · cases hl

/-- A pool of one thread runs the tasks one after the other, whatever they share. -/
theorem solo_result {n : Nat} {tasks : Nat → Prog L V Unit} {m0 : ∀ l, V l} {ls : List WorkStep} {s : Work L V}
    (h : (Work.new 1 n tasks m0).run ls = some s) :
    ¬ DataRace s ∧ (s.pool.main = .returned → runAll ((List.range n).map tasks) m0 = ok s.mem) := by
  have key : ∀ (ls : List WorkStep) {a b : Work L V}, SoloInv n tasks m0 a → a.run ls = some b → SoloInv n tasks m0 b := by
    intro ls
    induction ls with
    | nil =>
      intro a b ha h
      rw [Work.run, Option.some.injEq] at h
      exact h ▸ ha
    | cons l ls ih =>
      intro a b ha h
      rw [Work.run] at h
      cases hl : a.step l with
      | none => rw [hl] at h; cases h
      | some a1 =>
        rw [hl] at h
        exact ih (ha.step hl) h
  have inv := key ls SoloInv.start h
  constructor
  · rintro ⟨l, k, k', t, t', hkk, h1, h2, _⟩
    have := (List.getElem?_eq_some_iff.mp h1).1
    have := (List.getElem?_eq_some_iff.mp h2).1
    have := inv.one
    omega
  · intro hret
    obtain ⟨sched, hp⟩ := inv.pool
    obtain ⟨hd, hex⟩ := C23_all_done_at_return 1 (by omega) _ sched s.pool hp hret
    obtain ⟨_, hpre⟩ := C23_each_task_once _ _ _ _ hp
    rw [tasksOf_enqueues] at hd hpre
    have hidle : ∀ t, s.pool.workers[0]? ≠ some (WPhase.running t) := by
      intro t ht
      have := mem_runningTasks ht
      obtain ⟨⟨pending, hpd⟩, _⟩ := C23_each_task_once _ _ _ _ hp
      rw [tasksOf_enqueues] at hpd
      have hl := hpd.length_eq
      have hl2 := hd.length_eq
      have : 0 < (runningTasks s.pool).length := List.length_pos_of_mem this
      simp only [List.length_append] at hl
      omega
    obtain ⟨i1, i2⟩ := inv.idle hidle
    have : s.pool.done = List.range n := by
      rw [← i1]
      rw [← i1] at hd
      exact hpre.eq_of_length hd.length_eq
    rw [← this]
    exact i2

/-! ## Ending -/

/-- At most `N` accesses, if cells hold what `I` says. -/
def Short {α : Type} (I : ∀ l, V l → Prop) : Nat → Prog L V α → Prop
  | _, .out _ => True
  | N, .read l k => 0 < N ∧ ∀ v, I l v → Short I (N - 1) (k v)
  | N, .write _ _ k => 0 < N ∧ Short I (N - 1) k

theorem Short.mono {α : Type} {I : ∀ l, V l → Prop} {N M : Nat} {p : Prog L V α} (h : Short I N p) (hNM : N ≤ M) :
    Short I M p := by
  induction p generalizing N M with
  | out r => trivial
  | read l k ih =>
    obtain ⟨h1, h2⟩ := h
    exact ⟨by omega, fun v hv => ih v (h2 v hv) (by omega)⟩
  | write l v k ih =>
    obtain ⟨h1, h2⟩ := h
    exact ⟨by omega, ih h2 (by omega)⟩

theorem Short.bindOk {α β : Type} {I : ∀ l, V l → Prop} {R W : L → Prop} {Q : α → Prop} {N M : Nat} {p : Prog L V α}
    {f : α → Prog L V β} (h : Short I N p) (hp : Within R W I Q p) (hf : ∀ a, Q a → Short I M (f a)) :
    Short I (N + M) (p.bind f) := by
  induction p generalizing N with
  | out r =>
    cases r with
    | ok a => exact (hf a hp).mono (by omega)
    | ub => trivial
    | fatal => trivial
  | read l k ih =>
    obtain ⟨h1, h2⟩ := h
    refine ⟨by omega, fun v hv => (ih v (h2 v hv) (hp.2 v hv)).mono (by omega)⟩
  | write l v k ih =>
    obtain ⟨h1, h2⟩ := h
    exact ⟨by omega, (ih h2 hp.2.2).mono (by omega)⟩

theorem Short.bind {α β : Type} {I : ∀ l, V l → Prop} {N M : Nat} {p : Prog L V α} {f : α → Prog L V β}
    (h : Short I N p) (hf : ∀ a, Short I M (f a)) : Short I (N + M) (p.bind f) := by
  induction p generalizing N with
  | out r =>
    cases r with
    | ok a => exact (hf a).mono (by omega)
    | ub => trivial
    | fatal => trivial
  | read l k ih =>
    obtain ⟨h1, h2⟩ := h
    refine ⟨by omega, fun v hv => (ih v (h2 v hv)).mono (by omega)⟩
  | write l v k ih =>
    obtain ⟨h1, h2⟩ := h
    exact ⟨by omega, (ih h2).mono (by omega)⟩

theorem shared_length {threads n : Nat} {tasks : Nat → Prog L V Unit} {S : L → Prop} {A : Nat → L → Prop}
    {I : ∀ l, V l → Prop} (ha : ApartBut n tasks S A I) {m0 : ∀ l, V l} : ∀ (ls : List WorkStep) {s s' : Work L V}
    {b : Nat → Nat}, SharedInv threads n tasks S A I m0 s → (∀ t, t < n → Short I (b t) (s.tasks t)) →
    s.run ls = some s' →
    s.pool.run (poolSteps ls) = some s'.pool ∧ ls.length ≤ (poolSteps ls).length + ∑ t ∈ Finset.range n, b t
  | [], s, s', b, hs, hb, h => by
    rw [Work.run, Option.some.injEq] at h
    subst h
    exact ⟨rfl, by simp⟩
  | l :: ls, s, s', b, hs, hb, h => by
    rw [Work.run] at h
    cases hl : s.step l with
    | none => rw [hl] at h; cases h
    | some s1 =>
      rw [hl] at h
      have hs1 := hs.step ha hl
      cases l with
      | access k =>
        simp only [Work.step] at hl
        split at hl
        · next t hk =>
          obtain ⟨sched, hp⟩ := hs.pool
          obtain ⟨hlt, _⟩ := running_lt hp hk
          have hbt := hb t hlt
          have key : ∀ q m, (s.tasks t).step s.mem = some (q, m) → 0 < b t ∧ Short I (b t - 1) q := by
            intro q m hst
            cases hq : s.tasks t with
            | out r => rw [hq] at hst; cases hst
            | read l0 k0 =>
              rw [hq] at hst hbt
              simp only [Prog.step, Option.some.injEq, Prod.mk.injEq] at hst
              obtain ⟨rfl, rfl⟩ := hst
              exact ⟨hbt.1, hbt.2 _ (hs.mem l0)⟩
            | write l0 v k0 =>
              rw [hq] at hst hbt
              simp only [Prog.step, Option.some.injEq, Prod.mk.injEq] at hst
              obtain ⟨rfl, rfl⟩ := hst
              exact hbt
          cases hst : (s.tasks t).step s.mem with
          | none => rw [hst] at hl; cases hl
          | some x =>
            obtain ⟨q, m⟩ := x
            obtain ⟨hb1, hb2⟩ := key q m hst
            rw [hst] at hl
            simp only [Option.some.injEq] at hl
            subst hl
            obtain ⟨k1, k2⟩ := shared_length ha ls (b := Function.update b t (b t - 1)) hs1 (fun u hu => by
              by_cases e : u = t
              · subst e
                simp only [Function.update_self]
                exact hb2
              · simp only [Function.update_of_ne e]
                exact hb u hu) h
            have he : poolSteps (WorkStep.access k :: ls) = poolSteps ls := rfl
            refine ⟨by rw [he]; exact k1, ?_⟩
            have hsum : ∑ u ∈ Finset.range n, Function.update b t (b t - 1) u + 1 = ∑ u ∈ Finset.range n, b u := by
              have hmem : t ∈ Finset.range n := Finset.mem_range.mpr hlt
              rw [← Finset.sum_erase_add _ _ hmem, ← Finset.sum_erase_add (Finset.range n) b hmem, Function.update_self]
              rw [Nat.add_assoc, Nat.sub_add_cancel hb1]
              congr 1
              apply Finset.sum_congr rfl
              intro u hu
              rw [Function.update_of_ne (Finset.ne_of_mem_erase hu)]
            rw [he, List.length_cons]
            omega
        · cases hl
      | pool p =>
        simp only [Work.step] at hl
        split at hl
        · cases hl
        · cases hp : s.pool.step p with
          | none => rw [hp] at hl; cases hl
          | some p1 =>
            rw [hp] at hl
            simp only [Option.some.injEq] at hl
            subst hl
            obtain ⟨k1, k2⟩ := shared_length ha ls hs1 hb h
            have he : poolSteps (WorkStep.pool p :: ls) = p :: poolSteps ls := rfl
            refine ⟨?_, ?_⟩
            · rw [he, Pool.run, hp]
              exact k1
            · rw [he, List.length_cons, List.length_cons]
              omega

/-- A pool at work on tasks of bounded length ends, whatever the schedule. -/
theorem shared_ends {threads n : Nat} {tasks : Nat → Prog L V Unit} {S : L → Prop} {A : Nat → L → Prop}
    {I : ∀ l, V l → Prop} (ha : ApartBut n tasks S A I) {m0 : ∀ l, V l} (h0 : ∀ l, I l (m0 l))
    (hb : ∀ t, ∃ N, Short I N (tasks t)) :
    ∃ bound, ∀ ls s, (Work.new threads n tasks m0).run ls = some s → ls.length ≤ bound + 3 * wakeUps ls := by
  choose b hb using hb
  refine ⟨8 * n + 5 * threads + 5 + ∑ t ∈ Finset.range n, b t, fun ls s h => ?_⟩
  obtain ⟨k1, k2⟩ := shared_length ha ls (SharedInv.start (threads := threads) ha h0) (fun t _ => hb t) h
  have := C24_terminates threads _ _ _ k1
  rw [spuriousCount_poolSteps, List.length_map, List.length_range] at this
  omega

/-- A pool at work goes on until it returns, unless a task has crashed. -/
theorem shared_goes_on {threads n : Nat} (hpos : 0 < threads) {tasks : Nat → Prog L V Unit} {S : L → Prop}
    {A : Nat → L → Prop} {I : ∀ l, V l → Prop} (ha : ApartBut n tasks S A I) {m0 : ∀ l, V l} (h0 : ∀ l, I l (m0 l))
    {ls : List WorkStep} {s : Work L V} (h : (Work.new threads n tasks m0).run ls = some s) (hc : ¬ TaskCrashed s)
    (hret : s.pool.main ≠ .returned) : ∃ l s', (∀ k, l ≠ .pool (.spurious k)) ∧ s.step l = some s' := by
  obtain ⟨sched, hp⟩ := (SharedInv.run ha ls (SharedInv.start (threads := threads) ha h0) h).pool
  have hwf : AwaitsOwn ((List.range n).map PoolOp.enqueue) := by
    intro pre t post he
    have : PoolOp.await t ∈ (List.range n).map PoolOp.enqueue := by rw [he]; simp
    obtain ⟨_, _, hx⟩ := List.mem_map.mp this
    cases hx
  obtain ⟨l, p', hns, hl⟩ := C24_no_deadlock threads hpos _ hwf sched s.pool hp hret
  by_cases he : endsEarly s l = true
  · unfold endsEarly at he
    cases l with
    | main _ => cases he
    | spurious _ => cases he
    | worker k =>
      cases hk : s.pool.workers[k]? with
      | none => simp only [hk] at he; cases he
      | some w =>
        cases w with
        | running t =>
          refine ⟨.access k, ?_⟩
          cases hq : s.tasks t with
          | out r =>
            cases r with
            | ok u => simp only [hk, hq] at he; cases he
            | ub => exact absurd ⟨k, t, hk, Or.inl hq⟩ hc
            | fatal => exact absurd ⟨k, t, hk, Or.inr hq⟩ hc
          | read l0 k0 => simp only [Work.step, hk, hq, Prog.step]; exact ⟨_, by simp, rfl⟩
          | write l0 v k0 => simp only [Work.step, hk, hq, Prog.step]; exact ⟨_, by simp, rfl⟩
        | start => simp only [hk] at he; cases he
        | crit => simp only [hk] at he; cases he
        | waiting => simp only [hk] at he; cases he
        | exited => simp only [hk] at he; cases he
  · exact ⟨.pool l, { s with pool := p' }, fun k e => hns k (by cases e; rfl), by simp only [Work.step, he, hl]; rfl⟩

end

end Gbdt
