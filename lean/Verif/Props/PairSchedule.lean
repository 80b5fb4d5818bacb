import Verif.Lemmas.PairTasks
import Verif.Props.PairwiseDefined

/-!
# C78 and C54: pairwise gradients computed by the pool

Specification: `CanGive` says that numbers are ones the generator gives in some state; `withDraws` is the sequential model
with those numbers drawn in this round.
-/

set_option autoImplicit false
set_option linter.unusedSectionVars false

namespace Gbdt

open Outcome

section
variable {D G : Type} [Dbl D]

/-- Numbers that the generator gives in some state, for every group, every draw and every number of pairs. -/
def CanGive (sample : Nat → G → Nat × G) (d : Nat → Nat → Nat → Nat) : Prop := ∀ k i n, ∃ x, d k i n = (sample n x).1

/-- The loss with these numbers drawn in round `t`. -/
def withDraws (e : PairLoss D) (t : Nat) (d : Nat → Nat → Nat → Nat) : PairLoss D :=
  { e with draw := Function.update e.draw t d }

theorem sliceGroups_flatten (slices : List (Nat × Nat)) : ((List.range slices.length).map (sliceGroups slices)).flatten =
    slices.flatMap (fun sl => List.range' sl.1 (sl.2 - sl.1)) := by
  rw [List.flatMap_def]
  congr 1
  apply List.ext_getElem (by simp)
  intro i h1 h2
  simp only [List.length_map, List.length_range] at h1 h2
  simp [sliceGroups, List.getD_eq_getElem?_getD, h1]

section setup
variable {e : PairLoss D} {numRows : Nat} {col : Option StrCol} {s : PairState D}

theorem slices_nodup (hinv : PairInv e numRows col s) : (∀ t, t < s.slices.length → (sliceGroups s.slices t).Nodup) ∧
    ∀ t u, t < s.slices.length → u < s.slices.length → t ≠ u → ∀ k ∈ sliceGroups s.slices t, k ∉ sliceGroups s.slices u := by
  have hnd : ((List.range s.slices.length).map (sliceGroups s.slices)).flatten.Nodup := by
    rw [sliceGroups_flatten, hinv.order]
    exact List.nodup_range
  rw [List.nodup_flatten] at hnd
  refine ⟨fun t ht => hnd.1 _ (List.mem_map_of_mem (List.mem_range.mpr ht)), ?_⟩
  have hpw := hnd.2
  rw [List.pairwise_iff_getElem] at hpw
  intro t u ht hu htu k hk hk'
  rcases Nat.lt_or_gt_of_ne htu with h | h
  · have := hpw t u (by simpa using ht) (by simpa using hu) h
    simp only [List.getElem_map, List.getElem_range] at this
    exact this hk hk'
  · have := hpw u t (by simpa using hu) (by simpa using ht) h
    simp only [List.getElem_map, List.getElem_range] at this
    exact this hk' hk

theorem pairMem_ok (gen : G) (groups : List Group) (grads : List (GD D)) :
    ∀ l, PairOk groups l (pairMem gen groups grads l) := by
  intro l
  cases l with
  | gen => trivial
  | grad i => trivial
  | group k =>
    intro g hg
    show (groups.getD k _).rows = _ ∧ (groups.getD k _).numPairs = _
    rw [List.getD_eq_getElem?_getD, hg]
    exact ⟨rfl, rfl⟩

theorem pairTasks_apart (hinv : PairInv e numRows col s) (sample : Nat → G → Nat × G) (f : List D) :
    ApartBut s.slices.length (pairTask e sample s f) IsGen (fun t => PairFoot s.groups (sliceGroups s.slices t))
      (PairOk s.groups) where
  within := fun t _ => pairGroups_within (fun _ _ n => drawProg_within (fun _ => trivial) sample n) e _ _ f _ _
    (fun _ hl => Or.inl hl)
  own := by
    rintro t l hl rfl
    exact hl
  apart := fun t u l ht hu htu hl =>
    pairFoot_apart hinv.kept.nodup ((slices_nodup hinv).2 t u ht hu htu) hl

/-- Draws of the tasks, put together. -/
theorem join_draws (hinv : PairInv e numRows col s) {sample : Nat → G → Nat × G} (x : G)
    {d : Nat → Nat → Nat → Nat → Nat} (hd : ∀ t, t < s.slices.length → CanGive sample (d t)) :
    ∃ dd, CanGive sample dd ∧ ∀ t, t < s.slices.length → ∀ k ∈ sliceGroups s.slices t, dd k = d t k := by
  classical
  refine ⟨fun k => if h : ∃ t, t < s.slices.length ∧ k ∈ sliceGroups s.slices t then d h.choose k
    else fun _ n => (sample n x).1, ?_, ?_⟩
  · intro k i n
    by_cases h : ∃ t, t < s.slices.length ∧ k ∈ sliceGroups s.slices t
    · simp only [dif_pos h]
      exact hd _ h.choose_spec.1 k i n
    · simp only [dif_neg h]
      exact ⟨x, rfl⟩
  · intro t ht k hk
    have h : ∃ t, t < s.slices.length ∧ k ∈ sliceGroups s.slices t := ⟨t, ht, hk⟩
    simp only [dif_pos h]
    have : h.choose = t := by
      by_contra hne
      exact (slices_nodup hinv).2 _ _ h.choose_spec.1 ht hne k h.choose_spec.2 hk
    rw [this]

/-- The tasks with fixed draws, run one after the other, are the sequential model. -/
theorem fixed_runAll (d : Nat → Nat → Nat → Nat) (f : List D) (gen : G) :
    runAll ((List.range s.slices.length).map (fun t => pairGroupsProg e s.prob s.minNumPairs f s.groups.length f.length
        (fixedDraw d) (sliceGroups s.slices t))) (pairMem gen s.groups (List.replicate f.length ⟨0, 0⟩)) =
      pairCompute (withDraws e s.round d) s f >>= fun r => ok (pairMem gen r.1.groups r.2.2) := by
  have h1 := pairGroups_runAll (G := G) e s.prob s.minNumPairs f s.groups.length f.length (fixedDraw d)
    ((List.range s.slices.length).map (sliceGroups s.slices)) (pairMem gen s.groups (List.replicate f.length ⟨0, 0⟩))
  rw [List.map_map, sliceGroups_flatten] at h1
  refine h1.trans ?_
  have h2 := pairGroups_run (withDraws e s.round d) f gen (s.slices.flatMap (fun sl => List.range' sl.1 (sl.2 - sl.1))) s
    (List.replicate f.length ⟨0, 0⟩)
  have hd : (withDraws e s.round d).draw s.round = d := by simp [withDraws]
  rw [hd, List.length_replicate, withDraws, pairGroupsProg_draw] at h2
  rw [h2, bind_assoc', pairCompute]
  simp only [bind_assoc', ok_bind, pure_eq]
  rfl

end setup

/-- **C78.** Whatever the schedule: when the pool returns, the gradients and the groups are those of the sequential model,
for some numbers that the generator can give.  So what is proved of all draws holds of every schedule, round after round. -/
theorem C78_refines [FpOrder D] [EqOrder D] {e : PairLoss D} (hsort : DescSortSpec e.sort) {numRows : Nat} {col : Option StrCol}
    {s : PairState D} (hr : PairReach e numRows col s) (sample : Nat → G → Nat × G) {threads : Nat} (hpos : 0 < threads)
    (f : List D) (gen : G) {ls : List WorkStep} {w : Work PairCell (PairVal D G)}
    (h : (pairWork e sample threads s f gen).run ls = some w) (hret : w.pool.main = .returned) :
    ∃ d, CanGive sample d ∧ PairReach (withDraws e s.round d) numRows col s ∧
      ∃ s1 grads, pairCompute (withDraws e s.round d) s f = ok (s1, 0, grads) ∧
        w.mem = pairMem (w.mem .gen) s1.groups grads := by
  have hinv := hr.inv hsort
  have ha := pairTasks_apart hinv sample f
  have h0 := pairMem_ok gen s.groups (List.replicate f.length (⟨0, 0⟩ : GD D))
  obtain ⟨_, _, hres⟩ := shared_result hpos ha h0 h
  obtain ⟨houts, hframe⟩ := hres hret
  have hex : ∀ t, ∃ d : Nat → Nat → Nat → Nat, t < s.slices.length → CanGive sample d ∧
      Outs IsGen (PairFoot s.groups (sliceGroups s.slices t)) (PairOk s.groups)
        (pairGroupsProg e s.prob s.minNumPairs f s.groups.length f.length (fixedDraw d) (sliceGroups s.slices t))
        (pairMem gen s.groups (List.replicate f.length ⟨0, 0⟩)) (ok ((), w.mem)) := by
    intro t
    by_cases ht : t < s.slices.length
    · obtain ⟨d, hd, ho⟩ := pairGroups_outs (fun h => h) sample e s.prob s.minNumPairs f f.length
        (sliceGroups s.slices t) _ _ ((slices_nodup hinv).1 t ht) (fun _ h => h) (fun l _ => h0 l) (houts t ht)
      exact ⟨d, fun _ => ⟨hd, ho⟩⟩
    · exact ⟨fun _ _ _ => 0, fun h => absurd h ht⟩
  choose d hd using hex
  obtain ⟨dd, hdd, hsame⟩ := join_draws hinv gen (fun t ht => (hd t ht).1)
  refine ⟨dd, hdd, hr.draw _ (fun t ht => Function.update_of_ne (by omega) _ _), ?_⟩
  -- the tasks with these draws
  have hap : Apart s.slices.length (fun t => pairGroupsProg (G := G) e s.prob s.minNumPairs f s.groups.length f.length
      (fixedDraw dd) (sliceGroups s.slices t)) (fun t => PairFoot s.groups (sliceGroups s.slices t))
      (fun t => PairFoot s.groups (sliceGroups s.slices t)) (PairOk s.groups) :=
    ⟨fun t _ => pairGroups_within (fixedDraw_within dd) e _ _ f _ _ (fun _ hl => hl), fun _ _ h => h, ha.apart⟩
  have hrun : ∀ t, t < s.slices.length → ∃ m1, (pairGroupsProg e s.prob s.minNumPairs f s.groups.length f.length
      (fixedDraw dd) (sliceGroups s.slices t)).run (pairMem gen s.groups (List.replicate f.length ⟨0, 0⟩)) = ok ((), m1) ∧
      ∀ l, PairFoot s.groups (sliceGroups s.slices t) l → w.mem l = m1 l := by
    intro t ht
    have ho := (hd t ht).2
    rw [pairGroupsProg_congr (draw' := fixedDraw dd) e _ _ f _ _ _ (fun k hk => by
      funext i n
      simp only [fixedDraw, hsame t ht k hk])] at ho
    exact (Outs.run (ha.own t) (hap.within t ht) h0 ho).1 () w.mem rfl
  obtain ⟨m1, hall⟩ := runAll_defined hap (List.range s.slices.length) List.nodup_range
    (fun t ht => List.mem_range.mp ht) h0 (fun _ _ _ _ => rfl) h0 (fun t ht => by
      obtain ⟨m1, h1, _⟩ := hrun t (List.mem_range.mp ht)
      exact ⟨m1, h1⟩)
  obtain ⟨c1, c2⟩ := runAll_cells hap h0 (List.range s.slices.length) List.nodup_range
    (fun t ht => List.mem_range.mp ht) h0 (fun _ _ _ _ => rfl) hall
  rw [fixed_runAll, bind_eq_ok] at hall
  obtain ⟨⟨s1, c, grads⟩, hcomp, hm⟩ := hall
  rw [Outcome.ok.injEq] at hm
  have hc : c = 0 := by
    rw [pairCompute, bind_eq_ok] at hcomp
    obtain ⟨⟨_, _⟩, _, hx⟩ := hcomp
    simp only [pure_eq, Outcome.ok.injEq, Prod.mk.injEq] at hx
    exact hx.2.1.symm
  subst hc
  refine ⟨s1, grads, hcomp, ?_⟩
  funext l
  by_cases hg : l = .gen
  · subst hg
    rfl
  · have hx : pairMem (w.mem .gen) s1.groups grads l = m1 l := by
      rw [← hm]
      cases l with
      | gen => exact absurd rfl hg
      | grad i => rfl
      | group k => rfl
    rw [hx]
    by_cases hf : ∃ t, t < s.slices.length ∧ PairFoot s.groups (sliceGroups s.slices t) l
    · obtain ⟨t, ht, hf⟩ := hf
      obtain ⟨sol, r1, r2⟩ := c1 t (List.mem_range.mpr ht)
      obtain ⟨m2, r3, r4⟩ := hrun t ht
      rw [r3, Outcome.ok.injEq, Prod.mk.injEq] at r1
      rw [r2 l hf, r4 l hf, r1.2]
    · rw [hframe l hg (fun t ht h => hf ⟨t, ht, h⟩), c2 l (fun t ht h => hf ⟨t, List.mem_range.mp ht, h⟩)]

/-- **C78.** Threads race for nothing but the generator; the pool always ends; and no task crashes, and none is stuck, if the
sequential model is defined for all numbers that the generator can give. -/
theorem C78_runs [FpOrder D] [EqOrder D] {e : PairLoss D} (hsort : DescSortSpec e.sort) {numRows : Nat} {col : Option StrCol}
    {s : PairState D} (hr : PairReach e numRows col s) (sample : Nat → G → Nat × G) {threads : Nat} (hpos : 0 < threads)
    (f : List D) (gen : G) :
    (∀ ls w, (pairWork e sample threads s f gen).run ls = some w → ∀ l, DataRaceOn w l → l = .gen) ∧
    (∃ bound, ∀ ls w, (pairWork e sample threads s f gen).run ls = some w → ls.length ≤ bound + 3 * wakeUps ls) ∧
    ((∀ d, CanGive sample d → ∃ r, pairCompute (withDraws e s.round d) s f = ok r) →
      ∀ ls w, (pairWork e sample threads s f gen).run ls = some w → ¬ TaskCrashed w ∧
        (w.pool.main ≠ .returned → ∃ l w', (∀ k, l ≠ .pool (.spurious k)) ∧ w.step l = some w')) := by
  have hinv := hr.inv hsort
  have ha := pairTasks_apart hinv sample f
  have h0 := pairMem_ok gen s.groups (List.replicate f.length (⟨0, 0⟩ : GD D))
  refine ⟨fun ls w h => (shared_result hpos ha h0 h).1, ?_, ?_⟩
  · exact shared_ends ha h0 (fun t => pairGroups_short sample e _ _ f _ _)
  · intro hdef ls w h
    have hnc : ¬ TaskCrashed w := by
      intro hc
      obtain ⟨t, ht, hcr⟩ := (shared_result hpos ha h0 h).2.1 hc
      have key : ∀ o, (o = .ub ∨ o = .fatal) → ¬ Outs IsGen (PairFoot s.groups (sliceGroups s.slices t))
          (PairOk s.groups) (pairTask e sample s f t) (pairMem gen s.groups (List.replicate f.length (⟨0, 0⟩ : GD D))) o := by
        intro o ho hx
        obtain ⟨d, hd, hx⟩ := pairGroups_outs (fun h => h) sample e s.prob s.minNumPairs f f.length
          (sliceGroups s.slices t) _ _ ((slices_nodup hinv).1 t ht) (fun _ h => h) (fun l _ => h0 l) hx
        obtain ⟨r, hr'⟩ := hdef d hd
        have hall := fixed_runAll (e := e) (s := s) d f gen
        rw [hr', ok_bind] at hall
        have hap : Apart s.slices.length (fun t => pairGroupsProg (G := G) e s.prob s.minNumPairs f s.groups.length f.length
            (fixedDraw d) (sliceGroups s.slices t)) (fun t => PairFoot s.groups (sliceGroups s.slices t))
            (fun t => PairFoot s.groups (sliceGroups s.slices t)) (PairOk s.groups) :=
          ⟨fun t _ => pairGroups_within (fixedDraw_within d) e _ _ f _ _ (fun _ hl => hl), fun _ _ h => h, ha.apart⟩
        obtain ⟨sol, r1, _⟩ := (runAll_cells hap h0 (List.range s.slices.length) List.nodup_range
          (fun t ht => List.mem_range.mp ht) h0 (fun _ _ _ _ => rfl) hall).1 t (List.mem_range.mpr ht)
        obtain ⟨_, o1, o2⟩ := Outs.run (ha.own t) (hap.within t ht) h0 hx
        rcases ho with ho | ho
        · rw [o1 ho] at r1; cases r1
        · rw [o2 ho] at r1; cases r1
      rcases hcr with hx | hx
      · exact key _ (Or.inl rfl) hx
      · exact key _ (Or.inr rfl) hx
    exact ⟨hnc, shared_goes_on hpos ha h0 h hnc⟩

/-- **C54, full statement.** For a given state of the generator, every schedule gives the same gradients. -/
def C54_full (D : Type) [Dbl D] : Prop :=
  ∀ (G : Type) (e : PairLoss D) (numRows : Nat) (col : Option StrCol) (s : PairState D) (sample : Nat → G → Nat × G)
    (threads : Nat) (f : List D) (gen : G) (ls ls' : List WorkStep) (w w' : Work PairCell (PairVal D G)),
    DescSortSpec e.sort → PairReach e numRows col s → 0 < threads → e.numThreads = threads →
    (pairWork e sample threads s f gen).run ls = some w → w.pool.main = .returned →
    (pairWork e sample threads s f gen).run ls' = some w' → w'.pool.main = .returned →
    ∀ i, w.mem (.grad i) = w'.mem (.grad i)

/-- **C54 (partial).** With one thread there are no data races, and every schedule gives the same gradients, the same groups
and the same state of the generator.  Missing: several threads, where it is false (`C54_refuted`, `C54_refuted_race`). -/
theorem C54_one_thread_partial (e : PairLoss D) (sample : Nat → G → Nat × G) (s : PairState D) (f : List D) (gen : G)
    {ls ls' : List WorkStep} {w w' : Work PairCell (PairVal D G)} (h : (pairWork e sample 1 s f gen).run ls = some w)
    (h' : (pairWork e sample 1 s f gen).run ls' = some w') :
    ¬ DataRace w ∧ (w.pool.main = .returned → w'.pool.main = .returned → w.mem = w'.mem) := by
  obtain ⟨a, b⟩ := solo_result h
  obtain ⟨_, b'⟩ := solo_result h'
  refine ⟨a, fun r r' => ?_⟩
  have := (b r).symm.trans (b' r')
  rwa [Outcome.ok.injEq] at this

end

/-! ## Two threads -/

section
variable {L : Type} {V : L → Type} [DecidableEq L]

/-- The schedule that always takes the first possible step of `prefs`. -/
def byPrefs (prefs : List WorkStep) : Nat → Work L V → List WorkStep
  | 0, _ => []
  | fuel + 1, w =>
    match prefs.find? (fun l => (w.step l).isSome) with
    | none => []
    | some l => match w.step l with
      | none => []
      | some w1 => l :: byPrefs prefs fuel w1

end

/-- A generator that counts. -/
def countSample (n x : Nat) : Nat × Nat := (x % n, x + 1)

/-- The loss of `ratPairLoss` after set-up. -/
def ratPairState : PairState ℚ :=
  match pairInit ratPairLoss 5 (some ratPairCol) with
  | .ok (.ok s) => s
  | _ => ⟨[], 0, 0, [], 0⟩

/-- Two threads compute gradients. -/
def ratPairWork : Work PairCell (PairVal ℚ Nat) := pairWork ratPairLoss countSample 2 ratPairState [1, 0, 0, 1/2, 1/4] 0

/-- The first thread does everything. -/
def scheduleA : List WorkStep := byPrefs [.pool (.main 0), .pool (.main 1), .access 0, .pool (.worker 0), .access 1,
  .pool (.worker 1)] 200 ratPairWork

/-- The first thread takes a task, and then is slow. -/
def scheduleB : List WorkStep :=
  let start : List WorkStep := [.pool (.main 0), .pool (.main 0), .pool (.worker 0), .pool (.worker 0)]
  match ratPairWork.run start with
  | none => []
  | some w => start ++ byPrefs [.access 1, .pool (.worker 1), .pool (.main 0), .pool (.main 1), .access 0,
      .pool (.worker 0)] 200 w

theorem ratPairState_reach : PairReach ratPairLoss 5 (some ratPairCol) ratPairState := by
  have h : (match pairInit ratPairLoss 5 (some ratPairCol) with | .ok (.ok _) => true | _ => false) = true := by
    decide +kernel
  apply PairReach.init
  unfold ratPairState
  split at h
  · next s hs => rw [hs]
  · cases h

theorem scheduleA_result : (match ratPairWork.run scheduleA with
    | some w => decide (w.pool.main = .returned ∧ (w.mem (.grad 2) : GD ℚ).g = -1 ∧ (w.mem .gen : Nat) = 4)
    | none => false) = true := by decide +kernel

theorem scheduleB_result : (match ratPairWork.run scheduleB with
    | some w => decide (w.pool.main = .returned ∧ (w.mem (.grad 2) : GD ℚ).g = -2 ∧ (w.mem .gen : Nat) = 4)
    | none => false) = true := by decide +kernel

/-- **C54 is false** with two threads: two schedules give different gradients. -/
theorem C54_refuted : ¬ C54_full ℚ := by
  intro h
  have ha := scheduleA_result
  have hb := scheduleB_result
  cases hA : ratPairWork.run scheduleA with
  | none => rw [hA] at ha; cases ha
  | some w =>
    cases hB : ratPairWork.run scheduleB with
    | none => rw [hB] at hb; cases hb
    | some w' =>
      rw [hA] at ha
      rw [hB] at hb
      simp only [decide_eq_true_eq] at ha hb
      have := h Nat ratPairLoss 5 (some ratPairCol) ratPairState countSample 2 [1, 0, 0, 1/2, 1/4] 0 scheduleA scheduleB w w'
        ratDescSort_spec ratPairState_reach (by decide) rfl hA ha.1 hB hb.1 2
      have hg : (w.mem (.grad 2) : GD ℚ).g = (w'.mem (.grad 2) : GD ℚ).g := by rw [this]
      rw [ha.2.1, hb.2.1] at hg
      exact absurd hg (by decide +kernel)

/-- Both threads at the generator. -/
def scheduleRace : List WorkStep := [.pool (.main 0), .pool (.main 0), .pool (.worker 0), .pool (.worker 0),
  .access 0, .access 0, .access 0, .pool (.main 0), .pool (.main 0), .pool (.main 0), .pool (.worker 1), .pool (.worker 1),
  .access 1, .access 1]

theorem scheduleRace_result : (match ratPairWork.run scheduleRace with
    | some w => decide (w.pool.workers = [.running 0, .running 1] ∧ (w.tasks 0).writes = some .gen ∧
        (w.tasks 1).reads = some .gen)
    | none => false) = true := by decide +kernel

/-- **C54 fails worse than that**: the threads do race for the generator, and then C++ promises nothing. -/
theorem C54_refuted_race : ∃ ls w, ratPairWork.run ls = some w ∧ DataRaceOn w .gen := by
  have h := scheduleRace_result
  cases hA : ratPairWork.run scheduleRace with
  | none => rw [hA] at h; cases h
  | some w =>
    rw [hA] at h
    simp only [decide_eq_true_eq] at h
    exact ⟨_, w, hA, 0, 1, 0, 1, by decide, by rw [h.1]; rfl, by rw [h.1]; rfl, h.2.1, Or.inl h.2.2⟩

/-- The hypotheses of C78 hold here, also those for absence of crashes; both schedules refine the sequential model. -/
example : DescSortSpec ratPairLoss.sort ∧ PairReach ratPairLoss 5 (some ratPairCol) ratPairState ∧
    ∀ d, CanGive countSample d →
      ∃ r, pairCompute (withDraws ratPairLoss ratPairState.round d) ratPairState [1, 0, 0, 1/2, 1/4] = ok r := by
  refine ⟨ratDescSort_spec, ratPairState_reach, fun d hd => ?_⟩
  have hr : PairReach (withDraws ratPairLoss ratPairState.round d) 5 (some ratPairCol) ratPairState :=
    ratPairState_reach.draw _ (fun t ht => Function.update_of_ne (by omega) _ _)
  refine C53_exact_partial (e := withDraws ratPairLoss ratPairState.round d) ratDescSort_spec hr ?_ (fun _ => rfl) ?_
    (show 0 < ratPairLoss.rate by decide +kernel)
    (show ratPairLoss.rate * (5 : Nat) / 2 < 2147483648 by decide +kernel) (groups := [[0, 2, 3], [1, 4]])
    (by decide +kernel) (by decide)
    ⟨[0, 2, 3], by decide, 2, by decide, 0, by decide, show ratPairLoss.y 2 < ratPairLoss.y 0 by decide +kernel⟩
  · intro t g i n hn
    show Function.update ratPairLoss.draw ratPairState.round d t g i n < n
    by_cases e : t = ratPairState.round
    · rw [e, Function.update_self]
      obtain ⟨x, hx⟩ := hd g i n
      rw [hx]
      exact Nat.mod_lt _ hn
    · rw [Function.update_of_ne e]
      exact Nat.mod_lt _ hn
  · intro x _ _
    show some x.floor.toNat = some ⌊x⌋₊
    rw [← Int.floor_toNat]
    rfl

end Gbdt
