import Verif.Lemmas.Tasks
import Verif.Lemmas.Score
import Verif.Props.Pointwise
import Verif.Props.Score
import Verif.Props.FitTree

/-!
# C25: the schedule of the threads does not matter

Specification: `EverySchedule start result` (`Spec/Schedule.lean`).  Each theorem says that a pool at work on the tasks of
the code, access by access, reaches the result of the sequential model under every schedule.
-/

set_option autoImplicit false
set_option linter.unusedSectionVars false

namespace Gbdt

open Outcome

/-! ## Scoring -/

section scoring
variable {D A : Type} [Dbl D] [LinearOrder A]

theorem partition_perm {c : Column A} {s : Split D A} {samples : List Nat} {r : List Nat × List Nat}
    (h : partition c s samples = ok r) : (r.1 ++ r.2).Perm samples := by
  obtain ⟨hm, ht⟩ := partition_ok_inv h
  have hp : ∀ x ∈ samples, rowTest c s x = ok (decide (rowTest c s x = ok true)) := by
    intro x hx
    obtain ⟨b, hb⟩ := ht x hx
    rw [hb]
    cases b <;> simp
  obtain ⟨R, h1, h2⟩ := partition_spec hm (fun x => decide (rowTest c s x = ok true)) samples hp
  rw [h1, Outcome.ok.injEq] at h
  subst h
  exact (List.Perm.append_left _ h2).trans (List.filter_append_perm _ _)

/-- The cells of the task for slice `k`. -/
def ScoreFoot (slices : List (List Nat)) (k : Nat) : ScoreCell → Prop
  | .slice k' => k' = k
  | .score i => i ∈ slices.getD k []

/-- What the cells may hold: a slice its samples in any order. -/
def ScoreOk (slices : List (List Nat)) : ∀ l, ScoreVal D l → Prop
  | .slice k => fun (v : List Nat) => v.Perm (slices.getD k [])
  | .score _ => fun _ => True

theorem addAll_within {R : ScoreCell → Prop} {I : ∀ l, ScoreVal D l → Prop} (hI : ∀ i v, I (.score i) v) (n : Nat) (x : D) :
    ∀ (samples : List Nat), (∀ i ∈ samples, R (.score i)) → Within R R I (fun _ => True) (addAllProg n x samples)
  | [], _ => trivial
  | i :: rest, h => by
    rw [addAllProg]
    split
    · exact ⟨h i (by simp), fun v _ => ⟨h i (by simp), hI _ _, addAll_within hI n x rest (fun j hj => h j (by simp [hj]))⟩⟩
    · trivial

theorem addSample_within {R : ScoreCell → Prop} {I : ∀ l, ScoreVal D l → Prop} (hI : ∀ i v, I (.score i) v)
    (columns : String → Option (Column A)) (k : D) (n : Nat) : ∀ (t : Tree D A) (samples : List Nat),
    (∀ i ∈ samples, R (.score i)) → Within R R I (fun out => out.Perm samples) (addSampleProg columns k n t samples) := by
  intro t
  induction t with
  | absent =>
    intro samples h
    exact (addAll_within hI n _ samples h).bind (fun _ _ => List.Perm.refl _)
  | node score split left right ihl ihr =>
    intro samples h
    rw [addSampleProg]
    split
    · split
      · trivial
      · next c hc =>
        refine Within.bind (Q := fun x : List Nat × List Nat => (x.1 ++ x.2).Perm samples) ?_ ?_
        · cases hp : partition c (Tree.node score split left right).splitOf samples with
          | ok r => exact partition_perm hp
          | ub => trivial
          | fatal => trivial
        · intro x hx
          refine (ihl x.1 (fun i hi => h i (hx.mem_iff.mp (by simp [hi])))).bind (fun ls hls => ?_)
          refine (ihr x.2 (fun i hi => h i (hx.mem_iff.mp (by simp [hi])))).bind (fun rs hrs => ?_)
          exact (hls.append hrs).trans hx
    · exact (addAll_within hI n _ samples h).bind (fun _ _ => List.Perm.refl _)

theorem slices_apart {slices : List (List Nat)} (h : slices.flatten.Nodup) {k k' i : Nat} (hkk : k ≠ k')
    (hi : i ∈ slices.getD k []) : i ∉ slices.getD k' [] := by
  have hpw := (List.nodup_flatten.mp h).2
  intro hi'
  have hk : k < slices.length := by
    by_contra hk
    simp [List.getElem?_eq_none (not_lt.mp hk)] at hi
  have hk' : k' < slices.length := by
    by_contra hk
    simp [List.getElem?_eq_none (not_lt.mp hk)] at hi'
  simp only [List.getD_eq_getElem?_getD, List.getElem?_eq_getElem hk, Option.getD_some] at hi
  simp only [List.getD_eq_getElem?_getD, List.getElem?_eq_getElem hk', Option.getD_some] at hi'
  rw [List.pairwise_iff_getElem] at hpw
  rcases Nat.lt_or_gt_of_ne hkk with hlt | hlt
  · exact hpw k k' hk hk' hlt hi hi'
  · exact hpw k' k hk' hk hlt hi' hi

theorem score_apart (columns : String → Option (Column A)) (t : Tree D A) (constant : D) (n : Nat)
    {slices : List (List Nat)} (h : slices.flatten.Nodup) :
    Apart slices.length (scoreTask columns t constant n) (ScoreFoot slices) (ScoreFoot slices) (ScoreOk slices) where
  within := by
    intro k _
    refine ⟨rfl, fun v hv => ?_⟩
    have hv : List.Perm v (slices.getD k []) := hv
    refine (addSample_within (fun _ _ => trivial) columns constant n t v (fun i hi => hv.mem_iff.mp hi)).bind (fun out ho => ?_)
    exact ⟨rfl, ho.trans hv, trivial⟩
  sub := fun _ _ h => h
  apart := by
    intro k k' l _ _ hkk hw hr
    cases l with
    | slice j =>
      have h1 : j = k := hw
      have h2 : j = k' := hr
      exact hkk (h1.symm.trans h2)
    | score i => exact slices_apart h hkk hw hr

/-- Memory with other scores (proof device). -/
def setScores (m : ∀ l, ScoreVal D l) (scores : List D) : ∀ l, ScoreVal D l
  | .slice k => m (.slice k)
  | .score i => (scores.getD i 0 : D)

theorem setScores_update (m : ∀ l, ScoreVal D l) (scores : List D) {i : Nat} (hi : i < scores.length) (x : D) :
    Function.update (setScores m scores) (.score i) x = setScores m (scores.set i x) := by
  funext l
  cases l with
  | slice k => rw [Function.update_of_ne (by simp)]; rfl
  | score j =>
    by_cases e : j = i
    · subst e
      rw [Function.update_self]
      show x = (scores.set j x).getD j 0
      simp [List.getD_eq_getElem?_getD, hi]
    · rw [Function.update_of_ne (by simpa using e)]
      show scores.getD j 0 = (scores.set i x).getD j 0
      simp [List.getD_eq_getElem?_getD, List.getElem?_set_ne (fun h => e h.symm)]

theorem addAll_run (m : ∀ l, ScoreVal D l) (n : Nat) (x : D) : ∀ (samples : List Nat) (scores sc : List D),
    scores.length = n → addToAll x samples scores = ok sc →
    (addAllProg n x samples).run (setScores m scores) = ok ((), setScores m sc) ∧ sc.length = n
  | [], scores, sc, hn, h => by
    simp only [addToAll, List.foldlM_nil, pure_eq, Outcome.ok.injEq] at h
    subst h
    exact ⟨rfl, hn⟩
  | i :: rest, scores, sc, hn, h => by
    rw [addToAll, List.foldlM_cons] at h
    simp only [bind_eq_ok, pure_eq, Outcome.ok.injEq] at h
    obtain ⟨_, ⟨old, ho, rfl⟩, h⟩ := h
    rw [vecGet_eq_ok] at ho
    have hi : i < scores.length := (List.getElem?_eq_some_iff.mp ho).1
    obtain ⟨h1, h2⟩ := addAll_run m n x rest (scores.set i (old + x)) sc (by rw [List.length_set, hn]) h
    refine ⟨?_, h2⟩
    rw [addAllProg, if_pos (hn ▸ hi), Prog.run, Prog.run]
    have hold : setScores m scores (.score i) = old := by
      show scores.getD i 0 = old
      rw [List.getD_eq_getElem?_getD, ho]; rfl
    rw [hold, setScores_update m scores hi]
    exact h1

theorem addSample_run (columns : String → Option (Column A)) (k : D) (m : ∀ l, ScoreVal D l) (n : Nat) :
    ∀ (t : Tree D A) (samples : List Nat) (scores : List D) (s' : List Nat) (sc : List D), scores.length = n →
    addSampleScores columns k t samples scores = ok (s', sc) →
    (addSampleProg columns k n t samples).run (setScores m scores) = ok (s', setScores m sc) ∧ sc.length = n := by
  intro t
  induction t with
  | absent =>
    intro samples scores s' sc hn h
    simp only [addSampleScores, bind_eq_ok, pure_eq, Outcome.ok.injEq, Prod.mk.injEq] at h
    obtain ⟨_, h, rfl, rfl⟩ := h
    obtain ⟨h1, h2⟩ := addAll_run m n _ _ _ _ hn h
    refine ⟨?_, h2⟩
    rw [addSampleProg, run_bind, h1]
    rfl
  | node score split left right ihl ihr =>
    intro samples scores s' sc hn h
    rw [addSampleScores] at h
    rw [addSampleProg]
    split at h
    · next hset =>
      rw [if_pos hset]
      split at h
      · cases h
      · next c hc =>
        simp only [bind_eq_ok, pure_eq, Outcome.ok.injEq, Prod.mk.injEq] at h
        obtain ⟨⟨ls, rs⟩, hp, ⟨ls1, sc1⟩, hl, ⟨rs1, sc2⟩, hr, rfl, rfl⟩ := h
        obtain ⟨l1, l2⟩ := ihl _ _ _ _ hn hl
        obtain ⟨r1, r2⟩ := ihr _ _ _ _ l2 hr
        refine ⟨?_, r2⟩
        simp only [hc]
        rw [hp, run_bind, Prog.run, ok_bind, run_bind, l1, ok_bind, run_bind, r1]
        rfl
    · next hset =>
      rw [if_neg hset]
      simp only [bind_eq_ok, pure_eq, Outcome.ok.injEq, Prod.mk.injEq] at h
      obtain ⟨_, h, rfl, rfl⟩ := h
      obtain ⟨h1, h2⟩ := addAll_run m n _ _ _ _ hn h
      refine ⟨?_, h2⟩
      rw [run_bind, h1]
      rfl

theorem score_runAll (columns : String → Option (Column A)) (t : Tree D A) (k : D) (n : Nat) :
    ∀ (slices pre : List (List Nat)) (scores : List D) (ss : List (List Nat)) (sc : List D), scores.length = n →
    addTreeScores columns t k slices scores = ok (ss, sc) →
    runAll ((List.range' pre.length slices.length).map (scoreTask columns t k n)) (scoreMem (pre ++ slices) scores) =
      ok (scoreMem (pre ++ ss) sc)
  | [], pre, scores, ss, sc, hn, h => by
    simp only [addTreeScores, Outcome.ok.injEq, Prod.mk.injEq] at h
    obtain ⟨rfl, rfl⟩ := h
    rfl
  | slice :: slices, pre, scores, ss, sc, hn, h => by
    simp only [addTreeScores, bind_eq_ok, pure_eq, Outcome.ok.injEq, Prod.mk.injEq] at h
    obtain ⟨⟨s1, sc1⟩, h1, ⟨ss', sc2⟩, h2, rfl, rfl⟩ := h
    obtain ⟨a1, a2⟩ := addSample_run columns k (scoreMem (pre ++ slice :: slices) scores) n t slice scores s1 sc1 hn h1
    have ih := score_runAll columns t k n slices (pre ++ [s1]) sc1 ss' sc2 a2 h2
    rw [List.length_cons, List.range'_succ, List.map_cons, runAll]
    have hm : setScores (scoreMem (pre ++ slice :: slices) scores) scores = scoreMem (pre ++ slice :: slices) scores := by
      funext l
      cases l <;> rfl
    have hread : (scoreMem (pre ++ slice :: slices) scores (.slice pre.length) : List Nat) = slice := by
      show (pre ++ slice :: slices).getD pre.length [] = slice
      simp [List.getD_eq_getElem?_getD]
    have hup : Function.update (setScores (scoreMem (pre ++ slice :: slices) scores) sc1) (.slice pre.length) s1 =
        scoreMem (pre ++ [s1] ++ slices) sc1 := by
      funext l
      cases l with
      | score i => rw [Function.update_of_ne (by simp)]; rfl
      | slice j =>
        show _ = (pre ++ [s1] ++ slices).getD j []
        by_cases e : j = pre.length
        · subst e
          rw [Function.update_self]
          simp [List.getD_eq_getElem?_getD]
        · rw [Function.update_of_ne (by simpa using e)]
          show (pre ++ slice :: slices).getD j [] = _
          simp only [List.getD_eq_getElem?_getD, List.append_assoc]
          rcases Nat.lt_or_ge j pre.length with hj | hj
          · rw [List.getElem?_append_left hj, List.getElem?_append_left hj]
          · rw [List.getElem?_append_right hj, List.getElem?_append_right hj]
            obtain ⟨d, hd⟩ : ∃ d, j - pre.length = d + 1 := ⟨j - pre.length - 1, by omega⟩
            rw [hd]
            rfl
    rw [scoreTask, Prog.run, hread, run_bind, ← hm, a1, ok_bind, Prog.run, Prog.run, ok_bind]
    simp only [hup]
    have hlen : (pre ++ [s1]).length = pre.length + 1 := by simp
    rw [hlen] at ih
    rw [ih]
    simp

/-- **C25.** Scoring a tree: if the sequential model scores the tree, then a pool of any positive number of threads does, under
every schedule, with the same scores and the same order of the samples in the slices; no data race happens, no task crashes
and the pool does not get stuck. -/
theorem C25_scoring (columns : String → Option (Column A)) (t : Tree D A) (constant : D) (threads : Nat) (hpos : 0 < threads)
    {slices ss : List (List Nat)} {scores sc : List D} (hs : Slices scores.length slices)
    (h : addTreeScores columns t constant slices scores = ok (ss, sc)) :
    EverySchedule (Work.new threads slices.length (scoreTask columns t constant scores.length) (scoreMem slices scores))
      (scoreMem ss sc) := by
  refine everySchedule hpos (score_apart columns t constant scores.length (hs.nodup_iff.mpr List.nodup_range)) ?_ ?_
  · intro l
    cases l with
    | slice k => exact List.Perm.refl _
    | score i => trivial
  · have := score_runAll columns t constant scores.length slices [] scores ss sc rfl h
    rw [List.range_eq_range']
    simpa using this

end scoring

/-! ## Sums of gradients -/

section sums
variable {D : Type} [Dbl D]

theorem sumTask_within (w : Nat → D) (grads : List (GD D)) (j : Nat) : ∀ (slice : List Nat),
    Within (· = j) (· = j) (fun _ _ => True) (fun _ => True) (sumTask w grads j slice)
  | [] => trivial
  | i :: rest => by
    rw [sumTask]
    split
    · trivial
    · exact ⟨rfl, fun _ _ => ⟨rfl, trivial, sumTask_within w grads j rest⟩⟩

theorem sumTask_run (w : Nat → D) (grads : List (GD D)) (j : Nat) : ∀ (slice : List Nat) (m : Nat → GD D) (total : GD D),
    slice.foldlM (fun total i => do
      let d ← Outcome.vecGet grads i
      pure (total.add (d.scale (w i)))) (m j) = ok total →
    (sumTask w grads j slice).run m = ok ((), Function.update m j total)
  | [], m, total, h => by
    simp only [List.foldlM_nil, pure_eq, Outcome.ok.injEq] at h
    subst h
    rw [sumTask, Prog.run, Function.update_eq_self]
  | i :: rest, m, total, h => by
    rw [List.foldlM_cons] at h
    simp only [bind_eq_ok, pure_eq, Outcome.ok.injEq] at h
    obtain ⟨_, ⟨d, hd, rfl⟩, h⟩ := h
    rw [vecGet_eq_ok] at hd
    have := sumTask_run w grads j rest (Function.update m j ((m j).add (d.scale (w i)))) total (by
      rw [Function.update_self]; exact h)
    simp only [sumTask, hd, Prog.run]
    rw [this, Function.update_idem]

theorem sum_runAll (w : Nat → D) (grads : List (GD D)) : ∀ (slices pre : List (List Nat)) (done totals : List (GD D)),
    done.length = pre.length → slices.mapM (sliceSum w grads) = ok totals →
    runAll ((List.range' pre.length slices.length).map (fun j => sumTask w grads j ((pre ++ slices).getD j [])))
      (fun j => done.getD j GD.zero) = ok (fun j => (done ++ totals).getD j GD.zero)
  | [], pre, done, totals, hl, h => by
    simp only [List.mapM_nil, pure_eq, Outcome.ok.injEq] at h
    subst h
    simp [runAll]
  | slice :: slices, pre, done, totals, hl, h => by
    simp only [List.mapM_cons, bind_eq_ok, pure_eq, Outcome.ok.injEq] at h
    obtain ⟨total, h1, rest, h2, rfl⟩ := h
    have ih := sum_runAll w grads slices (pre ++ [slice]) (done ++ [total]) rest (by simp [hl]) h2
    have hread : (pre ++ slice :: slices).getD pre.length [] = slice := by simp [List.getD_eq_getElem?_getD]
    have hup : Function.update (fun j => done.getD j GD.zero) pre.length total =
        fun j => (done ++ [total]).getD j GD.zero := by
      funext j
      simp only [List.getD_eq_getElem?_getD]
      by_cases e : j = pre.length
      · subst e
        rw [Function.update_self, ← hl]
        simp
      · rw [Function.update_of_ne e]
        rcases Nat.lt_or_ge j done.length with hj | hj
        · rw [List.getElem?_append_left hj]
        · rw [List.getElem?_eq_none hj, List.getElem?_eq_none (by simp; omega)]
    rw [List.length_cons, List.range'_succ, List.map_cons, runAll, hread,
      sumTask_run w grads pre.length slice (fun j => done.getD j GD.zero) total (by
        rw [List.getD_eq_getElem?_getD, List.getElem?_eq_none (by omega)]; exact h1), ok_bind, hup]
    have hlen : (pre ++ [slice]).length = pre.length + 1 := by simp
    rw [hlen] at ih
    simpa using ih

/-- **C25.** `ComputeWeightedSum`: under every schedule the totals of the slices are those of the sequential model, so the
sum is the same bit for bit. -/
theorem C25_sums (numThreads : Int) (hpos : 0 < numThreads) (w : Nat → D) (grads : List (GD D)) (samples : List Nat)
    {total : GD D} (h : weightedSum numThreads w grads samples = ok total) :
    ∃ (slices : List (List Nat)) (totals : List (GD D)), divideSamples samples (numThreads * 5) = ok slices ∧ totals.length = slices.length ∧
      EverySchedule (Work.new numThreads.toNat slices.length (fun j => sumTask w grads j (slices.getD j []))
        (fun _ => GD.zero)) (fun j => totals.getD j GD.zero) ∧
      totals.foldl GD.add GD.zero = total := by
  simp only [weightedSum, bind_eq_ok, pure_eq, Outcome.ok.injEq] at h
  obtain ⟨slices, h1, totals, h2, h3⟩ := h
  have hr := sum_runAll w grads slices [] [] totals rfl h2
  refine ⟨slices, totals, h1, ?_, ?_, h3⟩
  · have : ∀ (l : List (List Nat)) (ts : List (GD D)), l.mapM (sliceSum w grads) = ok ts → ts.length = l.length := by
      intro l
      induction l with
      | nil => intro ts h; simp only [List.mapM_nil, pure_eq, Outcome.ok.injEq] at h; subst h; rfl
      | cons a l ih =>
        intro ts h
        simp only [List.mapM_cons, bind_eq_ok, pure_eq, Outcome.ok.injEq] at h
        obtain ⟨_, _, r, hr, rfl⟩ := h
        simp [ih r hr]
    exact this _ _ h2
  · refine everySchedule (R := fun j l => l = j) (W := fun j l => l = j) (I := fun _ _ => True) (by omega) ⟨?_, ?_, ?_⟩
      (fun _ => trivial) ?_
    · intro j _
      exact sumTask_within w grads j _
    · exact fun _ _ h => h
    · rintro j j' l _ _ hjj rfl rfl
      exact hjj rfl
    · rw [List.range_eq_range']
      simpa using hr

end sums

/-! ## Gradients of a pointwise loss -/

section gradients
variable {D : Type} [Dbl D]

/-- The cells of the task for slice `j`. -/
def PointFoot (slices : List (Nat × Nat)) (j : Nat) : GradCell → Prop
  | .grad i => (slices.getD j (0, 0)).1 ≤ i ∧ i < (slices.getD j (0, 0)).2
  | .total j' => j' = j

theorem pointTask_within (e : PointLoss D) (f : List D) (c : D) (n j : Nat) {R : GradCell → Prop} (hj : R (.total j)) :
    ∀ (left i : Nat), (∀ k, i ≤ k → k < i + left → R (.grad k)) →
    Within R R (fun _ _ => True) (fun _ => True) (pointTask e f c n j left i)
  | 0, _, _ => trivial
  | left + 1, i, h => by
    rw [pointTask]
    split
    · trivial
    · split
      · refine ⟨h i (le_refl _) (by omega), trivial, hj, fun _ _ => ⟨h i (le_refl _) (by omega), fun _ _ => ⟨hj, trivial, ?_⟩⟩⟩
        exact pointTask_within e f c n j hj left (i + 1) (fun k h1 h2 => h k (by omega) (by omega))
      · trivial

theorem gradMem_grad (grads totals : List (GD D)) {i : Nat} (hi : i < grads.length) (d : GD D) :
    Function.update (gradMem grads totals) (.grad i) d = gradMem (grads.set i d) totals := by
  funext l
  cases l with
  | total j => rw [Function.update_of_ne (by simp)]; rfl
  | grad k =>
    by_cases e : k = i
    · subst e
      rw [Function.update_self]
      simp [gradMem, List.getD_eq_getElem?_getD, hi]
    · rw [Function.update_of_ne (by simpa using e)]
      simp [gradMem, List.getD_eq_getElem?_getD, List.getElem?_set_ne (fun h => e h.symm)]

theorem gradMem_total (grads done : List (GD D)) (a b : GD D) :
    Function.update (gradMem grads (done ++ [a])) (.total done.length) b = gradMem grads (done ++ [b]) := by
  funext l
  cases l with
  | grad k => rw [Function.update_of_ne (by simp)]; rfl
  | total j =>
    by_cases e : j = done.length
    · subst e
      rw [Function.update_self]
      simp [gradMem, List.getD_eq_getElem?_getD]
    · rw [Function.update_of_ne (by simpa using e)]
      simp only [gradMem, List.getD_eq_getElem?_getD]
      rcases Nat.lt_or_ge j done.length with hj | hj
      · rw [List.getElem?_append_left hj, List.getElem?_append_left hj]
      · rw [List.getElem?_eq_none (by simp; omega), List.getElem?_eq_none (by simp; omega)]

theorem gradMem_zero (grads done : List (GD D)) : gradMem grads (done ++ [GD.zero]) = gradMem grads done := by
  funext l
  cases l with
  | grad k => rfl
  | total j =>
    simp only [gradMem, List.getD_eq_getElem?_getD]
    rcases Nat.lt_trichotomy j done.length with hj | hj | hj
    · rw [List.getElem?_append_left hj]
    · subst hj
      simp
    · rw [List.getElem?_eq_none (by simp; omega), List.getElem?_eq_none (by omega)]

theorem pointTask_run (e : PointLoss D) (f : List D) (c : D) (done : List (GD D)) : ∀ (left i : Nat)
    (grads : List (GD D)) (total : GD D) (out : List (GD D)) (total' : GD D),
    pointSlice e f c left i grads total = ok (out, total') →
    (pointTask e f c grads.length done.length left i).run (gradMem grads (done ++ [total])) =
      ok ((), gradMem out (done ++ [total'])) ∧ out.length = grads.length
  | 0, i, grads, total, out, total', h => by
    simp only [pointSlice, Outcome.ok.injEq, Prod.mk.injEq] at h
    obtain ⟨rfl, rfl⟩ := h
    exact ⟨rfl, rfl⟩
  | left + 1, i, grads, total, out, total', h => by
    rw [pointSlice, bind_eq_ok] at h
    obtain ⟨fi, hf, h⟩ := h
    rw [vecGet_eq_ok] at hf
    simp only at h
    split at h
    · next hi =>
      obtain ⟨h1, h2⟩ := pointTask_run e f c done left (i + 1) _ _ _ _ h
      rw [List.length_set] at h1 h2
      refine ⟨?_, h2⟩
      simp only [pointTask, hf, if_pos hi, Prog.run, gradMem_grad _ _ hi]
      rw [show gradMem (grads.set i ⟨(e.lossFn (e.y i) (fi + c)).2.1, (e.lossFn (e.y i) (fi + c)).2.2⟩) (done ++ [total])
          (.total done.length) = total by simp [gradMem, List.getD_eq_getElem?_getD],
        show gradMem (grads.set i ⟨(e.lossFn (e.y i) (fi + c)).2.1, (e.lossFn (e.y i) (fi + c)).2.2⟩) (done ++ [total])
          (.grad i) = ⟨(e.lossFn (e.y i) (fi + c)).2.1, (e.lossFn (e.y i) (fi + c)).2.2⟩ by
            simp [gradMem, List.getD_eq_getElem?_getD, hi], gradMem_total]
      exact h1
    · cases h

theorem point_runAll (e : PointLoss D) (f : List D) (c : D) (n : Nat) : ∀ (slices pre : List (Nat × Nat))
    (done grads out totals : List (GD D)), done.length = pre.length → grads.length = n →
    pointSlices e f c slices grads = ok (out, totals) →
    runAll ((List.range' pre.length slices.length).map (fun j => pointTask e f c n j
      (((pre ++ slices).getD j (0, 0)).2 - ((pre ++ slices).getD j (0, 0)).1) ((pre ++ slices).getD j (0, 0)).1))
      (gradMem grads done) = ok (gradMem out (done ++ totals))
  | [], pre, done, grads, out, totals, hl, hn, h => by
    simp only [pointSlices, Outcome.ok.injEq, Prod.mk.injEq] at h
    obtain ⟨rfl, rfl⟩ := h
    simp [runAll]
  | sl :: slices, pre, done, grads, out, totals, hl, hn, h => by
    simp only [pointSlices, bind_eq_ok, pure_eq, Outcome.ok.injEq, Prod.mk.injEq] at h
    obtain ⟨⟨g1, t1⟩, h1, ⟨g2, ts⟩, h2, rfl, rfl⟩ := h
    obtain ⟨r1, r2⟩ := pointTask_run e f c done _ _ _ _ _ _ h1
    have ih := point_runAll e f c n slices (pre ++ [sl]) (done ++ [t1]) g1 g2 ts (by simp [hl]) (by omega) h2
    have hread : (pre ++ sl :: slices).getD pre.length (0, 0) = sl := by simp [List.getD_eq_getElem?_getD]
    rw [gradMem_zero, hn, hl] at r1
    rw [List.length_cons, List.range'_succ, List.map_cons, runAll, hread, r1, ok_bind]
    have hlen : (pre ++ [sl]).length = pre.length + 1 := by simp
    rw [hlen] at ih
    simpa using ih

theorem consecutive_bounds : ∀ (slices : List (Nat × Nat)) (a b : Nat), Consecutive a b slices →
    a ≤ b ∧ ∀ (j : Nat) (sl : Nat × Nat), slices[j]? = some sl → a ≤ sl.1 ∧ sl.1 ≤ sl.2 ∧ sl.2 ≤ b
  | [], a, b, h => ⟨le_of_eq h, by simp⟩
  | p :: l, a, b, h => by
    obtain ⟨rfl, h1, h2⟩ := h
    obtain ⟨k1, k2⟩ := consecutive_bounds l _ _ h2
    refine ⟨by omega, fun j sl hj => ?_⟩
    cases j with
    | zero =>
      rw [List.getElem?_cons_zero, Option.some.injEq] at hj
      subst hj
      exact ⟨le_refl _, h1, k1⟩
    | succ j =>
      rw [List.getElem?_cons_succ] at hj
      have := k2 j sl hj
      exact ⟨by omega, this.2.1, this.2.2⟩

theorem consecutive_apart : ∀ (slices : List (Nat × Nat)) (a b : Nat), Consecutive a b slices → ∀ (j j' : Nat) (sl sl' : Nat × Nat),
    j < j' → slices[j]? = some sl → slices[j']? = some sl' → sl.2 ≤ sl'.1
  | [], a, b, h, j, j', sl, sl', hjj, h1, h2 => by simp at h1
  | p :: l, a, b, h, j, j', sl, sl', hjj, h1, h2 => by
    obtain ⟨rfl, h3, h4⟩ := h
    obtain ⟨j', rfl⟩ : ∃ k, j' = k + 1 := ⟨j' - 1, by omega⟩
    rw [List.getElem?_cons_succ] at h2
    cases j with
    | zero =>
      rw [List.getElem?_cons_zero, Option.some.injEq] at h1
      subst h1
      exact ((consecutive_bounds l _ _ h4).2 j' sl' h2).1
    | succ j =>
      rw [List.getElem?_cons_succ] at h1
      exact consecutive_apart l _ _ h4 j j' sl sl' (by omega) h1 h2

/-- **C25.** One pass of a pointwise loss: under every schedule the gradients and the totals of the slices are those of the
sequential model. -/
theorem C25_gradients (threads : Nat) (hpos : 0 < threads) (e : PointLoss D) (f : List D) (c : D)
    {slices : List (Nat × Nat)} {n : Nat} (hs : Consecutive 0 n slices) {grads out totals : List (GD D)}
    (h : pointSlices e f c slices grads = ok (out, totals)) :
    EverySchedule (Work.new threads slices.length (fun j => pointTask e f c grads.length j
        ((slices.getD j (0, 0)).2 - (slices.getD j (0, 0)).1) (slices.getD j (0, 0)).1)
      (gradMem grads [])) (gradMem out totals) := by
  refine everySchedule (R := PointFoot slices) (W := PointFoot slices) (I := fun _ _ => True) hpos ⟨?_, ?_, ?_⟩
    (fun _ => trivial) ?_
  · intro j _
    exact pointTask_within e f c _ j (show PointFoot slices j (.total j) from rfl) _ _
      (fun k h1 h2 => show PointFoot slices j (.grad k) from ⟨h1, by omega⟩)
  · exact fun _ _ h => h
  · intro j j' l hj hj' hjj hw hr
    have e1 : slices[j]? = some (slices.getD j (0, 0)) := by simp [List.getD_eq_getElem?_getD, hj]
    have e2 : slices[j']? = some (slices.getD j' (0, 0)) := by simp [List.getD_eq_getElem?_getD, hj']
    cases l with
    | grad i =>
      obtain ⟨w1, w2⟩ := hw
      obtain ⟨r1, r2⟩ := hr
      rcases Nat.lt_or_gt_of_ne hjj with hlt | hlt
      · have := consecutive_apart slices _ _ hs j j' _ _ hlt e1 e2
        omega
      · have := consecutive_apart slices _ _ hs j' j _ _ hlt e2 e1
        omega
    | total k =>
      have h1 : k = j := hw
      have h2 : k = j' := hr
      exact hjj (h1.symm.trans h2)
  · have := point_runAll e f c grads.length slices [] [] grads out totals rfl rfl h
    rw [List.range_eq_range']
    simpa using this

end gradients

/-! ## Splits of the features -/

section splits

theorem split_runAll {β : Type} (find : Nat → Outcome β) : ∀ (chosen pre : List Nat) (done splits : List β),
    done.length = pre.length → chosen.mapM find = ok splits →
    runAll ((List.range' pre.length chosen.length).map (splitTask find (pre ++ chosen))) (fun i => done[i]?) =
      ok (fun i => (done ++ splits)[i]?)
  | [], pre, done, splits, hl, h => by
    simp only [List.mapM_nil, pure_eq, Outcome.ok.injEq] at h
    subst h
    simp [runAll]
  | j :: chosen, pre, done, splits, hl, h => by
    simp only [List.mapM_cons, bind_eq_ok, pure_eq, Outcome.ok.injEq] at h
    obtain ⟨s, h1, rest, h2, rfl⟩ := h
    have ih := split_runAll find chosen (pre ++ [j]) (done ++ [s]) rest (by simp [hl]) h2
    have hup : Function.update (fun i => done[i]?) pre.length (some s) = fun i => (done ++ [s])[i]? := by
      funext i
      by_cases e : i = pre.length
      · subst e
        rw [Function.update_self, ← hl]
        simp
      · rw [Function.update_of_ne e]
        rcases Nat.lt_or_ge i done.length with hj | hj
        · rw [List.getElem?_append_left hj]
        · rw [List.getElem?_eq_none hj, List.getElem?_eq_none (by simp; omega)]
    have hrun : (splitTask find (pre ++ j :: chosen) pre.length).run (fun i => done[i]?) =
        ok ((), fun i => (done ++ [s])[i]?) := by
      have hg : Outcome.vecGet (pre ++ j :: chosen) pre.length = ok j := by rw [vecGet_eq_ok]; simp
      rw [splitTask, hg, ok_bind, h1, Prog.bind, Prog.run, Prog.run, hup]
    rw [List.length_cons, List.range'_succ, List.map_cons, runAll, hrun, ok_bind]
    have hlen : (pre ++ [j]).length = pre.length + 1 := by simp
    rw [hlen] at ih
    simpa using ih

/-- **C25.** `FindBestFeatureAndSplit`: under every schedule the splits found for the chosen features are those of the
sequential model. -/
theorem C25_splits {D A : Type} [Dbl D] [LinearOrder A] [ThrOps A] (threads : Nat) (hpos : 0 < threads) (env : FitEnv D A)
    (cfg : FitConfig D) (samples : List Nat) (total : GD D) (chosen : List Nat) {splits : List (Split D A)}
    (h : chosen.mapM (featureSplit env cfg samples total) = ok splits) :
    EverySchedule (Work.new threads chosen.length (splitTask (featureSplit env cfg samples total) chosen) (fun _ => none))
      (fun i => splits[i]?) := by
  refine everySchedule (R := fun i l => l = i) (W := fun i l => l = i) (I := fun _ _ => True) hpos ⟨?_, ?_, ?_⟩
    (fun _ => trivial) ?_
  · intro i _
    rw [splitTask]
    cases Outcome.vecGet chosen i >>= featureSplit env cfg samples total with
    | ok s => exact ⟨rfl, trivial, trivial⟩
    | ub => trivial
    | fatal => trivial
  · exact fun _ _ h => h
  · rintro j j' l _ _ hjj rfl rfl
    exact hjj rfl
  · have := split_runAll (featureSplit env cfg samples total) chosen [] [] splits rfl h
    rw [List.range_eq_range']
    simpa using this

/-- The splits of C25 are the ones that `bestFeature` chooses from. -/
theorem bestFeature_splits {D A : Type} [Dbl D] [LinearOrder A] [ThrOps A] (env : FitEnv D A) (cfg : FitConfig D)
    (samples : List Nat) (total : GD D) (p : Nat) {r : Option (Split D A × Column A) × Nat}
    (h : bestFeature env cfg samples total p = ok r) :
    ∃ chosen p1 splits, uniformSubsample env.toInt env.ofNat env.draw env.features.length cfg.featureRate p = ok (chosen, p1) ∧
      chosen.mapM (featureSplit env cfg samples total) = ok splits := by
  unfold bestFeature at h
  rw [bind_eq_ok] at h
  obtain ⟨⟨chosen, p1⟩, h1, h⟩ := h
  simp only at h
  rw [bind_eq_ok] at h
  obtain ⟨splits, h2, _⟩ := h
  exact ⟨chosen, p1, splits, h1, h2⟩

end splits

/-! ## Concrete pools -/

/-- Two threads sum `1, 10, 100` over the slices `[0, 2]` and `[1]`. -/
def sumWork : Work Nat (fun _ => GD ℚ) :=
  Work.new 2 2 (fun j => sumTask (fun _ => 1) [⟨1, 1⟩, ⟨10, 1⟩, ⟨100, 1⟩] j ([[0, 2], [1]].getD j [])) (fun _ => GD.zero)

/-- A schedule in which the threads take turns. -/
def sumSchedule : List WorkStep :=
  [.pool (.main 0), .pool (.main 0), .pool (.main 0), .pool (.main 1), .pool (.main 0), .pool (.worker 1),
    .pool (.main 0), .pool (.worker 1), .pool (.main 0), .pool (.main 1), .pool (.worker 0), .access 1,
    .access 1, .access 1, .pool (.main 0), .pool (.worker 0), .access 0, .access 0, .access 1,
    .pool (.worker 0), .pool (.worker 0), .pool (.worker 0), .pool (.worker 1), .pool (.worker 1),
    .pool (.main 0), .pool (.worker 1), .pool (.main 0), .pool (.main 1)]

example : (match sumWork.run sumSchedule with
    | some s => decide (s.pool.main = .returned ∧ (s.mem 0).g = 101 ∧ (s.mem 1).g = 10)
    | none => false) = true := by decide +kernel

example : ∃ t, weightedSum 2 (fun _ => (1 : ℚ)) [⟨1, 1⟩, ⟨10, 1⟩, ⟨100, 1⟩] [2, 0, 1] = ok t ∧ t.g = 111 :=
  ⟨⟨111, 3⟩, by decide +kernel, rfl⟩

/-- A tree with two splits, scored in two slices. -/
example : Slices 5 [[3, 0, 4], [1, 2]] ∧ (match sampleForest[1]? with
    | some t => (match addTreeScores sampleCols t 1 [[3, 0, 4], [1, 2]] [(0 : ℚ), 0, 0, 0, 100] with
      | .ok (ss, sc) => decide (sc = [2, 3/2, 4/3, 2, 203/2] ∧ ss = [[3, 0, 4], [1, 2]])
      | _ => false)
    | none => false) = true := by
  constructor
  · unfold Slices; decide
  · decide +kernel

example : Consecutive 0 3 [(0, 2), (2, 3)] ∧ (match pointSlices ratMse [0, 0, 0] 1 [(0, 2), (2, 3)] [⟨9, 9⟩, ⟨9, 9⟩, ⟨9, 9⟩] with
    | .ok (out, totals) => decide (out.map (·.g) = [0, 1, 6] ∧ totals.map (·.g) = [2, 6])
    | _ => false) = true := by
  constructor
  · simp [Consecutive]
  · decide +kernel

example : (match [1, 0].mapM (featureSplit fitEnv fitCfg [0, 1, 2, 3, 4] ⟨3, 5⟩) with
    | .ok splits => decide (splits.length = 2)
    | _ => false) = true := by decide +kernel

/-- Without the separation the model does show lost updates: two tasks that score the same sample. -/
example : (match (Work.new 2 2 (scoreTask (fun _ => none) (.node (1 : ℚ) none .absent .absent : Tree ℚ ℚ) 0 1)
      (scoreMem [[0], [0]] [0])).run
      [.pool (.main 0), .pool (.main 0), .pool (.main 0), .pool (.main 1), .pool (.main 0), .pool (.worker 1),
        .pool (.worker 1), .pool (.worker 0), .pool (.worker 0), .access 0, .access 1, .access 0, .access 1, .access 0,
        .access 1] with
    | some s => decide ((s.mem (.score 0) : ℚ) = 1)
    | none => false) = true := by decide +kernel

end Gbdt
