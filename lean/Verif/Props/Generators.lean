import Verif.Model.Generators
import Verif.Props.Checkpoints

/-!
# C103: several generators over checkpoints
-/

set_option autoImplicit false
set_option linter.unusedSectionVars false

namespace Gbdt
open Outcome

variable {D A : Type} [Dbl D] [LinearOrder A]

/-! ## Specification -/

/-- The call is in order: data and forest fit, checkpoints increase and are between 1 and the number of trees (C66). -/
structure GoodCall (c : CheckpointCall D A) : Prop where
  rows : ∀ name col, c.columns name = some col → HasRows c.numRows col
  features : HasFeatures c.columns c.forest
  scorable : ∀ t ∈ c.forest, Scorable c.columns t
  increasing : c.points.Pairwise (· < ·)
  range : ∀ p ∈ c.points, 0 < p ∧ p ≤ c.forest.length

/-- What the `m`-th `next` (counted from 0) should give: the prediction of the trees up to the `m`-th checkpoint, as printed, or the
end. -/
def RightResult (printed : D → D) (numThreads : Int) (c : CheckpointCall D A) (m : Nat) (r : GenResult D) : Prop :=
  match c.points[m]? with
  | none => r = .stop
  | some p => ∃ sc, evaluateForest c.columns c.numRows numThreads (c.forest.take p.toNat) = ok (.ok, some sc) ∧
      r = .value p (sc.map printed)

/-- No generator is started while another one that has a checkpoint in common is in use. -/
def Undisturbed (calls : Nat → CheckpointCall D A) (schedule : List Nat) : Prop :=
  ∀ before k after, schedule = before ++ k :: after → k ∉ before → ∀ k', k' ≠ k → k' ∈ before → k' ∈ after →
    ∀ p ∈ (calls k').points, p ∉ (calls k).points

/-- **C103 in full.** In whatever order generators are used, each gives the predictions of its own forest. -/
def C103_full : Prop :=
  ∀ (printed : ℚ → ℚ) (calls : Nat → CheckpointCall ℚ Int) (schedule : List Nat) (files : ScoreFiles ℚ),
    (∀ k, GoodCall (calls k)) →
    ∃ rs, runGenerators printed 1 calls schedule (fun _ => none) files = ok rs ∧ rs.length = schedule.length ∧
      ∀ (i : Nat) k r, schedule[i]? = some k → rs[i]? = some r → RightResult printed 1 (calls k) ((schedule.take i).count k) r

/-! ## Proof -/

theorem written_kept (printed : D → D) : ∀ (l : List (Int × List D)) (fs : ScoreFiles D) (q : Int), q ∉ l.map Prod.fst →
    l.foldl (writeScoreFile printed) fs q = fs q := by
  intro l
  induction l with
  | nil => intro fs q _; rfl
  | cons a l ih =>
    intro fs q hq
    rw [List.map_cons, List.mem_cons, not_or] at hq
    rw [List.foldl_cons, ih _ q hq.2, writeScoreFile, if_neg hq.1]

theorem written_read (printed : D → D) : ∀ (l : List (Int × List D)) (fs : ScoreFiles D), (l.map Prod.fst).Nodup → ∀ f ∈ l,
    l.foldl (writeScoreFile printed) fs f.1 = some (f.2.map printed) := by
  intro l
  induction l with
  | nil => intro fs _ f hfm; cases hfm
  | cons a l ih =>
    intro fs hn f hfm
    rw [List.map_cons, List.nodup_cons] at hn
    rw [List.foldl_cons]
    rcases List.mem_cons.mp hfm with rfl | hfm
    · rw [written_kept _ _ _ _ hn.1, writeScoreFile, if_pos rfl]
    · exact ih _ hn.2 f hfm

/-- The files hold the predictions for these checkpoints. -/
def FilesRight (printed : D → D) (numThreads : Int) (c : CheckpointCall D A) (ps : List Int) (files : ScoreFiles D) : Prop :=
  ∀ p ∈ ps, ∃ sc, evaluateForest c.columns c.numRows numThreads (c.forest.take p.toNat) = ok (.ok, some sc) ∧
    files p = some (sc.map printed)

theorem evaluate_files {c : CheckpointCall D A} (hc : GoodCall c) {numThreads : Int} (hnt : 0 < numThreads) (printed : D → D)
    (files : ScoreFiles D) : ∃ written, evaluateCheckpoints c.columns c.numRows numThreads c.forest c.points = ok (.ok, written) ∧
      FilesRight printed numThreads c c.points (written.foldl (writeScoreFile printed) files) ∧
      ∀ p, p ∉ c.points → written.foldl (writeScoreFile printed) files p = files p := by
  obtain ⟨written, h1, h2, h3⟩ := C43_checkpoints hc.rows hnt c.forest hc.features hc.scorable c.points hc.increasing
    (fun p hp => (hc.range p hp).1)
  rw [List.filter_eq_self.mpr (fun p hp => by simpa using (hc.range p hp).2)] at h2
  have hnod : (written.map Prod.fst).Nodup := by
    rw [h2]
    exact hc.increasing.imp (fun h => ne_of_lt h)
  refine ⟨written, h1, ?_, fun p hp => written_kept printed written files p (by rw [h2]; exact hp)⟩
  intro p hp
  rw [← h2, List.mem_map] at hp
  obtain ⟨f, hfm, rfl⟩ := hp
  exact ⟨f.2, h3 f.1 f.2 hfm, written_read printed written files hnod f hfm⟩

/-- Reading gives the right result and leaves the checkpoints after it. -/
theorem readNext_right {printed : D → D} {numThreads : Int} {c : CheckpointCall D A} {files : ScoreFiles D} (m : Nat)
    (h : FilesRight printed numThreads c (c.points.drop m) files) :
    RightResult printed numThreads c m (readNext files (c.points.drop m)).1 ∧
      (readNext files (c.points.drop m)).2 = c.points.drop (m + 1) := by
  unfold RightResult
  cases hp : c.points[m]? with
  | none =>
    rw [List.getElem?_eq_none_iff] at hp
    rw [List.drop_eq_nil_of_le hp, List.drop_eq_nil_of_le (by omega)]
    exact ⟨rfl, rfl⟩
  | some p =>
    obtain ⟨hm, rfl⟩ := List.getElem?_eq_some_iff.mp hp
    rw [List.drop_eq_getElem_cons hm] at h ⊢
    obtain ⟨sc, h1, h2⟩ := h _ (List.mem_cons_self ..)
    refine ⟨⟨sc, h1, ?_⟩, ?_⟩ <;> simp only [readNext, h2]

theorem run_right {printed : D → D} {numThreads : Int} (hnt : 0 < numThreads) {calls : Nat → CheckpointCall D A}
    (hc : ∀ k, GoodCall (calls k)) {schedule : List Nat} (hu : Undisturbed calls schedule) :
    ∀ (after before : List Nat) (states : Nat → Option (List Int)) (files : ScoreFiles D), schedule = before ++ after →
      (∀ k, k ∉ before → states k = none) → (∀ k ∈ before, states k = some ((calls k).points.drop (before.count k))) →
      (∀ k ∈ before, k ∈ after → FilesRight printed numThreads (calls k) ((calls k).points.drop (before.count k)) files) →
      ∃ rs, runGenerators printed numThreads calls after states files = ok rs ∧ rs.length = after.length ∧
        ∀ (i : Nat) k r, after[i]? = some k → rs[i]? = some r →
          RightResult printed numThreads (calls k) ((before ++ after.take i).count k) r := by
  intro after
  induction after with
  | nil => intro _ _ _ _ _ _ _; exact ⟨[], rfl, rfl, by simp⟩
  | cons k ks ih =>
    intro before states files hsch hnew hold hfiles
    have hstep : ∃ r files1, genNext printed numThreads (calls k) (states k) files =
        ok (r, (calls k).points.drop (before.count k + 1), files1) ∧
        RightResult printed numThreads (calls k) (before.count k) r ∧
        FilesRight printed numThreads (calls k) ((calls k).points.drop (before.count k + 1)) files1 ∧
        ∀ k' ∈ before, k' ≠ k → k' ∈ ks →
          FilesRight printed numThreads (calls k') ((calls k').points.drop (before.count k')) files1 := by
      by_cases hk : k ∈ before
      · obtain ⟨h1, h2⟩ := readNext_right (before.count k) (hfiles k hk (List.mem_cons_self ..))
        refine ⟨_, files, ?_, h1, ?_, fun k' hk' _ hm => hfiles k' hk' (List.mem_cons_of_mem _ hm)⟩
        · rw [hold k hk, genNext]
          simp only [h2]
        · intro p hp
          refine hfiles k hk (List.mem_cons_self ..) p ?_
          rw [← List.drop_drop] at hp
          exact List.mem_of_mem_drop hp
      · have h0 : before.count k = 0 := List.count_eq_zero.mpr hk
        obtain ⟨written, e1, e2, e3⟩ := evaluate_files (hc k) hnt printed files
        have e2' : FilesRight printed numThreads (calls k) ((calls k).points.drop 0)
            (written.foldl (writeScoreFile printed) files) := by simpa using e2
        obtain ⟨h1, h2⟩ := readNext_right 0 e2'
        simp only [List.drop_zero] at h1 h2
        rw [h0]
        refine ⟨_, written.foldl (writeScoreFile printed) files, ?_, h1, ?_, ?_⟩
        · rw [hnew k hk, genNext]
          simp only [e1, ok_bind, if_true, pure_eq, h2]
        · intro p hp
          exact e2 p (List.mem_of_mem_drop hp)
        · intro k' hk' hne hm p hp
          obtain ⟨sc, s1, s2⟩ := hfiles k' hk' (List.mem_cons_of_mem _ hm) p hp
          refine ⟨sc, s1, ?_⟩
          rw [e3 p (hu before k ks hsch hk k' hne hk' hm p (List.mem_of_mem_drop hp)), s2]
    obtain ⟨r, files1, s1, s2, s3, s4⟩ := hstep
    have hcount : ∀ i, (before ++ [k]).count i = before.count i + if i = k then 1 else 0 := by
      intro i
      rw [List.count_append, List.count_singleton]
      by_cases h : i = k
      · subst h; simp
      · simp [h, Ne.symm h]
    obtain ⟨rs, t1, t2, t3⟩ := ih (before ++ [k])
      (fun i => if i = k then some ((calls k).points.drop (before.count k + 1)) else states i) files1
      (by rw [hsch]; simp)
      (by
        intro i hi
        simp only [List.mem_append, List.mem_singleton, not_or] at hi
        simp only [if_neg hi.2, hnew i hi.1])
      (by
        intro i hi
        rw [hcount]
        by_cases h : i = k
        · subst h; simp
        · simp only [if_neg h, Nat.add_zero]
          rcases List.mem_append.mp hi with hi | hi
          · exact hold i hi
          · exact absurd (List.mem_singleton.mp hi) h)
      (by
        intro i hi hm
        rw [hcount]
        by_cases h : i = k
        · subst h; simpa using s3
        · simp only [if_neg h, Nat.add_zero]
          rcases List.mem_append.mp hi with hi | hi
          · exact s4 i hi h hm
          · exact absurd (List.mem_singleton.mp hi) h)
    refine ⟨r :: rs, by simp only [runGenerators, s1, ok_bind, t1, pure_eq], by simp [t2], ?_⟩
    intro i k' r' hi hr
    cases i with
    | zero =>
      simp only [List.getElem?_cons_zero, Option.some.injEq] at hi hr
      subst hi hr
      simpa using s2
    | succ i =>
      simp only [List.getElem?_cons_succ] at hi hr
      have := t3 i k' r' hi hr
      simpa using this

/-- **C103 (partial).** If no generator is started while another with a checkpoint in common is in use, each gives the predictions of
its own forest.  Missing: generators with common checkpoints that are used in turn, for which it is false. -/
theorem C103_undisturbed_partial {printed : D → D} {numThreads : Int} (hnt : 0 < numThreads) {calls : Nat → CheckpointCall D A}
    (hc : ∀ k, GoodCall (calls k)) {schedule : List Nat} (hu : Undisturbed calls schedule) (files : ScoreFiles D) :
    ∃ rs, runGenerators printed numThreads calls schedule (fun _ => none) files = ok rs ∧ rs.length = schedule.length ∧
      ∀ (i : Nat) k r, schedule[i]? = some k → rs[i]? = some r →
        RightResult printed numThreads (calls k) ((schedule.take i).count k) r := by
  obtain ⟨rs, h1, h2, h3⟩ := run_right (printed := printed) hnt hc hu schedule [] (fun _ => none) files rfl (fun _ _ => rfl)
    (by simp) (by simp)
  exact ⟨rs, h1, h2, fun i k r hi hr => by simpa using h3 i k r hi hr⟩

/-- A generator that has raised an exception, or has ended, has ended: `next` on it gives the end from then on. -/
theorem C103_ended (printed : D → D) (numThreads : Int) (c : CheckpointCall D A) {remaining : Option (List Int)}
    {files : ScoreFiles D} {r : GenResult D} {rest : List Int} {files1 : ScoreFiles D}
    (h : genNext printed numThreads c remaining files = ok (r, rest, files1)) (hr : ∀ p scores, r ≠ .value p scores)
    (files2 : ScoreFiles D) : genNext printed numThreads c (some rest) files2 = ok (.stop, [], files2) := by
  have hread : ∀ (fs : ScoreFiles D) (ps : List Int), (∀ p scores, (readNext fs ps).1 ≠ .value p scores) → (readNext fs ps).2 = [] := by
    intro fs ps hv
    cases ps with
    | nil => rfl
    | cons p ps =>
      cases hp : fs p with
      | none => simp only [readNext, hp]
      | some scores => exact (hv p scores (by simp only [readNext, hp])).elim
  have hrest : rest = [] := by
    cases remaining with
    | some ps =>
      rw [genNext, Outcome.ok.injEq, Prod.mk.injEq, Prod.mk.injEq] at h
      obtain ⟨rfl, rfl, _⟩ := h
      exact hread _ _ hr
    | none =>
      rw [genNext] at h
      cases he : evaluateCheckpoints c.columns c.numRows numThreads c.forest c.points with
      | ok v =>
        obtain ⟨code, written⟩ := v
        rw [he, ok_bind] at h
        dsimp only at h
        split at h
        · rw [pure_eq, Outcome.ok.injEq, Prod.mk.injEq, Prod.mk.injEq] at h
          obtain ⟨rfl, rfl, _⟩ := h
          exact hread _ _ hr
        · rw [pure_eq, Outcome.ok.injEq, Prod.mk.injEq, Prod.mk.injEq] at h
          exact h.2.1.symm
      | ub => rw [he] at h; cases h
      | fatal => rw [he] at h; cases h
  rw [hrest]
  rfl

/-- With a checkpoint beyond the forest there is no file: the exception, and then the end. -/
example : runGenerators id 1 (fun _ => (⟨fun _ => none, 2, [.node 1 none .absent .absent], [1, 7, 1]⟩ :
    CheckpointCall ℚ Int)) [0, 0, 0, 0] (fun _ => none) (fun _ => none) =
      ok [.value 1 [1, 1], .noFile 7, .stop, .stop] := by decide +kernel

/-- A forest of two constants. -/
def constantForest (a b : ℚ) : List (Tree ℚ Int) := [.node a none .absent .absent, .node b none .absent .absent]

/-- Two forests on the same data, with checkpoints 1 and 2. -/
def twoCalls (k : Nat) : CheckpointCall ℚ Int :=
  ⟨sampleCols, 5, if k = 0 then constantForest 10 1 else constantForest 3 4, [1, 2]⟩

theorem twoCalls_good (k : Nat) : GoodCall (twoCalls k) := by
  have h : ∀ a b : ℚ, GoodCall ⟨sampleCols, 5, constantForest a b, [1, 2]⟩ := by
    intro a b
    refine ⟨sampleCols_hasRows, ?_, ?_, by simp, by simp [constantForest]⟩
    · intro name hn
      simp [constantForest, forestFeatures, treeFeatures] at hn
    · intro t ht
      simp only [constantForest, List.mem_cons, List.not_mem_nil, or_false] at ht
      rcases ht with rfl | rfl <;> simp [Scorable]
  unfold twoCalls
  split <;> exact h _ _

/-- **C103 refuted.** `for (p, a), (q, b) in zip(f.predict_at_checkpoints(d, [1, 2]), g.predict_at_checkpoints(d, [1, 2]))`: in the second
round the scores of `f` are those of `g`. -/
theorem C103_refuted : ¬ C103_full := by
  intro h
  obtain ⟨rs, h1, h2, h3⟩ := h id twoCalls [0, 1, 0, 1] (fun _ => none) twoCalls_good
  have hrun : runGenerators id 1 twoCalls [0, 1, 0, 1] (fun _ => none) (fun _ => none) =
      ok [.value 1 [10, 10, 10, 10, 10], .value 1 [3, 3, 3, 3, 3], .value 2 [7, 7, 7, 7, 7], .value 2 [7, 7, 7, 7, 7]] := by
    decide +kernel
  rw [h1, Outcome.ok.injEq] at hrun
  subst hrun
  have h4 := h3 2 0 _ rfl rfl
  obtain ⟨sc, e1, e2⟩ := h4
  have e3 : evaluateForest (twoCalls 0).columns (twoCalls 0).numRows 1 ((twoCalls 0).forest.take (2 : Int).toNat) =
      ok (.ok, some [11, 11, 11, 11, 11]) := by decide +kernel
  rw [e3, Outcome.ok.injEq, Prod.mk.injEq, Option.some.injEq] at e1
  rw [← e1.2] at e2
  revert e2
  decide +kernel

/-- One after the other they are undisturbed. -/
example : Undisturbed twoCalls [0, 0, 0, 1, 1, 1] ∧
    runGenerators id 1 twoCalls [0, 0, 0, 1, 1, 1] (fun _ => none) (fun _ => some [77]) =
      ok [.value 1 [10, 10, 10, 10, 10], .value 2 [11, 11, 11, 11, 11], .stop, .value 1 [3, 3, 3, 3, 3],
        .value 2 [7, 7, 7, 7, 7], .stop] := by
  refine ⟨?_, by decide +kernel⟩
  intro before k after h hk k' hne hb ha
  exfalso
  have hlen : before.length < 6 := by
    have := congrArg List.length h
    simp at this
    omega
  have key : ∀ n < 6, ∀ x ∈ ([0, 0, 0, 1, 1, 1] : List Nat).take n, x ∈ ([0, 0, 0, 1, 1, 1] : List Nat).drop (n + 1) →
      ∀ y, ([0, 0, 0, 1, 1, 1] : List Nat)[n]? = some y → y ∈ ([0, 0, 0, 1, 1, 1] : List Nat).take n := by decide
  refine hk ?_
  have := key before.length hlen k' (by rw [h, List.take_left]; exact hb)
    (by rw [h, ← List.drop_drop, List.drop_left]; exact ha) k (by rw [h]; simp)
  rwa [h, List.take_left] at this

end Gbdt
