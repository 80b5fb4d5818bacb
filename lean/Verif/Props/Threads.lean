import Verif.Props.PipelineCli
import Verif.Spec.Ieee

/-!
# C94, C95: the number of threads
-/

set_option autoImplicit false
set_option linter.unusedSectionVars false

namespace Gbdt

open Outcome

/-! ## Scores: any arithmetic -/

section scores
variable {D A : Type} [Dbl D] [LinearOrder A]

/-- Adding a tree gives the same scores for all ways to divide the rows. -/
theorem addTree_slices {columns : String → Option (Column A)} {n : Nat} {s1 s2 : List (List Nat)} (h1 : Slices n s1)
    (h2 : Slices n s2) (hcols : ∀ name c, columns name = some c → HasRows n c) (k : D) {t : Tree D A} (ht : Scorable columns t)
    {scores : List D} (hl : scores.length = n) :
    ∃ t1 t2 sc, addTreeScores columns t k s1 scores = ok (t1, sc) ∧ addTreeScores columns t k s2 scores = ok (t2, sc) ∧
      Slices n t1 ∧ Slices n t2 ∧ sc.length = n := by
  obtain ⟨t1, sc, a1, a2, a3, a4⟩ := h1.add hcols k ht hl
  obtain ⟨t2, sc2, b1, b2, b3, b4⟩ := h2.add hcols k ht hl
  have hsc : sc = sc2 := by
    refine List.ext_getElem? (fun i => ?_)
    by_cases hi : i < n
    · obtain ⟨x, old, g1, g2, g3⟩ := a4 i hi
      obtain ⟨x', old', k1, k2, k3⟩ := b4 i hi
      rw [g1, Option.some.injEq] at k1
      rw [g2, Option.some.injEq] at k2
      rw [g3, k3, k1, k2]
    · rw [List.getElem?_eq_none (by omega), List.getElem?_eq_none (by omega)]
  subst hsc
  exact ⟨t1, t2, sc, a1, b1, a2, b2, a3⟩

theorem addForest_slices {columns : String → Option (Column A)} {n : Nat}
    (hcols : ∀ name c, columns name = some c → HasRows n c) :
    ∀ (ts : List (Tree D A)) {s1 s2 : List (List Nat)} {scores : List D}, (∀ t ∈ ts, Scorable columns t) → Slices n s1 →
      Slices n s2 → scores.length = n →
      ∃ t1 t2 sc, addForestScores columns ts s1 scores = ok (t1, sc) ∧ addForestScores columns ts s2 scores = ok (t2, sc)
  | [], s1, s2, scores, _, _, _, _ => ⟨s1, s2, scores, rfl, rfl⟩
  | t :: ts, s1, s2, scores, ht, h1, h2, hl => by
    obtain ⟨t1, t2, sc, a1, a2, a3, a4, a5⟩ := addTree_slices h1 h2 hcols 0 (ht t (by simp)) hl
    obtain ⟨u1, u2, sd, b1, b2⟩ := addForest_slices hcols ts (fun x hx => ht x (by simp [hx])) a3 a4 a5
    exact ⟨u1, u2, sd, by rw [addForestScores, a1, ok_bind]; exact b1, by rw [addForestScores, a2, ok_bind]; exact b2⟩

theorem evaluateLoop_slices {columns : String → Option (Column A)} {n : Nat}
    (hcols : ∀ name c, columns name = some c → HasRows n c) :
    ∀ (ts : List (Tree D A)) (i : Nat) (points : List Int) {s1 s2 : List (List Nat)} {scores : List D},
      (∀ t ∈ ts, Scorable columns t) → Slices n s1 → Slices n s2 → scores.length = n →
      evaluateLoop columns ts i points s1 scores = evaluateLoop columns ts i points s2 scores
  | [], _, _, _, _, _, _, _, _, _ => rfl
  | _ :: _, _, [], _, _, _, _, _, _, _ => rfl
  | t :: ts, i, p :: ps, s1, s2, scores, ht, h1, h2, hl => by
    obtain ⟨t1, t2, sc, a1, a2, a3, a4, a5⟩ := addTree_slices h1 h2 hcols 0 (ht t (by simp)) hl
    have := evaluateLoop_slices hcols ts (i + 1) (popPassed (i + 1) (p :: ps)) (fun x hx => ht x (by simp [hx])) a3 a4 a5
    simp only [evaluateLoop, a1, a2, ok_bind, this]

theorem initWithBase_slices {env : TrainEnv D A} (hcols : ∀ name c, env.columns name = some c → HasRows env.numRows c) :
    ∀ (base forest : List (Tree D A)) {s1 s2 : List (List Nat)} {f : List D}, (∀ t ∈ base, Scorable env.columns t) →
      Slices env.numRows s1 → Slices env.numRows s2 → f.length = env.numRows →
      ∃ forest1 t1 t2 f1, initWithBase env base forest s1 f = ok (forest1, t1, f1) ∧
        initWithBase env base forest s2 f = ok (forest1, t2, f1) ∧ Slices env.numRows t1 ∧ Slices env.numRows t2 ∧
        f1.length = env.numRows
  | [], forest, s1, s2, f, _, h1, h2, hl => ⟨forest, s1, s2, f, rfl, rfl, h1, h2, hl⟩
  | t :: ts, forest, s1, s2, f, hb, h1, h2, hl => by
    obtain ⟨t1, t2, sc, a1, a2, a3, a4, a5⟩ := addTree_slices h1 h2 hcols 0 (hb t (by simp)) hl
    obtain ⟨fo, u1, u2, f1, b1, b2, b3⟩ := initWithBase_slices hcols ts
      (if isSingleNode t then forest.modify 0 (addRootScore env.rnd32 (rootScore t)) else forest ++ [t])
      (fun x hx => hb x (by simp [hx])) a3 a4 a5
    exact ⟨fo, u1, u2, f1, by rw [initWithBase, a1, ok_bind]; exact b1, by rw [initWithBase, a2, ok_bind]; exact b2, b3⟩

end scores

/-! ## Sums: where addition is associative -/

/-- Addition without rounding, as far as grouping goes. -/
class AssocAdd (D : Type) [Dbl D] : Prop where
  assoc : ∀ a b c : D, a + b + c = a + (b + c)
  zero_add : ∀ a : D, 0 + a = a
  add_zero : ∀ a : D, a + 0 = a

instance exactAssoc {K : Type} [Field K] [LinearOrder K] : AssocAdd K where
  assoc := add_assoc
  zero_add := zero_add
  add_zero := add_zero

section sums
variable {D A : Type} [Dbl D] [AssocAdd D] [LinearOrder A] [ThrOps A]

theorem GD.assoc_assoc (a b c : GD D) : (a.add b).add c = a.add (b.add c) := by simp [GD.add, AssocAdd.assoc]
theorem GD.assoc_zero_add (a : GD D) : GD.zero.add a = a := by simp [GD.add, GD.zero, AssocAdd.zero_add]
theorem GD.assoc_add_zero (a : GD D) : a.add GD.zero = a := by simp [GD.add, GD.zero, AssocAdd.add_zero]

theorem foldl_from (x : Nat → GD D) : ∀ (l : List Nat) (t : GD D),
    l.foldl (fun t k => t.add (x k)) t = t.add (l.foldl (fun t k => t.add (x k)) GD.zero)
  | [], t => (GD.assoc_add_zero t).symm
  | k :: l, t => by
    rw [List.foldl_cons, List.foldl_cons, foldl_from x l, foldl_from x l (GD.zero.add (x k)), GD.assoc_zero_add, GD.assoc_assoc]

/-- Sums of groups, added up, are the sum of all. -/
theorem foldl_groups (x : Nat → GD D) : ∀ (groups : List (List Nat)) (a : GD D),
    (groups.map (fun g => g.foldl (fun t k => t.add (x k)) GD.zero)).foldl GD.add a =
      groups.flatten.foldl (fun t k => t.add (x k)) a
  | [], _ => rfl
  | g :: groups, a => by
    rw [List.map_cons, List.foldl_cons, foldl_groups x groups, List.flatten_cons, List.foldl_append, ← foldl_from x g a]

theorem ranges_flatten : ∀ (slices : List (Nat × Nat)) (a b : Nat), Consecutive a b slices → a ≤ b ∧
    (slices.map (fun sl => List.range' sl.1 (sl.2 - sl.1))).flatten = List.range' a (b - a)
  | [], a, b, h => by
    rw [Consecutive] at h
    subst h
    simp
  | (x, y) :: slices, a, b, h => by
    obtain ⟨rfl, hxy, hc⟩ := h
    obtain ⟨h1, h2⟩ := ranges_flatten slices y b hc
    refine ⟨by omega, ?_⟩
    rw [List.map_cons, List.flatten_cons, h2]
    have h3 : b - x = (y - x) + (b - y) := by omega
    rw [h3, ← List.range'_append, one_mul]
    congr 2
    omega

/-- The step of a pass over the rows does not depend on the slices. -/
theorem sliceStep_any (e : PointLoss D) (f : List D) {s1 s2 : List (Nat × Nat)} (h1 : Consecutive 0 f.length s1)
    (h2 : Consecutive 0 f.length s2) (c : D) : sliceStep e f s1 c = sliceStep e f s2 c := by
  have key : ∀ s, Consecutive 0 f.length s → sliceStep e f s c =
      ((List.range' 0 f.length).foldl (fun t k => t.add ((rowGrad e f c k).scale (e.w k))) GD.zero).score 0 := by
    intro s hs
    have h := foldl_groups (fun k => (rowGrad e f c k).scale (e.w k)) (s.map (fun sl => List.range' sl.1 (sl.2 - sl.1))) GD.zero
    rw [(ranges_flatten s 0 _ hs).2, List.map_map] at h
    rw [sliceStep, ← Nat.sub_zero f.length, ← h]
    rfl
  rw [key s1 h1, key s2 h2]

theorem sliceSum_ub (w : Nat → D) (grads : List (GD D)) : ∀ (slice : List Nat) (t : GD D), (∃ i ∈ slice, ¬ i < grads.length) →
    slice.foldlM (fun total i => do
      let d ← Outcome.vecGet grads i
      pure (total.add (d.scale (w i)))) t = ub
  | [], _, h => by simp at h
  | i :: slice, t, h => by
    rw [List.foldlM_cons]
    by_cases hi : i < grads.length
    · simp only [vecGet_lt hi, ok_bind, pure_eq]
      refine sliceSum_ub w grads slice _ ?_
      obtain ⟨j, hj, hn⟩ := h
      rcases List.mem_cons.mp hj with rfl | hj
      · exact absurd hi hn
      · exact ⟨j, hj, hn⟩
    · simp only [vecGet, List.getElem?_eq_none (Nat.le_of_not_lt hi), ub_bind]

theorem sliceSums_ub (w : Nat → D) (grads : List (GD D)) : ∀ (groups : List (List Nat)),
    (∃ g ∈ groups, ∃ i ∈ g, ¬ i < grads.length) → groups.mapM (sliceSum w grads) = ub
  | [], h => by simp at h
  | g :: groups, h => by
    rw [List.mapM_cons]
    by_cases hg : ∃ i ∈ g, ¬ i < grads.length
    · rw [show sliceSum w grads g = ub from sliceSum_ub w grads g _ hg, ub_bind]
    · push Not at hg
      obtain ⟨g', hm, hi⟩ := h
      rcases List.mem_cons.mp hm with rfl | hm
      · obtain ⟨i, h1, h2⟩ := hi
        exact absurd (hg i h1) h2
      · rw [sliceSum_eq w grads g hg, ok_bind, sliceSums_ub w grads groups ⟨g', hm, hi⟩, ub_bind]

/-- The sum that `ComputeWeightedSum` returns does not depend on the number of threads. -/
theorem weightedSum_any {nt nt' : Int} (h : 0 < nt) (h' : 0 < nt') (w : Nat → D) (grads : List (GD D)) (samples : List Nat) :
    weightedSum nt w grads samples = weightedSum nt' w grads samples := by
  by_cases hin : ∀ i ∈ samples, i < grads.length
  · obtain ⟨g1, _, a2, a3⟩ := weightedSum_eq h w grads samples hin
    obtain ⟨g2, _, b2, b3⟩ := weightedSum_eq h' w grads samples hin
    have k1 := foldl_groups (weighted w grads) g1 GD.zero
    have k2 := foldl_groups (weighted w grads) g2 GD.zero
    rw [a2] at k1
    rw [b2, ← k1] at k2
    rw [a3, b3]
    exact congrArg ok k2.symm
  · push Not at hin
    obtain ⟨i, hi, hn⟩ := hin
    have key : ∀ m : Int, 0 < m → weightedSum m w grads samples = ub := by
      intro m hm
      obtain ⟨groups, h1, _, h3, _⟩ := C21_divide_samples samples (m * 5).toNat (by omega)
      rw [Int.toNat_of_nonneg (by omega)] at h1
      rw [← h3, List.mem_flatten] at hi
      obtain ⟨g, hg, hig⟩ := hi
      rw [weightedSum, h1, ok_bind, sliceSums_ub w grads groups ⟨g, hg, i, hig, by omega⟩, ub_bind]
    rw [key nt h, key nt' h']

theorem fitLoop_threads (env : FitEnv D A) (cfg : FitConfig D) {nt' : Int} (h : 0 < env.numThreads) (h' : 0 < nt') :
    ∀ (fuel : Nat) (s : FitState D A), fitLoop env cfg fuel s = fitLoop { env with numThreads := nt' } cfg fuel s
  | 0, _ => rfl
  | fuel + 1, s => by
    rw [fitLoop, fitLoop]
    split
    · refine bind_congr_ok (fun e _ => ?_)
      split
      · rfl
      · have : ∀ k f, fitStep env cfg s k e f = fitStep { env with numThreads := nt' } cfg s k e f := by
          intro k f
          simp only [fitStep, weightedSum_any h h']
          rfl
        rw [this]
        exact bind_congr_ok (fun s1 _ => fitLoop_threads env cfg h h' fuel s1)
    · rfl

/-- The tree fitted does not depend on the number of threads. -/
theorem fitTree_threads (env : FitEnv D A) (cfg : FitConfig D) {nt' : Int} (h : 0 < env.numThreads) (h' : 0 < nt') (p : Nat) :
    fitTree env cfg p = fitTree { env with numThreads := nt' } cfg p := by
  have : fitStart env cfg p = fitStart { env with numThreads := nt' } cfg p := by
    simp only [fitStart, weightedSum_any h h']
    rfl
  rw [fitTree, fitTree, this]
  refine bind_congr_ok (fun s _ => ?_)
  rw [fitLoop_threads env cfg h h']

theorem pointLoop_slices (e : PointLoss D) (nt' : Int) {f : List D} {s1 s2 : List (Nat × Nat)} (h1 : Consecutive 0 f.length s1)
    (h2 : Consecutive 0 f.length s2) : ∀ (left : Nat) (c : D) (grads : List (GD D)), grads.length = f.length →
      pointLoop e s1 f left c grads = pointLoop { e with numThreads := nt' } s2 f left c grads
  | 0, _, _, _ => rfl
  | left + 1, c, grads, hl => by
    obtain ⟨g1, a1, _, a2, a3⟩ := pointSlices_spec e f c s1 0 f.length grads h1 (le_refl _) hl
    obtain ⟨g2, b1, _, b2, b3⟩ := pointSlices_spec { e with numThreads := nt' } f c s2 0 f.length grads h2 (le_refl _) hl
    have hg : g1 = g2 := List.ext_getElem? (fun i => by rw [a3, b3]; rfl)
    subst hg
    have n1 : sliceStep e f s1 c = sliceStep { e with numThreads := nt' } f s2 c := sliceStep_any e f h1 h2 c
    unfold sliceStep at n1
    simp only [pointLoop, a1, b1, ok_bind, n1]
    split
    · exact pointLoop_slices e nt' h1 h2 left _ _ a2
    · rfl

theorem pointLoop_ok (e : PointLoss D) {f : List D} {s : List (Nat × Nat)} (h : Consecutive 0 f.length s) :
    ∀ (left : Nat) (c : D) (grads : List (GD D)), grads.length = f.length → ∃ c' g', pointLoop e s f left c grads = ok (c', g')
  | 0, c, grads, _ => ⟨c, grads, rfl⟩
  | left + 1, c, grads, hl => by
    obtain ⟨g1, a1, _, a2, _⟩ := pointSlices_spec e f c s 0 f.length grads h (le_refl _) hl
    simp only [pointLoop, a1, ok_bind]
    split
    · exact pointLoop_ok e h left _ _ a2
    · exact ⟨_, _, rfl⟩

/-- The gradients and the constant do not depend on the number of threads. -/
theorem pointCompute_slices (e : PointLoss D) (nt' : Int) {f : List D} {s1 s2 : List (Nat × Nat)}
    (h1 : Consecutive 0 f.length s1) (h2 : Consecutive 0 f.length s2) :
    ∃ c g, e.toLoss.compute s1 f = ok (s1, c, g) ∧ ({ e with numThreads := nt' } : PointLoss D).toLoss.compute s2 f = ok (s2, c, g) := by
  obtain ⟨c, g, h⟩ := pointLoop_ok e h1 10 0 (List.replicate f.length ⟨0, 0⟩) (by simp)
  refine ⟨c, g, ?_, ?_⟩
  · rw [show e.toLoss.compute s1 f = pointCompute e s1 f from rfl, pointCompute, h, ok_bind]
    rfl
  · rw [show ({ e with numThreads := nt' } : PointLoss D).toLoss.compute s2 f = pointCompute { e with numThreads := nt' } s2 f from rfl,
      pointCompute, ← pointLoop_slices e nt' h1 h2 10 0 _ (by simp), h, ok_bind]
    rfl

theorem fit_threads (env : TrainEnv D A) (features : List (String × Column A)) (grads : List (GD D)) (cfg : FitConfig D) {nt' : Int}
    (h : 0 < env.numThreads) (h' : 0 < nt') (p : Nat) : fitTree (env.fit features grads) cfg p =
      fitTree (({ env with numThreads := nt' } : TrainEnv D A).fit features grads) cfg p := by
  rw [fitTree_threads (env.fit features grads) cfg h h' p]
  rfl

section step
variable {S : Type} {env : TrainEnv D A} {loss : LossFunc S D} {features : List (String × Column A)} {cfg : TrainConfig D} {q n : Nat}
  {s : TrainState S D A} {ls : S} {c : D} {grads : List (GD D)}

theorem trainLoop_diverged (h1 : loss.compute s.loss s.f = ok (ls, c, grads)) (h2 : env.diverged c = true) :
    trainLoop env loss features cfg q (n + 1) s = ok (true, { s with loss := ls }) := by
  rw [trainLoop, h1, ok_bind]
  simp only [h2, if_true]
  rfl

theorem trainLoop_ub (h1 : loss.compute s.loss s.f = ok (ls, c, grads)) (h2 : ¬ env.diverged c = true)
    (h3 : fitTree (env.fit features grads) cfg.fit s.pos = ub) :
    trainLoop env loss features cfg q (n + 1) s = ub := by
  rw [trainLoop, h1, ok_bind]
  simp only [if_neg h2, h3]
  rfl

theorem trainLoop_fatal (h1 : loss.compute s.loss s.f = ok (ls, c, grads)) (h2 : ¬ env.diverged c = true)
    (h3 : fitTree (env.fit features grads) cfg.fit s.pos = fatal) :
    trainLoop env loss features cfg q (n + 1) s = fatal := by
  rw [trainLoop, h1, ok_bind]
  simp only [if_neg h2, h3]
  rfl

theorem trainLoop_step (h1 : loss.compute s.loss s.f = ok (ls, c, grads)) (h2 : ¬ env.diverged c = true) {t : Tree D A} {pos : Nat}
    (h3 : fitTree (env.fit features grads) cfg.fit s.pos = ok (t, pos)) {ss : List (List Nat)} {sc : List D}
    (h4 : addTreeScores env.columns (applyShrinkage env.rnd32 cfg.shrinkage t) c s.slices s.f = ok (ss, sc)) :
    trainLoop env loss features cfg q (n + 1) s = trainLoop env loss features cfg q n
      ⟨(s.forest ++ [applyShrinkage env.rnd32 cfg.shrinkage t]).modify q (addRootScore env.rnd32 c), ss, sc, ls, pos⟩ := by
  rw [trainLoop, h1, ok_bind]
  simp only [if_neg h2, h3, ok_bind, h4]

end step

variable [FpOrder D] [EqOrder D]

theorem trainLoop_threads {env env' : TrainEnv D A} {names : List String} {cfg : TrainConfig D} {base : List (Tree D A)}
    (hs : TrainStore env names cfg base) {e : PointLoss D} (he : 0 < e.numThreads) {nt' : Int} (h' : 0 < nt')
    (henv : env' = { env with numThreads := nt' }) {e' : PointLoss D} (he' : e' = { e with numThreads := nt' })
    {features : List (String × Column A)} (hl : loadFeatures env.columns names = .ok features) {R : Type}
    (F : Bool → List (Tree D A) → List D → Nat → Outcome R) (n : Nat) : ∀ {s s2 : TrainState (List (Nat × Nat)) D A},
      s2.forest = s.forest → s2.f = s.f → s2.pos = s.pos → s.f.length = env.numRows → Slices env.numRows s.slices →
      Slices env.numRows s2.slices → Consecutive 0 env.numRows s.loss → Consecutive 0 env.numRows s2.loss →
      LossReach env.numRows (GroupCol env.columns) e.toLoss s.loss →
      (trainLoop env e.toLoss features cfg 0 n s >>= fun r => F r.1 r.2.forest r.2.f r.2.pos) =
        (trainLoop env' e'.toLoss features cfg 0 n s2 >>= fun r => F r.1 r.2.forest r.2.f r.2.pos) := by
  have hcol : env'.columns = env.columns := by rw [henv]
  have hrnd : env'.rnd32 = env.rnd32 := by rw [henv]
  have hdiv : env'.diverged = env.diverged := by rw [henv]
  have hfits : ∀ grads p, fitTree (env'.fit features grads) cfg.fit p = fitTree (env.fit features grads) cfg.fit p := by
    intro grads p
    rw [henv, ← fit_threads env features grads cfg.fit hs.threads h' p]
  clear henv
  induction n with
  | zero =>
    intro s s2 h1 h2 h3 _ _ _ _ _ _
    rw [trainLoop, trainLoop, ok_bind, ok_bind, h1, h2, h3]
  | succ n ih =>
    intro s s2 h1 h2 h3 hf hs1 hs2 hc1 hc2 hr
    obtain ⟨c, grads, e1, e2⟩ := pointCompute_slices e nt' (f := s.f) (hf.symm ▸ hc1) (hf.symm ▸ hc2)
    rw [← h2, ← he'] at e2
    have hg := (pointTrainData hs he).grads _ _ _ _ _ hr e1 hf
    by_cases hd : env.diverged c = true
    · rw [trainLoop_diverged e1 hd, trainLoop_diverged e2 (by rw [hdiv]; exact hd), ok_bind, ok_bind, h1, h2, h3]
    · have hd' : ¬ env'.diverged c = true := by rw [hdiv]; exact hd
      have hfit := hfits grads s2.pos
      cases ht : fitTree (env.fit features grads) cfg.fit s.pos with
      | ub => rw [trainLoop_ub e1 hd ht, trainLoop_ub e2 hd' (by rw [hfit, h3, ht])]
      | fatal => rw [trainLoop_fatal e1 hd ht, trainLoop_fatal e2 hd' (by rw [hfit, h3, ht])]
      | ok tp =>
        obtain ⟨t, pos⟩ := tp
        have hsc : Scorable env.columns (applyShrinkage env.rnd32 cfg.shrinkage t) :=
          FittedTree.scorable (pointTrainData hs he) hl ⟨grads, t, s.pos, pos, hg, ht, rfl⟩
        obtain ⟨t1, t2, sc, k1, k2, k3, k4, k5⟩ := addTree_slices hs1 hs2 (fun _ _ h => (hs.rows _ _ h).hasRows) c hsc hf
        rw [trainLoop_step e1 hd ht k1, trainLoop_step e2 hd' (by rw [hfit, h3, ht]) (by rw [hcol, hrnd, h2]; exact k2)]
        exact ih (by rw [h1, hrnd]) rfl rfl k5 k3 k4 hc1 hc2 (hr.step hf e1)

/-- Training does not depend on the number of threads. -/
theorem trainGBDT_threads {env : TrainEnv D A} {names : List String} {cfg : TrainConfig D} {base : Option (List (Tree D A))}
    (hs : checkConfig (env.ofNat 1) cfg = .ok → TrainStore env names cfg (base.getD [])) {e : PointLoss D}
    (he : 0 < e.numThreads) {nt' : Int} (h' : 0 < nt') (p : Nat) :
    trainGBDT env e.toLoss names cfg base [] p =
      trainGBDT { env with numThreads := nt' } { e with numThreads := nt' }.toLoss names cfg base [] p := by
  unfold trainGBDT
  by_cases hc : checkConfig (env.ofNat 1) cfg = .ok
  · rw [if_neg (by simp [hc]), if_neg (by simp [hc])]
    have hs := hs hc
    simp only
    split
    · rfl
    · next features hl =>
      refine bind_congr_ok (fun group hg => ?_)
      have hinit : ∀ (e : PointLoss D), 0 < e.numThreads → ∃ sl, Consecutive 0 env.numRows sl ∧ e.toLoss.init env.numRows group =
          if e.binary && (List.range env.numRows).any (fun i => !Dbl.eqb (e.y i) e.one && !Dbl.eqb (e.y i) e.minusOne) then
            ok (.error .invalidArgument) else ok (.ok sl) := by
        intro e he
        obtain ⟨sl, a1, _, a3, _⟩ := C21_divide_range env.numRows (e.numThreads * 5).toNat (by omega)
        rw [Int.toNat_of_nonneg (by omega)] at a1
        exact ⟨sl, a3, by simp only [PointLoss.toLoss, pointInit, a1, ok_bind, pure_eq]⟩
      obtain ⟨l1, c1, i1⟩ := hinit e he
      obtain ⟨l2, c2, i2⟩ := hinit { e with numThreads := nt' } h'
      rw [i1, i2]
      simp only
      by_cases hb : (e.binary && (List.range env.numRows).any (fun i => !Dbl.eqb (e.y i) e.one && !Dbl.eqb (e.y i) e.minusOne)) = true
      · simp only [hb, if_true, ok_bind]
      · rw [if_neg hb] at i1
        simp only [hb, Bool.false_eq_true, if_false, ok_bind]
        obtain ⟨s1, a1, a2⟩ := scoreSlices_ok hs.threads env.numRows
        obtain ⟨s2, b1, b2⟩ := scoreSlices_ok h' env.numRows
        obtain ⟨fo, t1, t2, f1, d1, d2, d3, d4, d5⟩ := initWithBase_slices (env := env) (fun _ _ h => (hs.rows _ _ h).hasRows)
          (base.getD []) ([] ++ [.node 0 none .absent .absent]) hs.scorable a2 b2 (f := List.replicate env.numRows 0) (by simp)
        have d2' : initWithBase { env with numThreads := nt' } (base.getD []) ([] ++ [.node 0 none .absent .absent]) s2
            (List.replicate env.numRows 0) = ok (fo, t2, f1) := by
          rw [← d2]
          clear d1 d2 d3 d4 d5 b2
          generalize ([] ++ [.node 0 none .absent .absent] : List (Tree D A)) = fo
          generalize List.replicate env.numRows (0 : D) = f
          clear b1
          induction base.getD [] generalizing fo s2 f with
          | nil => rfl
          | cons t ts ih =>
            simp only [initWithBase]
            exact bind_congr_ok (fun r _ => ih _ _ _)
        rw [a1, b1, ok_bind, ok_bind, d1, d2', ok_bind, ok_bind]
        have hgc : GroupCol env.columns group := by
          exact groupOrDie_col hg
        exact trainLoop_threads hs he h' rfl rfl hl (fun stopped forest f pos =>
          if stopped then (pure ⟨.internal, forest, f, pos⟩ : Outcome (TrainResult D A))
          else pure ⟨.ok, forest.map clearInternal, f, pos⟩)
          cfg.numTrees.toNat (s := ⟨fo, t1, f1, l1, p⟩) (s2 := ⟨fo, t2, f1, l2, p⟩) rfl rfl rfl d5 d3 d4 c1 c2 (.init hgc i1)
  · rw [if_pos hc, if_pos hc]

end sums

/-! ## C94 -/

section predict
variable {D A : Type} [Dbl D] [LinearOrder A] [ThrOps A]

/-- **C94 (prediction).** In any arithmetic, `predict` and `predict_and_output` give the same result for any numbers of threads. -/
theorem C94_predict {t : DataStore A} {n : Nat} (hs : GoodStore n t) {forest : List (Tree D A)} (hf : UsableForest t forest)
    (points : List Int) {nt nt' : Int} (h : 0 < nt) (h' : 0 < nt') :
    pyPredict (some t) forest nt = pyPredict (some t) forest nt' ∧
      pyPredictAndOutput (some t) forest points nt = pyPredictAndOutput (some t) forest points nt' := by
  have hn := PyStore.numRows_of (fun p hp => PyStore.hasRows_size (hs.rows p hp).hasRows)
  generalize hm : (if t = [] then 0 else n) = m at hn
  have hcols : ∀ name c, t.getColumn name = some c → HasRows m c := by
    intro name c hc
    have hne : t ≠ [] := by rintro rfl; simp [DataStore.getColumn] at hc
    rw [← hm, if_neg hne]
    exact (hs.col hc).hasRows
  obtain ⟨s1, a1, a2⟩ := scoreSlices_ok h m
  obtain ⟨s2, b1, b2⟩ := scoreSlices_ok h' m
  constructor
  · have : evaluateForest t.getColumn m nt forest = evaluateForest t.getColumn m nt' forest := by
      unfold evaluateForest
      split
      · rfl
      · obtain ⟨t1, t2, sc, k1, k2⟩ := addForest_slices hcols forest hf.scorable a2 b2 (scores := List.replicate m (0 : D)) (by simp)
        rw [a1, b1, ok_bind, ok_bind, k1, k2]
        rfl
    simp only [pyPredict, hn, this]
  · have : evaluateCheckpoints t.getColumn m nt forest points = evaluateCheckpoints t.getColumn m nt' forest points := by
      unfold evaluateCheckpoints
      split
      · rfl
      · rw [a1, b1, ok_bind, ok_bind, evaluateLoop_slices hcols forest 0 points hf.scorable a2 b2 (by simp)]
    simp only [pyPredictAndOutput, hn, this]

end predict

section train
variable {D A : Type} [Dbl D] [FpOrder D] [EqOrder D] [LinearOrder A] [ThrOps A]

theorem withLoss_mkPoint_all (mc : Machine D A) {c : Config D}
    (hl : c.lossFunc ∈ ["mse", "logloss", "huberized_hinge"]) :
    ∃ (binary : Bool) (lossFn : D → D → D × D × D), ∀ (seed nt : Int) {R : Type}
      (k : ∀ S : Type, ((w y : Nat → D) → LossFunc S D) → Outcome R),
        withLoss mc c seed nt k = some (k _ (fun w y => (mkPoint mc nt w y binary lossFn).toLoss)) := by
  simp only [List.mem_cons, List.not_mem_nil, or_false] at hl
  rcases hl with h | h | h
  · exact ⟨false, mseLoss mc.math, fun _ _ => fun k => by simp [withLoss, h]⟩
  · exact ⟨true, logLoss mc.math, fun _ _ => fun k => by simp [withLoss, h]⟩
  · exact ⟨true, huberizedHinge mc.math, fun _ _ => fun k => by simp [withLoss, h]⟩

/-- **C95 (partial).** Where addition is associative, `train` with mse, logloss or huberized hinge gives the same result, the forest
or the exception, for any numbers of threads.  Missing: arithmetic with rounding, for which it is false. -/
theorem C95_associative_partial [AssocAdd D] {mc : Machine D A} {t : DataStore A} {n : Nat} {c : Config D} {base : Option (List (Tree D A))} {nt nt' : Int}
    (hi : PyInput mc t n c base nt) (h' : 0 < nt') (y w : List (Fl A)) (features : List String) (seed : Int) :
    pyTrain mc (some t) c y features w base seed nt = pyTrain mc (some t) c y features w base seed nt' := by
  unfold pyTrain
  simp only
  split
  · rfl
  · generalize hfs : (namesOfType (some t) .string).filter (fun n => features.contains n) ++
      (namesOfType (some t) .bucketized).filter (fun n => features.contains n) = fs
    generalize hc' : ({ c with
      floatFeature := (namesOfType (some t) .bucketized).filter (fun n => features.contains n)
      catFeature := (namesOfType (some t) .string).filter (fun n => features.contains n) } : Config D) = c'
    have hi' : PyInput mc t n c' base nt := by
      subst hc'
      exact ⟨hi.machine, hi.store, hi.rowCount, hi.columnCount, hi.loss, hi.exampleRate, hi.featureRate, hi.threads, hi.group, hi.base⟩
    unfold trainPyFull
    refine bind_congr_ok (fun _ _ => ?_)
    split
    · rfl
    · refine bind_congr_ok (fun _ _ => ?_)
      split
      · rfl
      · unfold PyRes.andThen
        split
        · next yf _ =>
          obtain ⟨binary, lossFn, hw⟩ := withLoss_mkPoint_all mc hi'.loss
          unfold trainPyRun
          simp only [hw]
          split
          · rfl
          · next hne =>
            have hnet : t ≠ [] := by
              rintro rfl
              exact hne (by rw [← hfs]; simp [namesOfType, DataStore.namesOf])
            rw [Option.getD_some, hi'.store.numRows hnet, ok_bind, ok_bind]
            have := trainGBDT_threads (env := mkEnv mc t n (if w = [] then fun _ => mc.ofNat 1 else vecFn mc w) seed nt)
              (names := mc.listing fs) (cfg := c'.train mc (mc.ofNat 1)) (base := base)
              (fun hc => hi'.trainStore _ seed (by
                rw [(hi.machine.listing fs).length_eq, ← hfs]
                exact lt_of_le_of_lt (features_length t features) hi.columnCount) hc)
              (e := mkPoint mc nt (if w = [] then fun _ => mc.ofNat 1 else vecFn mc w) yf binary lossFn) hi'.threads h' 0
            rw [this]
            rfl
        · rfl
        · rfl
        · rfl

end train

/-- **C94 (training).** In exact arithmetic, `train` with mse, logloss or huberized hinge gives the same result, the forest or the
exception, for any numbers of threads. -/
theorem C94_train {K A : Type} [Field K] [LinearOrder K] [IsStrictOrderedRing K] [LinearOrder A] [ThrOps A] {mc : Machine K A}
    {t : DataStore A} {n : Nat} {c : Config K} {base : Option (List (Tree K A))} {nt nt' : Int}
    (hi : PyInput mc t n c base nt) (h' : 0 < nt') (y w : List (Fl A)) (features : List String) (seed : Int) :
    pyTrain mc (some t) c y features w base seed nt = pyTrain mc (some t) c y features w base seed nt' :=
  C95_associative_partial hi h' y w features seed

/-! ## Examples -/

/-- Two threads and three, on the data of C87. -/
example {t : DataStore ℚ} (h : pyDict id = ok (.ok (some t))) : pyTrain ratMachine (some t) pyCfg [] ["color", "size"] [] none 1 2 =
    pyTrain ratMachine (some t) pyCfg [] ["color", "size"] [] none 1 3 :=
  C94_train (pyInput h (by decide) rfl) (by decide) [] [] _ 1

/-- The forests have splits, and are the same. -/
example : (match pyDict id with
    | .ok (.ok s) => (match pyTrain ratMachine s pyCfg [] ["color", "size"] [] none 1 2, pyTrain ratMachine s pyCfg [] ["color", "size"] [] none 1 3 with
      | .ok (.ok f), .ok (.ok g) => decide (f = g ∧ forestFeatures f ≠ [])
      | _, _ => false)
    | _ => false) = true := by
  decide +kernel

/-! ## C95: rounding -/

/-- **C95, in full**: training gives the same result for any numbers of threads, in any arithmetic ordered as floating point is. -/
def C95_full (D A : Type) [Dbl D] [FpOrder D] [EqOrder D] [LinearOrder A] [ThrOps A] : Prop :=
  ∀ (mc : Machine D A) (t : DataStore A) (n : Nat) (c : Config D) (base : Option (List (Tree D A))) (nt nt' : Int),
    PyInput mc t n c base nt → 0 < nt' → ∀ (y w : List (Fl A)) (features : List String) (seed : Int),
      pyTrain mc (some t) c y features w base seed nt = pyTrain mc (some t) c y features w base seed nt'

/-- The number, 0 if it is none. -/
def F64.toRat : F64 → ℚ
  | .num q => q
  | _ => 0

/-- 0 for NaN. -/
def F64.clean : F64 → F64
  | .nan => .num 0
  | x => x

theorem F64.lt_clean {a b : F64} (h : F64.lt a.clean b.clean = false) : F64.lt a b = false := by
  rcases a with _ | s | q <;> rcases b with _ | s' | q' <;> simp_all [F64.lt, F64.clean]

theorem F64.clean_total (a b : F64) : F64.lt b.clean a.clean = false ∨ F64.lt a.clean b.clean = false := by
  rcases a with _ | s | q <;> rcases b with _ | s' | q' <;> simp [F64.lt, F64.clean, le_total]
  revert s s'
  decide

theorem F64.clean_trans {a b c : F64} (h1 : F64.lt b.clean a.clean = false) (h2 : F64.lt c.clean b.clean = false) :
    F64.lt c.clean a.clean = false := by
  rcases a with _ | s | q <;> rcases b with _ | s' | q' <;> rcases c with _ | s'' | q'' <;> simp_all [F64.lt, F64.clean]
  all_goals exact le_trans h1 h2

/-- Sorting by increasing keys. -/
def f64Sort (key : Nat → F64) (l : List Nat) : List Nat :=
  l.insertionSort (fun a b => F64.lt (key b).clean (key a).clean = false)

theorem f64Sort_spec : SortSpec f64Sort := by
  intro key l
  refine ⟨List.perm_insertionSort _ _, ?_⟩
  have : Std.Total (fun a b => F64.lt (key b).clean (key a).clean = false) := ⟨fun a b => F64.clean_total (key a) (key b)⟩
  have : IsTrans Nat (fun a b => F64.lt (key b).clean (key a).clean = false) := ⟨fun a b c h1 h2 => F64.clean_trans h1 h2⟩
  refine (List.pairwise_insertionSort (fun a b => F64.lt (key b).clean (key a).clean = false) l).imp ?_
  intro a b hab
  exact F64.lt_clean hab

/-- The first of the largest gains. -/
def f64Top (_ : Nat) : List F64 → Nat
  | [] => 0
  | a :: l => if ∀ b ∈ l, F64.lt a.clean b.clean = false then 0 else f64Top 0 l + 1

theorem f64Top_spec : TopSpec f64Top := by
  have : ∀ (gains : List F64) (n : Nat), gains ≠ [] → ∃ g, gains[f64Top n gains]? = some g ∧
      ∀ g' ∈ gains, F64.lt g.clean g'.clean = false := by
    intro gains
    induction gains with
    | nil => intro n h; exact absurd rfl h
    | cons a l ih =>
      intro n _
      rw [f64Top]
      by_cases hall : ∀ b ∈ l, F64.lt a.clean b.clean = false
      · rw [if_pos hall]
        refine ⟨a, rfl, ?_⟩
        intro g' hg'
        rcases List.mem_cons.mp hg' with rfl | h
        · rcases F64.clean_total g' g' with h | h <;> exact h
        · exact hall _ h
      · rw [if_neg hall]
        have hne : l ≠ [] := by
          rintro rfl
          exact hall (by simp)
        obtain ⟨g, h1, h2⟩ := ih 0 hne
        refine ⟨g, by simpa using h1, ?_⟩
        intro g' hg'
        rcases List.mem_cons.mp hg' with rfl | h
        · push Not at hall
          obtain ⟨b, hb, hlt⟩ := hall
          rcases F64.clean_total g' b with h3 | h3
          · exact F64.clean_trans h3 (h2 b hb)
          · rw [h3] at hlt; exact absurd rfl hlt
        · exact h2 _ h
  intro n gains hne
  obtain ⟨g, h1, h2⟩ := this gains n hne
  exact ⟨g, h1, fun g' hg' => F64.lt_clean (h2 g' hg')⟩

/-- A machine with doubles.  (`exp` and `log` are not used with mse; conversions of NaN and infinities to integers, undefined in
C++, do not occur.) -/
def f64Machine : Machine F64 ℚ where
  toD := fun x => match x with
    | .num v => .num v
    | .nan => .nan
  math := { exp := id, log := id, neg := F64.neg, one := .num 1, half := .num (1 / 2) }
  minusOne := .num (-1)
  fabs := fun x => if Dbl.ltb x 0 then F64.neg x else x
  rnd32 := F64.round32
  ofNat := fun n => F64.round n
  toInt := fun x => some x.toRat.floor
  toU64 := fun x => some x.toRat.floor.toNat
  diverged := fun x => match x with
    | .num _ => false
    | _ => true
  threshold := F64.round (1 / 10000)
  tol := F64.round (1 / 1000000)
  sort := f64Sort
  descSort := fun key l => (f64Sort key l).reverse
  top := f64Top
  listing := id
  draw := fun _ _ => .num 0
  pairDraw := fun _ t _ i n => (t + i) % n

theorem f64Machine_ok : MachineOk f64Machine where
  sort := f64Sort_spec
  top := f64Top_spec
  listing := fun l => List.Perm.refl l
  toInt := by intros; simp [f64Machine]

/-- One feature for seven rows. -/
def sevenDict : PyRes (Option (DataStore ℚ)) :=
  PyStore.fromDict (2 ^ 100) 7 id [("size", [.num 1, .num 2, .num 3, .num 4, .num 5, .num 6, .num 7])] [] []

/-- One tree with one leaf. -/
def stumpCfg : Config F64 where
  numTrees := 1
  numLeaves := 1
  shrinkage := .num 1
  minGain := 0
  l2Lambda := 0
  minHessian := 0
  exampleRate := none
  featureRate := none
  lossFunc := "mse"
  pairRate := 0
  dcgBase := 0

/-- Targets that are all `float` numbers, with mean 2/7. -/
def cancelTargets : List (Fl ℚ) := [.num (2 ^ 53), .num 0, .num 1, .num 1, .num (-2 ^ 53), .num 0, .num 0]

/-- The predictions after training with a number of threads. -/
def sevenRun (nt : Int) : PyRes (List F64) :=
  sevenDict.andThen (fun s => (pyTrain f64Machine s stumpCfg cancelTargets ["size"] [] none 1 nt).andThen (fun f => pyPredict s f 1))

/-- **C95 (refuted).** With doubles, one thread and two threads train different forests: one predicts 0.69, the other 0. -/
theorem C95_refuted : ¬ C95_full F64 ℚ := by
  intro h
  have hb : (match sevenRun 1, sevenRun 2 with
      | .ok (.ok f), .ok (.ok g) => decide (f = List.replicate 7 (.num (23303417 / 33554432)) ∧ g = List.replicate 7 (.num 0))
      | _, _ => false) = true := by decide +kernel
  have he : sevenRun 1 = sevenRun 2 := by
    unfold sevenRun PyRes.andThen
    split
    · next s hs =>
      cases s with
      | none => rfl
      | some t =>
        obtain ⟨h1, h2, _⟩ := C87_from_dict (2 ^ 100 : ℚ) (by decide) (fun _ => List.Perm.refl _) (n := 7) (by decide)
          (by decide) (by
            intro p hp
            rw [List.mem_singleton.mp hp]
            refine ⟨rfl, fun v hv => ?_⟩
            simp only [List.mem_cons, Fl.num.injEq, List.not_mem_nil, or_false] at hv
            rcases hv with rfl | rfl | rfl | rfl | rfl | rfl | rfl <;> norm_num) (by simp) (by simp) hs
        simp only
        rw [h f64Machine t 7 stumpCfg none 1 2 ⟨f64Machine_ok, h1, by decide, by rw [h2]; decide, by decide, show Dbl.eqb _ _ = true by decide +kernel,
          show Dbl.eqb _ _ = true by decide +kernel, by decide, Or.inl rfl, ⟨fun _ h => absurd h (by simp [forestFeatures]), fun _ h => absurd h (by simp)⟩⟩
          (by decide) cancelTargets [] ["size"] 1]
    · rfl
    · rfl
    · rfl
  rw [he] at hb
  generalize sevenRun 2 = r at hb
  rcases r with (_ | l) | _ | _
  · cases hb
  · simp only [decide_eq_true_eq] at hb
    exact absurd (hb.1.symm.trans hb.2) (by decide +kernel)
  · cases hb
  · cases hb

end Gbdt
