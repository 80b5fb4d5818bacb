import Mathlib.Algebra.BigOperators.Ring.Finset
import Verif.Model.Progress
import Verif.Props.TrainError

/-!
# Lemmas about the progress messages
-/

set_option autoImplicit false
set_option linter.unusedSectionVars false

namespace Gbdt
open Outcome

section total
variable {D : Type} [Dbl D]

theorem sliceLoss_ok {e : PointLoss D} {f : List D} {c : D} : ∀ {left i : Nat} {grads : List (GD D)} {total : GD D} {r},
    pointSlice e f c left i grads total = ok r → ∀ l, ∃ l', sliceLoss e f c left i l = ok l'
  | 0, _, _, _, _, _, l => ⟨l, rfl⟩
  | left + 1, i, grads, total, r, h, l => by
    rw [pointSlice, bind_eq_ok] at h
    obtain ⟨fi, h1, h2⟩ := h
    simp only at h2
    split at h2
    · rw [sliceLoss, h1, ok_bind]
      exact sliceLoss_ok h2 _
    · cases h2

theorem passLoss_ok {e : PointLoss D} {f : List D} {c : D} : ∀ {slices : List (Nat × Nat)} {grads : List (GD D)} {r},
    pointSlices e f c slices grads = ok r → ∃ l, slices.mapM (fun sl => sliceLoss e f c (sl.2 - sl.1) sl.1 0) = ok l
  | [], _, _, _ => ⟨[], rfl⟩
  | sl :: slices, grads, r, h => by
    rw [pointSlices, bind_eq_ok] at h
    obtain ⟨⟨g1, t1⟩, h1, h2⟩ := h
    simp only [bind_eq_ok] at h2
    obtain ⟨⟨g2, t2⟩, h3, _⟩ := h2
    obtain ⟨l1, k1⟩ := sliceLoss_ok h1 0
    obtain ⟨l2, k2⟩ := passLoss_ok h3
    exact ⟨l1 :: l2, by rw [List.mapM_cons, k1, ok_bind, k2, ok_bind]; rfl⟩

theorem lossLoop_ok {e : PointLoss D} {f : List D} {slices : List (Nat × Nat)} : ∀ {left : Nat} {c : D} {grads : List (GD D)} {r},
    pointLoop e slices f left c grads = ok r → ∃ l, lossLoop e slices f left c grads = ok l
  | 0, _, _, _, _ => ⟨0, rfl⟩
  | left + 1, c, grads, r, h => by
    rw [pointLoop, bind_eq_ok] at h
    obtain ⟨⟨g1, ts⟩, h1, h2⟩ := h
    obtain ⟨ls, k1⟩ := passLoss_ok h1
    rw [lossLoop, h1, ok_bind]
    simp only [passLoss, k1, ok_bind, pure_eq] at h2 ⊢
    split
    · next hc =>
      simp only [Bool.and_eq_true] at hc
      rw [if_pos hc.1] at h2
      exact lossLoop_ok h2
    · exact ⟨_, rfl⟩

/-- A message changes nothing else. -/
theorem reportCompute_map (e : PointLoss D) (hundred : D) (s : PointProgress D) (f : List D) :
    pointCompute e s.slices f = reportCompute e hundred s f >>= fun r => ok (r.1.slices, r.2) := by
  rw [reportCompute]
  cases h : pointCompute e s.slices f with
  | ok r =>
    obtain ⟨sl, c, g⟩ := r
    have h' := h
    rw [pointCompute, bind_eq_ok] at h'
    obtain ⟨⟨c', g'⟩, h1, _⟩ := h'
    obtain ⟨l, hl⟩ := lossLoop_ok h1
    simp only [ok_bind, hl, pure_eq]
  | ub => rfl
  | fatal => rfl

end total

section sim
variable {S S' D A : Type} [Dbl D] [LinearOrder A] [ThrOps A]

/-- The same variables with another view of the loss. -/
def TrainState.view (proj : S' → S) (s : TrainState S' D A) : TrainState S D A :=
  { forest := s.forest, slices := s.slices, f := s.f, loss := proj s.loss, pos := s.pos }

theorem trainLoop_view (env : TrainEnv D A) (loss : LossFunc S D) (loss' : LossFunc S' D) (proj : S' → S)
    (hc : ∀ s f, loss.compute (proj s) f = loss'.compute s f >>= fun r => ok (proj r.1, r.2))
    (features : List (String × Column A)) (cfg : TrainConfig D) (k : Nat) : ∀ (n : Nat) (s : TrainState S' D A),
    trainLoop env loss features cfg k n (s.view proj) =
      trainLoop env loss' features cfg k n s >>= fun r => ok (r.1, r.2.view proj)
  | 0, s => rfl
  | n + 1, s => by
    rw [trainLoop, trainLoop]
    show (loss.compute (proj s.loss) s.f >>= _) = _
    rw [hc]
    cases h : loss'.compute s.loss s.f with
    | ub => rfl
    | fatal => rfl
    | ok r =>
      obtain ⟨ls, c, g⟩ := r
      simp only [ok_bind]
      by_cases hd : env.diverged c = true
      · simp only [hd, if_true, pure_eq, ok_bind]; rfl
      · simp only [if_neg hd]
        show (fitTree _ _ s.pos >>= _) = _
        cases fitTree (env.fit features g) cfg.fit s.pos with
        | ub => rfl
        | fatal => rfl
        | ok r =>
          obtain ⟨t, pos⟩ := r
          simp only [ok_bind]
          show (addTreeScores _ _ _ s.slices s.f >>= _) = _
          cases addTreeScores env.columns (applyShrinkage env.rnd32 cfg.shrinkage t) c s.slices s.f with
          | ub => rfl
          | fatal => rfl
          | ok r =>
            obtain ⟨sl, f⟩ := r
            simp only [ok_bind]
            exact trainLoop_view env loss loss' proj hc features cfg k n
              ⟨(s.forest ++ [applyShrinkage env.rnd32 cfg.shrinkage t]).modify k (addRootScore env.rnd32 c), sl, f, ls, pos⟩

theorem trainGBDT_view (env : TrainEnv D A) (loss : LossFunc S D) (loss' : LossFunc S' D) (proj : S' → S)
    (hi : ∀ n g, loss.init n g = loss'.init n g >>= fun r => ok (r.map proj))
    (hc : ∀ s f, loss.compute (proj s) f = loss'.compute s f >>= fun r => ok (proj r.1, r.2))
    (names : List String) (cfg : TrainConfig D) (base : Option (List (Tree D A))) (forest : List (Tree D A)) (p : Nat) :
    trainGBDT env loss names cfg base forest p = trainGBDT env loss' names cfg base forest p := by
  rw [trainGBDT, trainGBDT]
  split
  · rfl
  · cases loadFeatures env.columns names with
    | error => rfl
    | ok features =>
      simp only []
      cases groupOrDie env.columns cfg.groupColumn with
      | ub => rfl
      | fatal => rfl
      | ok group =>
        simp only [ok_bind]
        rw [hi]
        cases loss'.init env.numRows group with
        | ub => rfl
        | fatal => rfl
        | ok r =>
          cases r with
          | error => rfl
          | ok ls =>
            simp only [ok_bind, Except.map]
            cases scoreSlices env.numThreads env.numRows with
            | ub => rfl
            | fatal => rfl
            | ok slices =>
              simp only [ok_bind]
              cases initWithBase env (base.getD []) (forest ++ [.node 0 none .absent .absent]) slices (List.replicate env.numRows 0) with
              | ub => rfl
              | fatal => rfl
              | ok r =>
                obtain ⟨forest1, slices1, f1⟩ := r
                simp only [ok_bind]
                have := trainLoop_view env loss loss' proj hc features cfg forest.length cfg.numTrees.toNat ⟨forest1, slices1, f1, ls, p⟩
                simp only [TrainState.view] at this
                rw [this]
                cases trainLoop env loss' features cfg forest.length cfg.numTrees.toNat ⟨forest1, slices1, f1, ls, p⟩ with
                | ub => rfl
                | fatal => rfl
                | ok r => rfl

/-- The variables at the end of the loop, and the result. -/
theorem trainGBDT_state (env : TrainEnv D A) (loss : LossFunc S D) (names : List String) (cfg : TrainConfig D)
    (base : Option (List (Tree D A))) (forest : List (Tree D A)) (p : Nat) {r : TrainResult D A}
    (h : trainGBDT env loss names cfg base forest p = ok r) :
    trainState env loss names cfg base forest p = ok none ∧ r.forest = forest ∨
    ∃ stopped s, trainState env loss names cfg base forest p = ok (some (stopped, s)) ∧
      r = if stopped then ⟨.internal, s.forest, s.f, s.pos⟩ else ⟨.ok, s.forest.map clearInternal, s.f, s.pos⟩ := by
  rw [trainGBDT] at h
  rw [trainState]
  split
  · next hc => rw [if_pos hc] at h; cases h; exact Or.inl ⟨rfl, rfl⟩
  · next hc =>
    rw [if_neg hc] at h
    cases hl : loadFeatures env.columns names with
    | error => rw [hl] at h; cases h; exact Or.inl ⟨rfl, rfl⟩
    | ok features =>
      rw [hl] at h
      simp only [bind_eq_ok] at h
      obtain ⟨group, h1, init, h2, h3⟩ := h
      simp only [h1, ok_bind, h2]
      cases init with
      | error => simp only [pure_eq, Outcome.ok.injEq] at h3; subst h3; exact Or.inl ⟨rfl, rfl⟩
      | ok ls =>
        simp only [bind_eq_ok] at h3
        obtain ⟨slices, h4, ⟨forest1, slices1, f1⟩, h5, ⟨stopped, s⟩, h6, h7⟩ := h3
        refine Or.inr ⟨stopped, s, ?_, ?_⟩
        · simp only [h4, ok_bind, h5, h6, pure_eq]
        · cases stopped <;> simp only [if_true, if_false, Bool.false_eq_true, pure_eq, Outcome.ok.injEq] at h7 ⊢ <;> exact h7.symm

end sim

section exact
variable {K : Type} [Field K] [LinearOrder K] [IsStrictOrderedRing K]

/-- The weighted loss of row `k` if `c` is added to its value. -/
def rowLoss (e : PointLoss K) (f : List K) (c : K) (k : Nat) : K := e.w k * (e.lossFn (e.y k) (f.getD k 0 + c)).1

theorem sliceLoss_sum (e : PointLoss K) (f : List K) (c : K) : ∀ (left i : Nat) (t : K), i + left ≤ f.length →
    sliceLoss e f c left i t = ok (t + ((List.range' i left).map (rowLoss e f c)).sum)
  | 0, i, t, _ => by simp [sliceLoss]
  | left + 1, i, t, h => by
    have hi : i < f.length := by omega
    rw [sliceLoss, vecGet_eq_ok.mpr (List.getElem?_eq_getElem hi), ok_bind, sliceLoss_sum e f c left (i + 1) _ (by omega),
      List.range'_succ, List.map_cons, List.sum_cons, rowLoss, List.getD_eq_getElem?_getD, List.getElem?_eq_getElem hi,
      Option.getD_some, add_assoc]

theorem consecutive_le : ∀ {l : List (Nat × Nat)} {u v : Nat}, Consecutive u v l → u ≤ v
  | [], _, _, h => le_of_eq h
  | _ :: _, _, _, ⟨h0, h1, h2⟩ => by
    subst h0
    exact h1.trans (consecutive_le h2)

theorem passLoss_sum (e : PointLoss K) (f : List K) (c : K) : ∀ (slices : List (Nat × Nat)) (a b : Nat),
    Consecutive a b slices → b ≤ f.length → ∃ ls, slices.mapM (fun sl => sliceLoss e f c (sl.2 - sl.1) sl.1 0) = ok ls ∧
      ∀ t, ls.foldl (· + ·) t = t + ((List.range' a (b - a)).map (rowLoss e f c)).sum
  | [], a, b, h, _ => by
    rw [Consecutive] at h
    subst h
    exact ⟨[], rfl, fun t => by simp⟩
  | (x, y) :: slices, a, b, h, hb => by
    obtain ⟨rfl, hxy, hc⟩ := h
    have hyb := consecutive_le hc
    obtain ⟨ls, k1, k2⟩ := passLoss_sum e f c slices y b hc hb
    refine ⟨(0 + ((List.range' x (y - x)).map (rowLoss e f c)).sum) :: ls, ?_, fun t => ?_⟩
    · rw [List.mapM_cons]
      simp only [sliceLoss_sum e f c (y - x) x 0 (by omega), ok_bind, k1, pure_eq]
    · have hsplit : List.range' x (b - x) = List.range' x (y - x) ++ List.range' y (b - y) := by
        have h1 : b - x = (y - x) + (b - y) := by omega
        rw [h1, ← List.range'_append, one_mul]
        congr 2
        omega
      rw [List.foldl_cons, k2, hsplit, List.map_append, List.sum_append, zero_add, add_assoc]

/-- The loop with the loss of its last pass. -/
theorem lossLoop_spec (e : PointLoss K) (f : List K) (slices : List (Nat × Nat)) (hc : Consecutive 0 f.length slices) :
    ∀ (left : Nat) (c : K) (grads : List (GD K)), grads.length = f.length →
    ∃ k out, pointLoop e slices f (left + 1) c grads = ok ((fun x => x + newton e f x)^[k + 1] c, out) ∧
      lossLoop e slices f (left + 1) c grads =
        ok (((List.range f.length).map (rowLoss e f ((fun x => x + newton e f x)^[k] c))).sum) ∧
      out = (List.range f.length).map (rowGrad e f ((fun x => x + newton e f x)^[k] c)) ∧
      (k = 0 ∨ e.threshold < e.fabs (newton e f c))
  | left, c, grads, hl => by
    obtain ⟨g1, p1, _, p2, p3⟩ := pointSlices_spec e f c slices 0 f.length grads hc (le_refl _) hl
    obtain ⟨ls, q1, q2⟩ := passLoss_sum e f c slices 0 f.length hc (le_refl _)
    have hg1 : g1 = (List.range f.length).map (rowGrad e f c) := by
      apply List.ext_getElem?
      intro k
      rw [p3 k]
      by_cases hk : k < f.length
      · rw [if_pos (by omega)]
        simp [hk]
      · rw [if_neg (by omega), List.getElem?_eq_none (by omega), List.getElem?_eq_none (by simp; omega)]
    have hpass : passLoss e f c slices = ok (((List.range f.length).map (rowLoss e f c)).sum) := by
      rw [passLoss, q1, ok_bind, pure_eq, q2, zero_add, Nat.sub_zero, List.range_eq_range']
    have hstep : ∀ n, pointLoop e slices f (n + 1) c grads =
        if e.threshold < e.fabs (newton e f c) then pointLoop e slices f n (c + newton e f c) g1
        else ok (c + newton e f c, g1) := by
      intro n
      rw [pointLoop, p1, ok_bind]
      show (if Dbl.ltb e.threshold (e.fabs (sliceStep e f slices c)) = true then
        pointLoop e slices f n (c + sliceStep e f slices c) g1 else ok (c + sliceStep e f slices c, g1)) = _
      rw [sliceStep_newton e f hc, exact_ltb]
      simp only [decide_eq_true_eq]
    have hloss : ∀ n, lossLoop e slices f (n + 1) c grads =
        if e.threshold < e.fabs (newton e f c) ∧ n ≠ 0 then lossLoop e slices f n (c + newton e f c) g1
        else ok (((List.range f.length).map (rowLoss e f c)).sum) := by
      intro n
      rw [lossLoop, p1, ok_bind]
      simp only [hpass, ok_bind]
      show (if (Dbl.ltb e.threshold (e.fabs (sliceStep e f slices c)) && n != 0) = true then
        lossLoop e slices f n (c + sliceStep e f slices c) g1 else _) = _
      rw [sliceStep_newton e f hc, exact_ltb]
      simp only [Bool.and_eq_true, decide_eq_true_eq, bne_iff_ne]
    rw [hstep left, hloss left]
    by_cases hlt : e.threshold < e.fabs (newton e f c)
    · rw [if_pos hlt]
      cases left with
      | zero => exact ⟨0, g1, rfl, if_neg (fun h => h.2 rfl), hg1, Or.inl rfl⟩
      | succ left =>
        rw [if_pos ⟨hlt, by omega⟩]
        obtain ⟨k, out, k1, k2, k3, _⟩ := lossLoop_spec e f slices hc left (c + newton e f c) g1 p2
        exact ⟨k + 1, out, k1, k2, k3, Or.inr hlt⟩
    · rw [if_neg hlt, if_neg (fun h => hlt h.1)]
      exact ⟨0, g1, rfl, rfl, hg1, Or.inl rfl⟩

theorem reportCompute_spec {e : PointLoss K} {hundred : K} {s s' : PointProgress K} {f : List K} {c : K} {grads : List (GD K)}
    (hc : Consecutive 0 f.length s.slices) (h : reportCompute e hundred s f = ok (s', c, grads)) :
    ∃ k, c = (fun x => x + newton e f x)^[k + 1] 0 ∧
      grads = (List.range f.length).map (rowGrad e f ((fun x => x + newton e f x)^[k] 0)) ∧
      (k = 0 ∨ e.threshold < e.fabs (newton e f 0)) ∧ s'.slices = s.slices ∧ s'.weightSum = s.weightSum ∧
      s'.initialLoss = (if s.initialLoss < 0 then
          ((List.range f.length).map (rowLoss e f ((fun x => x + newton e f x)^[k] 0))).sum / s.weightSum else s.initialLoss) ∧
      s'.messages = s.messages ++
        [⟨((List.range f.length).map (rowLoss e f ((fun x => x + newton e f x)^[k] 0))).sum / s.weightSum,
          (if s'.initialLoss = 0 then 0 else (s'.initialLoss -
            ((List.range f.length).map (rowLoss e f ((fun x => x + newton e f x)^[k] 0))).sum / s.weightSum) / s'.initialLoss) *
            hundred⟩] := by
  obtain ⟨k, out, k1, k2, k3, k4⟩ := lossLoop_spec e f s.slices hc 9 0 (List.replicate f.length ⟨0, 0⟩) (by simp)
  rw [reportCompute, pointCompute, k1, ok_bind] at h
  simp only [pure_eq, ok_bind, k2, Outcome.ok.injEq, Prod.mk.injEq, prepareProgress, exact_ltb, exact_eqb, decide_eq_true_eq] at h
  obtain ⟨rfl, rfl, rfl⟩ := h
  exact ⟨k, rfl, k3, k4, rfl, rfl, rfl, rfl⟩

end exact

end Gbdt
