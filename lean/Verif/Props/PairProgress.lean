import Verif.Lemmas.PairProgress
import Verif.Props.Progress
import Verif.Props.PairCounts

/-!
# C171-C172: the losses that training with a pairwise loss reports in the log

Specification: `meanDrawLoss`, the weighted mean of the loss over the drawn pairs; `PairLogged`, what a list of messages says about the rounds of a run.
-/

set_option autoImplicit false
set_option linter.unusedSectionVars false

namespace Gbdt
open Outcome

section same
variable {D A : Type} [Dbl D] [LinearOrder A] [ThrOps A]

/-- **C171.** Reporting the loss changes nothing else: the result of training with a pairwise loss is the same as without it (which is how training is
modelled elsewhere). -/
theorem C171_same (env : TrainEnv D A) (e : PairLoss D) (hundred minusOne : D) (names : List String) (cfg : TrainConfig D)
    (base : Option (List (Tree D A))) (forest : List (Tree D A)) (p : Nat) :
    trainGBDT env (e.reporting hundred minusOne) names cfg base forest p = trainGBDT env e.toLoss names cfg base forest p := by
  refine (trainGBDT_view env e.toLoss (e.reporting hundred minusOne) PairProgress.inner (fun n g => ?_)
    (fun s f => pairReportCompute_map e hundred s f) names cfg base forest p).symm
  show pairInit e n g = (pairReportInit e minusOne n g >>= _)
  rw [pairReportInit]
  cases pairInit e n g with
  | ub => rfl
  | fatal => rfl
  | ok r => cases r <;> rfl

end same

section exact
variable {K : Type} [Field K] [LinearOrder K] [IsStrictOrderedRing K] {A : Type} [LinearOrder A] [ThrOps A]

/-- The weighted mean, over drawn pairs, of the loss of the difference of the values `f` of the two rows. -/
def meanDrawLoss (e : PairLoss K) (f : List K) (ds : List (Draw K)) : K :=
  (ds.map (fun d => d.weight * (e.lossFn (e.rnd32 (e.y d.pos - e.y d.neg)) (f.getD d.pos 0 - f.getD d.neg 0)).1)).sum / (ds.map (·.weight)).sum

/-- The gradients that the drawn pairs make up (see `C75_gradients`). -/
def GradsOf (e : PairLoss K) (ds : List (Draw K)) (grads : List (GD K)) : Prop :=
  ∀ r, gOf grads r = (ds.map (pull r)).sum ∧ hOf grads r = (ds.map (push (e.ofNat 2) r)).sum

/-- What the message of a round says: the loss is the mean over the very pairs that were drawn in this round, whose gradients the tree is fitted to, at the
values `f` that the trees and constants so far lead to. -/
def PairLoggedRound (env : TrainEnv K A) (e : PairLoss K) (col : Option StrCol) (features : List (String × Column A)) (cfg : TrainConfig K)
    (before : List (Tree K A × K)) (round : Tree K A × K) (m : Message K) : Prop :=
  ∃ s f draws grads t p p', PairReach e env.numRows col s ∧ ValuesOf env before f ∧ RoundDraws e s f draws ∧ GradsOf e draws.flatten grads ∧
    fitTree (env.fit features grads) cfg.fit p = ok (t, p') ∧ round = (applyShrinkage env.rnd32 cfg.shrinkage t, 0) ∧
    m.loss = meanDrawLoss e f draws.flatten

/-- One message per round. -/
def PairLogged (env : TrainEnv K A) (e : PairLoss K) (col : Option StrCol) (features : List (String × Column A)) (cfg : TrainConfig K) :
    List (Tree K A × K) → List (Tree K A × K) → List (Message K) → Prop
  | _, [], [] => True
  | before, round :: rounds, m :: ms => PairLoggedRound env e col features cfg before round m ∧
    PairLogged env e col features cfg (before ++ [round]) rounds ms
  | _, _, _ => False

/-- A message, and what is kept. -/
theorem pairReportCompute_spec {e : PairLoss K} (hsort : DescSortSpec e.sort) {numRows : Nat} {col : Option StrCol} {hundred : K}
    {s s' : PairProgress K} {f : List K} {c : K} {grads : List (GD K)} (hr : PairReach e numRows col s.inner)
    (h : pairReportCompute e hundred s f = ok (s', c, grads)) :
    pairCompute e s.inner f = ok (s'.inner, c, grads) ∧ c = 0 ∧ ∃ draws, RoundDraws e s.inner f draws ∧ GradsOf e draws.flatten grads ∧
      s'.initialLoss = (if s.initialLoss < 0 then meanDrawLoss e f draws.flatten else s.initialLoss) ∧
      s'.messages = s.messages ++ [⟨meanDrawLoss e f draws.flatten, (if s'.initialLoss = 0 then 0 else
        (s'.initialLoss - meanDrawLoss e f draws.flatten) / s'.initialLoss) * hundred⟩] := by
  have hp := pairReportCompute_map e hundred s f
  rw [h, ok_bind] at hp
  obtain ⟨c0, _, draws, d1, d2, d3⟩ := C75_gradients hsort hr hp
  have hinv := hr.inv hsort
  rw [pairReportCompute, bind_eq_ok] at h
  obtain ⟨⟨s1, c1, g1⟩, h1, h2⟩ := h
  simp only [bind_eq_ok] at h2
  obtain ⟨totals, h3, h4⟩ := h2
  simp only [prepareProgress, pure_eq, Outcome.ok.injEq, Prod.mk.injEq] at h4
  obtain ⟨rfl, rfl, rfl⟩ := h4
  have hd : List.Forall₂ (DrawsOf e s.inner f) (s.inner.slices.flatMap (fun sl => List.range' sl.1 (sl.2 - sl.1))) draws := by
    rw [hinv.order, List.forall₂_iff_get]
    refine ⟨by simp [d1], fun i hi hi' => ?_⟩
    simp only [List.get_eq_getElem, List.getElem_range]
    exact d2 i _ (List.getElem?_eq_getElem hi')
  obtain ⟨v1, v2⟩ := pairLossSlices_value hsort hinv.kept.groups s.inner.slices (by rw [hinv.order]; exact List.nodup_range) rfl
    (fun _ _ => rfl) hd h3
  have hl : pairLossOf totals = meanDrawLoss e f draws.flatten := by
    rw [pairLossOf, ← List.sum_eq_foldl, ← List.sum_eq_foldl, v1, v2]
    rfl
  rw [hl]
  refine ⟨hp, c0, draws, ⟨d1, d2⟩, d3, ?_, ?_⟩
  · simp only [exact_ltb, decide_eq_true_eq]
  · simp only [exact_ltb, exact_eqb, decide_eq_true_eq]

theorem pairReportInit_ok {e : PairLoss K} {minusOne : K} {n : Nat} {col : Option StrCol} {s : PairProgress K}
    (h : pairReportInit e minusOne n col = ok (.ok s)) : pairInit e n col = ok (.ok s.inner) ∧ s.initialLoss = minusOne ∧ s.messages = [] := by
  rw [pairReportInit, bind_eq_ok] at h
  obtain ⟨r, h1, h2⟩ := h
  cases r with
  | error => simp [pure_eq, Except.map] at h2
  | ok sl =>
    simp only [pure_eq, Except.map, Outcome.ok.injEq, Except.ok.injEq] at h2
    subst h2
    exact ⟨h1, rfl, rfl⟩

theorem pairReportReach {e : PairLoss K} {hundred minusOne : K} {n : Nat} {G : Option StrCol → Prop} {s : PairProgress K}
    (h : LossReach n G (e.reporting hundred minusOne) s) : LossReach n G e.toLoss s.inner := by
  induction h with
  | init hg h => exact .init hg (pairReportInit_ok h).1
  | @step s s' f c grads _ hf h ih =>
    have hp := pairReportCompute_map e hundred s f
    change pairReportCompute e hundred s f = _ at h
    rw [h, ok_bind] at hp
    exact .step ih hf hp

theorem pairReportData {env : TrainEnv K A} {base : List (Tree K A)} {e : PairLoss K} (hd : TrainData env e.toLoss base) (hundred minusOne : K) :
    TrainData env (e.reporting hundred minusOne) base where
  rows := hd.rows
  threads := hd.threads
  scorable := hd.scorable
  features := hd.features
  status := by
    intro n g code h
    apply hd.status n g code
    change pairReportInit e minusOne n g = _ at h
    rw [pairReportInit, bind_eq_ok] at h
    obtain ⟨r, h1, h2⟩ := h
    show pairInit e n g = _
    rw [h1]
    cases r with
    | error => simpa [pure_eq, Except.map] using h2
    | ok => simp [pure_eq, Except.map] at h2
  grads := by
    intro s f s' c g hr h hf
    have hp := pairReportCompute_map e hundred s f
    change pairReportCompute e hundred s f = _ at h
    rw [h, ok_bind] at hp
    exact hd.grads _ _ _ _ _ (pairReportReach hr) hp hf

/-- Messages of rounds. -/
theorem boosts_pairLogged {env : TrainEnv K A} {e : PairLoss K} (hsort : DescSortSpec e.sort) {col : Option StrCol} {features : List (String × Column A)}
    {cfg : TrainConfig K} {minusOne : K} {s s' : PairProgress K} {p q : Nat} {before rounds : List (Tree K A × K)}
    (h : Boosts env (e.reporting 100 minusOne) features cfg s p before rounds s' q) : PairReach e env.numRows col s.inner →
    Boosts env e.toLoss features cfg s.inner p before rounds s'.inner q ∧
    ∃ ms, s'.messages = s.messages ++ ms ∧ PairLogged env e col features cfg before rounds ms ∧
      (0 ≤ s.initialLoss → ∀ m ∈ ms, m.reduced = reduction s.initialLoss m.loss) ∧
      (s.initialLoss < 0 → ∀ m0 ∈ ms.head?, 0 ≤ m0.loss → ∀ m ∈ ms, m.reduced = reduction m0.loss m.loss) := by
  induction h with
  | done s p before => exact fun _ => ⟨.done _ _ _, [], by simp, trivial, by simp, by simp⟩
  | @round s s1 s2 p p1 p2 before after f c grads t h1 h2 h3 h4 h5 ih =>
    intro hr
    obtain ⟨k1, rfl, draws, k3, k4, k6, k7⟩ := pairReportCompute_spec hsort hr h2
    obtain ⟨i1, ms, i2, i3, i4, i5⟩ := ih (.compute hr k1)
    generalize hL : meanDrawLoss e f draws.flatten = L at k6 k7
    refine ⟨.round h1 k1 h3 h4 i1, ⟨L, (if s1.initialLoss = 0 then 0 else (s1.initialLoss - L) / s1.initialLoss) * 100⟩ :: ms,
      by rw [i2, k7, List.append_assoc]; rfl, ⟨⟨s.inner, f, draws, grads, t, p, p1, hr, h1, k3, k4, h4, rfl, hL.symm⟩, i3⟩, ?_, ?_⟩
    · intro h0 m hm
      rw [if_neg (not_lt.mpr h0)] at k6
      rw [k6] at i4 hm
      rcases List.mem_cons.mp hm with rfl | hm
      · simp only [reduction]; split <;> simp
      · exact i4 h0 m hm
    · intro h0 m0 hm0 hnn m hm
      rw [List.head?_cons, Option.mem_some] at hm0
      subst hm0
      rw [if_pos h0] at k6
      rw [k6] at i4 hm
      rcases List.mem_cons.mp hm with rfl | hm
      · simp only [reduction]; split <;> simp
      · exact i4 hnn m hm

theorem PairLogged.length {env : TrainEnv K A} {e : PairLoss K} {col : Option StrCol} {features : List (String × Column A)} {cfg : TrainConfig K} :
    ∀ {before rounds : List (Tree K A × K)} {ms : List (Message K)}, PairLogged env e col features cfg before rounds ms → ms.length = rounds.length
  | _, [], [], _ => rfl
  | _, _ :: _, _ :: _, h => by simp [PairLogged.length h.2]

/-- **C171.** The messages of a successful run with a pairwise loss: there are `num_trees` rounds of boosting that make up the run (C73), and for each of
them a message with the weighted mean loss, at the values before it, of the pairs drawn in that round, to whose gradients its tree is fitted.  If the first
loss is not negative, the other number of each message is the reduction in percent of that loss. -/
theorem C171_messages [FloorSemiring K] {env : TrainEnv K A} {names : List String} {cfg : TrainConfig K} {base : Option (List (Tree K A))}
    (hs : TrainStore env names cfg (base.getD [])) {e : PairLoss K} (hsort : DescSortSpec e.sort) {p : Nat} {r : TrainResult K A}
    (h : trainGBDT env e.toLoss names cfg base [] p = ok r) (hok : r.code = .ok) :
    ∃ msgs features group start rounds finish, pairTrainMessages env e 100 (-1) names cfg base p = ok msgs ∧
      loadFeatures env.columns names = .ok features ∧ groupOrDie env.columns cfg.groupColumn = ok group ∧
      pairInit e env.numRows group = ok (.ok start) ∧
      Boosts env e.toLoss features cfg start p ((base.getD []).map (fun t => (t, 0))) rounds finish r.pos ∧
      (rounds.length : Int) = cfg.numTrees ∧ (msgs.length : Int) = cfg.numTrees ∧
      r.forest = .node (constantOf env.rnd32
          (((base.getD []).filter isSingleNode).map rootScore ++ rounds.map Prod.snd)) none .absent .absent ::
        ((base.getD []).filter (fun t => !isSingleNode t) ++ rounds.map Prod.fst).map clearInternal ∧
      PairLogged env e group features cfg ((base.getD []).map (fun t => (t, 0))) rounds msgs ∧
      ∀ m0 ∈ msgs.head?, 0 ≤ m0.loss → ∀ m ∈ msgs, m.reduced = reduction m0.loss m.loss := by
  have hdp := pairTrainData hs hsort
  have hd := pairReportData hdp (100 : K) (-1)
  have h' := h
  rw [← C171_same env e 100 (-1)] at h
  rcases trainGBDT_state _ _ _ _ _ _ _ h with ⟨h1, h2⟩ | ⟨stopped, s, h1, h2⟩
  · obtain ⟨_, _, _, _, _, _, _, _, _, _, _, k⟩ := C73_rounds hdp h' hok
    rw [h2] at k
    cases k
  · obtain ⟨features, group, start, rounds, finish, b1, b2, b3, b4, b5, b6, b7⟩ := trainState_boosts hd h1
    obtain ⟨i1, i3, i4⟩ := pairReportInit_ok b3
    obtain ⟨m0, ms, m1, m2, _, m4⟩ := boosts_pairLogged hsort b4 (PairReach.init i1)
    rw [i4, List.nil_append] at m1
    cases stopped with
    | true => subst h2; cases hok
    | false =>
      simp only [Bool.false_eq_true, if_false] at b7 h2
      subst h2
      refine ⟨ms, features, group, start.inner, rounds, finish.inner, by rw [pairTrainMessages, h1, ok_bind]; simp only [b7.2, m1]; rfl, b1, b2, i1, m0,
        b7.1, by rw [m2.length]; exact b7.1, ?_, m2, m4 (by rw [i3]; norm_num)⟩
      rw [b6]
      rfl

/-- The weights of drawn pairs are not negative if those of the rows are not. -/
theorem RoundDraws.weight_nonneg {e : PairLoss K} (hw : ∀ r, 0 ≤ e.w r) (hof : ∀ n, 0 ≤ e.ofNat n) (hrnd : ∀ x, 0 ≤ x → 0 ≤ e.rnd32 x)
    (habs : ∀ x, 0 ≤ e.fabs x) {s : PairState K} {f : List K} {draws : List (List (Draw K))} (h : RoundDraws e s f draws) :
    ∀ d ∈ draws.flatten, 0 ≤ d.weight := by
  intro d hdm
  obtain ⟨ds, hds, hdd⟩ := List.mem_flatten.mp hdm
  obtain ⟨index, hi⟩ := List.getElem?_of_mem hds
  obtain ⟨g0, g, _, _, _, h4⟩ := h.each index ds hi
  obtain ⟨i, hii⟩ := List.getElem?_of_mem hdd
  obtain ⟨_, hlt, ⟨fp, fn, l, _, _, hl⟩, a, b, ra, rb, _, _, _, _, hwt⟩ := h4 i d hii
  have hlt' : e.y d.neg < e.y d.pos := by simpa using hlt
  have hwo : 0 ≤ weightOf e d.pos d.neg ra rb := by
    unfold weightOf
    have h0 : 0 ≤ e.rnd32 (e.y d.pos - e.y d.neg) := hrnd _ (sub_nonneg.mpr hlt'.le)
    split
    · exact mul_nonneg h0 (habs _)
    · split
      · exact h0
      · exact hof 1
  have hfac : 0 ≤ (if e.equalWeight then e.ofNat s.minNumPairs / e.ofNat g0.numPairs else e.ofNat 1) := by
    split
    · exact div_nonneg (hof _) (hof _)
    · exact hof 1
  rw [hwt]
  exact mul_nonneg (mul_nonneg (hrnd _ (mul_nonneg (hw _) (hw _))) hwo) hfac

/-- **C172 (partial).** The reported loss lies between the least and the largest loss of a pair of rows of one group with different targets, if weights are
not negative and those of the drawn pairs do not sum to 0.  Missing: that it is the same for the same values, see `C172_refuted`. -/
theorem C172_bounds_partial {e : PairLoss K} (hsort : DescSortSpec e.sort) (hw : ∀ r, 0 ≤ e.w r) (hof : ∀ n, 0 ≤ e.ofNat n)
    (hrnd : ∀ x, 0 ≤ x → 0 ≤ e.rnd32 x) (habs : ∀ x, 0 ≤ e.fabs x) {numRows : Nat} {col : Option StrCol} {s s' : PairProgress K} {f : List K}
    {c : K} {grads : List (GD K)} (hr : PairReach e numRows col s.inner) (h : pairReportCompute e 100 s f = ok (s', c, grads))
    {groups : List (List Nat)} (hg : rowGroups numRows col = ok groups) {lo hi : K}
    (hb : ∀ rows ∈ groups, ∀ i ∈ rows, ∀ j ∈ rows, e.y j < e.y i →
      lo ≤ (e.lossFn (e.rnd32 (e.y i - e.y j)) (f.getD i 0 - f.getD j 0)).1 ∧ (e.lossFn (e.rnd32 (e.y i - e.y j)) (f.getD i 0 - f.getD j 0)).1 ≤ hi) :
    ∃ draws msg, RoundDraws e s.inner f draws ∧ s'.messages = s.messages ++ [msg] ∧
      ((draws.flatten.map (·.weight)).sum ≠ 0 → lo ≤ msg.loss ∧ msg.loss ≤ hi) := by
  obtain ⟨_, _, draws, d1, _, _, d4⟩ := pairReportCompute_spec hsort hr h
  refine ⟨draws, _, d1, d4, fun hne => ?_⟩
  have hinv := hr.inv hsort
  have hnn := d1.weight_nonneg hw hof hrnd habs
  have hpos : 0 < (draws.flatten.map (·.weight)).sum :=
    lt_of_le_of_ne (List.sum_nonneg (by intro x hx; obtain ⟨d, hd, rfl⟩ := List.mem_map.mp hx; exact hnn d hd)) (Ne.symm hne)
  have hin : ∀ d ∈ draws.flatten, lo ≤ (e.lossFn (e.rnd32 (e.y d.pos - e.y d.neg)) (f.getD d.pos 0 - f.getD d.neg 0)).1 ∧
      (e.lossFn (e.rnd32 (e.y d.pos - e.y d.neg)) (f.getD d.pos 0 - f.getD d.neg 0)).1 ≤ hi := by
    intro d hd
    obtain ⟨ds, hds, hdd⟩ := List.mem_flatten.mp hd
    obtain ⟨index, hi⟩ := List.getElem?_of_mem hds
    obtain ⟨g0, hg0, hrows⟩ := (d1.each index ds hi).rows hsort hinv.kept
    obtain ⟨m1, m2, m3⟩ := hrows d hdd
    obtain ⟨hlt, hgg⟩ := List.getElem?_eq_some_iff.mp hg0
    have hperm := List.forall₂_iff_get.mp (hinv.rows hsort hg)
    have hp := hperm.2 index (by omega) hlt
    simp only [List.get_eq_getElem] at hp
    rw [hgg] at hp
    exact hb _ (List.getElem_mem _) _ (hp.mem_iff.mp m1) _ (hp.mem_iff.mp m2) m3
  have key : ∀ l : List (Draw K), (∀ d ∈ l, d ∈ draws.flatten) →
      lo * (l.map (·.weight)).sum ≤ (l.map (fun d => d.weight * (e.lossFn (e.rnd32 (e.y d.pos - e.y d.neg)) (f.getD d.pos 0 - f.getD d.neg 0)).1)).sum ∧
      (l.map (fun d => d.weight * (e.lossFn (e.rnd32 (e.y d.pos - e.y d.neg)) (f.getD d.pos 0 - f.getD d.neg 0)).1)).sum ≤ hi * (l.map (·.weight)).sum := by
    intro l
    induction l with
    | nil => simp
    | cons d l ih =>
      intro hl
      obtain ⟨i1, i2⟩ := ih (fun x hx => hl x (by simp [hx]))
      have hd := hl d (by simp)
      have h1 := mul_le_mul_of_nonneg_left (hin d hd).1 (hnn d hd)
      have h2 := mul_le_mul_of_nonneg_left (hin d hd).2 (hnn d hd)
      simp only [List.map_cons, List.sum_cons]
      constructor <;> nlinarith
  obtain ⟨k1, k2⟩ := key _ (fun _ h => h)
  simp only [meanDrawLoss]
  exact ⟨(le_div_iff₀ hpos).mpr k1, (div_le_iff₀ hpos).mpr k2⟩

end exact

/-- **C172 (in full).** The reported loss depends on the predictions: computing gradients at the same values, in any two states of the same loss, reports the
same loss. -/
def C172_full : Prop :=
  ∀ (e : PairLoss ℚ) (numRows : Nat) (col : Option StrCol) (s1 s2 s1' s2' : PairProgress ℚ) (f : List ℚ) (c1 c2 : ℚ) (g1 g2 : List (GD ℚ)),
    ExactPair e → PairReach e numRows col s1.inner → PairReach e numRows col s2.inner → pairReportCompute e 100 s1 f = ok (s1', c1, g1) →
    pairReportCompute e 100 s2 f = ok (s2', c2, g2) → s1'.messages.getLast?.map Message.loss = s2'.messages.getLast?.map Message.loss

/-- Three rows of which one pair is drawn per round. -/
def onePair : PairLoss ℚ := fewLoss (2 / 3) (fun i => [1, 2, 3].getD i 0)

/-- The states of two rounds at the same values, if they are reached. -/
def twoRounds : Option (PairProgress ℚ × PairProgress ℚ × PairProgress ℚ) :=
  match pairReportInit onePair (-1) 3 none with
  | .ok (.ok s) => match pairReportCompute onePair 100 s [0, 1 / 2, 3 / 4] with
    | .ok (s1, _) => match pairReportCompute onePair 100 s1 [0, 1 / 2, 3 / 4] with
      | .ok (s2, _) => some (s, s1, s2)
      | _ => none
    | _ => none
  | _ => none

theorem twoRounds_messages : (match twoRounds with
    | some (_, s1, s2) => decide (s1.messages = [⟨1 / 32, 0⟩] ∧ s2.messages = [⟨1 / 32, 0⟩, ⟨9 / 32, -800⟩])
    | none => false) = true := by decide +kernel

theorem twoRounds_states {s s1 s2 : PairProgress ℚ} (h : twoRounds = some (s, s1, s2)) :
    ∃ c1 g1 c2 g2, pairReportInit onePair (-1) 3 none = ok (.ok s) ∧ pairReportCompute onePair 100 s [0, 1 / 2, 3 / 4] = ok (s1, c1, g1) ∧
      pairReportCompute onePair 100 s1 [0, 1 / 2, 3 / 4] = ok (s2, c2, g2) := by
  unfold twoRounds at h
  split at h
  · next s0 h0 =>
    split at h
    · next s1' r1 h1 =>
      split at h
      · next s2' r2 h2 =>
        rw [Option.some.injEq, Prod.mk.injEq, Prod.mk.injEq] at h
        obtain ⟨rfl, rfl, rfl⟩ := h
        exact ⟨r1.1, r1.2, r2.1, r2.2, h0, h1, h2⟩
      · cases h
    · cases h
  · cases h

/-- **C172 (refuted).** The loss is that of the pairs drawn in the round: two rounds at the very same values report 1/32 and 9/32, which the log calls a
reduction by -800 %. -/
theorem C172_refuted : ¬ C172_full := by
  intro h
  have hm := twoRounds_messages
  cases ht : twoRounds with
  | none => rw [ht] at hm; cases hm
  | some x =>
    obtain ⟨s, s1, s2⟩ := x
    rw [ht] at hm
    simp only [decide_eq_true_eq] at hm
    obtain ⟨c1, g1, c2, g2, h0, h1, h2⟩ := twoRounds_states ht
    have r0 : PairReach onePair 3 none s.inner := .init (pairReportInit_ok h0).1
    have he : ExactPair onePair := fewLoss_exact (by norm_num) _
    have r1 : PairReach onePair 3 none s1.inner := .compute r0 (pairReportCompute_spec he.sort r0 h1).1
    have := h onePair 3 none s s1 s1 s2 _ c1 c2 g1 g2 he r0 r1 h1 h2
    rw [hm.1, hm.2] at this
    simp at this
    norm_num at this

/-- The messages of a run with the pairwise loss of the examples; `C171_messages` applies to it. -/
def pairMessages : Option (List (Message ℚ)) :=
  match trainGBDT trainEnv ratPairLoss.toLoss ["color", "size"] trainCfg none [] 0,
    pairTrainMessages trainEnv ratPairLoss 100 (-1) ["color", "size"] trainCfg none 0 with
  | .ok r, .ok msgs => if r.code = .ok then some msgs else none
  | _, _ => none

/-- Two trees are trained, and the loss is reported to go from 1/2 to about 0.16, by 68 %. -/
example : (match pairMessages with
    | some [a, b] => decide (a = ⟨1 / 2, 0⟩ ∧ 3 / 20 < b.loss ∧ b.loss < 4 / 25 ∧ 68 < b.reduced ∧ b.reduced < 69)
    | _ => false) = true := by decide +kernel

example : TrainStore trainEnv ["color", "size"] trainCfg ((none : Option (List (Tree ℚ ℚ))).getD []) ∧ DescSortSpec ratPairLoss.sort :=
  ⟨{ trainStore with
      scorable := fun _ h => absurd h List.not_mem_nil
      baseFeatures := fun _ h => absurd h List.not_mem_nil }, ratDescSort_spec⟩

/-- The hypotheses of `C172_bounds_partial` hold for the two rounds above; both bounds are reached there. -/
example : (∀ r, 0 ≤ onePair.w r) ∧ (∀ n, 0 ≤ onePair.ofNat n) ∧ (∀ x, 0 ≤ x → 0 ≤ onePair.rnd32 x) ∧ (∀ x, 0 ≤ onePair.fabs x) ∧
    rowGroups 3 none = ok [[0, 1, 2]] ∧ ∀ rows ∈ [[0, 1, 2]], ∀ i ∈ rows, ∀ j ∈ rows, onePair.y j < onePair.y i →
      1 / 32 ≤ (onePair.lossFn (onePair.rnd32 (onePair.y i - onePair.y j)) (([0, 1 / 2, 3 / 4] : List ℚ).getD i 0 - ([0, 1 / 2, 3 / 4] : List ℚ).getD j 0)).1 ∧
      (onePair.lossFn (onePair.rnd32 (onePair.y i - onePair.y j)) (([0, 1 / 2, 3 / 4] : List ℚ).getD i 0 - ([0, 1 / 2, 3 / 4] : List ℚ).getD j 0)).1 ≤ 9 / 32 := by
  refine ⟨fun _ => by norm_num [onePair, fewLoss], fun n => Nat.cast_nonneg n, fun x h => h, fun x => ?_, groups_of (by decide +kernel), by decide +kernel⟩
  show 0 ≤ if x < 0 then -x else x
  split
  · next h => linarith
  · next h => exact not_lt.mp h

end Gbdt
