import Verif.Lemmas.Progress

/-!
# C168-C170: the losses that training reports in the log

Specification: `meanLoss`, the weighted mean of the loss; `Logged`, what a list of messages says about the rounds of a run; `reduction`.
-/

set_option autoImplicit false
set_option linter.unusedSectionVars false

namespace Gbdt
open Outcome

section same
variable {D A : Type} [Dbl D] [LinearOrder A] [ThrOps A]

/-- **C168.** Reporting the loss changes nothing else: the result of training is the same as without it (which is how training is modelled elsewhere). -/
theorem C168_same (env : TrainEnv D A) (e : PointLoss D) (hundred : D) (names : List String) (cfg : TrainConfig D)
    (base : Option (List (Tree D A))) (forest : List (Tree D A)) (p : Nat) :
    trainGBDT env (e.reporting hundred) names cfg base forest p = trainGBDT env e.toLoss names cfg base forest p := by
  refine (trainGBDT_view env e.toLoss (e.reporting hundred) PointProgress.slices (fun n g => ?_)
    (fun s f => reportCompute_map e hundred s f) names cfg base forest p).symm
  show pointInit e n g = (reportInit e n g >>= _)
  rw [reportInit]
  cases pointInit e n g with
  | ub => rfl
  | fatal => rfl
  | ok r => cases r <;> rfl

end same

section data
variable {S D A : Type} [Dbl D] [FpOrder D] [LinearOrder A] [ThrOps A]

theorem reportInit_ok {e : PointLoss D} {n : Nat} {col : Option StrCol} {s : PointProgress D} (h : reportInit e n col = ok (.ok s)) :
    pointInit e n none = ok (.ok s.slices) ∧ s.weightSum = (List.range n).foldl (fun sum i => sum + e.w i) 0 ∧
      s.initialLoss = e.minusOne ∧ s.messages = [] := by
  rw [reportInit, bind_eq_ok] at h
  obtain ⟨r, h1, h2⟩ := h
  cases r with
  | error => simp [pure_eq] at h2
  | ok sl =>
    simp only [pure_eq, Outcome.ok.injEq, Except.ok.injEq] at h2
    subst h2
    exact ⟨h1, rfl, rfl, rfl⟩

theorem reportCompute_point {e : PointLoss D} {hundred : D} {s s' : PointProgress D} {f : List D} {c : D} {g : List (GD D)}
    (h : reportCompute e hundred s f = ok (s', c, g)) : pointCompute e s.slices f = ok (s'.slices, c, g) ∧ s'.slices = s.slices := by
  have h1 := reportCompute_map e hundred s f
  rw [h, ok_bind] at h1
  refine ⟨h1, ?_⟩
  rw [pointCompute, bind_eq_ok] at h1
  obtain ⟨⟨_, _⟩, _, h2⟩ := h1
  simp only [pure_eq, Outcome.ok.injEq, Prod.mk.injEq] at h2
  exact h2.1.symm

theorem reportReach {e : PointLoss D} {hundred : D} {n : Nat} {G : Option StrCol → Prop} {s : PointProgress D}
    (h : LossReach n G (e.reporting hundred) s) : pointInit e n none = ok (.ok s.slices) := by
  induction h with
  | init _ h => exact (reportInit_ok h).1
  | step _ _ h ih => rw [(reportCompute_point h).2]; exact ih

theorem reportTrainData {env : TrainEnv D A} {names : List String} {cfg : TrainConfig D} {base : List (Tree D A)}
    (hs : TrainStore env names cfg base) {e : PointLoss D} (he : 0 < e.numThreads) (hundred : D) :
    TrainData env (e.reporting hundred) base where
  rows := fun _ _ h => (hs.rows _ _ h).hasRows
  threads := hs.threads
  scorable := hs.scorable
  features := hs.baseFeatures
  status := by
    intro n g code h
    have hp := (pointTrainData hs he).status n g code
    apply hp
    change reportInit e n g = _ at h
    rw [reportInit, bind_eq_ok] at h
    obtain ⟨r, h1, h2⟩ := h
    show pointInit e n g = _
    rw [h1]
    cases r with
    | error => simpa [pure_eq] using h2
    | ok => simp [pure_eq] at h2
  grads := by
    intro s f s' c g hr h hf
    obtain ⟨r, hr1, hr2⟩ := C76_pointwise_defined e he env.numRows none
    rw [reportReach hr, Outcome.ok.injEq] at hr1
    obtain ⟨c', g', k1, k2⟩ := hr2 s.slices hr1.symm f hf
    rw [(reportCompute_point h).1, Outcome.ok.injEq, Prod.mk.injEq, Prod.mk.injEq] at k1
    rw [k1.2.2]
    exact k2

/-- The rounds behind the state at the end. -/
theorem trainState_boosts {env : TrainEnv D A} {loss : LossFunc S D} {names : List String} {cfg : TrainConfig D}
    {base : Option (List (Tree D A))} {p : Nat} {stopped : Bool} {s : TrainState S D A} (hd : TrainData env loss (base.getD []))
    (h : trainState env loss names cfg base [] p = ok (some (stopped, s))) :
    ∃ features group start rounds finish, loadFeatures env.columns names = .ok features ∧
      groupOrDie env.columns cfg.groupColumn = ok group ∧ loss.init env.numRows group = ok (.ok start) ∧
      Boosts env loss features cfg start p ((base.getD []).map (fun t => (t, 0))) rounds finish s.pos ∧
      ValuesOf env ((base.getD []).map (fun t => (t, 0)) ++ rounds) s.f ∧
      s.forest = .node (constantOf env.rnd32
          (((base.getD []).filter isSingleNode).map rootScore ++ rounds.map Prod.snd)) none .absent .absent ::
        ((base.getD []).filter (fun t => !isSingleNode t) ++ rounds.map Prod.fst) ∧
      if stopped then ∃ ls' c g, loss.compute finish s.f = ok (ls', c, g) ∧ s.loss = ls'
      else (rounds.length : Int) = cfg.numTrees ∧ s.loss = finish := by
  rw [trainState] at h
  split at h
  · simp at h
  · next hc =>
    rw [ne_eq, not_not] at hc
    split at h
    · simp at h
    · next features hl =>
      simp only [bind_eq_ok] at h
      obtain ⟨group, hg, init, hi, h3⟩ := h
      cases init with
      | error => simp [pure_eq] at h3
      | ok ls =>
        simp only [bind_eq_ok, pure_eq, Outcome.ok.injEq, Option.some.injEq] at h3
        obtain ⟨slices, hsl, ⟨forest1, slices1, f1⟩, hb, ⟨st, s1⟩, htr, h7⟩ := h3
        obtain ⟨rfl, rfl⟩ := Prod.mk.injEq .. ▸ h7
        have hs : Slices env.numRows slices := by
          obtain ⟨sl, e1, e2⟩ := scoreSlices_ok hd.threads env.numRows
          rw [hsl, Outcome.ok.injEq] at e1
          subst e1
          exact e2
        have ha : Added env.columns env.numRows ([] : List (Tree D A × D)) (List.replicate env.numRows (0 : D)) :=
          ⟨by simp, fun i hi => by simp [hi]⟩
        obtain ⟨e1, e2, e3⟩ := initWithBase_spec hd.rows (base.getD []) (rest := []) hd.scorable hs ha hb
        subst e1
        rw [List.nil_append] at e3
        obtain ⟨rounds, ls', k1, k2, k3, k4⟩ := trainLoop_boosts hd.rows hd.grads
          (fun t ht => ht.scorable hd hl) cfg.numTrees.toNat rfl (.init (groupOrDie_col hg) hi)
          (by intro x hx; obtain ⟨t, ht, rfl⟩ := List.mem_map.mp hx; exact hd.scorable t ht) e2 e3 htr
        refine ⟨features, group, ls, rounds, ls', hl, hg, hi, k1, k3, ?_, ?_⟩
        · simp only [k2, List.nil_append]
          congr 2
          simp only [addConstants, constantOf, List.foldl_append]
        · cases st with
          | true =>
            simp only [if_true] at k4 ⊢
            obtain ⟨_, ls2, c, g, k5, _, k6⟩ := k4
            exact ⟨ls2, c, g, k5, k6⟩
          | false =>
            simp only [Bool.false_eq_true, if_false] at k4 ⊢
            have hpos : 0 < cfg.numTrees := by
              unfold checkConfig at hc
              split at hc
              · cases hc
              · omega
            exact ⟨by omega, k4.2⟩

end data

section exact
variable {K : Type} [Field K] [LinearOrder K] [IsStrictOrderedRing K] {A : Type} [LinearOrder A] [ThrOps A]

/-- The weighted mean of the loss of the predictions `f`, with `c` added to each, over the first `n` rows. -/
def meanLoss (e : PointLoss K) (n : Nat) (f : List K) (c : K) : K :=
  ((List.range n).map (fun i => e.w i * (e.lossFn (e.y i) (f.getD i 0 + c)).1)).sum / ((List.range n).map e.w).sum

/-- What the message of a round says: with the values `f` that the trees and constants so far lead to, and the constant `c'` before its last correction,
the loss is the mean loss at `f + c'`.  That is where the gradients are taken to which the tree of the round is fitted. -/
def LoggedRound (env : TrainEnv K A) (e : PointLoss K) (features : List (String × Column A)) (cfg : TrainConfig K)
    (before : List (Tree K A × K)) (round : Tree K A × K) (m : Message K) : Prop :=
  ∃ f c' t p p', ValuesOf env before f ∧ round.2 = c' + newton e f c' ∧
    fitTree (env.fit features ((List.range env.numRows).map (rowGrad e f c'))) cfg.fit p = ok (t, p') ∧
    round.1 = applyShrinkage env.rnd32 cfg.shrinkage t ∧ m.loss = meanLoss e env.numRows f c'

/-- One message per round. -/
def Logged (env : TrainEnv K A) (e : PointLoss K) (features : List (String × Column A)) (cfg : TrainConfig K) :
    List (Tree K A × K) → List (Tree K A × K) → List (Message K) → Prop
  | _, [], [] => True
  | before, round :: rounds, m :: ms => LoggedRound env e features cfg before round m ∧
    Logged env e features cfg (before ++ [round]) rounds ms
  | _, _, _ => False

/-- By how many percent `loss` is below `first`. -/
def reduction (first loss : K) : K := if first = 0 then 0 else (first - loss) / first * 100

theorem Logged.length {env : TrainEnv K A} {e : PointLoss K} {features : List (String × Column A)} {cfg : TrainConfig K} :
    ∀ {before rounds : List (Tree K A × K)} {ms : List (Message K)}, Logged env e features cfg before rounds ms → ms.length = rounds.length
  | _, [], [], _ => rfl
  | _, _ :: _, _ :: _, h => by simp [Logged.length h.2]

theorem weightSum_eq (w : Nat → K) (n : Nat) : (List.range n).foldl (fun sum i => sum + w i) 0 = ((List.range n).map w).sum := by
  rw [List.sum_eq_foldl, List.foldl_map]

/-- Messages of rounds. -/
theorem boosts_logged {env : TrainEnv K A} {e : PointLoss K} {features : List (String × Column A)} {cfg : TrainConfig K}
    {s s' : PointProgress K} {p q : Nat} {before rounds : List (Tree K A × K)}
    (h : Boosts env (e.reporting 100) features cfg s p before rounds s' q) :
    Consecutive 0 env.numRows s.slices → s.weightSum = ((List.range env.numRows).map e.w).sum →
    Boosts env e.toLoss features cfg s.slices p before rounds s'.slices q ∧
    ∃ ms, s'.messages = s.messages ++ ms ∧ Logged env e features cfg before rounds ms ∧
      (0 ≤ s.initialLoss → ∀ m ∈ ms, m.reduced = reduction s.initialLoss m.loss) ∧
      (s.initialLoss < 0 → ∀ m0 ∈ ms.head?, 0 ≤ m0.loss → ∀ m ∈ ms, m.reduced = reduction m0.loss m.loss) := by
  induction h with
  | done s p before => exact fun _ _ => ⟨.done _ _ _, [], by simp, trivial, by simp, by simp⟩
  | @round s s1 s2 p p1 p2 before after f c grads t h1 h2 h3 h4 h5 ih =>
    intro hc hw
    have hc' : Consecutive 0 f.length s.slices := by rw [h1.1]; exact hc
    obtain ⟨k, k1, k2, _, k4, k5, k6, k7⟩ := reportCompute_spec hc' h2
    rw [h1.1] at k2 k6 k7
    obtain ⟨i1, ms, i2, i3, i4, i5⟩ := ih (by rw [k4]; exact hc) (by rw [k5, hw])
    have hloss : ((List.range env.numRows).map (rowLoss e f ((fun x => x + newton e f x)^[k] 0))).sum / s.weightSum =
        meanLoss e env.numRows f ((fun x => x + newton e f x)^[k] 0) := by
      rw [hw]; rfl
    rw [hloss] at k6 k7
    have hp := reportCompute_point h2
    generalize hL : meanLoss e env.numRows f ((fun x => x + newton e f x)^[k] 0) = L at k6 k7
    refine ⟨.round h1 hp.1 h3 h4 i1, ⟨L, (if s1.initialLoss = 0 then 0 else (s1.initialLoss - L) / s1.initialLoss) * 100⟩ :: ms, by rw [i2, k7, List.append_assoc]; rfl, ⟨⟨f, _, t, p, p1, h1, ?_, ?_, rfl, hL.symm⟩, i3⟩, ?_, ?_⟩
    · rw [k1, Function.iterate_succ_apply']
    · rw [← k2]; exact h4
    · intro h0 m hm
      rw [if_neg (not_lt.mpr h0)] at k6
      rw [k6] at i4 hm
      rcases List.mem_cons.mp hm with rfl | hm
      · simp only [reduction]; split <;> simp
      · exact i4 h0 m hm
    · intro h0 m0 hm0 hnn m hm
      rw [List.head?_cons, Option.mem_some] at hm0
      subst hm0
      rw [if_pos h0] at k6
      rw [k6] at i4 hm
      rcases List.mem_cons.mp hm with rfl | hm
      · simp only [reduction]; split <;> simp
      · exact i4 hnn m hm

theorem boosts_slices {env : TrainEnv K A} {e : PointLoss K} {features : List (String × Column A)} {cfg : TrainConfig K}
    {s s' : PointProgress K} {p q : Nat} {before rounds : List (Tree K A × K)}
    (h : Boosts env (e.reporting 100) features cfg s p before rounds s' q) : s'.slices = s.slices := by
  induction h with
  | done => rfl
  | round _ g2 _ _ _ ih => rw [ih, (reportCompute_point g2).2]

/-- **C168.** However training ends, one message has been logged for each tree that it added to the forest (after the constant and the trees of the base
forest that are not constants); if it succeeds, that is `num_trees` of them. -/
theorem C168_count {env : TrainEnv K A} {names : List String} {cfg : TrainConfig K} {base : Option (List (Tree K A))}
    (hs : TrainStore env names cfg (base.getD [])) {e : PointLoss K} (he : 0 < e.numThreads) {p : Nat} {r : TrainResult K A}
    (h : trainGBDT env e.toLoss names cfg base [] p = ok r) :
    ∃ msgs, trainMessages env e 100 names cfg base p = ok msgs ∧
      (r.forest = [] ∧ msgs = [] ∨ r.forest.length = 1 + ((base.getD []).filter (fun t => !isSingleNode t)).length + msgs.length) ∧
      (r.code = .ok → (msgs.length : Int) = cfg.numTrees) := by
  have hd := reportTrainData hs he (100 : K)
  have hdp := pointTrainData hs he
  have h' := h
  rw [← C168_same env e 100] at h
  rcases trainGBDT_state _ _ _ _ _ _ _ h with ⟨h1, h2⟩ | ⟨stopped, s, h1, h2⟩
  · refine ⟨[], by rw [trainMessages, h1]; rfl, Or.inl ⟨h2, rfl⟩, fun hok => ?_⟩
    obtain ⟨_, _, _, _, _, _, _, _, _, _, _, k⟩ := C73_rounds hdp h' hok
    rw [h2] at k
    cases k
  · obtain ⟨features, group, start, rounds, finish, b1, b2, b3, b4, b5, b6, b7⟩ := trainState_boosts hd h1
    obtain ⟨i1, i2, i3, i4⟩ := reportInit_ok b3
    obtain ⟨_, ms, m1, m2, _, _⟩ := boosts_logged b4 (pointInit_ok i1) (by rw [i2, weightSum_eq])
    rw [i4, List.nil_append] at m1
    cases stopped with
    | false =>
      simp only [Bool.false_eq_true, if_false] at b7 h2
      refine ⟨ms, by rw [trainMessages, h1, ok_bind]; simp only [b7.2, m1]; rfl, Or.inr ?_, fun _ => by rw [m2.length]; exact b7.1⟩
      rw [h2, m2.length]
      simp only [List.length_map, b6, List.length_cons, List.length_append]
      omega
    | true =>
      simp only [if_true] at b7 h2
      obtain ⟨ls, c, g, b7, b8⟩ := b7
      have hf : s.f.length = env.numRows := b5.1
      have hsl := boosts_slices b4
      obtain ⟨_, _, _, _, _, _, _, k7⟩ := reportCompute_spec (by rw [hf, hsl]; exact pointInit_ok i1) b7
      refine ⟨ms, by rw [trainMessages, h1, ok_bind]; simp only [b8, k7, m1, List.dropLast_concat]; rfl, Or.inr ?_, fun hc => ?_⟩
      · rw [h2, m2.length]
        simp only [List.length_map, b6, List.length_cons, List.length_append]
        omega
      · rw [h2] at hc; cases hc

/-- **C168.** The messages of a successful run: the rounds of boosting that make up the run (C73), and for each of them a message with the mean loss at the
values before it, plus the constant but for its last correction.  If the first loss is not negative, the other number of each message is the reduction in
percent of that loss. -/
theorem C168_messages {env : TrainEnv K A} {names : List String} {cfg : TrainConfig K} {base : Option (List (Tree K A))}
    (hs : TrainStore env names cfg (base.getD [])) {e : PointLoss K} (he : 0 < e.numThreads) (hneg : e.minusOne < 0) {p : Nat} {r : TrainResult K A}
    (h : trainGBDT env e.toLoss names cfg base [] p = ok r) (hok : r.code = .ok) :
    ∃ msgs features start rounds finish, trainMessages env e 100 names cfg base p = ok msgs ∧ loadFeatures env.columns names = .ok features ∧
      pointInit e env.numRows none = ok (.ok start) ∧
      Boosts env e.toLoss features cfg start p ((base.getD []).map (fun t => (t, 0))) rounds finish r.pos ∧
      (rounds.length : Int) = cfg.numTrees ∧
      r.forest = .node (constantOf env.rnd32
          (((base.getD []).filter isSingleNode).map rootScore ++ rounds.map Prod.snd)) none .absent .absent ::
        ((base.getD []).filter (fun t => !isSingleNode t) ++ rounds.map Prod.fst).map clearInternal ∧
      Logged env e features cfg ((base.getD []).map (fun t => (t, 0))) rounds msgs ∧
      ∀ m0 ∈ msgs.head?, 0 ≤ m0.loss → ∀ m ∈ msgs, m.reduced = reduction m0.loss m.loss := by
  have hd := reportTrainData hs he (100 : K)
  have h' := h
  rw [← C168_same env e 100] at h
  rcases trainGBDT_state _ _ _ _ _ _ _ h with ⟨h1, h2⟩ | ⟨stopped, s, h1, h2⟩
  · obtain ⟨_, _, _, _, _, _, _, _, _, _, _, k⟩ := C73_rounds (pointTrainData hs he) h' hok
    rw [h2] at k
    cases k
  · obtain ⟨features, group, start, rounds, finish, b1, b2, b3, b4, b5, b6, b7⟩ := trainState_boosts hd h1
    obtain ⟨i1, i2, i3, i4⟩ := reportInit_ok b3
    obtain ⟨m0, ms, m1, m2, _, m4⟩ := boosts_logged b4 (pointInit_ok i1) (by rw [i2, weightSum_eq])
    rw [i4, List.nil_append] at m1
    cases stopped with
    | true => subst h2; cases hok
    | false =>
      simp only [Bool.false_eq_true, if_false] at b7 h2
      subst h2
      refine ⟨ms, features, start.slices, rounds, finish.slices, by rw [trainMessages, h1, ok_bind]; simp only [b7.2, m1]; rfl, b1, i1, m0, b7.1, ?_, m2,
        m4 (by rw [i3]; exact hneg)⟩
      rw [b6]
      rfl

/-! ## Squared error -/

theorem mse_step {e : PointLoss K} {m : MathFns K} (hone : m.one = 1) (hl : e.lossFn = mseLoss m)
    {f : List K} (hw : ((List.range f.length).map e.w).sum ≠ 0) : ∀ k : Nat, (fun x => x + newton e f x)^[k + 1] 0 = newton e f 0
  | 0 => by simp
  | k + 1 => by
    have h := C48_mse_two_steps hone hl hw ((fun x => x + newton e f x)^[k] 0)
    have h1 : (fun x => x + newton e f x)^[k + 1] 0 = (fun x => x + newton e f x)^[k] 0 + newton e f ((fun x => x + newton e f x)^[k] 0) :=
      Function.iterate_succ_apply' _ _ _
    rw [Function.iterate_succ_apply', ← mse_step hone hl hw k]
    rw [← h1] at h
    rw [h, add_zero]

/-- The reported loss is between the errors before and after the round. -/
theorem round_loss {env : TrainEnv K A} {cfg : TrainConfig K} {e : PointLoss K} (hm : MseInput env cfg e)
    (hrows : ∀ name c, env.columns name = some c → HasRows env.numRows c) {names : List String}
    {features : List (String × Column A)} (hl : loadFeatures env.columns names = .ok features)
    (hW : ((List.range env.numRows).map e.w).sum ≠ 0) {hundred : K}
    {s s1 : PointProgress K} (hinit : pointInit e env.numRows none = ok (.ok s.slices))
    (hw : s.weightSum = ((List.range env.numRows).map e.w).sum)
    {before : List (Tree K A × K)} {f : List K} (hv : ValuesOf env before f) {c : K} {grads : List (GD K)}
    (hg : reportCompute e hundred s f = ok (s1, c, grads)) {p p1 : Nat} {t : Tree K A}
    (ht : fitTree (env.fit features grads) cfg.fit p = ok (t, p1)) :
    ∃ msg, s1.messages = s.messages ++ [msg] ∧ ((List.range env.numRows).map e.w).sum * msg.loss ≤ errD env e.y before ∧
      errD env e.y (before ++ [(applyShrinkage env.rnd32 cfg.shrinkage t, c)]) ≤ ((List.range env.numRows).map e.w).sum * msg.loss := by
  obtain ⟨m, hone, hloss⟩ := hm.loss
  obtain ⟨hflen, hval⟩ := hv
  have hp := (reportCompute_point hg).1
  obtain ⟨k, k1, _, k3, _, _, _, k7⟩ := reportCompute_spec (by rw [hflen]; exact pointInit_ok hinit) hg
  refine ⟨_, k7, ?_⟩
  obtain ⟨extra, r1, r2, r3⟩ := round_error_const hm hrows hl hinit ⟨hflen, hval⟩ hp ht
  have hval' : ∀ i < env.numRows, f.getD i 0 = valD env.columns i before := by
    intro i hi
    obtain ⟨v, h1, h2⟩ := hval i hi
    rw [List.getD_eq_getElem?_getD, h1, Option.getD_some, valueOf_valD h2]
  have hsum : ∀ x, ((List.range f.length).map (rowLoss e f x)).sum = errD env e.y before -
      2 * x * ((∑ k ∈ Finset.range env.numRows, env.w k) * c) + x * x * ∑ k ∈ Finset.range env.numRows, env.w k := by
    intro x
    rw [r2, hflen, list_sum_range, errD]
    simp only [Finset.mul_sum, ← Finset.sum_add_distrib, ← Finset.sum_sub_distrib]
    refine Finset.sum_congr rfl (fun i hi => ?_)
    rw [rowLoss, hloss, hval' i (by simpa using hi), hm.weights]
    simp only [mseLoss]
    ring
  simp only
  rw [hw, mul_div_cancel₀ _ hW, hsum]
  have hWs : 0 ≤ ∑ k ∈ Finset.range env.numRows, env.w k := Finset.sum_nonneg (fun k hk => hm.nonneg k (by simpa using hk))
  have hcc := mul_nonneg hWs (mul_self_nonneg c)
  have hWf : ((List.range f.length).map e.w).sum ≠ 0 := by rw [hflen]; exact hW
  cases k with
  | zero =>
    simp only [Function.iterate_zero, id_eq, mul_zero, zero_mul, sub_zero, add_zero]
    exact ⟨le_refl _, round_error hm hrows hl hinit ⟨hflen, hval⟩ hp ht⟩
  | succ k =>
    rw [mse_step hone hloss hWf] at k1 ⊢
    rw [← k1]
    have hx : extra = 0 := by
      rcases r3 with h | ⟨h, _⟩
      · exact h
      · rcases k3 with h0 | h0
        · omega
        · rw [← k1] at h0
          exact absurd h (not_le.mpr h0)
    constructor <;> nlinarith

theorem boosts_losses {env : TrainEnv K A} {cfg : TrainConfig K} {e : PointLoss K} (hm : MseInput env cfg e)
    (hrows : ∀ name c, env.columns name = some c → HasRows env.numRows c) {names : List String}
    {features : List (String × Column A)} (hl : loadFeatures env.columns names = .ok features)
    (hW : 0 < ((List.range env.numRows).map e.w).sum)
    {s s' : PointProgress K} {p q : Nat} {before rounds : List (Tree K A × K)}
    (h : Boosts env (e.reporting 100) features cfg s p before rounds s' q) :
    pointInit e env.numRows none = ok (.ok s.slices) → s.weightSum = ((List.range env.numRows).map e.w).sum →
    errD env e.y (before ++ rounds) ≤ errD env e.y before ∧
    ∃ ms, s'.messages = s.messages ++ ms ∧
      (∀ m ∈ ms, ((List.range env.numRows).map e.w).sum * m.loss ≤ errD env e.y before ∧
        errD env e.y (before ++ rounds) ≤ ((List.range env.numRows).map e.w).sum * m.loss) ∧
      ms.Pairwise (fun m m' => m'.loss ≤ m.loss) := by
  induction h with
  | done s p before => exact fun _ _ => ⟨by rw [List.append_nil], [], by simp, by simp, .nil⟩
  | @round s s1 s2 p p1 p2 before after f c grads t h1 h2 h3 h4 h5 ih =>
    intro hinit hw
    obtain ⟨msg, m1, m2, m3⟩ := round_loss hm hrows hl hW.ne' hinit hw h1 h2 h4
    obtain ⟨_, _, _, _, k4, k5, _, _⟩ := reportCompute_spec (by rw [h1.1]; exact pointInit_ok hinit) h2
    obtain ⟨i0, ms, i1, i2, i3⟩ := ih (by rw [k4]; exact hinit) (by rw [k5, hw])
    rw [List.append_assoc, List.singleton_append] at i0 i2
    refine ⟨i0.trans (m3.trans m2), msg :: ms, by rw [i1, m1, List.append_assoc]; rfl, fun m hmem => ?_, ?_⟩
    · rcases List.mem_cons.mp hmem with rfl | hmem
      · exact ⟨m2, i0.trans m3⟩
      · exact ⟨(i2 m hmem).1.trans (m3.trans m2), (i2 m hmem).2⟩
    · exact List.pairwise_cons.mpr ⟨fun m hmem => le_of_mul_le_mul_left ((i2 m hmem).1.trans m3) hW, i3⟩

/-- **C169.** Training with squared error (without rounding, on all rows, with shrinkage between 0 and 1 and weights that do not sum to 0): the losses in the
log never go up, the reductions are between 0 and 100 % and never go down, and the forest returned fits the training data at least as well as any message
says. -/
theorem C169_mse {env : TrainEnv K A} {names : List String} {cfg : TrainConfig K} {base : Option (List (Tree K A))}
    (hs : TrainStore env names cfg (base.getD [])) {e : PointLoss K} (he : 0 < e.numThreads) (hneg : e.minusOne < 0) (hm : MseInput env cfg e)
    (hW : totalWeight env ≠ 0) {p : Nat} {r : TrainResult K A}
    (h : trainGBDT env e.toLoss names cfg base [] p = ok r) (hok : r.code = .ok) {numThreads : Int} (hnt : 0 < numThreads) :
    ∃ msgs f, trainMessages env e 100 names cfg base p = ok msgs ∧ (msgs.length : Int) = cfg.numTrees ∧
      evaluateForest env.columns env.numRows numThreads r.forest = ok (.ok, some f) ∧
      msgs.Pairwise (fun m m' => m'.loss ≤ m.loss ∧ m.reduced ≤ m'.reduced) ∧
      ∀ m ∈ msgs, 0 ≤ m.reduced ∧ m.reduced ≤ 100 ∧ sqError env.w e.y env.numRows f / totalWeight env ≤ m.loss := by
  have hWe : ((List.range env.numRows).map e.w).sum = totalWeight env := by rw [totalWeight, hm.weights]
  have hW' : 0 < ((List.range env.numRows).map e.w).sum := by
    refine lt_of_le_of_ne ?_ (by rw [hWe]; exact hW.symm)
    refine List.sum_nonneg (fun x hx => ?_)
    obtain ⟨i, hi, rfl⟩ := List.mem_map.mp hx
    rw [← hm.weights]
    exact hm.nonneg i (by simpa using hi)
  have hd := reportTrainData hs he (100 : K)
  have hev := C39_training_scores_are_predictions (pointTrainData hs he) hm.exact h hok hnt
  have h' := h
  rw [← C168_same env e 100] at h
  rcases trainGBDT_state _ _ _ _ _ _ _ h with ⟨h1, h2⟩ | ⟨stopped, s, h1, h2⟩
  · obtain ⟨_, _, _, _, _, _, _, _, _, _, _, k⟩ := C73_rounds (pointTrainData hs he) h' hok
    rw [h2] at k
    cases k
  · obtain ⟨features, group, start, rounds, finish, b1, b2, b3, b4, b5, b6, b7⟩ := trainState_boosts hd h1
    obtain ⟨i1, i2, i3, i4⟩ := reportInit_ok b3
    have hws : start.weightSum = ((List.range env.numRows).map e.w).sum := by rw [i2, weightSum_eq]
    obtain ⟨_, ms, m1, m2, _, m4⟩ := boosts_logged b4 (pointInit_ok i1) hws
    obtain ⟨_, ms', n1, n2, n3⟩ := boosts_losses hm hd.rows b1 hW' b4 i1 hws
    rw [i4, List.nil_append] at m1 n1
    obtain rfl : ms = ms' := m1.symm.trans n1
    cases stopped with
    | true => subst h2; cases hok
    | false =>
      simp only [Bool.false_eq_true, if_false] at b7 h2
      subst h2
      refine ⟨ms, _, by rw [trainMessages, h1, ok_bind]; simp only [b7.2, m1]; rfl, by rw [m2.length]; exact b7.1, hev, ?_⟩
      have herr : sqError env.w e.y env.numRows s.f = errD env e.y ((base.getD []).map (fun t => (t, 0)) ++ rounds) := sqError_errD b5.2
      have hfit : ∀ m ∈ ms, sqError env.w e.y env.numRows s.f / totalWeight env ≤ m.loss := by
        intro m hmem
        rw [div_le_iff₀ (hWe ▸ hW'), mul_comm, herr, ← hWe]
        exact (n2 m hmem).2
      have hnn : 0 ≤ sqError env.w e.y env.numRows s.f / totalWeight env := by
        refine div_nonneg ?_ (hWe ▸ hW'.le)
        rw [herr]
        exact Finset.sum_nonneg (fun i hi => mul_nonneg (hm.nonneg i (by simpa using hi)) (mul_self_nonneg _))
      cases ms with
      | nil => exact ⟨.nil, by simp⟩
      | cons m0 ms =>
        have h0 := hnn.trans (hfit m0 (by simp))
        have hred := m4 (by rw [i3]; exact hneg) m0 (by simp) h0
        have hle : ∀ m ∈ m0 :: ms, m.loss ≤ m0.loss := by
          intro m hmem
          rcases List.mem_cons.mp hmem with rfl | hmem
          · exact le_refl _
          · exact (List.pairwise_cons.mp n3).1 m hmem
        refine ⟨?_, fun m hmem => ?_⟩
        · refine List.Pairwise.imp_of_mem (fun {a b} ha hb hab => ⟨hab, ?_⟩) n3
          rw [hred a ha, hred b hb, reduction, reduction]
          split
          · exact le_refl _
          · next hz =>
            have hpos := lt_of_le_of_ne h0 (Ne.symm hz)
            exact mul_le_mul_of_nonneg_right (div_le_div_of_nonneg_right (by linarith) hpos.le) (by norm_num)
        · have hl0 := hnn.trans (hfit m hmem)
          rw [hred m hmem, reduction]
          split
          · exact ⟨le_refl _, by norm_num, hfit m hmem⟩
          · next hz =>
            have hpos := lt_of_le_of_ne h0 (Ne.symm hz)
            have hle' := hle m hmem
            refine ⟨mul_nonneg (div_nonneg (by linarith) hpos.le) (by norm_num), ?_, hfit m hmem⟩
            have : (m0.loss - m.loss) / m0.loss ≤ 1 := by rw [div_le_one hpos]; linarith
            linarith

/-! ## Other losses -/

theorem Logged.mem {env : TrainEnv K A} {e : PointLoss K} {features : List (String × Column A)} {cfg : TrainConfig K} :
    ∀ {before rounds : List (Tree K A × K)} {ms : List (Message K)}, Logged env e features cfg before rounds ms →
    ∀ m ∈ ms, ∃ f c, m.loss = meanLoss e env.numRows f c
  | _, [], [], _ => by simp
  | _, _ :: _, m0 :: _, ⟨⟨f, c, _, _, _, _, _, _, _, h⟩, h2⟩ => fun m hm => by
    rcases List.mem_cons.mp hm with rfl | hm
    · exact ⟨f, c, h⟩
    · exact Logged.mem h2 m hm

/-- **C170 (partial).** With any pointwise loss that is never negative, and weights none of which is negative, the reported losses are never negative and the
reductions never above 100 %; the first is 0.  Missing: that they are never negative, see `C170_refuted`. -/
theorem C170_upper_partial {env : TrainEnv K A} {names : List String} {cfg : TrainConfig K} {base : Option (List (Tree K A))}
    (hs : TrainStore env names cfg (base.getD [])) {e : PointLoss K} (he : 0 < e.numThreads) (hneg : e.minusOne < 0)
    (hloss : ∀ y f, 0 ≤ (e.lossFn y f).1) (hw : ∀ i < env.numRows, 0 ≤ e.w i) {p : Nat} {r : TrainResult K A}
    (h : trainGBDT env e.toLoss names cfg base [] p = ok r) (hok : r.code = .ok) :
    ∃ msgs, trainMessages env e 100 names cfg base p = ok msgs ∧ (∀ m ∈ msgs.head?, m.reduced = 0) ∧
      ∀ m ∈ msgs, 0 ≤ m.loss ∧ m.reduced ≤ 100 := by
  obtain ⟨msgs, features, start, rounds, finish, h1, _, _, _, _, _, h7, h8⟩ := C168_messages hs he hneg h hok
  have hnn : ∀ m ∈ msgs, 0 ≤ m.loss := by
    intro m hm
    obtain ⟨f, c, h9⟩ := h7.mem m hm
    rw [h9, meanLoss]
    refine div_nonneg (List.sum_nonneg ?_) (List.sum_nonneg ?_) <;> intro x hx <;> obtain ⟨i, hi, rfl⟩ := List.mem_map.mp hx
    · exact mul_nonneg (hw i (by simpa using hi)) (hloss _ _)
    · exact hw i (by simpa using hi)
  refine ⟨msgs, h1, fun m hm => ?_, fun m hm => ⟨hnn m hm, ?_⟩⟩
  · have hmem := List.mem_of_mem_head? hm
    rw [h8 m hm (hnn m hmem) m hmem, reduction, sub_self, zero_div, zero_mul]
    split <;> rfl
  · cases msgs with
    | nil => cases hm
    | cons m0 ms =>
      have h0 := hnn m0 (by simp)
      rw [h8 m0 (by simp) h0 m hm, reduction]
      split
      · norm_num
      · next hz =>
        have hpos := lt_of_le_of_ne h0 (Ne.symm hz)
        have : (m0.loss - m.loss) / m0.loss ≤ 1 := by rw [div_le_one hpos]; linarith [hnn m hm]
        linarith

end exact

/-- **C170 (in full).** As for squared error (`C169_mse`): with the huberized hinge the reported reduction is never negative. -/
def C170_full : Prop :=
  ∀ (env : TrainEnv ℚ ℚ) (names : List String) (cfg : TrainConfig ℚ) (e : PointLoss ℚ) (m : MathFns ℚ) (p : Nat) (r : TrainResult ℚ ℚ)
    (msgs : List (Message ℚ)), TrainStore env names cfg [] → 0 < e.numThreads → m.one = 1 → m.half = 1 / 2 → e.lossFn = huberizedHinge m →
    e.binary = true → env.w = e.w → (∀ i < env.numRows, 0 ≤ env.w i) → env.rnd32 = id → (∀ k, env.draw k < cfg.exampleRate) →
    0 ≤ cfg.l2Lambda → 0 ≤ cfg.shrinkage → cfg.shrinkage ≤ 1 → trainGBDT env e.toLoss names cfg none [] p = ok r → r.code = .ok →
    trainMessages env e 100 names cfg none p = ok msgs → ∀ msg ∈ msgs, 0 ≤ msg.reduced

/-- Seven rows, two features of two values. -/
def hingeColumns (name : String) : Option (Column ℚ) :=
  if name = "color" then some (.str (StrCol.build [["z", "z", "x", "x", "z", "x", "z"]]))
  else if name = "team" then some (.str (StrCol.build [["x", "x", "z", "x", "x", "z", "z"]]))
  else none

/-- Training on these rows. -/
def hingeEnv : TrainEnv ℚ ℚ := { trainEnv with columns := hingeColumns, numRows := 7 }

/-- The huberized hinge with targets for these rows. -/
def hingeLoss : PointLoss ℚ :=
  { ratMse with lossFn := huberizedHinge ratMath, binary := true, w := fun _ => 1, y := fun i => if i ∈ [1, 3, 4] then -1 else 1 }

/-- Three trees with `l2_lambda` 0.1 and no shrinkage. -/
def hingeTrainCfg : TrainConfig ℚ := { trainCfg with numTrees := 3, l2Lambda := 1 / 10, shrinkage := 1 }

/-- The reported reductions, if training succeeds. -/
def hingeReductions : Option (List ℚ) :=
  match trainGBDT hingeEnv hingeLoss.toLoss ["color", "team"] hingeTrainCfg none [] 0, trainMessages hingeEnv hingeLoss 100 ["color", "team"] hingeTrainCfg none 0 with
  | .ok r, .ok msgs => if r.code = .ok then some (msgs.map Message.reduced) else none
  | _, _ => none

theorem hingeReductions_neg : (match hingeReductions with
    | some [a, b, c] => decide (a = 0 ∧ 42 < b ∧ b < 43 ∧ c < -705)
    | _ => false) = true := by decide +kernel

theorem hingeTrainStore : TrainStore hingeEnv ["color", "team"] hingeTrainCfg [] where
  rows := by
    intro name c h
    change hingeColumns name = some c at h
    unfold hingeColumns at h
    split at h
    · cases h
      exact TrainRows.str _ (by decide) (by decide)
    · split at h
      · cases h
        exact TrainRows.str _ (by decide) (by decide)
      · cases h
  threads := by decide
  sort := ratSort_spec
  top := ratTop_spec
  examples := by simp [hingeEnv, trainEnv]
  features := by simp [hingeEnv, trainEnv]
  group := Or.inl rfl
  scorable := fun _ h => absurd h (by simp)
  baseFeatures := fun _ h => absurd h (by simp [forestFeatures])

/-- **C170 refuted.** With the huberized hinge the log can say that the loss is *reduced* by -705 % after two trees: it went from 0.48 to 0.28 and then up
to 3.9. -/
theorem C170_refuted : ¬ C170_full := by
  intro hfull
  have hrun := hingeReductions_neg
  unfold hingeReductions at hrun
  generalize htr : trainGBDT hingeEnv hingeLoss.toLoss ["color", "team"] hingeTrainCfg none [] 0 = tr at hrun
  generalize hms : trainMessages hingeEnv hingeLoss 100 ["color", "team"] hingeTrainCfg none 0 = ms at hrun
  match tr, ms, htr, hms, hrun with
  | .ok r, .ok msgs, htr, hms, hrun =>
    by_cases hok : r.code = .ok
    · simp only [hok, if_true] at hrun
      have hall := hfull hingeEnv ["color", "team"] hingeTrainCfg hingeLoss ratMath 0 r msgs hingeTrainStore (by decide) rfl rfl rfl rfl rfl
        (fun _ _ => zero_le_one (α := ℚ)) rfl (errInput (fun _ => 0) hingeTrainCfg rfl (by decide +kernel) (by decide +kernel) (by decide +kernel)).allRows
        (by decide +kernel) (by decide +kernel) (by decide +kernel) htr hok hms
      match msgs, hrun, hall with
      | [m1, m2, m3], hrun, hall =>
        have h3 := hall m3 (by simp)
        simp only [List.map_cons, List.map_nil, decide_eq_true_eq] at hrun
        linarith [hrun.2.2.2]
    · simp [hok] at hrun

/-! ## Examples -/

/-- The messages of a run with squared error: mean losses 6.8 and 3.335, a reduction of about 51 %; the forest returned is better still (C84: 8.81 for five
rows). -/
theorem errMessages : trainMessages trainEnv (errLoss (fun i => trainTargets.getD i 0)) 100 ["color", "size"] trainCfg none 0 =
    ok [⟨34 / 5, 0⟩, ⟨667 / 200, 3465 / 68⟩] := by decide +kernel

/-- `C168_same`, `C168_count`, `C168_messages`, `C169_mse`: the hypotheses hold for this run. -/
example : TrainStore trainEnv ["color", "size"] trainCfg ((none : Option (List (Tree ℚ ℚ))).getD []) ∧
    MseInput trainEnv trainCfg (errLoss (fun i => trainTargets.getD i 0)) ∧ totalWeight trainEnv = 5 ∧
    (errLoss (fun i => trainTargets.getD i 0)).minusOne < 0 ∧
    errAfter (fun i => trainTargets.getD i 0) trainCfg none = some (14097 / 1600) ∧ (14097 / 1600 : ℚ) / 5 ≤ 667 / 200 :=
  ⟨smallStore trainCfg rfl, errInput _ _ rfl (by decide +kernel) (by decide +kernel) (by decide +kernel), by decide +kernel, by decide +kernel,
    by decide +kernel, by decide +kernel⟩

/-- `C170_upper_partial`: the huberized hinge is never negative, and the run of `C170_refuted` meets the other hypotheses. -/
example : (∀ y f : ℚ, 0 ≤ (huberizedHinge ratMath y f).1) ∧ TrainStore hingeEnv ["color", "team"] hingeTrainCfg [] ∧ hingeReductions ≠ none := by
  refine ⟨fun y f => ?_, hingeTrainStore, ?_⟩
  · rw [huberizedHinge]
    simp only [Dbl.leb, exact_ltb, exact_eqb, Bool.or_eq_true, decide_eq_true_eq, ← le_iff_lt_or_eq, ratMath]
    by_cases h1 : 1 ≤ y * f
    · rw [if_pos h1]
    · rw [if_neg h1]
      by_cases h2 : 0 ≤ y * f
      · rw [if_pos h2]
        have := mul_self_nonneg (1 - y * f)
        dsimp only
        linarith
      · rw [if_neg h2]
        dsimp only
        linarith
  · intro h
    have := hingeReductions_neg
    rw [h] at this
    cases this

end Gbdt
