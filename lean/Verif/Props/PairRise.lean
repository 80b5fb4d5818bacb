import Verif.Props.PairFall

/-!
# C207: does a tree lower the loss of the sampled pairs, whatever the regularization?
-/

set_option autoImplicit false
set_option linter.unusedSectionVars false

namespace Gbdt

open Outcome

section fall
variable {K : Type} [Field K] [LinearOrder K] [IsStrictOrderedRing K] {A : Type} [LinearOrder A] [ThrOps A]

theorem gbrank_parabola {e : PairLoss K} {mf : MathFns K} (h : e.lossFn = squaredHinge mf) : BelowParabola e 1 2 := by
  intro a ha x δ
  rw [h]
  simp only [squaredHinge, exact_ltb, decide_eq_true_eq, mul_pos_iff_of_pos_right ha, sub_pos]
  split_ifs <;> simp only [] <;> nlinarith [mul_self_nonneg δ, mul_self_nonneg (a - x), mul_self_nonneg (a - x - δ)]

/-- **C207 (partial).** gbrank with rows of weight 1: the tree of a round does not raise the loss of its pairs if `l2_lambda` is at least twice their weight.
Missing: smaller `l2_lambda`, for which it is false. -/
theorem C207_fall_partial {e : PairLoss K} (he : ConvexPair e) {mf : MathFns K} (hl : e.lossFn = squaredHinge mf) {numRows : Nat}
    {col : Option StrCol} {s s' : PairState K} {f : List K} {c : K}
    {env : FitEnv K A} (hr : PairReach e numRows col s) (hc : pairCompute e s f = ok (s', c, env.grads)) {cfg : FitConfig K}
    {columns : String → Option (Column A)} (hd : FitData env columns) (hexact : ∀ y, env.rnd32 y = y)
    (hall : ∀ k, env.draw k < cfg.exampleRate) (hw : env.w = e.w) (hone : ∀ i, e.w i = 1) {p q : Nat} {t : Tree K A} (h : fitTree env cfg p = ok (t, q)) :
    ∃ draws : List (List (Draw K)), draws.length = s.groups.length ∧
      (∀ (index : Nat) (ds : List (Draw K)), draws[index]? = some ds → DrawsOf e s f index ds) ∧
      (2 * (draws.flatten.map (·.weight)).sum ≤ cfg.l2Lambda →
        pairLossAt e draws.flatten (fun i => f.getD i 0 + (scoreOf columns t i).getD 0) ≤ pairLossAt e draws.flatten (fun i => f.getD i 0)) := by
  obtain ⟨draws, h1, h2, h3⟩ := C206_fall he (gbrank_parabola hl) zero_le_one two_pos hr hc hd hexact hall hw hone h
  refine ⟨draws, h1, h2, fun hle => ?_⟩
  have := h3 (by linarith) 1 zero_le_one le_rfl
  simpa only [one_mul] using this

end fall

/-- **C207 (in full).** Any `l2_lambda` that is not negative. -/
def C207_full : Prop :=
  ∀ (e : PairLoss ℚ) (numRows : Nat) (col : Option StrCol) (s s' : PairState ℚ) (f : List ℚ) (c : ℚ) (env : FitEnv ℚ ℚ) (cfg : FitConfig ℚ)
    (columns : String → Option (Column ℚ)) (p q : Nat) (t : Tree ℚ ℚ), ConvexPair e → e.lossFn = squaredHinge ratMath → PairReach e numRows col s →
    pairCompute e s f = ok (s', c, env.grads) → FitData env columns → (∀ y, env.rnd32 y = y) → 0 ≤ cfg.l2Lambda →
    (∀ k, env.draw k < cfg.exampleRate) → env.w = e.w → (∀ i, e.w i = 1) → fitTree env cfg p = ok (t, q) →
    ∃ draws : List (List (Draw ℚ)), draws.length = s.groups.length ∧
      (∀ (index : Nat) (ds : List (Draw ℚ)), draws[index]? = some ds → DrawsOf e s f index ds) ∧
      pairLossAt e draws.flatten (fun i => f.getD i 0 + (scoreOf columns t i).getD 0) ≤ pairLossAt e draws.flatten (fun i => f.getD i 0)

/-- Four groups of a pair each. -/
def riseGroups : StrCol := StrCol.build [["1", "1", "2", "2", "3", "3", "4", "4"]]

/-- gbrank, one pair of each group. -/
def riseLoss : PairLoss ℚ := { fewLoss 1 (fun i => [2, 1, 2, 1, 2, 1, 2, 1].getD i 0) with lossFn := squaredHinge ratMath }

/-- The feature tells row 0 and the lower rows of the other groups from the rest. -/
def riseColumn : Column ℚ := .str (StrCol.build [["l", "r", "r", "l", "r", "l", "r", "l"]])

/-- The store of that feature. -/
def riseCols (name : String) : Option (Column ℚ) := if name = "side" then some riseColumn else none

/-- The scores before the tree: three of the pairs are as far apart as the loss asks for. -/
def riseScores : List ℚ := [0, 0, 1, 0, 1, 0, 1, 0]

/-- The gradients. -/
def riseGrads : List (GD ℚ) :=
  match pairCompute riseLoss (madeState riseLoss 8 (some riseGroups)) riseScores with
  | .ok (_, _, grads) => grads
  | _ => []

/-- What the tree is fitted to. -/
def riseEnv : FitEnv ℚ ℚ := { fitEnv with w := riseLoss.w, features := [("side", riseColumn)], grads := riseGrads }

theorem rise_convex : ConvexPair riseLoss where
  sort := ratDescSort_spec
  ofNat := fun n => Nat.cast_nonneg n
  rnd32 := fun _ => rfl
  fabs := fun x => by
    simp only [riseLoss, fewLoss]
    split <;> linarith
  weights := fun _ => zero_le_one
  hessian := fun a b => by
    simp only [riseLoss, squaredHinge]
    split
    · show (0 : ℚ) ≤ 1
      norm_num
    · exact le_refl _

theorem rise_data : FitData riseEnv riseCols where
  rows := fun name c hc => by
    simp only [riseEnv, List.mem_singleton, Prod.mk.injEq] at hc
    obtain ⟨rfl, rfl⟩ := hc
    have : HasRows 8 riseColumn :=
      (TrainRows.str (A := ℚ) [["l", "r", "r", "l", "r", "l", "r", "l"]] (by decide) (by decide) : TrainRows 8 _).hasRows
    rw [← show riseGrads.length = 8 by decide +kernel] at this
    exact this
  stored := fun name c hc => by
    simp only [riseEnv, List.mem_singleton, Prod.mk.injEq] at hc
    obtain ⟨rfl, rfl⟩ := hc
    rfl

theorem rise_compute : ∃ s' c, pairCompute riseLoss (madeState riseLoss 8 (some riseGroups)) riseScores = ok (s', c, riseEnv.grads) := by
  obtain ⟨⟨s', c, grads⟩, hc⟩ := defined_of (o := pairCompute riseLoss (madeState riseLoss 8 (some riseGroups)) riseScores) (by decide +kernel)
  refine ⟨s', c, ?_⟩
  simp only [riseEnv, riseGrads, hc]

/-- The four pairs are drawn. -/
theorem rise_draws {index : Nat} (hi : index < 4) {ds : List (Draw ℚ)} (h : DrawsOf riseLoss (madeState riseLoss 8 (some riseGroups)) riseScores index ds) :
    ∃ dg dh, ds = [⟨2 * index, 2 * index + 1, 1, dg, dh⟩] := by
  obtain ⟨g0, g, h1, h2, h3, h4⟩ := h
  have hg : ∀ i < 4, (madeState riseLoss 8 (some riseGroups)).groups[i]? =
      some { rows := [2 * i, 2 * i + 1], ranks := [0, 1], numPairs := 1, pairMap := [(1, 1, 1)] } := by decide +kernel
  rw [hg index hi, Option.some.injEq] at h1
  subst h1
  have hp : (madeState riseLoss 8 (some riseGroups)).prob = 1 := by decide +kernel
  have hm : (madeState riseLoss 8 (some riseGroups)).minNumPairs = 1 := by decide +kernel
  rw [if_neg (by decide), Outcome.ok.injEq] at h2
  subst h2
  have hlen : ds.length = 1 := by
    rw [hp] at h3
    have h5 : ds.length = (Rat.floor 1).toNat := by simpa [riseLoss, fewLoss] using h3.symm
    rw [h5]
    decide +kernel
  obtain ⟨d, rfl⟩ := List.length_eq_one_iff.mp hlen
  obtain ⟨k1, _, _, a, b, ra, rb, _, _, _, _, k2⟩ := h4 0 d rfl
  have hdr : drawnRows { rows := [2 * index, 2 * index + 1], ranks := [0, 1], numPairs := 1, pairMap := [(1, 1, 1)] }
      (riseLoss.draw (madeState riseLoss 8 (some riseGroups)).round index 0 1) = ok (2 * index, 2 * index + 1) := by
    have : riseLoss.draw (madeState riseLoss 8 (some riseGroups)).round index 0 1 = 0 := Nat.mod_one _
    rw [this]
    rfl
  rw [hdr, Outcome.ok.injEq, Prod.mk.injEq] at k1
  have hw : d.weight = 1 := by
    rw [k2, hm]
    simp [riseLoss, fewLoss, weightOf]
  obtain ⟨pos, neg, weight, dg, dh⟩ := d
  obtain ⟨k3, k4⟩ := k1
  simp only at k3 k4 hw
  subst k3 k4 hw
  exact ⟨dg, dh, rfl⟩

/-- **C207 is false.** Three pairs of four are as far apart as gbrank asks for and have no hessian; the tree that improves the fourth pulls them together, and
the loss of the pairs goes from 1 to 13/9. -/
theorem C207_refuted : ¬ C207_full := by
  intro h
  obtain ⟨s', c, hc⟩ := rise_compute
  obtain ⟨⟨t, q⟩, ht⟩ := defined_of (o := fitTree riseEnv twiceCfg 0) (by decide +kernel)
  obtain ⟨draws, h1, h2, h3⟩ := h _ 8 _ _ s' _ c riseEnv twiceCfg riseCols 0 q t rise_convex rfl
    (PairReach.init (madeState_eq (by decide +kernel))) hc rise_data (fun _ => rfl) (by decide +kernel) limit_draw rfl (fun _ => rfl) ht
  have hlen : draws.length = 4 := by
    rw [h1]
    decide +kernel
  have hval : (List.range 8).map (fun i => (scoreOf riseCols t i).getD 0) = [1 / 3, -1 / 3, -1 / 3, 1 / 3, -1 / 3, 1 / 3, -1 / 3, 1 / 3] := by
    have key : (match fitTree riseEnv twiceCfg 0 with
      | .ok (t, _) => decide ((List.range 8).map (fun i => (scoreOf riseCols t i).getD 0) = [1 / 3, -1 / 3, -1 / 3, 1 / 3, -1 / 3, 1 / 3, -1 / 3, 1 / 3])
      | _ => false) = true := by decide +kernel
    rw [ht] at key
    exact of_decide_eq_true key
  match draws, hlen, h2, h3 with
  | [d0, d1, d2, d3], _, h2, h3 =>
    obtain ⟨a0, b0, rfl⟩ := rise_draws (by decide) (h2 0 d0 rfl)
    obtain ⟨a1, b1, rfl⟩ := rise_draws (by decide) (h2 1 d1 rfl)
    obtain ⟨a2, b2, rfl⟩ := rise_draws (by decide) (h2 2 d2 rfl)
    obtain ⟨a3, b3, rfl⟩ := rise_draws (by decide) (h2 3 d3 rfl)
    simp only [List.range_succ, List.range_zero, List.nil_append, List.cons_append, List.map_cons, List.map_nil, List.cons.injEq, and_true] at hval
    obtain ⟨v0, v1, v2, v3, v4, v5, v6, v7⟩ := hval
    simp only [pairLossAt, List.flatten_cons, List.flatten_nil, List.append_nil, List.cons_append, List.nil_append, List.map_cons, List.map_nil,
      List.sum_cons, List.sum_nil, Nat.mul_zero, Nat.zero_add, Nat.mul_one, Nat.reduceMul, Nat.reduceAdd, v0, v1, v2, v3, v4, v5, v6, v7] at h3
    revert h3
    decide +kernel

/-- The hypotheses of `C207_fall_partial` can be met: the same data with `l2_lambda` 8, four pairs of weight 1. -/
example : (match fitTree riseEnv { twiceCfg with l2Lambda := 8 } 0 with
    | .ok (t, _) => decide ((List.range 8).map (fun i => (scoreOf riseCols t i).getD 0) =
      [1 / 10, -1 / 10, -1 / 10, 1 / 10, -1 / 10, 1 / 10, -1 / 10, 1 / 10])
    | _ => false) = true := by decide +kernel

end Gbdt
