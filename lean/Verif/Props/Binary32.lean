import Verif.Lemmas.Binary32
import Verif.Props.SplitWitness

/-!
# C186 (and C63): float splits in IEEE arithmetic

Thresholds are computed as `split_algo.cc:228-231` does, in binary32 and binary64 with subnormal numbers, overflow and infinities
(`binary32Thr`).
-/

set_option autoImplicit false

namespace Gbdt

open Outcome

/-- The thresholds that binary32 puts between floats that are not neighbours separate them. -/
theorem binary32_separates {nb : Nat} {blocks : List (List (Fl F32))} {c : BktCol F32} (hf : Fits nb blocks)
    (hok : BktCol.build F32.max nb blocks = ok c) (hv : ∀ v, Fl.num v ∈ blocks.flatten → HalfRange v)
    (hno : NoNeighbours blocks.flatten) : @ThrSeparates F32 _ binary32Thr c := by
  have hle : ∀ q : ℚ, |q| < 2 ^ 127 → q ≤ 2 ^ 128 - 2 ^ 104 := by
    intro q hq
    have := (abs_lt.mp hq).2
    linarith
  have hfin : ∀ v, Fl.num v ∈ blocks.flatten → v ≤ F32.max := by
    intro v hm
    obtain ⟨q, rfl, _, hq⟩ := hv v hm
    exact F32.fin_le.mpr (hle q hq)
  refine @ThrSeparates.mk F32 _ binary32Thr c ?_ ?_
  · intro codes hcodes j hj k hk a b ha hb hab
    obtain ⟨h1, h2, _⟩ := limits_values hf.1 hf.2 hok hfin hcodes
    have mb := h2 k hk b hb
    rcases h1 j hj a ha with ma | rfl
    · obtain ⟨x, rfl, hx1, hx2⟩ := hv a ma
      obtain ⟨y, rfl, hy1, hy2⟩ := hv b mb
      have hxy := F32.fin_lt.mp hab
      obtain ⟨t, ht, _, t2, t3⟩ := mid_between hx1 hy1 hx2 hy2 hxy
      exact ⟨F32.fin t, ht, F32.fin_lt.mpr (t3 (hno x y ma mb hxy)), F32.fin_le.mpr t2⟩
    · exact absurd (hfin b mb) (not_le.mpr hab)
  · intro a ha
    obtain ⟨codes, wf, _⟩ := bktWF_build hf.1 hf.2 hok hfin
    obtain ⟨_, _, h3⟩ := limits_values hf.1 hf.2 hok hfin wf.data
    rcases h3 a ha with ma | rfl
    · obtain ⟨x, rfl, hx1, hx2⟩ := hv a ma
      have := abs_lt.mp hx2
      exact below_not_larger hx1 (abs_le.mpr ⟨by linarith, by linarith⟩)
    · exact below_not_larger binary_max (by rw [abs_of_nonneg (by norm_num)])

section
variable {D : Type} [Dbl D] [FpOrder D]

/-- **C186.** In IEEE arithmetic, a split found on a float feature whose values are below `2 ^ 127` in magnitude and not neighbours in
binary32 sends at least one sample to each side. -/
theorem C186_both_sides {nb : Nat} {blocks : List (List (Fl F32))} {c : BktCol F32} (hf : Fits nb blocks)
    (hok : BktCol.build F32.max nb blocks = ok c) (hv : ∀ v, Fl.num v ∈ blocks.flatten → HalfRange v) (hno : NoNeighbours blocks.flatten)
    (w : Nat → D) (grads : List (GD D)) (samples : List Nat) (cfg : SplitConfig D) (total : GD D)
    (hin : ∀ i ∈ samples, i < blocks.flatten.length ∧ i < grads.length) (hmh : ∀ x : D, Dbl.ltb cfg.minHessian ((0 + x) - x) = false)
    (s : Split D F32) (hs : @findBestSplit D F32 _ binary32Thr (fun _ l => l) (.bkt c) w grads samples cfg total = ok (some s)) :
    ∃ L R, partition (.bkt c) s samples = ok (L, R) ∧ L ≠ [] ∧ R ≠ [] := by
  refine @C32_float_children_nonempty D _ _ F32 _ binary32Thr F32.max nb blocks c hf hok (binary32_separates hf hok hv hno) ?_ w grads
    samples cfg total hin hmh s hs
  intro v hm
  obtain ⟨q, rfl, _, hq⟩ := hv v hm
  have := (abs_lt.mp hq).2
  exact F32.fin_le.mpr (by linarith)

end

/-- **C186 (the threshold).** The threshold that is put between two floats below `2 ^ 127` in magnitude is a float between them; it can
only be the smaller one, so that no value lies below it, if the two are neighbours. -/
theorem C186_threshold {a b : ℚ} (ha : HalfRange (F32.fin a)) (hb : HalfRange (F32.fin b)) (hab : a < b) :
    ∃ t, binary32Thr.mid (F32.fin a) (F32.fin b) = .num (F32.fin t) ∧ a ≤ t ∧ t ≤ b ∧
      (t = a → ¬ ∃ m, Binary 24 149 m ∧ a < m ∧ m < b) := by
  obtain ⟨x, hx, hx1, hx2⟩ := ha
  obtain ⟨y, hy, hy1, hy2⟩ := hb
  cases F32.fin_inj hx
  cases F32.fin_inj hy
  obtain ⟨t, h1, h2, h3, h4⟩ := mid_between hx1 hy1 hx2 hy2 hab
  exact ⟨t, h1, h2, h3, fun he hm => absurd (h4 hm) (by rw [he]; exact lt_irrefl _)⟩

/-- Values for the examples: a missing one, the smallest subnormal number, three times it, one third and 1. -/
def apartCol : List (List (Fl F32)) :=
  [[.nan, .num (F32.fin (1 / 2 ^ 149)), .num (F32.fin (3 / 2 ^ 149))], [.num (F32.fin (11184811 / 2 ^ 25)), .num (F32.fin 1)]]

/-- The gradients of `apartCol`. -/
def apartGrads : List (GD ℚ) := [⟨0, 1⟩, ⟨1, 1⟩, ⟨-3, 1⟩, ⟨1, 1⟩, ⟨1, 1⟩]

/-- They meet the hypotheses. -/
example : Fits 10 apartCol ∧ (∀ v, Fl.num v ∈ apartCol.flatten → HalfRange v) ∧ NoNeighbours apartCol.flatten := by
  refine ⟨by unfold Fits; decide, ?_, ?_⟩
  · intro v hv
    simp only [apartCol, List.flatten_cons, List.flatten_nil, List.append_nil, List.cons_append, List.nil_append,
      List.mem_cons, Fl.num.injEq, reduceCtorEq, List.not_mem_nil, false_or, or_false] at hv
    rcases hv with rfl | rfl | rfl | rfl
    · exact ⟨_, rfl, ⟨1, -149, by norm_num, by norm_num, by norm_num⟩, by norm_num⟩
    · exact ⟨_, rfl, ⟨3, -149, by norm_num, by norm_num, by norm_num⟩, by norm_num⟩
    · exact ⟨_, rfl, ⟨11184811, -25, by norm_num, by norm_num, by norm_num⟩, by norm_num⟩
    · exact ⟨_, rfl, ⟨1, 0, by norm_num, by norm_num, by norm_num⟩, by norm_num⟩
  · intro a b ha hb hab
    simp only [apartCol, List.flatten_cons, List.flatten_nil, List.append_nil, List.cons_append, List.nil_append,
      List.mem_cons, Fl.num.injEq, reduceCtorEq, List.not_mem_nil, false_or, or_false] at ha hb
    rcases hb with hb | hb | hb | hb <;> cases F32.fin_inj hb
    · exfalso
      rcases ha with ha | ha | ha | ha <;> cases F32.fin_inj ha <;> revert hab <;> norm_num
    · refine ⟨2 / 2 ^ 149, ⟨2, -149, by norm_num, by norm_num, by norm_num⟩, ?_⟩
      rcases ha with ha | ha | ha | ha <;> cases F32.fin_inj ha <;> first | (exfalso; revert hab; norm_num; done) | norm_num
    · refine ⟨1 / 4, ⟨1, -2, by norm_num, by norm_num, by norm_num⟩, ?_⟩
      rcases ha with ha | ha | ha | ha <;> cases F32.fin_inj ha <;> first | (exfalso; revert hab; norm_num; done) | norm_num
    · refine ⟨1 / 2, ⟨1, -1, by norm_num, by norm_num, by norm_num⟩, ?_⟩
      rcases ha with ha | ha | ha | ha <;> cases F32.fin_inj ha <;> first | (exfalso; revert hab; norm_num; done) | norm_num

/-- A split found on them, between the two subnormal numbers. -/
example : (BktCol.build F32.max 10 apartCol >>= fun c =>
      @findBestSplit ℚ F32 _ binary32Thr (fun _ l => l) (.bkt c) (fun _ => (1 : ℚ)) apartGrads [1, 2] freeCfg ⟨-2, 2⟩ >>= fun s =>
      match s with
      | some s => partition (.bkt c) s [1, 2]
      | none => ok ([], [])) = ok ([1], [2]) := by decide +kernel

/-! ## Overflow -/

/-- **C63, in full, in IEEE arithmetic**: for finite floats that are not neighbours both sides of a found split get a sample. -/
def C63_full_ieee : Prop :=
  ∀ (nb : Nat) (blocks : List (List (Fl F32))) (c : BktCol F32), Fits nb blocks → BktCol.build F32.max nb blocks = ok c →
    (∀ v, Fl.num v ∈ blocks.flatten → ∃ q, v = F32.fin q ∧ Binary 24 149 q ∧ |q| ≤ 2 ^ 128 - 2 ^ 104) → NoNeighbours blocks.flatten →
    ∀ (grads : List (GD ℚ)) (samples : List Nat) (cfg : SplitConfig ℚ) (s : Split ℚ F32), 0 ≤ cfg.minHessian →
      (∀ i ∈ samples, i < blocks.flatten.length ∧ i < grads.length) → (∀ d ∈ grads, 0 < d.h) →
      @findBestSplit ℚ F32 _ binary32Thr (fun _ l => l) (.bkt c) (fun _ => (1 : ℚ)) grads samples cfg
        (sumOf (weighted (fun _ => 1) grads) samples) = ok (some s) →
      ∃ L R, partition (.bkt c) s samples = ok (L, R) ∧ L ≠ [] ∧ R ≠ []

/-- Two floats whose sum is above the largest float: `2 ^ 127` and one and a half times it. -/
def hugeCol : List (List (Fl F32)) := [[.num (F32.fin (2 ^ 127)), .num (F32.fin (2 ^ 127 + 2 ^ 126))]]

/-- The division of `hugeCol` made by the split found. -/
def hugeRun : Outcome (Option (List Nat × List Nat)) := do
  let c ← BktCol.build F32.max 10 hugeCol
  let s ← @findBestSplit ℚ F32 _ binary32Thr (fun _ l => l) (.bkt c) (fun _ => (1 : ℚ)) nearGrads [0, 1] freeCfg
    (sumOf (weighted (fun _ => 1) nearGrads) [0, 1])
  match s with
  | none => pure none
  | some s => do
    let r ← partition (.bkt c) s [0, 1]
    pure (some r)

/-- **C63 is false for large numbers, too**: the sum of the two numbers overflows, the threshold is infinite and both samples go left. -/
theorem C63_refuted_overflow : ¬ C63_full_ieee := by
  intro h
  have hrun : hugeRun = ok (some ([0, 1], [])) := by decide +kernel
  simp only [hugeRun, bind_eq_ok] at hrun
  obtain ⟨c, hc, s, hs, hrest⟩ := hrun
  cases s with
  | none => simp at hrest
  | some s =>
    obtain ⟨L, R, hp, _, hR⟩ := h 10 hugeCol c (by unfold Fits; decide) hc (by
        intro v hv
        simp only [hugeCol, List.flatten_cons, List.flatten_nil, List.append_nil,
          List.mem_cons, Fl.num.injEq, List.not_mem_nil, or_false] at hv
        rcases hv with rfl | rfl
        · exact ⟨_, rfl, ⟨1, 127, by norm_num, by norm_num, by norm_num⟩, by norm_num⟩
        · exact ⟨_, rfl, ⟨3, 126, by norm_num, by norm_num, by norm_num⟩, by norm_num⟩)
      (by
        intro a b ha hb hab
        simp only [hugeCol, List.flatten_cons, List.flatten_nil, List.append_nil,
          List.mem_cons, Fl.num.injEq, List.not_mem_nil, or_false] at ha hb
        refine ⟨2 ^ 127 + 2 ^ 125, ⟨5, 125, by norm_num, by norm_num, by norm_num⟩, ?_⟩
        rcases ha with ha | ha <;> rcases hb with hb | hb <;> cases F32.fin_inj ha <;> cases F32.fin_inj hb <;>
          first | (exfalso; revert hab; norm_num; done) | norm_num)
      nearGrads [0, 1] freeCfg s (by decide +kernel) (by decide) (by decide +kernel) hs
    simp only [hp, ok_bind, pure_eq, Outcome.ok.injEq, Option.some.injEq, Prod.mk.injEq] at hrest
    exact hR hrest.2

end Gbdt
