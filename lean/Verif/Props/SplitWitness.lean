import Verif.Props.SplitGain
import Mathlib.Algebra.Order.Field.Basic
import Mathlib.Algebra.Order.Floor.Ring
import Mathlib.Data.Rat.Floor

/-!
# C29, C30, C32, C63: concrete cases and refutations
-/

set_option autoImplicit false

namespace Gbdt

open Outcome

/-- The threshold arithmetic in exact rational numbers. -/
instance exactThr : ThrOps ℚ where
  mid a b := .num ((a + b) / 2)
  below a := .num (a - 1 / 1000)

/-- It separates the buckets of every column. -/
theorem exactThr_separates (c : BktCol ℚ) : ThrSeparates c where
  mid _ _ _ _ _ _ a b _ _ h := ⟨(a + b) / 2, rfl, by linarith, by linarith⟩
  below a _ := ⟨a - 1 / 1000, rfl, by linarith⟩

/-- A config without limits. -/
def freeCfg : SplitConfig ℚ := { l2Lambda := 0, minHessian := 0, minGain := 0, tol := 1 / 1000000 }

/-- A float feature for the examples: two missing values, 1, 2, 3, 2. -/
def gainCol : List (List (Fl ℚ)) := [[.nan, .num 1, .num 2], [.nan, .num 3, .num 2]]

/-- Gradients for `gainCol`. -/
def gainGrads : List (GD ℚ) := [⟨1, 1⟩, ⟨-4, 1⟩, ⟨2, 1⟩, ⟨3, 2⟩, ⟨5, 1⟩, ⟨-1, 2⟩]

/-- Missing values go right of a cut between 1 and 2. -/
example : (BktCol.build (1000 : ℚ) 10 gainCol >>= fun c =>
      findBestSplit (fun _ l => l) (.bkt c) (fun _ => (1 : ℚ)) gainGrads [0, 1, 2, 3, 4, 5] freeCfg
        (sumOf (weighted (fun _ => 1) gainGrads) [0, 1, 2, 3, 4, 5])) =
    ok (some { floatSplit := some ⟨.num (3 / 2), true⟩, gain := 16 / 1 + 100 / 7 - 36 / 8 }) := by decide +kernel

/-- That case meets the hypotheses of C29 and C30: sizes, no value above FLT_MAX, no half-zero bin. -/
example : Fits 10 gainCol ∧ (∀ v, Fl.num v ∈ gainCol.flatten → v ≤ (1000 : ℚ)) ∧
    ∀ c, BktCol.build (1000 : ℚ) 10 gainCol = ok c →
      NoHalfZero c.ints.code (weighted (fun _ => (1 : ℚ)) gainGrads) [0, 1, 2, 3, 4, 5] := by
  refine ⟨by unfold Fits; decide, ?_, ?_⟩
  · intro v hv
    simp only [gainCol, List.flatten_cons, List.flatten_nil, List.append_nil, List.cons_append, List.nil_append,
      List.mem_cons, Fl.num.injEq, reduceCtorEq, List.not_mem_nil, false_or, or_false] at hv
    rcases hv with rfl | rfl | rfl | rfl <;> norm_num
  · intro c hc k
    have hcode : ∀ i ∈ [0, 1, 2, 3, 4, 5], c.ints.code i = vecGet [0, 1, 2, 0, 3, 2] i := by
      have : (BktCol.build (1000 : ℚ) 10 gainCol >>= fun c => [0, 1, 2, 3, 4, 5].mapM c.ints.code) = ok [0, 1, 2, 0, 3, 2] := by
        decide +kernel
      rw [hc, ok_bind] at this
      simp only [List.mapM_cons, List.mapM_nil, bind_eq_ok, pure_eq, Outcome.ok.injEq] at this
      obtain ⟨_, h0, _, ⟨_, h1, _, ⟨_, h2, _, ⟨_, h3, _, ⟨_, h4, _, ⟨_, h5, _, rfl, rfl⟩, rfl⟩, rfl⟩, rfl⟩, rfl⟩, he⟩ := this
      simp only [List.cons.injEq, and_true] at he
      obtain ⟨rfl, rfl, rfl, rfl, rfl, rfl⟩ := he
      intro i hi
      simp only [List.mem_cons, List.not_mem_nil, or_false] at hi
      rcases hi with rfl | rfl | rfl | rfl | rfl | rfl <;> simp [h0, h1, h2, h3, h4, h5, vecGet]
    have hfil : [0, 1, 2, 3, 4, 5].filter (fun i => decide (c.ints.code i = .ok k)) =
        [0, 1, 2, 3, 4, 5].filter (fun i => decide (vecGet [0, 1, 2, 0, 3, 2] i = .ok k)) := by
      apply List.filter_congr
      intro i hi
      rw [hcode i hi]
    rw [hfil]
    by_cases hk : k < 4
    · have : ∀ k < 4, ((sumOf (weighted (fun _ => (1 : ℚ)) gainGrads)
          ([0, 1, 2, 3, 4, 5].filter (fun i => decide (vecGet [0, 1, 2, 0, 3, 2] i = .ok k)))).g = 0 ↔
        (sumOf (weighted (fun _ => (1 : ℚ)) gainGrads)
          ([0, 1, 2, 3, 4, 5].filter (fun i => decide (vecGet [0, 1, 2, 0, 3, 2] i = .ok k)))).h = 0) := by decide +kernel
      exact this k hk
    · have : [0, 1, 2, 3, 4, 5].filter (fun i => decide (vecGet [0, 1, 2, 0, 3, 2] i = .ok k)) = [] := by
        rw [List.filter_eq_nil_iff]
        intro i hi
        simp only [List.mem_cons, List.not_mem_nil, or_false] at hi
        rcases hi with rfl | rfl | rfl | rfl | rfl | rfl <;> simp [vecGet] <;> omega
      rw [this]
      decide +kernel

/-- **C29, in full**: the same without the condition on bins, for samples with positive hessians and weight 1. -/
def C29_full : Prop :=
  ∀ (nb : Nat) (blocks : List (List (Fl ℚ))) (c : BktCol ℚ), Fits nb blocks → BktCol.build (1000 : ℚ) nb blocks = ok c →
    (∀ v, Fl.num v ∈ blocks.flatten → v ≤ (1000 : ℚ)) →
    ∀ (grads : List (GD ℚ)) (samples : List Nat) (cfg : SplitConfig ℚ) (s : Split ℚ ℚ),
      (∀ i ∈ samples, i < blocks.flatten.length ∧ i < grads.length) → (∀ d ∈ grads, 0 < d.h) →
      findBestSplit (fun _ l => l) (.bkt c) (fun _ => (1 : ℚ)) grads samples cfg
        (sumOf (weighted (fun _ => 1) grads) samples) = ok (some s) →
      ∃ L R, partition (.bkt c) s samples = ok (L, R) ∧
        s.gain = gainOf cfg.l2Lambda (sumOf (weighted (fun _ => 1) grads) samples)
          (sumOf (weighted (fun _ => 1) grads) L) (sumOf (weighted (fun _ => 1) grads) R)

/-- The data refuting C29: two missing values whose gradients cancel, then 1 and 2. -/
def cancelCol : List (List (Fl ℚ)) := [[.nan, .nan, .num 1, .num 2]]

/-- Their gradients. -/
def cancelGrads : List (GD ℚ) := [⟨1, 1⟩, ⟨-1, 1⟩, ⟨4, 1⟩, ⟨-2, 1⟩]

/-- The outcome of splitting `cancelCol`: reported gain and gain of the division made. -/
def cancelRun : Outcome (Option (ℚ × ℚ)) := do
  let c ← BktCol.build (1000 : ℚ) 10 cancelCol
  let s ← findBestSplit (fun _ l => l) (.bkt c) (fun _ => (1 : ℚ)) cancelGrads [0, 1, 2, 3] freeCfg
    (sumOf (weighted (fun _ => 1) cancelGrads) [0, 1, 2, 3])
  match s with
  | none => pure none
  | some s => do
    let (L, R) ← partition (.bkt c) s [0, 1, 2, 3]
    pure (some (s.gain, gainOf freeCfg.l2Lambda (sumOf (weighted (fun _ => 1) cancelGrads) [0, 1, 2, 3])
      (sumOf (weighted (fun _ => 1) cancelGrads) L) (sumOf (weighted (fun _ => 1) cancelGrads) R)))

/-- **C29 is false in full**: the gradients of the missing values cancel, their bin is left out of the scan although
their hessian counts, and the gain reported (16 + 4/3 - 1) is not that of the division made (16/3 + 4 - 1). -/
theorem C29_refuted : ¬ C29_full := by
  intro h
  have hrun : cancelRun = ok (some (16 + 4 / 3 - 1, 16 / 3 + 4 - 1)) := by decide +kernel
  simp only [cancelRun, bind_eq_ok] at hrun
  obtain ⟨c, hc, s, hs, hrest⟩ := hrun
  cases s with
  | none => simp at hrest
  | some s =>
    obtain ⟨L, R, hp, hg⟩ := h 10 cancelCol c (by unfold Fits; decide) hc (by
        intro v hv
        simp only [cancelCol, List.flatten_cons, List.flatten_nil, List.append_nil,
          List.mem_cons, Fl.num.injEq, reduceCtorEq, List.not_mem_nil, false_or, or_false] at hv
        rcases hv with rfl | rfl <;> norm_num)
      cancelGrads [0, 1, 2, 3] freeCfg s (by decide) (by decide +kernel) hs
    simp only [hp, ok_bind, pure_eq, Outcome.ok.injEq, Option.some.injEq, Prod.mk.injEq] at hrest
    rw [hrest.2, hrest.1] at hg
    norm_num at hg

/-- **C30, in full**: the same without the condition on bins, for samples with positive hessians and weight 1. -/
def C30_full : Prop :=
  ∀ (nb : Nat) (blocks : List (List (Fl ℚ))) (c : BktCol ℚ), Fits nb blocks → BktCol.build (1000 : ℚ) nb blocks = ok c →
    (∀ v, Fl.num v ∈ blocks.flatten → v ≤ (1000 : ℚ)) →
    ∀ (grads : List (GD ℚ)) (samples : List Nat) (cfg : SplitConfig ℚ) (s : Split ℚ ℚ) (f : FloatSplit ℚ) (L R : List Nat),
      (∀ i ∈ samples, i < blocks.flatten.length ∧ i < grads.length) → (∀ d ∈ grads, 0 < d.h) →
      findBestSplit (fun _ l => l) (.bkt c) (fun _ => (1 : ℚ)) grads samples cfg
        (sumOf (weighted (fun _ => 1) grads) samples) = ok (some s) →
      partition (.bkt c) ({ floatSplit := some f, gain := 0 } : Split ℚ ℚ) samples = ok (L, R) →
      cfg.minHessian < (sumOf (weighted (fun _ => 1) grads) L).h →
      cfg.minHessian < (sumOf (weighted (fun _ => 1) grads) R).h →
      gainOf cfg.l2Lambda (sumOf (weighted (fun _ => 1) grads) samples)
          (sumOf (weighted (fun _ => 1) grads) L) (sumOf (weighted (fun _ => 1) grads) R) ≤ s.gain

/-- The data refuting C30: 1, twice 2 with cancelling gradients, 3. -/
def skipCol : List (List (Fl ℚ)) := [[.num 1, .num 2, .num 2, .num 3]]

/-- Their gradients. -/
def skipGrads : List (GD ℚ) := [⟨4, 1⟩, ⟨1, 1⟩, ⟨-1, 2⟩, ⟨-6, 1⟩]

/-- The outcome of splitting `skipCol`: reported gain, gain of the division at 5/2, and the hessians of the latter. -/
def skipRun : Outcome (Option (ℚ × ℚ × ℚ × ℚ)) := do
  let c ← BktCol.build (1000 : ℚ) 10 skipCol
  let s ← findBestSplit (fun _ l => l) (.bkt c) (fun _ => (1 : ℚ)) skipGrads [0, 1, 2, 3] freeCfg
    (sumOf (weighted (fun _ => 1) skipGrads) [0, 1, 2, 3])
  match s with
  | none => pure none
  | some s => do
    let r ← partition (.bkt c) ({ floatSplit := some ⟨.num (5 / 2), false⟩, gain := 0 } : Split ℚ ℚ) [0, 1, 2, 3]
    pure (some (s.gain, gainOf freeCfg.l2Lambda (sumOf (weighted (fun _ => 1) skipGrads) [0, 1, 2, 3])
      (sumOf (weighted (fun _ => 1) skipGrads) r.1) (sumOf (weighted (fun _ => 1) skipGrads) r.2),
      (sumOf (weighted (fun _ => 1) skipGrads) r.1).h, (sumOf (weighted (fun _ => 1) skipGrads) r.2).h))

/-- **C30 is false in full**: the value 2 is not scanned because its gradients cancel, so the better cut after it is
missed (reported 116/5, possible 196/5). -/
theorem C30_refuted : ¬ C30_full := by
  intro h
  have hrun : ∃ a b : ℚ, skipRun = ok (some (a, b, 4, 1)) ∧ a < b := ⟨16 + 36 / 4 - 4 / 5, 16 / 4 + 36 - 4 / 5, by decide +kernel, by norm_num⟩
  obtain ⟨a, b, hrun, hab⟩ := hrun
  simp only [skipRun, bind_eq_ok] at hrun
  obtain ⟨c, hc, s, hs, hrest⟩ := hrun
  cases s with
  | none => simp at hrest
  | some s =>
    simp only [bind_eq_ok] at hrest
    obtain ⟨⟨L, R⟩, hp, hrest⟩ := hrest
    simp only [pure_eq, Outcome.ok.injEq, Option.some.injEq, Prod.mk.injEq] at hrest
    obtain ⟨h1, h2, h3, h4⟩ := hrest
    have := h 10 skipCol c (by unfold Fits; decide) hc (by
        intro v hv
        simp only [skipCol, List.flatten_cons, List.flatten_nil, List.append_nil,
          List.mem_cons, Fl.num.injEq, List.not_mem_nil, or_false] at hv
        rcases hv with rfl | rfl | rfl | rfl <;> norm_num)
      skipGrads [0, 1, 2, 3] freeCfg s _ L R (by decide) (by decide +kernel) hs hp
      (by rw [h3]; norm_num [freeCfg]) (by rw [h4]; norm_num [freeCfg])
    rw [h1, h2] at this
    exact absurd hab (not_lt.mpr this)

/-- Concrete case of C32 for floats: the split of `gainCol` above, whose hypotheses hold (`min_hessian` is 0). -/
example : (BktCol.build (1000 : ℚ) 10 gainCol >>= fun c =>
      partition (.bkt c) ({ floatSplit := some ⟨.num (3 / 2), true⟩, gain := 1 } : Split ℚ ℚ) [0, 1, 2, 3, 4, 5]) =
    ok ([1], [0, 2, 3, 4, 5]) ∧ ∀ x : ℚ, Dbl.ltb freeCfg.minHessian ((0 + x) - x) = false := by
  refine ⟨by decide +kernel, fun x => ?_⟩
  simp [freeCfg]

/-! ## Binary32 thresholds -/

/-- Round to the nearest integer, ties to even. -/
def roundEven (q : ℚ) : ℤ :=
  let f := ⌊q⌋
  if q - f < 1 / 2 then f else if 1 / 2 < q - f then f + 1 else if f % 2 = 0 then f else f + 1

/-- The integer `e` with `2^e ≤ |q| < 2^(e+1)`, `q ≠ 0`. -/
def log2Rat (q : ℚ) : ℤ :=
  let a := Nat.log2 q.num.natAbs
  let b := Nat.log2 q.den
  let e : ℤ := a - b
  if |q| < (2 : ℚ) ^ e then e - 1 else e

/-- Round to `p` significant bits, ties to even, with unbounded exponent. -/
def roundBits (p : ℤ) (q : ℚ) : ℚ :=
  if q = 0 then 0 else
    let u : ℚ := 2 ^ (log2Rat q - p + 1)
    roundEven (q / u) * u

/-- The threshold arithmetic of `split_algo.cc:228-231` in binary32 and binary64, apart from overflow and subnormal
numbers: the sum is a `float`, the rest `double`, the result a `float`. -/
@[instance_reducible] def f32Thr : ThrOps ℚ where
  mid a b := .num (roundBits 24 (roundBits 24 (a + b) / 2))
  below a := .num (roundBits 24 (roundBits 53 (a - roundBits 53 (1 / 1000))))

/-- **C63, in full**: with binary32 thresholds both sides of a found float split get a sample. -/
def C63_full : Prop :=
  ∀ (nb : Nat) (blocks : List (List (Fl ℚ))) (c : BktCol ℚ), Fits nb blocks →
    BktCol.build (2 ^ 100 : ℚ) nb blocks = ok c →
    (∀ v, Fl.num v ∈ blocks.flatten → v ≤ (2 ^ 100 : ℚ) ∧ roundBits 24 v = v) →
    ∀ (grads : List (GD ℚ)) (samples : List Nat) (cfg : SplitConfig ℚ) (s : Split ℚ ℚ), 0 ≤ cfg.minHessian →
      (∀ i ∈ samples, i < blocks.flatten.length ∧ i < grads.length) → (∀ d ∈ grads, 0 < d.h) →
      @findBestSplit ℚ ℚ _ f32Thr (fun _ l => l) (.bkt c) (fun _ => (1 : ℚ)) grads samples cfg
        (sumOf (weighted (fun _ => 1) grads) samples) = ok (some s) →
      ∃ L R, partition (.bkt c) s samples = ok (L, R) ∧ L ≠ [] ∧ R ≠ []

/-- The data refuting C63: two neighbouring floats. -/
def nearCol : List (List (Fl ℚ)) := [[.num 16777216, .num 16777218]]

/-- Their gradients. -/
def nearGrads : List (GD ℚ) := [⟨1, 1⟩, ⟨-1, 1⟩]

/-- The division of `nearCol` made by the split found. -/
def nearRun : Outcome (Option (List Nat × List Nat)) := do
  let c ← BktCol.build (2 ^ 100 : ℚ) 10 nearCol
  let s ← @findBestSplit ℚ ℚ _ f32Thr (fun _ l => l) (.bkt c) (fun _ => (1 : ℚ)) nearGrads [0, 1] freeCfg
    (sumOf (weighted (fun _ => 1) nearGrads) [0, 1])
  match s with
  | none => pure none
  | some s => do
    let r ← partition (.bkt c) s [0, 1]
    pure (some r)

/-- **C63 is false**: 16777216 + 16777218 rounds to 33554432, the threshold is 16777216 and nothing lies below it; the
split found with gain 2 sends both samples right. -/
theorem C63_refuted : ¬ C63_full := by
  intro h
  have hrun : nearRun = ok (some ([], [0, 1])) := by decide +kernel
  simp only [nearRun, bind_eq_ok] at hrun
  obtain ⟨c, hc, s, hs, hrest⟩ := hrun
  cases s with
  | none => simp at hrest
  | some s =>
    obtain ⟨L, R, hp, hL, _⟩ := h 10 nearCol c (by unfold Fits; decide) hc (by
        intro v hv
        simp only [nearCol, List.flatten_cons, List.flatten_nil, List.append_nil,
          List.mem_cons, Fl.num.injEq, List.not_mem_nil, or_false] at hv
        rcases hv with rfl | rfl
        · exact ⟨by norm_num, by decide +kernel⟩
        · exact ⟨by norm_num, by decide +kernel⟩)
      nearGrads [0, 1] freeCfg s (by decide +kernel) (by decide) (by decide +kernel) hs
    simp only [hp, ok_bind, pure_eq, Outcome.ok.injEq, Option.some.injEq, Prod.mk.injEq] at hrest
    exact hL hrest.1

/-- **C63 (partial).** With binary32 thresholds both sides get a sample if the rounded midpoints separate the buckets of
the column.  What is missing is that they always do. -/
theorem C63_separating_partial {fmax : ℚ} {nb : Nat} {blocks : List (List (Fl ℚ))} {c : BktCol ℚ}
    (hf : Fits nb blocks) (hok : BktCol.build fmax nb blocks = ok c)
    (hfin : ∀ v, Fl.num v ∈ blocks.flatten → v ≤ fmax) (hthr : @ThrSeparates ℚ _ f32Thr c)
    (grads : List (GD ℚ)) (samples : List Nat) (cfg : SplitConfig ℚ) (s : Split ℚ ℚ)
    (h0 : 0 ≤ cfg.minHessian) (hin : ∀ i ∈ samples, i < blocks.flatten.length ∧ i < grads.length)
    (hs : @findBestSplit ℚ ℚ _ f32Thr (fun _ l => l) (.bkt c) (fun _ => (1 : ℚ)) grads samples cfg
        (sumOf (weighted (fun _ => 1) grads) samples) = ok (some s)) :
    ∃ L R, partition (.bkt c) s samples = ok (L, R) ∧ L ≠ [] ∧ R ≠ [] :=
  @C32_float_children_nonempty ℚ _ _ ℚ _ f32Thr fmax nb blocks c hf hok hthr hfin _ grads samples cfg _ hin
    (fun x => by simpa using h0) s hs

/-- The limits of the buckets of `gainCol`. -/
theorem gainCol_limits : ∃ c, BktCol.build (1000 : ℚ) 10 gainCol = ok c ∧
    c.mins = [.nan, .num 1, .num 2, .num 3, .num 1000] ∧ c.maxs = [.nan, .num 1, .num 2, .num 3, .num 1000] := by
  have : (BktCol.build (1000 : ℚ) 10 gainCol >>= fun c => ok (c.mins, c.maxs)) =
      ok ([.nan, .num 1, .num 2, .num 3, .num 1000], [.nan, .num 1, .num 2, .num 3, .num 1000]) := by decide +kernel
  rw [bind_eq_ok] at this
  obtain ⟨c, hc, h⟩ := this
  simp only [Outcome.ok.injEq, Prod.mk.injEq] at h
  exact ⟨c, hc, h.1, h.2⟩

/-- The buckets of `gainCol` are separated in binary32. -/
example (c : BktCol ℚ) (hc : BktCol.build (1000 : ℚ) 10 gainCol = ok c) : @ThrSeparates ℚ _ f32Thr c := by
  obtain ⟨c', hc', hmin, hmax⟩ := gainCol_limits
  rw [hc] at hc'
  cases hc'
  refine @ThrSeparates.mk ℚ _ f32Thr c ?_ ?_
  · intro _ _ j _ k _ a b ha hb hab
    rw [BktCol.bucketMax, hmax, vecGet_eq_ok] at ha
    rw [BktCol.bucketMin, hmin, vecGet_eq_ok] at hb
    have hcases : ∀ (i : Nat) (v : ℚ), ([Fl.nan, .num 1, .num 2, .num 3, .num 1000] : List (Fl ℚ))[i]? = some (.num v) →
        v = 1 ∨ v = 2 ∨ v = 3 ∨ v = 1000 := by
      intro i v h
      have := List.mem_of_getElem? h
      simpa using this
    have hmid : ∀ a ∈ [(1 : ℚ), 2, 3, 1000], ∀ b ∈ [(1 : ℚ), 2, 3, 1000], a < b →
        a < roundBits 24 (roundBits 24 (a + b) / 2) ∧ roundBits 24 (roundBits 24 (a + b) / 2) ≤ b := by decide +kernel
    exact ⟨_, rfl, hmid a (by simpa using hcases j a ha) b (by simpa using hcases k b hb) hab⟩
  · intro a ha
    rw [BktCol.bucketMin, hmin, vecGet_eq_ok] at ha
    simp only [List.getElem?_cons_succ, List.getElem?_cons_zero, Option.some.injEq, Fl.num.injEq] at ha
    subst ha
    exact ⟨_, rfl, by decide +kernel⟩

end Gbdt
