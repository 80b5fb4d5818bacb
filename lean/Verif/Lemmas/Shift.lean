import Verif.Lemmas.Stretch
import Verif.Props.Schedule
import Verif.Props.Pointwise

/-!
# Training on shifted targets

In exact arithmetic.  `ShiftBy δ f f'`: the function values of row `i` differ by `δ i`.
-/

set_option autoImplicit false
set_option linter.unusedSectionVars false

namespace Gbdt
open Outcome

variable {K A : Type} [Field K] [LinearOrder K] [IsStrictOrderedRing K] [LinearOrder A] [ThrOps A]

/-- Row `i` of `f'` is that of `f` plus `δ i`. -/
def ShiftBy (δ : Nat → K) (f f' : List K) : Prop := ∀ i : Nat, f'[i]? = f[i]?.map (· + δ i)

theorem ShiftBy.refl (f : List K) : ShiftBy (fun _ => 0) f f := by
  intro i
  cases f[i]? <;> simp

theorem ShiftBy.length {δ : Nat → K} {f f' : List K} (h : ShiftBy δ f f') : f'.length = f.length := by
  apply le_antisymm
  · have := h f.length
    simp at this
    exact this
  · have := h f'.length
    simp at this
    exact this

theorem ShiftBy.map {s : K} {δ : Nat → K} {f f' : List K} (h : ShiftBy δ f f') (hs : ∀ i < f.length, δ i = s) :
    f' = f.map (· + s) := by
  apply List.ext_getElem?
  intro i
  rw [h i, List.getElem?_map]
  by_cases hi : i < f.length
  · rw [hs i hi]
  · rw [List.getElem?_eq_none (by omega)]
    rfl

theorem OutRel.imp {α β : Type} {r q : α → β → Prop} {x : Outcome α} {y : Outcome β} (h : OutRel r x y) (hi : ∀ a b, r a b → q a b) :
    OutRel q x y := by
  cases h with
  | ok h => exact .ok (hi _ _ h)
  | ub => exact .ub
  | fatal => exact .fatal

theorem scoreSlices_of_ok {nt : Int} {n : Nat} {slices : List (List Nat)} (h : scoreSlices nt n = ok slices) : Slices n slices := by
  have hpos : 0 < nt := by
    by_contra hc
    rw [scoreSlices, divideSamples, groupSizes, if_pos (by omega)] at h
    cases h
  obtain ⟨sl, h1, h2⟩ := scoreSlices_ok hpos n
  rw [h1, Outcome.ok.injEq] at h
  exact h ▸ h2

theorem loadFeatures_raises {cols : String → Option (Column A)} {x : Code} : ∀ {names : List String}, loadFeatures cols names = .error x →
    (throwException x).isSome = true
  | [], h => by simp [loadFeatures] at h
  | name :: names, h => by
    rw [loadFeatures] at h
    cases hc : cols name with
    | none =>
      rw [hc] at h
      cases h
      rfl
    | some c =>
      rw [hc] at h
      simp only at h
      cases hl : loadFeatures cols names with
      | error z =>
        rw [hl] at h
        cases h
        exact loadFeatures_raises hl
      | ok _ =>
        rw [hl] at h
        cases h

theorem checkConfig_raises {one : K} {cfg : TrainConfig K} (h : checkConfig one cfg ≠ .ok) :
    (throwException (checkConfig one cfg)).isSome = true := by
  have : checkConfig one cfg = .invalidArgument ∨ checkConfig one cfg = .ok := by
    unfold checkConfig
    repeat' split
    all_goals simp
  rcases this with h1 | h1
  · rw [h1]; rfl
  · exact absurd h1 h

theorem shift_addToAll (x κ : K) : ∀ (samples : List Nat) {δ : Nat → K} {f f' : List K}, ShiftBy δ f f' →
    OutRel (ShiftBy (fun i => δ i + samples.count i * κ)) (addToAll x samples f) (addToAll (x + κ) samples f')
  | [], δ, f, f', h => .ok (by simpa using h)
  | j :: samples, δ, f, f', h => by
    unfold addToAll
    rw [List.foldlM_cons, List.foldlM_cons]
    have hj := h j
    cases hf : f[j]? with
    | none =>
      rw [hf, Option.map_none] at hj
      simp only [Outcome.vecGet, hf, hj]
      exact .ub
    | some v =>
      rw [hf, Option.map_some] at hj
      rw [vecGet_eq_ok.mpr hf, vecGet_eq_ok.mpr hj]
      simp only [ok_bind, pure_eq]
      have hlt : j < f.length := (List.getElem?_eq_some_iff.mp hf).1
      have hstep : ShiftBy (fun i => δ i + if i = j then κ else 0) (f.set j (v + x)) (f'.set j (v + δ j + (x + κ))) := by
        intro i
        by_cases hi : j = i
        · subst hi
          rw [List.getElem?_set_self (by rw [h.length]; exact hlt), List.getElem?_set_self hlt, Option.map_some]
          simp only [if_true]
          congr 1
          ring
        · rw [List.getElem?_set_ne hi, List.getElem?_set_ne hi, h i]
          simp only [if_neg (fun e => hi e.symm : ¬ i = j), add_zero]
      have := shift_addToAll x κ samples hstep
      unfold addToAll at this
      refine OutRel.imp this (fun a b hab => ?_)
      intro i
      rw [hab i]
      refine congrArg (fun d => Option.map (fun z => z + d) a[i]?) ?_
      dsimp only
      rw [List.count_cons]
      by_cases hi : i = j
      · subst hi
        simp only [if_true, beq_self_eq_true, Nat.cast_add, Nat.cast_one]
        ring
      · have : (j == i) = false := by simpa using fun e => hi e.symm
        simp [hi, this]

theorem shift_addSampleScores (cols : String → Option (Column A)) (k κ : K) : ∀ (t : Tree K A) (samples : List Nat) {δ : Nat → K}
    {f f' : List K}, ShiftBy δ f f' →
    OutRel (fun a b => b.1 = a.1 ∧ a.1.Perm samples ∧ ShiftBy (fun i => δ i + samples.count i * κ) a.2 b.2)
      (addSampleScores cols k t samples f) (addSampleScores cols (k + κ) t samples f')
  | .absent, samples, δ, f, f', h => by
    rw [addSampleScores, addSampleScores, ← add_assoc]
    refine OutRel.bind (shift_addToAll (0 + k) κ samples h) (fun a b hab => .ok ⟨rfl, List.Perm.refl _, hab⟩)
  | .node score split left right, samples, δ, f, f', h => by
    rw [addSampleScores, addSampleScores]
    split
    · cases cols ((Tree.node score split left right).splitOf.feature) with
      | none => exact .fatal
      | some c =>
        simp only
        cases hp : partition c (Tree.node score split left right).splitOf samples with
        | ub => exact .ub
        | fatal => exact .fatal
        | ok r =>
          obtain ⟨ls, rs⟩ := r
          have hperm := partition_perm hp
          simp only [ok_bind]
          refine OutRel.bind (shift_addSampleScores cols k κ left ls h) ?_
          rintro ⟨ls1, sc1⟩ ⟨_, sc1'⟩ ⟨rfl, hl, h1⟩
          refine OutRel.bind (shift_addSampleScores cols k κ right rs h1) ?_
          rintro ⟨rs1, sc2⟩ ⟨_, sc2'⟩ ⟨rfl, hr, h2⟩
          refine .ok ⟨rfl, (hl.append hr).trans hperm, ?_⟩
          intro i
          refine (h2 i).trans (congrArg (fun d => Option.map (fun z => z + d) sc2[i]?) ?_)
          dsimp only
          rw [← hperm.count_eq i, List.count_append]
          push_cast
          ring
    · rw [← add_assoc]
      exact OutRel.bind (shift_addToAll (score + k) κ samples h) (fun a b hab => .ok ⟨rfl, List.Perm.refl _, hab⟩)

theorem shift_addTreeScores (cols : String → Option (Column A)) (k κ : K) (t : Tree K A) : ∀ (slices : List (List Nat)) {δ : Nat → K}
    {f f' : List K}, ShiftBy δ f f' →
    OutRel (fun a b => b.1 = a.1 ∧ a.1.flatten.Perm slices.flatten ∧ ShiftBy (fun i => δ i + slices.flatten.count i * κ) a.2 b.2)
      (addTreeScores cols t k slices f) (addTreeScores cols t (k + κ) slices f')
  | [], δ, f, f', h => .ok ⟨rfl, List.Perm.refl _, by simpa using h⟩
  | sl :: slices, δ, f, f', h => by
    rw [addTreeScores, addTreeScores]
    refine OutRel.bind (shift_addSampleScores cols k κ t sl h) ?_
    rintro ⟨s1, sc1⟩ ⟨_, sc1'⟩ ⟨rfl, hl, h1⟩
    refine OutRel.bind (shift_addTreeScores cols k κ t slices h1) ?_
    rintro ⟨ss, sc2⟩ ⟨_, sc2'⟩ ⟨rfl, hr, h2⟩
    refine .ok ⟨rfl, by rw [List.flatten_cons, List.flatten_cons]; exact hl.append hr, ?_⟩
    intro i
    refine (h2 i).trans (congrArg (fun d => Option.map (fun z => z + d) sc2[i]?) ?_)
    dsimp only
    rw [List.flatten_cons, List.count_append]
    push_cast
    ring

theorem shiftBy_map (s : K) (f : List K) : ShiftBy (fun _ => s) f (f.map (· + s)) := by
  intro i
  rw [List.getElem?_map]

/-- The same tree and constant, on shifted function values. -/
theorem shift_addTreeScores_same (cols : String → Option (Column A)) (k s : K) (t : Tree K A) (slices : List (List Nat)) (f : List K) :
    OutRel (fun a b => b.1 = a.1 ∧ a.1.flatten.Perm slices.flatten ∧ b.2 = a.2.map (· + s)) (addTreeScores cols t k slices f)
      (addTreeScores cols t k slices (f.map (· + s))) := by
  have := shift_addTreeScores cols k 0 t slices (shiftBy_map s f)
  rw [add_zero] at this
  refine OutRel.imp this (fun a b h => ⟨h.1, h.2.1, h.2.2.map (fun i _ => by simp)⟩)

/-- The same tree with a shifted constant, on the same function values. -/
theorem shift_addTreeScores_const (cols : String → Option (Column A)) (k s : K) (t : Tree K A) {n : Nat} {slices : List (List Nat)}
    (hs : Slices n slices) {f : List K} (hf : f.length = n) :
    OutRel (fun a b => b.1 = a.1 ∧ a.1.flatten.Perm slices.flatten ∧ b.2 = a.2.map (· + s)) (addTreeScores cols t k slices f)
      (addTreeScores cols t (k + s) slices f) := by
  have h1 : OutRel (fun a b => _ ∧ a.2.length = n) (addTreeScores cols t k slices f) (addTreeScores cols t (k + s) slices f) :=
    (shift_addTreeScores cols k s t slices (ShiftBy.refl f)).and_left (q := fun a => a.2.length = n)
      (fun r hr => (addTreeScores_length cols k t slices f hr).trans hf)
  refine OutRel.imp h1 (fun a b h => ⟨h.1.1, h.1.2.1, h.1.2.2.map (fun i hi => ?_)⟩)
  have hc : slices.flatten.count i = 1 := by
    rw [List.Perm.count_eq hs]
    exact List.count_eq_one_of_mem List.nodup_range (List.mem_range.mpr (by rw [← h.2]; exact hi))
  rw [hc]
  simp

/-! ## Squared error -/

/-- Squared error on targets that are shifted by `s`. -/
structure ShiftLoss (s : K) (n : Nat) (e e' : PointLoss K) : Prop where
  rest : e' = { e with y := e'.y }
  mse : ∃ m : MathFns K, m.one = 1 ∧ e.lossFn = mseLoss m
  plain : e.binary = false
  y : ∀ i < n, e'.y i = e.y i + s

variable {s : K} {n : Nat} {e e' : PointLoss K}

theorem ShiftLoss.init (h : ShiftLoss s n e e') (col : Option StrCol) : pointInit e' n col = pointInit e n col := by
  unfold pointInit
  rw [h.rest]
  simp [h.plain]

theorem ShiftLoss.slice (h : ShiftLoss s n e e') {f : List K} (hf : f.length ≤ n) (c : K) : ∀ (left i : Nat) (g : List (GD K)) (t : GD K),
    pointSlice e' (f.map (· + s)) c left i g t = pointSlice e f c left i g t
  | 0, _, _, _ => rfl
  | left + 1, i, g, t => by
    rw [pointSlice, pointSlice]
    by_cases hi : i < f.length
    · obtain ⟨m, _, hm⟩ := h.mse
      have h1 : Outcome.vecGet f i = ok f[i] := vecGet_eq_ok.mpr (List.getElem?_eq_getElem hi)
      have h2 : Outcome.vecGet (f.map (· + s)) i = ok (f[i] + s) :=
        vecGet_eq_ok.mpr (by rw [List.getElem?_map, List.getElem?_eq_getElem hi]; rfl)
      have h3 : e'.lossFn = mseLoss m := by rw [h.rest]; exact hm
      have h4 : e'.w = e.w := by rw [h.rest]
      have hy := h.y i (by omega)
      have h5 : mseLoss m (e'.y i) (f[i] + s + c) = mseLoss m (e.y i) (f[i] + c) := by
        have : e'.y i - (f[i] + s + c) = e.y i - (f[i] + c) := by rw [hy]; ring
        unfold mseLoss
        rw [this]
      rw [h1, h2, ok_bind, ok_bind, h3, hm, h5, h4]
      simp only [h.slice hf c left]
    · have h1 : Outcome.vecGet f i = ub := by simp [Outcome.vecGet, List.getElem?_eq_none (by omega : f.length ≤ i)]
      have h2 : Outcome.vecGet (f.map (· + s)) i = ub := by
        simp [Outcome.vecGet, List.getElem?_eq_none (by omega : f.length ≤ i)]
      rw [h1, h2]
      rfl

theorem ShiftLoss.slices (h : ShiftLoss s n e e') {f : List K} (hf : f.length ≤ n) (c : K) : ∀ (l : List (Nat × Nat)) (g : List (GD K)),
    pointSlices e' (f.map (· + s)) c l g = pointSlices e f c l g
  | [], _ => rfl
  | sl :: l, g => by
    rw [pointSlices, pointSlices, h.slice hf]
    simp only [h.slices hf c l]

theorem ShiftLoss.loop (h : ShiftLoss s n e e') {f : List K} (hf : f.length ≤ n) (l : List (Nat × Nat)) : ∀ (left : Nat) (c : K) (g : List (GD K)),
    pointLoop e' l (f.map (· + s)) left c g = pointLoop e l f left c g
  | 0, _, _ => rfl
  | left + 1, c, g => by
    have h1 : e'.threshold = e.threshold := by rw [h.rest]
    have h2 : e'.fabs = e.fabs := by rw [h.rest]
    rw [pointLoop, pointLoop, h.slices hf, h1, h2]
    simp only [h.loop hf l left]

/-- When the function values are shifted too, the loss sees no difference. -/
theorem ShiftLoss.compute (h : ShiftLoss s n e e') {f : List K} (hf : f.length ≤ n) (l : List (Nat × Nat)) :
    pointCompute e' l (f.map (· + s)) = pointCompute e l f := by
  rw [pointCompute, pointCompute, h.loop hf, List.length_map]

/-- The weighted mean of the targets of `n` rows. -/
def rowMean (w y : Nat → K) (n : Nat) : K :=
  ((List.range n).map (fun k => w k * y k)).sum / ((List.range n).map w).sum

theorem rowMean_shift {w y y' : Nat → K} {n : Nat} (hw : ((List.range n).map w).sum ≠ 0) (hy : ∀ i < n, y' i = y i + s) :
    rowMean w y' n = rowMean w y n + s := by
  have : (List.range n).map (fun k => w k * y' k) = (List.range n).map (fun k => w k * y k + w k * s) :=
    List.map_congr_left (fun k hk => by rw [hy k (List.mem_range.mp hk)]; ring)
  rw [rowMean, rowMean, this, List.sum_map_add, List.sum_map_mul_right]
  field_simp

/-- In the first round the constant takes the shift, if the mean is not taken for zero. -/
theorem ShiftLoss.first (h : ShiftLoss s n e e') (hw : ((List.range n).map e.w).sum ≠ 0)
    (hm : e.threshold < e.fabs (rowMean e.w e.y n)) (hm' : e.threshold < e.fabs (rowMean e.w e.y n + s)) {col : Option StrCol}
    {l : List (Nat × Nat)} (hi : pointInit e n col = ok (.ok l)) :
    ∃ c g, pointCompute e l (List.replicate n 0) = ok (l, c, g) ∧ pointCompute e' l (List.replicate n 0) = ok (l, c + s, g) := by
  obtain ⟨m, hone, hl⟩ := h.mse
  have hl' : e'.lossFn = mseLoss m := by rw [h.rest]; exact hl
  have hwe : e'.w = e.w := by rw [h.rest]
  have ht : e'.threshold = e.threshold := by rw [h.rest]
  have hb : e'.fabs = e.fabs := by rw [h.rest]
  have hlen : (List.replicate n (0 : K)).length = n := List.length_replicate
  have hz : ∀ y : Nat → K, (List.range n).map (fun k => e.w k * (y k - (List.replicate n (0 : K)).getD k 0)) =
      (List.range n).map (fun k => e.w k * y k) := by
    intro y
    refine List.map_congr_left (fun k hk => ?_)
    have : (List.replicate n (0 : K)).getD k 0 = 0 := by
      rw [List.getD_eq_getElem?_getD, List.getElem?_replicate, if_pos (List.mem_range.mp hk), Option.getD_some]
    rw [this, sub_zero]
  have main : ∀ e1 : PointLoss K, e1.lossFn = mseLoss m → e1.w = e.w → e1.threshold < e1.fabs (rowMean e.w e1.y n) →
      pointInit e1 n col = ok (.ok l) →
      pointCompute e1 l (List.replicate n 0) = ok (l, rowMean e.w e1.y n, (List.range n).map (fun k => ⟨e1.y k - rowMean e.w e1.y n, 1⟩)) := by
    intro e1 h1 h2 h3 h4
    have hc := pointInit_ok h4
    rw [← hlen] at hc h4
    obtain ⟨k, out, _, k2, _⟩ := pointLoop_spec e1 _ l hc 9 0 (List.replicate (List.replicate n (0 : K)).length ⟨0, 0⟩) (by simp)
    have hr : ∃ r, pointCompute e1 l (List.replicate n 0) = ok r := by
      rw [pointCompute, k2, ok_bind]
      exact ⟨_, rfl⟩
    obtain ⟨⟨l', c, g⟩, hr⟩ := hr
    have hl'' : l' = l := by
      rw [pointCompute, bind_eq_ok] at hr
      obtain ⟨q, _, hq⟩ := hr
      simp only [pure_eq, Outcome.ok.injEq, Prod.mk.injEq] at hq
      exact hq.1.symm
    obtain ⟨p1, c', p2, p3⟩ := C48_mse (e := e1) (m := m) hone h1 (by rw [hlen, h2]; exact hw) h4 hr
    rw [hlen, h2, hz] at p1
    have p1 : c = rowMean e.w e1.y n := p1
    have hc' : c' = c := by
      rcases p2 with h | ⟨_, h⟩
      · exact h
      · rw [p1] at h
        exact absurd h3 (not_lt.mpr h)
    rw [hr, hl'', p3, hc', p1, hlen]
    congr 3
    refine List.map_congr_left (fun k hk => ?_)
    have : (List.replicate n (0 : K)).getD k 0 = 0 := by
      rw [List.getD_eq_getElem?_getD, List.getElem?_replicate, if_pos (List.mem_range.mp hk), Option.getD_some]
    rw [this, sub_zero]
  have hmean := rowMean_shift hw h.y
  refine ⟨_, _, main e hl rfl hm hi, ?_⟩
  rw [main e' hl' hwe (by rw [hmean, ht, hb]; exact hm') (by rw [h.init]; exact hi), hmean]
  congr 3
  refine List.map_congr_left (fun k hk => ?_)
  rw [h.y k (List.mem_range.mp hk)]
  congr 1
  ring

/-! ## Training -/

/-- The forest of the other run: the score of the first tree is shifted. -/
def ShiftForest (s : K) (f f' : List (Tree K A)) : Prop :=
  ∃ k rest, f = .node k none .absent .absent :: rest ∧ f' = .node (k + s) none .absent .absent :: rest

theorem shift_trainLoop (h : ShiftLoss s n e e') {env : TrainEnv K A} (hrnd : ∀ x, env.rnd32 x = x) (features : List (String × Column A))
    (cfg : TrainConfig K) : ∀ (m : Nat) {forest forest' : List (Tree K A)}, ShiftForest s forest forest' →
    ∀ (slices : List (List Nat)) (f : List K), f.length ≤ n → ∀ (ls : List (Nat × Nat)) (p : Nat),
    OutRel (fun a b => b.1 = a.1 ∧ ShiftForest s a.2.forest b.2.forest)
      (trainLoop env e.toLoss features cfg 0 m ⟨forest, slices, f, ls, p⟩)
      (trainLoop env e'.toLoss features cfg 0 m ⟨forest', slices, f.map (· + s), ls, p⟩)
  | 0, _, _, hfo, _, _, _, _, _ => .ok ⟨rfl, hfo⟩
  | m + 1, forest, forest', hfo, slices, f, hf, ls, p => by
    rw [trainLoop, trainLoop]
    have hc : e'.toLoss.compute ls (f.map (· + s)) = e.toLoss.compute ls f := h.compute hf ls
    rw [hc]
    refine OutRel.bind (OutRel.refl _) ?_
    rintro ⟨ls1, c, g⟩ _ rfl
    simp only
    split
    · exact .ok ⟨rfl, hfo⟩
    · refine OutRel.bind (OutRel.refl _) ?_
      rintro ⟨t, pos⟩ _ rfl
      simp only
      refine OutRel.bind ((shift_addTreeScores_same env.columns c s _ slices f).and_left (q := fun a => a.2.length = f.length)
        (fun r hr => addTreeScores_length _ _ _ _ _ hr)) ?_
      rintro ⟨ss, f1⟩ ⟨_, _⟩ ⟨⟨rfl, _, h2⟩, h3⟩
      simp only at h2 h3
      subst h2
      simp only
      refine shift_trainLoop h hrnd features cfg m ?_ _ _ (by omega) _ _
      obtain ⟨k, rest, rfl, rfl⟩ := hfo
      refine ⟨k + c, rest ++ [applyShrinkage env.rnd32 cfg.shrinkage t], ?_, ?_⟩
      · simp only [List.cons_append, List.modify_zero_cons, addRootScore, hrnd]
      · simp only [List.cons_append, List.modify_zero_cons, addRootScore, hrnd]
        congr 2
        ring

/-- Both runs, from the start. -/
theorem shift_trainGBDT {env : TrainEnv K A} (h : ShiftLoss s env.numRows e e') (hrnd : ∀ x, env.rnd32 x = x)
    (hdiv : ∀ x, env.diverged x = false) (hw : ((List.range env.numRows).map e.w).sum ≠ 0)
    (hm : e.threshold < e.fabs (rowMean e.w e.y env.numRows)) (hm' : e.threshold < e.fabs (rowMean e.w e.y env.numRows + s))
    (names : List String) (cfg : TrainConfig K) (p : Nat) :
    OutRel (fun a b => b.code = a.code ∧ (a.code = .ok ∧ ShiftForest s a.forest b.forest ∨ (throwException a.code).isSome = true)) (trainGBDT env e.toLoss names cfg none [] p)
      (trainGBDT env e'.toLoss names cfg none [] p) := by
  unfold trainGBDT
  split
  · next hck => exact .ok ⟨rfl, Or.inr (checkConfig_raises hck)⟩
  · next hck =>
    have hck : checkConfig (env.ofNat 1) cfg = .ok := not_not.mp hck
    cases hload : loadFeatures env.columns names with
    | error x =>
      exact .ok ⟨rfl, Or.inr (loadFeatures_raises hload)⟩
    | ok features =>
      simp only
      refine OutRel.bind (OutRel.refl _) ?_
      rintro group _ rfl
      have hinit : e'.toLoss.init env.numRows group = e.toLoss.init env.numRows group := h.init group
      rw [hinit]
      cases hin : e.toLoss.init env.numRows group with
      | ub => exact .ub
      | fatal => exact .fatal
      | ok init =>
        simp only [ok_bind]
        cases init with
        | error x =>
          have : x = .invalidArgument := by
            have hin : pointInit e env.numRows group = _ := hin
            unfold pointInit at hin
            split at hin
            · cases hin; rfl
            · rw [bind_eq_ok] at hin
              obtain ⟨_, _, hq⟩ := hin
              cases hq
          subst this
          exact .ok ⟨rfl, Or.inr rfl⟩
        | ok ls =>
          simp only
          cases hsl : scoreSlices env.numThreads env.numRows with
          | ub => exact .ub
          | fatal => exact .fatal
          | ok slices =>
            have hS : Slices env.numRows slices := scoreSlices_of_ok hsl
            simp only [ok_bind, Option.getD_none, initWithBase, List.nil_append]
            have hpos : ∃ m, cfg.numTrees.toNat = m + 1 := by
              have : 0 < cfg.numTrees := by
                by_contra hc
                rw [checkConfig, if_pos (by omega)] at hck
                cases hck
              exact ⟨cfg.numTrees.toNat - 1, by omega⟩
            obtain ⟨m, hm1⟩ := hpos
            rw [hm1]
            refine OutRel.bind (r := fun a b => b.1 = a.1 ∧ ShiftForest s a.2.forest b.2.forest) ?_ ?_
            · rw [trainLoop, trainLoop]
              obtain ⟨c, g, h1, h2⟩ := h.first (col := group) hw hm hm' hin
              have h1 : e.toLoss.compute ls (List.replicate env.numRows 0) = _ := h1
              have h2 : e'.toLoss.compute ls (List.replicate env.numRows 0) = _ := h2
              rw [h1, h2]
              simp only [ok_bind, hdiv, Bool.false_eq_true, if_false]
              refine OutRel.bind (OutRel.refl _) ?_
              rintro ⟨t, pos⟩ _ rfl
              simp only
              refine OutRel.bind ((shift_addTreeScores_const env.columns c s _ hS List.length_replicate).and_left
                (q := fun a => a.2.length = env.numRows)
                (fun r hr => (addTreeScores_length _ _ _ _ _ hr).trans List.length_replicate)) ?_
              rintro ⟨ss, f1⟩ ⟨_, _⟩ ⟨⟨rfl, _, h2⟩, h3⟩
              simp only at h2 h3
              subst h2
              simp only
              refine shift_trainLoop h hrnd features cfg m ?_ _ _ (by omega) _ _
              refine ⟨0 + c, [applyShrinkage env.rnd32 cfg.shrinkage t], ?_, ?_⟩
              · simp only [List.cons_append, List.nil_append, List.length_nil, List.modify_zero_cons, addRootScore, hrnd]
              · simp only [List.cons_append, List.nil_append, List.length_nil, List.modify_zero_cons, addRootScore, hrnd]
                congr 2
                ring
            · rintro ⟨b1, s1⟩ ⟨_, s2⟩ ⟨rfl, k, rest, h1, h2⟩
              simp only at h1 h2 ⊢
              split
              · exact .ok ⟨rfl, Or.inr rfl⟩
              · refine .ok ⟨rfl, Or.inl ⟨rfl, ?_⟩⟩
                rw [h1, h2]
                exact ⟨k, rest.map clearInternal, rfl, rfl⟩

/-! ## Predicting -/

theorem shift_addForestScores (cols : String → Option (Column A)) (s : K) : ∀ (ts : List (Tree K A)) (slices : List (List Nat)) (f : List K),
    OutRel (fun a b => b = (a.1, a.2.map (· + s))) (addForestScores cols ts slices f) (addForestScores cols ts slices (f.map (· + s)))
  | [], _, _ => .ok rfl
  | t :: ts, slices, f => by
    rw [addForestScores, addForestScores]
    refine OutRel.bind (shift_addTreeScores_same cols 0 s t slices f) ?_
    rintro ⟨ss, f1⟩ ⟨_, _⟩ ⟨rfl, _, h2⟩
    simp only at h2
    subst h2
    exact shift_addForestScores cols s ts _ _

theorem shift_leaf (cols : String → Option (Column A)) (c k s : K) : ∀ (slices : List (List Nat)) (f : List K),
    addTreeScores cols (.node (k + s) none .absent .absent) c slices f = addTreeScores cols (.node k none .absent .absent) (c + s) slices f
  | [], _ => rfl
  | sl :: slices, f => by
    have : k + s + c = k + (c + s) := by ring
    rw [addTreeScores, addTreeScores]
    simp only [addSampleScores, Tree.isSet, Bool.false_eq_true, if_false, this, shift_leaf cols c k s slices]

theorem shift_evaluateForest {f f' : List (Tree K A)} (h : ShiftForest s f f') (cols : String → Option (Column A)) (n : Nat) (nt : Int) :
    OutRel (fun a b => b = (a.1, a.2.map (List.map (· + s)))) (evaluateForest cols n nt f) (evaluateForest cols n nt f') := by
  obtain ⟨k, rest, rfl, rfl⟩ := h
  have hff : forestFeatures (.node (k + s) none .absent .absent :: rest) = forestFeatures (.node k none .absent .absent :: rest) := rfl
  unfold evaluateForest
  rw [hff]
  cases loadFeatures cols (forestFeatures (.node k none .absent .absent :: rest)) with
  | error e => exact .ok rfl
  | ok _ =>
    simp only
    cases hsl : scoreSlices nt n with
    | ub => exact .ub
    | fatal => exact .fatal
    | ok slices =>
      have hS : Slices n slices := scoreSlices_of_ok hsl
      simp only [ok_bind]
      rw [addForestScores, addForestScores, shift_leaf]
      have : OutRel (fun a b => b = (a.1, a.2.map (· + s)))
          (addTreeScores cols (.node k none .absent .absent) 0 slices (List.replicate n 0) >>= fun r => addForestScores cols rest r.1 r.2)
          (addTreeScores cols (.node k none .absent .absent) (0 + s) slices (List.replicate n 0) >>= fun r => addForestScores cols rest r.1 r.2) := by
        refine OutRel.bind (shift_addTreeScores_const cols 0 s _ hS List.length_replicate) ?_
        rintro ⟨ss, f1⟩ ⟨_, _⟩ ⟨rfl, _, h2⟩
        simp only at h2
        subst h2
        exact shift_addForestScores cols s rest _ _
      refine OutRel.bind this ?_
      rintro ⟨a1, a2⟩ _ rfl
      exact .ok rfl

theorem shift_pyPredict {f f' : List (Tree K A)} (h : ShiftForest s f f') (t : DataStore A) (nt : Int) :
    SameAnswer (fun a b => b = a.map (· + s)) (pyPredict (some t) f nt) (pyPredict (some t) f' nt) := by
  unfold pyPredict
  simp only
  cases t.numRows with
  | ub => exact .ub
  | fatal => exact .fatal
  | ok n =>
    simp only
    have := shift_evaluateForest h t.getColumn n nt
    generalize evaluateForest t.getColumn n nt f = x at this
    generalize evaluateForest t.getColumn n nt f' = y at this
    cases this with
    | ub => exact .ub
    | fatal => exact .fatal
    | ok h =>
      subst h
      rename_i a
      obtain ⟨e, r⟩ := a
      have hr : (r.map (List.map (· + s))).getD [] = (r.getD []).map (· + s) := by cases r <;> rfl
      simp only
      rw [hr]
      split
      · exact .ok (.ok rfl)
      · exact sameAnswer_raise _ (.ok (.ok rfl))

end Gbdt
