import Verif.Model.PairProgress
import Verif.Lemmas.Progress
import Verif.Props.Pairwise

/-!
# Lemmas about the progress messages of the pairwise losses
-/

set_option autoImplicit false
set_option linter.unusedSectionVars false

namespace Gbdt
open Outcome

section total
variable {D : Type} [Dbl D]

theorem pairLossStep_ok {e : PairLoss D} {f : List D} {g : Group} {factor : D} {index : Nat} {grads out : List (GD D)}
    (h : pairStep e f g factor index grads = ok out) (t : D × D) : ∃ t', pairLossStep e f g factor index t = ok t' := by
  obtain ⟨a, b, pos, neg, pw, fp, fn, l, dg, dh, old, old2, h1, h2, h3, h4, h5, h6, _⟩ := pairStep_ok h
  rw [pairLossStep, h1, ok_bind]
  simp only [vecGet_eq_ok.mpr h2, vecGet_eq_ok.mpr h3, h4, vecGet_eq_ok.mpr h5, vecGet_eq_ok.mpr h6, ok_bind, pure_eq]
  exact ⟨_, rfl⟩

theorem pairLossLoop_ok {e : PairLoss D} {f : List D} {g : Group} {factor : D} {draw : Nat → Nat} : ∀ (n i : Nat) {grads out : List (GD D)},
    pairLoop e f g factor draw n i grads = ok out → ∀ t, ∃ t', pairLossLoop e f g factor draw n i t = ok t'
  | 0, _, _, _, _, t => ⟨t, rfl⟩
  | n + 1, i, grads, out, h, t => by
    rw [pairLoop, bind_eq_ok] at h
    obtain ⟨g1, h1, h2⟩ := h
    obtain ⟨t1, k1⟩ := pairLossStep_ok h1 t
    rw [pairLossLoop, k1, ok_bind]
    exact pairLossLoop_ok n (i + 1) h2 t1

theorem pairLossGroups_cons {e : PairLoss D} {f : List D} {index : Nat} {rest : List Nat} {s : PairState D} {t : D × D} {g g1 : Group}
    (h : s.groups[index]? = some g) (hg : (if e.rerank then Gbdt.rerank e.sort f g else ok g) = ok g1) :
    pairLossGroups e f (index :: rest) s t = (samplePairs e s.prob g1 >>= fun n =>
      pairLossLoop e f g1 (groupFactor e s.minNumPairs g1) (fun i => e.draw s.round index i g1.numPairs) n 0 t >>= fun t1 =>
        pairLossGroups e f rest { s with groups := s.groups.set index g1 } t1) := by
  rw [pairLossGroups, vecGet_eq_ok.mpr h, ok_bind]
  by_cases hr : e.rerank = true
  · rw [if_pos hr] at hg ⊢
    rw [hg, ok_bind]
  · rw [if_neg hr] at hg ⊢
    cases hg
    rfl

theorem pairLossGroups_ok {e : PairLoss D} {f : List D} : ∀ (order : List Nat) {s s' : PairState D} {grads out : List (GD D)},
    pairGroups e f order s grads = ok (s', out) → ∀ t, ∃ t', pairLossGroups e f order s t = ok (s', t')
  | [], s, s', grads, out, h, t => by
    rw [pairGroups, Outcome.ok.injEq, Prod.mk.injEq] at h
    exact ⟨t, by rw [pairLossGroups, h.1]⟩
  | index :: rest, s, s', grads, out, h, t => by
    rw [pairGroups, bind_eq_ok] at h
    obtain ⟨⟨g', grads1⟩, h1, h2⟩ := h
    simp only at h2
    rw [pairGroup, bind_eq_ok] at h1
    obtain ⟨g, h3, h4⟩ := h1
    have hsplit : ∃ g1, (if e.rerank then Gbdt.rerank e.sort f g else ok g) = ok g1 ∧ (do
        let n ← samplePairs e s.prob g1
        let grads1 ← pairLoop e f g1 (groupFactor e s.minNumPairs g1) (fun i => e.draw s.round index i g1.numPairs) n 0 grads
        pure (g1, grads1)) = ok (g', grads1) := by
      by_cases hr : e.rerank = true
      · rw [if_pos hr] at h4 ⊢
        rw [bind_eq_ok] at h4
        exact h4
      · rw [if_neg hr] at h4 ⊢
        exact ⟨g, rfl, h4⟩
    obtain ⟨g1, hg, h5⟩ := hsplit
    simp only [bind_eq_ok, pure_eq, Outcome.ok.injEq, Prod.mk.injEq] at h5
    obtain ⟨n, h6, grads2, h7, rfl, rfl⟩ := h5
    obtain ⟨t1, k1⟩ := pairLossLoop_ok n 0 h7 t
    rw [pairLossGroups_cons (vecGet_eq_ok.mp h3) hg]
    simp only [ok_bind, h6, k1]
    exact pairLossGroups_ok rest h2 t1

theorem pairGroups_append {e : PairLoss D} {f : List D} : ∀ (l l' : List Nat) (s : PairState D) (grads : List (GD D)),
    pairGroups e f (l ++ l') s grads = pairGroups e f l s grads >>= fun r => pairGroups e f l' r.1 r.2
  | [], l', s, grads => rfl
  | index :: l, l', s, grads => by
    rw [List.cons_append, pairGroups, pairGroups]
    cases pairGroup e s f index grads with
    | ub => rfl
    | fatal => rfl
    | ok r => exact pairGroups_append l l' _ _

theorem pairLossSlices_ok {e : PairLoss D} {f : List D} : ∀ (slices : List (Nat × Nat)) {s s' : PairState D} {grads out : List (GD D)},
    pairGroups e f (slices.flatMap (fun sl => List.range' sl.1 (sl.2 - sl.1))) s grads = ok (s', out) →
    ∃ totals, pairLossSlices e f slices s = ok totals
  | [], _, _, _, _, _ => ⟨[], rfl⟩
  | sl :: slices, s, s', grads, out, h => by
    rw [List.flatMap_cons, pairGroups_append, bind_eq_ok] at h
    obtain ⟨⟨s1, g1⟩, h1, h2⟩ := h
    obtain ⟨t, k1⟩ := pairLossGroups_ok _ h1 (0, 0)
    obtain ⟨ts, k2⟩ := pairLossSlices_ok slices h2
    exact ⟨t :: ts, by rw [pairLossSlices, k1]; simp only [ok_bind, k2, pure_eq]⟩

/-- A message changes nothing else. -/
theorem pairReportCompute_map (e : PairLoss D) (hundred : D) (s : PairProgress D) (f : List D) :
    pairCompute e s.inner f = pairReportCompute e hundred s f >>= fun r => ok (r.1.inner, r.2) := by
  rw [pairReportCompute]
  cases h : pairCompute e s.inner f with
  | ok r =>
    obtain ⟨s1, c, g⟩ := r
    rw [pairCompute, bind_eq_ok] at h
    obtain ⟨⟨_, _⟩, h1, _⟩ := h
    obtain ⟨l, hl⟩ := pairLossSlices_ok _ h1
    simp only [ok_bind, hl, pure_eq]
  | ub => rfl
  | fatal => rfl

end total

section value
variable {D : Type} [Dbl D] [FpOrder D] [EqOrder D]

/-- The loss of a drawn pair of rows at the values `f`. -/
def drawLoss (e : PairLoss D) (f : List D) (d : Draw D) : D :=
  (e.lossFn (e.rnd32 (e.y d.pos - e.y d.neg)) (f.getD d.pos 0 - f.getD d.neg 0)).1

theorem KeptGroup.nodup {e : PairLoss D} (hsort : DescSortSpec e.sort) {g : Group} (hg : KeptGroup e g) : g.rows.Nodup := by
  obtain ⟨l, g0, hnd, hmk, hgg, _⟩ := hg
  have hr : g.rows = g0.rows := by rw [hgg]
  rw [hr]
  exact (mkGroup_ranks hsort hmk).2.nodup_iff.mpr hnd

theorem pairLossStep_value {e : PairLoss D} (hsort : DescSortSpec e.sort) {f : List D} {g : Group} (hg : KeptGroup e g) {factor : D} {index : Nat}
    {d : Draw D} (h : ValidDraw e f g factor index d) (t : D × D) :
    pairLossStep e f g factor index t = ok (t.1 + d.weight * drawLoss e f d, t.2 + d.weight) := by
  obtain ⟨h1, _, ⟨fp, fn, l, h2, h3, h4⟩, a, b, ra, rb, h5, h6, h7, h8, h9⟩ := h
  have hnd := hg.nodup hsort
  rw [drawnRows, bind_eq_ok] at h1
  obtain ⟨⟨a', b'⟩, k1, k2⟩ := h1
  simp only [bind_eq_ok, pure_eq, Outcome.ok.injEq, Prod.mk.injEq, vecGet_eq_ok] at k2
  obtain ⟨pos, k3, neg, k4, rfl, rfl⟩ := k2
  have inj : ∀ {x y r : Nat}, g.rows[x]? = some r → g.rows[y]? = some r → x = y := by
    intro x y r hx hy
    exact (List.getElem?_inj (List.getElem?_eq_some_iff.mp hx).1 hnd).mp (hx.trans hy.symm)
  obtain rfl := inj k3 h5
  obtain rfl := inj k4 h6
  have hpw : pairWeight e g a' b' = ok (weightOf e d.pos d.neg ra rb) := by
    rw [pairWeight, weightOf]
    cases hd : e.discount with
    | none =>
      simp only [vecGet_eq_ok.mpr h5, vecGet_eq_ok.mpr h6, ok_bind, pure_eq]
      split <;> rfl
    | some dd => simp only [vecGet_eq_ok.mpr h5, vecGet_eq_ok.mpr h6, vecGet_eq_ok.mpr h7, vecGet_eq_ok.mpr h8, ok_bind, pure_eq]
  rw [pairLossStep, k1, ok_bind]
  simp only [vecGet_eq_ok.mpr h5, vecGet_eq_ok.mpr h6, hpw, vecGet_eq_ok.mpr h2, vecGet_eq_ok.mpr h3, ok_bind, pure_eq, drawLoss,
    List.getD_eq_getElem?_getD, h2, h3, Option.getD_some, h9]

end value

section exact
variable {K : Type} [Field K] [LinearOrder K]

/-- The sums of weighted losses and weights of some draws. -/
def lossSum (e : PairLoss K) (f : List K) (ds : List (Draw K)) : K := (ds.map (fun d => d.weight * drawLoss e f d)).sum

/-- The sum of the weights of some draws. -/
def drawWeight (ds : List (Draw K)) : K := (ds.map (·.weight)).sum

theorem pairLossLoop_value {e : PairLoss K} (hsort : DescSortSpec e.sort) {f : List K} {g : Group} (hg : KeptGroup e g) {factor : K}
    {draw : Nat → Nat} : ∀ (ds : List (Draw K)) (i : Nat) (t : K × K),
    (∀ (k : Nat) (d : Draw K), ds[k]? = some d → ValidDraw e f g factor (draw (i + k)) d) →
    pairLossLoop e f g factor draw ds.length i t = ok (t.1 + lossSum e f ds, t.2 + drawWeight ds)
  | [], i, t, _ => by simp [pairLossLoop, lossSum, drawWeight]
  | d :: ds, i, t, h => by
    rw [List.length_cons, pairLossLoop, show draw i = draw (i + 0) from rfl, pairLossStep_value hsort hg (h 0 d rfl), ok_bind, pairLossLoop_value hsort hg ds (i + 1)]
    · simp only [lossSum, drawWeight, List.map_cons, List.sum_cons, add_assoc]
    · intro k x hk
      have := h (k + 1) x hk
      rwa [show i + 1 + k = i + (k + 1) by omega]

theorem pairLossGroups_value {e : PairLoss K} (hsort : DescSortSpec e.sort) {f : List K} {s0 : PairState K}
    (hk : ∀ g ∈ s0.groups, KeptGroup e g) : ∀ (order : List Nat) {s s' : PairState K} {t t' : K × K} {draws : List (List (Draw K))},
    order.Nodup → s = { s0 with groups := s.groups } → (∀ i ∈ order, s.groups[i]? = s0.groups[i]?) →
    List.Forall₂ (DrawsOf e s0 f) order draws → pairLossGroups e f order s t = ok (s', t') →
    t' = (t.1 + lossSum e f draws.flatten, t.2 + drawWeight draws.flatten) ∧ s' = { s0 with groups := s'.groups } ∧
      ∀ i, i ∉ order → s'.groups[i]? = s.groups[i]?
  | [], s, s', t, t', draws, _, hs, _, hd, h => by
    cases hd
    rw [pairLossGroups, Outcome.ok.injEq, Prod.mk.injEq] at h
    obtain ⟨rfl, rfl⟩ := h
    exact ⟨by simp [lossSum, drawWeight], hs, fun _ _ => rfl⟩
  | index :: rest, s, s', t, t', draws, hnd, hs, hsame, hd, h => by
    cases hd with
    | @cons _ ds _ draws hd1 hd2 =>
    obtain ⟨hni, hnr⟩ := List.nodup_cons.mp hnd
    obtain ⟨g0, g, d1, d2, d3, d4⟩ := hd1
    rw [pairLossGroups_cons ((hsame index (by simp)).trans d1) d2] at h
    have hkg : KeptGroup e g ∧ g.numPairs = g0.numPairs := by
      have hk0 := hk g0 (List.mem_of_getElem? d1)
      by_cases hr : e.rerank = true
      · rw [if_pos hr] at d2
        obtain ⟨a, b, _⟩ := rerank_kept hsort hk0 d2
        exact ⟨a, by rw [b]⟩
      · rw [if_neg hr, Outcome.ok.injEq] at d2
        subst d2
        exact ⟨hk0, rfl⟩
    obtain ⟨hkg, hnp⟩ := hkg
    have p1 : s.prob = s0.prob := by rw [hs]
    have p2 : s.round = s0.round := by rw [hs]
    have p3 : s.minNumPairs = s0.minNumPairs := by rw [hs]
    have p4 : s.slices = s0.slices := by rw [hs]
    rw [bind_eq_ok] at h
    obtain ⟨n, h1, h2⟩ := h
    have hn : n = ds.length := by
      rw [samplePairs, hnp, p1, d3] at h1
      simp only at h1
      split at h1
      · exact (Outcome.ok.inj h1).symm
      · cases h1
    subst hn
    have hv := pairLossLoop_value hsort hkg (factor := groupFactor e s.minNumPairs g)
      (draw := fun i => e.draw s.round index i g.numPairs) ds 0 t (fun k d hkd => by
        have := d4 k d hkd
        simp only [Nat.zero_add, groupFactor, p2, p3, hnp]
        exact this)
    rw [hv, ok_bind] at h2
    obtain ⟨e1, e2, e3⟩ := pairLossGroups_value hsort hk rest (draws := draws) hnr (by simp only [p1, p2, p3, p4])
      (fun i hi => by
        simp only
        rw [List.getElem?_set_ne (by rintro rfl; exact hni hi)]
        exact hsame i (by simp [hi])) hd2 h2
    refine ⟨?_, e2, fun i hi => ?_⟩
    · rw [e1]
      simp only [List.flatten_cons, lossSum, drawWeight, List.map_append, List.sum_append, add_assoc]
    · simp only [List.mem_cons, not_or] at hi
      rw [e3 i hi.2]
      simp only
      rw [List.getElem?_set_ne (fun hx => hi.1 hx.symm)]

theorem pairLossSlices_value {e : PairLoss K} (hsort : DescSortSpec e.sort) {f : List K} {s0 : PairState K}
    (hk : ∀ g ∈ s0.groups, KeptGroup e g) : ∀ (slices : List (Nat × Nat)) {s : PairState K} {totals : List (K × K)}
    {draws : List (List (Draw K))}, (slices.flatMap (fun sl => List.range' sl.1 (sl.2 - sl.1))).Nodup →
    s = { s0 with groups := s.groups } →
    (∀ i ∈ slices.flatMap (fun sl => List.range' sl.1 (sl.2 - sl.1)), s.groups[i]? = s0.groups[i]?) →
    List.Forall₂ (DrawsOf e s0 f) (slices.flatMap (fun sl => List.range' sl.1 (sl.2 - sl.1))) draws →
    pairLossSlices e f slices s = ok totals →
    (totals.map Prod.fst).sum = lossSum e f draws.flatten ∧ (totals.map Prod.snd).sum = drawWeight draws.flatten
  | [], s, totals, draws, _, _, _, hd, h => by
    rw [pairLossSlices, Outcome.ok.injEq] at h
    subst h
    cases hd
    simp [lossSum, drawWeight]
  | sl :: slices, s, totals, draws, hnd, hs, hsame, hd, h => by
    rw [List.flatMap_cons] at hnd hsame hd
    rw [pairLossSlices, bind_eq_ok] at h
    obtain ⟨⟨s1, t⟩, h1, h2⟩ := h
    simp only [bind_eq_ok, pure_eq, Outcome.ok.injEq] at h2
    obtain ⟨rest, h3, rfl⟩ := h2
    obtain ⟨n1, n2, n3⟩ := List.nodup_append.mp hnd
    have f1 := List.forall₂_take_append _ _ _ hd.flip
    have f2 := List.forall₂_drop_append _ _ _ hd.flip
    obtain ⟨e1, e2, e3⟩ := pairLossGroups_value hsort hk _ n1 hs (fun i hi => hsame i (List.mem_append_left _ hi)) f1.flip h1
    obtain ⟨i1, i2⟩ := pairLossSlices_value hsort hk slices (draws := draws.drop _) n2 e2 (fun i hi => by
      rw [e3 i (fun hc => n3 i hc i hi rfl)]
      exact hsame i (List.mem_append_right _ hi)) f2.flip h3
    rw [List.map_cons, List.map_cons, List.sum_cons, List.sum_cons, i1, i2, e1]
    simp only [zero_add, lossSum, drawWeight, ← List.sum_append, ← List.map_append, ← List.flatten_append]
    rw [List.take_append_drop]
    exact ⟨rfl, rfl⟩

end exact

end Gbdt
