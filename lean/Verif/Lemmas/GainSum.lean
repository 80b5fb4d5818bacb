import Verif.Lemmas.SplitSides

/-!
# The gains of the splits of a tree, added up
-/

set_option autoImplicit false
set_option linter.unusedSectionVars false

namespace Gbdt
open Outcome

variable {K : Type} [Field K] [LinearOrder K] [IsStrictOrderedRing K] {A : Type} [LinearOrder A] [ThrOps A]
  {env : FitEnv K A} {cfg : FitConfig K} {columns : String → Option (Column A)} {all : List Nat}

/-- The gains and scores so far, from the samples of the entries of the queue. -/
structure Sided (env : FitEnv K A) (cfg : FitConfig K) (all : List Nat) (s : FitState K A) : Prop where
  gains : ((innerSplits s.tree).map Split.gain).sum + (sumOf (weighted env.w env.grads) all).energy cfg.l2Lambda =
    (s.queue.map (fun e => (sumOf (weighted env.w env.grads) e.samples).energy cfg.l2Lambda)).sum
  scores : ((leafScores s.tree).map (fun z => z * z)).sum =
    (s.queue.map (fun e => (sumOf (weighted env.w env.grads) e.samples).score cfg.l2Lambda *
      (sumOf (weighted env.w env.grads) e.samples).score cfg.l2Lambda)).sum
  limit : s.queue.length = 1 ∨ ∀ e ∈ s.queue, cfg.minHessian < (sumOf (weighted env.w env.grads) e.samples).h

theorem sided_start (hrnd : ∀ y, env.rnd32 y = y) {p p1 : Nat} {s : FitState K A}
    (h : fitStart env cfg p = ok s)
    (hs : uniformSubsample env.toInt env.ofNat env.draw env.grads.length cfg.exampleRate p = ok (all, p1)) : Sided env cfg all s := by
  simp only [fitStart, bind_eq_ok] at h
  obtain ⟨⟨all', p1'⟩, h1, total, h2, ⟨best, p2⟩, h3, h4⟩ := h
  rw [hs] at h1
  cases h1
  cases h4
  have ht := weightedSum_exact (subsample_lt hs) h2
  subst ht
  refine ⟨?_, ?_, Or.inl rfl⟩
  · rw [newNode_eq env cfg _ h3]
    simp [innerSplits]
  · rw [newNode_eq env cfg _ h3]
    simp [leafScores, hrnd]

theorem sided_step (hi : FitInput env cfg) (hd : FitData env columns) (hrnd : ∀ y, env.rnd32 y = y)
    (hthr : ∀ name b, (name, .bkt b) ∈ env.features → ThrSeparates b)
    (hall : ∀ i ∈ all, i < env.grads.length) {s s' : FitState K A} (hg : Grown env cfg columns all s) (hv : Sided env cfg all s)
    {k : Nat} {e : NodeData A} (hk : s.queue[k]? = some e) {f : Column A} (hf : e.feature = some f)
    (hz : ∀ name c, (name, c) ∈ env.features → ColumnFine c (weighted env.w env.grads) e.samples)
    (h : fitStep env cfg s k e f = ok s') : Sided env cfg all s' := by
  have he : e ∈ s.queue := List.mem_of_getElem? hk
  obtain ⟨total, best, p, p1, hw, hb, hfe, hat⟩ := hg.entry e he
  rw [newNode_eq env cfg total hb] at hat
  have hbest : ∃ sp, best = some (sp, f) := by
    rw [hf] at hfe
    cases best with
    | none => cases hfe
    | some b =>
      obtain ⟨sp, c⟩ := b
      simp only [Option.map_some, Option.some.injEq] at hfe
      exact ⟨sp, by rw [hfe]⟩
  obtain ⟨sp, rfl⟩ := hbest
  have hleaf : IsLeafAt s.tree e.path (env.rnd32 (total.score cfg.l2Lambda)) (some sp) := hat
  have hin : ∀ i ∈ e.samples, i < env.grads.length := fun i hi => hall i (hg.perm.mem_iff.mp (List.mem_flatMap.mpr ⟨e, he, hi⟩))
  have ht := weightedSum_exact hin hw
  subst ht
  obtain ⟨chosen, _, _, hc⟩ := C67_best_feature hb
  obtain ⟨j, _, ft, s0, hj, hfind, hfc, _, hgain, hfl, hix, _, _⟩ := hc sp f rfl
  have hmem : (ft.1, ft.2) ∈ env.features := List.mem_of_getElem? hj
  obtain ⟨L, R, hpart, hgain', hL, hR⟩ := findBestSplit_sides (hi.rows _ _ hmem) (fun b hb => hthr ft.1 b (hb ▸ hmem)) hi.sort
    (fun i h => ⟨hin i h, hin i h⟩) (hz _ _ hmem) hfind hfl hix
  rw [← hfc] at hpart
  have hsplit : ((leaf (env.rnd32 ((sumOf (weighted env.w env.grads) e.samples).score cfg.l2Lambda)) (some sp)) : Tree K A).splitOf = sp := rfl
  simp only [fitStep, hat, Option.map_some, ok_bind, hsplit, hpart, bind_eq_ok] at h
  obtain ⟨lt, hlt, rt, hrt, ⟨lb, p2⟩, hlb, ⟨rb, p3⟩, hrb, h⟩ := h
  have hnl := newNode_eq env cfg lt hlb
  have hnr := newNode_eq env cfg rt hrb
  simp only [hnl, hnr, pure_eq, Outcome.ok.injEq] at h
  subst h
  have hch := bestFeature_chosen hb
  obtain ⟨R', hpart', hR'⟩ := partition_sendsLeft (hd.rows _ _ hch.2.1) hch.2.2 hin
  rw [hpart, Outcome.ok.injEq, Prod.mk.injEq] at hpart'
  have hqp := perm_cons_eraseIdx hk
  have hLin : ∀ i ∈ L, i < env.grads.length := fun i hi => hin i (by
    rw [hpart'.1] at hi
    exact (List.mem_filter.mp hi).1)
  have hRin : ∀ i ∈ R, i < env.grads.length := fun i hi => hin i (by
    rw [hpart'.2, hR'.mem_iff] at hi
    exact (List.mem_filter.mp hi).1)
  have e1 := weightedSum_exact hLin hlt
  have e2 := weightedSum_exact hRin hrt
  subst e1 e2
  have g1 := hv.gains
  rw [(hqp.map _).sum_eq] at g1
  have g2 := hv.scores
  rw [(hqp.map _).sum_eq] at g2
  simp only [List.map_cons, List.sum_cons] at g1 g2
  refine ⟨?_, ?_, ?_⟩
  · simp only [innerSplits_graft Split.gain hg.wf hleaf, List.map_append, List.sum_append, List.map_cons, List.map_nil, List.sum_cons,
      List.sum_nil]
    rw [hgain, hgain', gainOf]
    linarith
  · have := leafScores_graft (fun z : K => z * z) (a := env.rnd32 ((sumOf (weighted env.w env.grads) L).score cfg.l2Lambda))
      (b := env.rnd32 ((sumOf (weighted env.w env.grads) R).score cfg.l2Lambda)) (sa := lb.map Prod.fst) (sb := rb.map Prod.fst) hg.wf hleaf
    simp only [hrnd] at this ⊢
    simp only [List.map_append, List.sum_append, List.map_cons, List.map_nil, List.sum_cons, List.sum_nil]
    linarith
  · right
    intro e' he'
    simp only [List.mem_append, List.mem_cons, List.not_mem_nil, or_false] at he'
    rcases he' with h1 | rfl | rfl
    · rcases hv.limit with h2 | h2
      · have := List.length_eraseIdx_of_lt (List.getElem?_eq_some_iff.mp hk).1
        rw [h2] at this
        rw [List.eq_nil_of_length_eq_zero this] at h1
        cases h1
      · exact h2 _ (hqp.mem_iff.mpr (List.mem_cons_of_mem _ h1))
    · exact hL
    · exact hR

theorem sided_loop (hi : FitInput env cfg) (hd : FitData env columns) (hrnd : ∀ y, env.rnd32 y = y)
    (hthr : ∀ name b, (name, .bkt b) ∈ env.features → ThrSeparates b) (hall : ∀ i ∈ all, i < env.grads.length) :
    ∀ {fuel : Nat} {s s' : FitState K A}, Grown env cfg columns all s → Sided env cfg all s → fitLoop env cfg fuel s = ok s' →
      (∀ q name c, (name, c) ∈ env.features →
        ColumnFine c (weighted env.w env.grads) (all.filter (passes columns s'.tree q))) → Sided env cfg all s'
  | 0, s, s', _, hv, h, _ => by
    cases h
    exact hv
  | fuel + 1, s, s', hg, hv, h, hz => by
    have hfull := h
    rw [fitLoop] at h
    split at h
    · simp only [bind_eq_ok] at h
      obtain ⟨e, he, h⟩ := h
      rw [vecGet_eq_ok] at he
      split at h
      · cases h
        exact hv
      · next f hf =>
        simp only [bind_eq_ok] at h
        obtain ⟨s1, hs1, h⟩ := h
        obtain ⟨_, _, _, _, _, _, hleaf, _, htree, _, _, hg1⟩ := fitStep_ok hd hall hg he hf hs1
        have hem := List.mem_of_getElem? he
        have hp := entry_passes hd hall hg hfull hem
        refine sided_loop hi hd hrnd hthr hall hg1 (sided_step hi hd hrnd hthr hall hg hv he hf ?_ hs1) h hz
        intro name c hc
        exact (hz e.path name c hc).perm hp.symm
    · cases h
      exact hv

end Gbdt
