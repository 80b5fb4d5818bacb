import Verif.Lemmas.FitTree
import Verif.Props.SplitPoint
import Verif.Props.Subsampling

/-!
# Growing a tree: which leaf is split, what its samples are
-/

set_option autoImplicit false
set_option linter.unusedSectionVars false

namespace Gbdt

open Outcome

variable {D A : Type} [Dbl D] [LinearOrder A] [ThrOps A]

/-- A split that is found has a positive gain. -/
theorem findBestSplit_pos [FpOrder D] {sort : (Nat → D) → List Nat → List Nat} {c : Column A} {w : Nat → D}
    {grads : List (GD D)} {samples : List Nat} {cfg : SplitConfig D} {total : GD D} {s : Split D A}
    (h : findBestSplit sort c w grads samples cfg total = ok (some s)) : Dbl.ltb 0 s.gain = true := by
  cases c with
  | str c =>
    simp only [findBestSplit, findBestStringSplit, bind_eq_ok, pure_eq] at h
    obtain ⟨_, _, _, _, _, _, h⟩ := h
    split at h
    · cases h
    · rename_i p hp
      cases h
      exact (C28_best_candidate cfg total _ _ p hp).2.1
  | bkt c =>
    simp only [findBestSplit, findBestFloatSplit, bind_eq_ok, pure_eq] at h
    obtain ⟨_, _, _, _, _, _, _, _, h⟩ := h
    split at h
    · cases h
    · rename_i p hp
      simp only [bind_eq_ok] at h
      obtain ⟨_, _, _, _, _, _, h⟩ := h
      cases h
      exact (C28_best_candidate cfg total _ _ p hp).2.1
  | raw c => simp [findBestSplit] at h

/-- The part of a list of groups that belongs to one key. -/
theorem filter_flatMap_key {α κ : Type} [DecidableEq κ] {f : α → κ} {m : α → List Nat} {g : Nat → Option κ} :
    ∀ {l : List α}, (l.map f).Nodup → (∀ e ∈ l, ∀ i ∈ m e, g i = some (f e)) → ∀ e ∈ l,
    (l.flatMap m).filter (fun i => decide (g i = some (f e))) = m e
  | [], _, _, e, he => by cases he
  | a :: l, hn, hg, e, he => by
    rw [List.map_cons, List.nodup_cons] at hn
    rw [List.flatMap_cons, List.filter_append]
    rcases List.mem_cons.mp he with rfl | he'
    · have h1 : (m e).filter (fun i => decide (g i = some (f e))) = m e := by
        rw [List.filter_eq_self]
        intro i hi
        simp [hg e (List.mem_cons_self ..) i hi]
      have h2 : (l.flatMap m).filter (fun i => decide (g i = some (f e))) = [] := by
        rw [List.filter_eq_nil_iff]
        intro i hi
        obtain ⟨b, hb, hib⟩ := List.mem_flatMap.mp hi
        rw [hg b (List.mem_cons_of_mem _ hb) i hib]
        simp only [Option.some.injEq, decide_eq_true_eq]
        intro heq
        exact hn.1 (heq ▸ List.mem_map_of_mem hb)
      rw [h1, h2, List.append_nil]
    · have h1 : (m a).filter (fun i => decide (g i = some (f e))) = [] := by
        rw [List.filter_eq_nil_iff]
        intro i hi
        rw [hg a (List.mem_cons_self ..) i hi]
        simp only [Option.some.injEq, decide_eq_true_eq]
        intro heq
        exact hn.1 (heq ▸ List.mem_map_of_mem he')
      rw [h1, List.nil_append]
      exact filter_flatMap_key hn.2 (fun b hb => hg b (List.mem_cons_of_mem _ hb)) e he'

/-- The samples of an entry are those that reach its leaf. -/
theorem Grown.members {env : FitEnv D A} {cfg : FitConfig D} {columns : String → Option (Column A)} {all : List Nat}
    {s : FitState D A} (hg : Grown env cfg columns all s) {e : NodeData A} (he : e ∈ s.queue) :
    e.samples.Perm (all.filter (reaches columns s.tree e.path)) := by
  have h := filter_flatMap_key (f := NodeData.path) (m := NodeData.samples)
    (g := fun i => (leafOf columns s.tree i).map Prod.fst) hg.nodup (by
      intro e he i hi
      obtain ⟨x, hx⟩ := hg.routed e he i hi
      simp [hx]) e he
  conv => lhs; rw [← h]
  exact hg.perm.filter _

/-- The leaves and the entries of the queue, with the gains by which the queue is ordered. -/
theorem Grown.leafEntry [FpOrder D] {env : FitEnv D A} {cfg : FitConfig D} {columns : String → Option (Column A)} {all : List Nat}
    {s : FitState D A} (hg : Grown env cfg columns all s) {q : List Bool} {x : D} {sp : Option (Split D A)}
    (h : IsLeafAt s.tree q x sp) :
    ∃ e ∈ s.queue, e.path = q ∧ ∃ total best p p1, weightedSum env.numThreads env.w env.grads e.samples = ok total ∧
      bestFeature env cfg e.samples total p = ok (best, p1) ∧ e.feature = best.map Prod.snd ∧
      x = env.rnd32 (total.score cfg.l2Lambda) ∧ sp = best.map Prod.fst := by
  have hm := (hg.leaves q).mp ⟨x, sp, h⟩
  obtain ⟨e, he, rfl⟩ := List.mem_map.mp hm
  obtain ⟨total, best, p, p1, h1, h2, h3, h4⟩ := hg.entry e he
  rw [newNode_eq env cfg total h2] at h4
  obtain ⟨h5, h6⟩ := IsLeafAt.unique h h4
  exact ⟨e, he, rfl, total, best, p, p1, h1, h2, h3, h5, h6⟩

/-- The gain of an entry is that of the split stored at its leaf. -/
theorem queueGain_eq {s : FitState D A} {e : NodeData A} {x : D} {sp : Option (Split D A)}
    (h : IsLeafAt s.tree e.path x sp) :
    (match s.tree.at? e.path with
      | some t => t.splitOf.gain
      | none => (0 : D)) = (sp.getD { gain := 0 }).gain := by
  rw [IsLeafAt] at h
  rw [h]
  cases sp <;> rfl

/-- The leaf of the top entry: either it has a split, and none has a larger gain, or no leaf has a split. -/
theorem Grown.top [FpOrder D] {env : FitEnv D A} {cfg : FitConfig D} {columns : String → Option (Column A)} {all : List Nat}
    {s : FitState D A} (hg : Grown env cfg columns all s) (htop : TopSpec env.top) {e : NodeData A}
    (he : s.queue[env.top s.step (queueGains s)]? = some e) :
    (e.feature = none → ∀ q x sp, IsLeafAt s.tree q x sp → sp = none) ∧
    (∀ x sp, IsLeafAt s.tree e.path x (some sp) → ∀ q y sq, IsLeafAt s.tree q y (some sq) →
      Dbl.ltb sp.gain sq.gain = false) := by
  have hmem : e ∈ s.queue := List.mem_of_getElem? he
  have hne : queueGains s ≠ [] := by
    intro h
    have : s.queue = [] := by simpa [queueGains] using h
    rw [this] at hmem
    cases hmem
  obtain ⟨g, hgk, hmax⟩ := htop s.step (queueGains s) hne
  have hgain : ∀ x sp, IsLeafAt s.tree e.path x sp → g = (sp.getD { gain := 0 }).gain := by
    intro x sp h
    rw [queueGains, List.getElem?_map, ← queueGains, he, Option.map_some, Option.some.injEq] at hgk
    rw [← hgk]
    exact queueGain_eq h
  have hother : ∀ q y sq, IsLeafAt s.tree q y sq → Dbl.ltb g (sq.getD { gain := 0 }).gain = false := by
    intro q y sq h
    obtain ⟨e', he', rfl, _⟩ := hg.leafEntry h
    refine hmax _ ?_
    rw [← queueGain_eq h]
    exact List.mem_map.mpr ⟨e', he', rfl⟩
  constructor
  · intro hf q y sq hq
    obtain ⟨total, best, p, p1, h1, h2, h3, h4⟩ := hg.entry e hmem
    rw [newNode_eq env cfg total h2] at h4
    have hb : best = none := by
      rw [hf] at h3
      cases best with
      | none => rfl
      | some b => cases h3
    subst hb
    have h0 := hgain _ _ h4
    simp only [Option.map_none, Option.getD_none] at h0
    subst h0
    cases sq with
    | none => rfl
    | some sq =>
      have := hother q y _ hq
      simp only [Option.getD_some] at this
      obtain ⟨e', he', _, total', best', p', p1', _, k2, _, _, k5⟩ := hg.leafEntry hq
      cases best' with
      | none => cases k5
      | some b =>
        obtain ⟨sb, cb⟩ := b
        simp only [Option.map_some, Option.some.injEq] at k5
        subst k5
        rw [(bestFeature_chosen k2).1] at this
        cases this
  · intro x sp hsp q y sq hsq
    have h0 := hgain _ _ hsp
    simp only [Option.getD_some] at h0
    subst h0
    simpa using hother q y _ hsq

/-- One more leaf is one more step of the loop. -/
theorem fitLoop_next {env : FitEnv D A} {cfg : FitConfig D} {n : Nat} :
    ∀ {fuel : Nat} {s s1 s2 : FitState D A}, n ≤ s.queue.length + fuel → 0 < s.queue.length → s.queue.length ≤ n →
    (∀ (s s' : FitState D A) k e f, s.queue[k]? = some e → e.feature = some f → fitStep env cfg s k e f = ok s' →
      s'.queue.length = s.queue.length + 1) →
    fitLoop env { cfg with numLeaves := n } fuel s = ok s1 →
    fitLoop env { cfg with numLeaves := n + 1 } (fuel + 1) s = ok s2 →
    (s2 = s1 ∧ ∃ e, s1.queue[env.top s1.step (queueGains s1)]? = some e ∧ e.feature = none) ∨
    (∃ e f, s1.queue[env.top s1.step (queueGains s1)]? = some e ∧ e.feature = some f ∧
      fitStep env cfg s1 (env.top s1.step (queueGains s1)) e f = ok s2)
  | fuel, s, s1, s2, hfuel, hpos, hle, hlen, h1, h2 => by
    rw [fitLoop] at h2
    rw [if_pos ⟨hpos, by simp only; omega⟩] at h2
    simp only [bind_eq_ok] at h2
    obtain ⟨e, he, h2⟩ := h2
    by_cases hn : s.queue.length < n
    · cases fuel with
      | zero => omega
      | succ fuel =>
        rw [fitLoop, if_pos ⟨hpos, hn⟩] at h1
        simp only [he, ok_bind] at h1
        rw [vecGet_eq_ok] at he
        cases hf : e.feature with
        | none =>
          rw [hf] at h1 h2
          cases h1
          cases h2
          exact Or.inl ⟨rfl, e, he, hf⟩
        | some f =>
          rw [hf] at h1 h2
          simp only [bind_eq_ok] at h1 h2
          obtain ⟨a, ha, h1⟩ := h1
          obtain ⟨b, hb, h2⟩ := h2
          have hab : (ok a : Outcome (FitState D A)) = ok b := by rw [← ha, ← hb]; rfl
          cases hab
          have hl := hlen s a _ e f he hf ha
          exact fitLoop_next (by omega) (by omega) (by omega) hlen h1 h2
    · have hs : s1 = s := by
        cases fuel with
        | zero => cases h1; rfl
        | succ fuel =>
          rw [fitLoop, if_neg (by simp only; omega)] at h1
          cases h1; rfl
      subst hs
      rw [vecGet_eq_ok] at he
      cases hf : e.feature with
      | none =>
        rw [hf] at h2
        cases h2
        exact Or.inl ⟨rfl, e, he, hf⟩
      | some f =>
        rw [hf] at h2
        simp only [bind_eq_ok] at h2
        obtain ⟨b, hb, h2⟩ := h2
        have hl := hlen s1 b _ e f he hf hb
        refine Or.inr ⟨e, f, he, hf, ?_⟩
        have : s2 = b := by
          cases fuel with
          | zero => cases h2; rfl
          | succ fuel =>
            rw [fitLoop, if_neg (by simp only; omega)] at h2
            cases h2; rfl
        rw [this]
        exact hb

theorem fitStep_length {env : FitEnv D A} {cfg : FitConfig D} {s s' : FitState D A} {k : Nat} {e : NodeData A}
    {f : Column A} (he : s.queue[k]? = some e) (h : fitStep env cfg s k e f = ok s') :
    s'.queue.length = s.queue.length + 1 := by
  rw [fitStep] at h
  cases hat : s.tree.at? e.path with
  | none => rw [hat] at h; cases h
  | some t =>
  simp only [hat, ok_bind, bind_eq_ok, pure_eq] at h
  obtain ⟨⟨ls, rs⟩, _, lt, _, rt, _, ⟨lb, p1⟩, _, ⟨rb, p2⟩, _, h⟩ := h
  cases h
  have hk := (List.getElem?_eq_some_iff.mp he).1
  simp only [List.length_append, List.length_eraseIdx, hk, if_true, List.length_cons, List.length_nil]
  omega

end Gbdt
