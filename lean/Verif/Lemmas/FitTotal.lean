import Verif.Lemmas.FitGain
import Verif.Lemmas.ExactSplit

/-!
# Growing a tree: every step is defined; the sums of the leaves
-/

set_option autoImplicit false
set_option linter.unusedSectionVars false

namespace Gbdt

open Outcome

theorem mapM_total {α β : Type} {f : α → Outcome β} : ∀ {l : List α}, (∀ a ∈ l, ∃ b, f a = ok b) →
    ∃ r, l.mapM f = ok r
  | [], _ => ⟨[], rfl⟩
  | a :: l, h => by
    obtain ⟨b, hb⟩ := h a (List.mem_cons_self ..)
    obtain ⟨r, hr⟩ := mapM_total (l := l) (fun x hx => h x (List.mem_cons_of_mem _ hx))
    refine ⟨b :: r, ?_⟩
    simp only [List.mapM_cons, hb, ok_bind, hr, pure_eq]

theorem mapM_map {α β : Type} {f : α → Outcome β} {g : α → β} : ∀ {l : List α}, (∀ a ∈ l, f a = ok (g a)) →
    l.mapM f = ok (l.map g)
  | [], _ => rfl
  | a :: l, h => by
    simp only [List.mapM_cons, h a (List.mem_cons_self ..), ok_bind,
      mapM_map (l := l) (fun x hx => h x (List.mem_cons_of_mem _ hx)), pure_eq, List.map_cons]

section sums
variable {D A : Type} [Dbl D]

theorem sliceSum_foldl (w : Nat → D) (grads : List (GD D)) : ∀ (slice : List Nat) (t : GD D),
    (∀ i ∈ slice, i < grads.length) →
    slice.foldlM (fun total i => do
      let d ← Outcome.vecGet grads i
      pure (total.add (d.scale (w i)))) t = ok (slice.foldl (fun a i => a.add (weighted w grads i)) t)
  | [], _, _ => rfl
  | i :: slice, t, h => by
    have hi := h i (List.mem_cons_self ..)
    simp only [List.foldlM_cons, vecGet_lt hi, ok_bind, pure_eq, List.foldl_cons]
    refine (sliceSum_foldl w grads slice _ (fun j hj => h j (List.mem_cons_of_mem _ hj))).trans ?_
    simp only [weighted, List.getElem?_eq_getElem hi]

theorem sliceSum_eq (w : Nat → D) (grads : List (GD D)) (slice : List Nat) (h : ∀ i ∈ slice, i < grads.length) :
    sliceSum w grads slice = ok (sumOf (weighted w grads) slice) := sliceSum_foldl w grads slice _ h

/-- What `ComputeWeightedSum` returns: the sums of consecutive slices, added in order. -/
theorem weightedSum_eq {nt : Int} (hnt : 0 < nt) (w : Nat → D) (grads : List (GD D)) (samples : List Nat)
    (h : ∀ i ∈ samples, i < grads.length) :
    ∃ groups, divideSamples samples (nt * 5) = ok groups ∧ groups.flatten = samples ∧ weightedSum nt w grads samples =
      ok ((groups.map (sumOf (weighted w grads))).foldl GD.add GD.zero) := by
  obtain ⟨groups, h1, _, h3, _⟩ := C21_divide_samples samples (nt * 5).toNat (by omega)
  rw [Int.toNat_of_nonneg (by omega)] at h1
  refine ⟨groups, h1, h3, ?_⟩
  rw [weightedSum, h1, ok_bind, mapM_map (g := sumOf (weighted w grads)), ok_bind, pure_eq]
  intro g hg
  refine sliceSum_eq w grads g (fun i hi => h i ?_)
  rw [← h3]
  exact List.mem_flatten.mpr ⟨g, hg, hi⟩

theorem weightedSum_threads {nt : Int} {w : Nat → D} {grads : List (GD D)} {samples : List Nat} {total : GD D}
    (h : weightedSum nt w grads samples = ok total) : 0 < nt := by
  by_contra hn
  rw [weightedSum, (C21_no_groups samples 0 (nt * 5) (by omega)).1] at h
  cases h

end sums

section exactSums
variable {K : Type} [Field K] [LinearOrder K]

theorem foldl_add_sumOf (x : Nat → GD K) : ∀ (groups : List (List Nat)) (a : GD K),
    (groups.map (sumOf x)).foldl GD.add a = a.add (sumOf x groups.flatten)
  | [], a => by
    rw [List.map_nil, List.foldl_nil, List.flatten_nil]
    exact (GD.add_zero' a).symm
  | g :: groups, a => by
    rw [List.map_cons, List.foldl_cons, foldl_add_sumOf x groups, List.flatten_cons, sumOf_append, GD.add_assoc']

theorem weightedSum_exact {nt : Int} {w : Nat → K} {grads : List (GD K)} {samples : List Nat} {total : GD K}
    (hin : ∀ i ∈ samples, i < grads.length) (h : weightedSum nt w grads samples = ok total) :
    total = sumOf (weighted w grads) samples := by
  obtain ⟨groups, _, h2, h3⟩ := weightedSum_eq (weightedSum_threads h) w grads samples hin
  rw [h3] at h
  cases h
  rw [foldl_add_sumOf, GD.zero_add', h2]

end exactSums

section total
variable {D A : Type} [Dbl D] [LinearOrder A] [ThrOps A] [FpOrder D]

theorem TrainRows.hasRows {n : Nat} {c : Column A} (h : TrainRows n c) : HasRows n c := by
  cases h with
  | str blocks h1 h2 => exact .str blocks h1 h2
  | bkt fmax nb blocks c h1 h2 h3 h4 _ => exact .bkt fmax nb blocks c h1 h2 h3 h4
  | raw c h => exact .raw c h

theorem findBestSplit_total {n : Nat} {c : Column A} (hc : TrainRows n c) {sort : (Nat → D) → List Nat → List Nat}
    (hsort : SortSpec sort) (w : Nat → D) {grads : List (GD D)} (hg : grads.length = n) {samples : List Nat}
    (hin : ∀ i ∈ samples, i < n) (cfg : SplitConfig D) (total : GD D) :
    ∃ o, findBestSplit sort c w grads samples cfg total = ok o ∧
      ∀ s, o = some s → ∀ name, ∃ s1, nameCategories c { s with feature := name } = ok s1 := by
  cases hc with
  | raw c h => exact ⟨none, rfl, fun s h => by cases h⟩
  | str blocks h1 h2 =>
    obtain ⟨codes, wf, hlen⟩ := strWF_build blocks (by omega)
    obtain ⟨values, hp, _, hr⟩ := findBestStringSplit_eq (A := A) hsort wf w grads samples cfg total
      (fun i hi => ⟨by rw [hlen, h1]; exact hin i hi, by rw [hg]; exact hin i hi⟩)
    have d := StrCol.done_build blocks (by omega)
    dsimp only at hr
    rcases hr with ⟨_, hr⟩ | ⟨p, _, _, hr⟩
    · exact ⟨none, hr, fun s h => by cases h⟩
    · refine ⟨_, hr, ?_⟩
      rintro s hs name
      simp only [Option.some.injEq] at hs
      subst hs
      obtain ⟨names, hn⟩ := mapM_total (f := (StrCol.build blocks).catString)
        (l := if p + 1 ≤ values.length - p - 1 then values.take (p + 1) else values.drop (p + 1)) (by
          intro k hk
          have hk' : k ∈ values := by
            split at hk
            · exact List.mem_of_mem_take hk
            · exact List.mem_of_mem_drop hk
          have hlt := (mem_values.mp (hp.mem_iff.mp hk')).1
          have hl := d.len
          have hlt' : k < (StrCol.build blocks).strings.length := by
            rw [StrCol.maxInt, u32_of_lt (by omega)] at hlt
            exact hlt
          exact ⟨_, vecGet_lt hlt'⟩)
      exact ⟨_, by simp only [nameCategories, hn, ok_bind, pure_eq]; rfl⟩
  | bkt fmax nb blocks c h1 h2 h3 h4 h5 =>
    obtain ⟨codes, wf, hlen⟩ := bktWF_build (by omega) h3 h4 h5
    have hr := findBestFloatSplit_eq wf w grads samples cfg total
      (fun i hi => ⟨by rw [hlen, h1]; exact hin i hi, by rw [hg]; exact hin i hi⟩)
    dsimp only at hr
    rcases hr with ⟨_, hr⟩ | ⟨p, lc, rc, t, _, _, _, _, hr⟩
    · exact ⟨none, hr, fun s h => by cases h⟩
    · refine ⟨_, hr, ?_⟩
      rintro s hs name
      simp only [Option.some.injEq] at hs
      subst hs
      exact ⟨_, rfl⟩

theorem bestIndexFrom_total {gains : List D} : ∀ {fuel i best : Nat}, i + fuel ≤ gains.length →
    best < gains.length → ∃ k, bestIndexFrom gains fuel i best = ok k ∧ k < gains.length
  | 0, _, best, _, hb => ⟨best, rfl, hb⟩
  | fuel + 1, i, best, h, hb => by
    rw [bestIndexFrom, vecGet_lt (by omega : i < gains.length), ok_bind, vecGet_lt hb, ok_bind]
    exact bestIndexFrom_total (by omega) (by split <;> omega)

theorem bestFeature_total {env : FitEnv D A} {cfg : FitConfig D} (hi : FitInput env cfg) {samples : List Nat}
    (hin : ∀ i ∈ samples, i < env.grads.length) (total : GD D) (p : Nat) :
    ∃ best p1, bestFeature env cfg samples total p = ok (best, p1) := by
  obtain ⟨chosen, h1, _, h2⟩ := (C22_subsample env.toInt env.ofNat env.draw env.features.length cfg.featureRate p).2 hi.features
  have hch : ∀ j ∈ chosen, j < env.features.length := fun j hj => ((h2 j).mp hj).1
  have hmem : ∀ j (hj : j < env.features.length), TrainRows env.grads.length (env.features[j]).2 := by
    intro j hj
    exact hi.rows (env.features[j]).1 _ (List.getElem_mem hj)
  obtain ⟨splits, h3⟩ := mapM_total (l := chosen) (f := fun j => (do
    let f ← Outcome.vecGet env.features j
    let s ← findBestSplit env.sort f.2 env.w env.grads samples cfg.toSplitConfig total
    pure (s.getD { gain := 0 }) : Outcome (Split D A))) (by
      intro j hj
      obtain ⟨o, ho, _⟩ := findBestSplit_total (hmem j (hch j hj)) hi.sort env.w rfl hin cfg.toSplitConfig total
      exact ⟨o.getD { gain := 0 }, by simp only [vecGet_lt (hch j hj), ok_bind, ho, pure_eq]⟩)
  obtain ⟨hlen, hsp⟩ := mapM_ok h3
  simp only [bestFeature, h1, ok_bind, h3]
  by_cases hpos : splits.length > 0
  · obtain ⟨k, hk, hklt⟩ := bestIndexFrom_total (gains := splits.map Split.gain) (fuel := chosen.length - 1) (i := 1)
      (best := 0) (by rw [List.length_map]; omega) (by rw [List.length_map]; omega)
    rw [List.length_map] at hklt
    rw [hk, ok_bind, if_pos hpos, vecGet_lt hklt, ok_bind]
    split
    · rename_i hgain
      have hkc : k < chosen.length := by omega
      have hjlt := hch _ (List.getElem_mem hkc)
      rw [vecGet_lt hkc, ok_bind, vecGet_lt hjlt, ok_bind]
      obtain ⟨s, hs1, hs2⟩ := hsp k _ (List.getElem?_eq_getElem hkc)
      obtain ⟨o, ho, hn⟩ := findBestSplit_total (hmem _ hjlt) hi.sort env.w rfl hin cfg.toSplitConfig total
      simp only [vecGet_lt hjlt, ok_bind, ho, pure_eq, Outcome.ok.injEq] at hs2
      rw [List.getElem?_eq_getElem hklt, Option.some.injEq] at hs1
      rw [hs1, ← hs2] at hgain ⊢
      cases o with
      | none =>
        simp only [Option.getD_none] at hgain
        rw [StrictLt.irrefl] at hgain
        cases hgain
      | some s' =>
        obtain ⟨s1, hs1'⟩ := hn s' rfl (env.features[chosen[k]]).1
        exact ⟨_, _, by rw [Option.getD_some, hs1', ok_bind, pure_eq]⟩
    · exact ⟨_, _, rfl⟩
  · have : chosen.length = 0 := by omega
    rw [this]
    exact ⟨_, _, by rw [bestIndexFrom, ok_bind, if_neg hpos]; rfl⟩

theorem weightedSum_total {env : FitEnv D A} {cfg : FitConfig D} (hi : FitInput env cfg) {samples : List Nat}
    (hin : ∀ i ∈ samples, i < env.grads.length) :
    ∃ total, weightedSum env.numThreads env.w env.grads samples = ok total := by
  obtain ⟨_, _, _, h⟩ := weightedSum_eq hi.threads env.w env.grads samples hin
  exact ⟨_, h⟩

theorem fitStart_total {env : FitEnv D A} {cfg : FitConfig D} (hi : FitInput env cfg) (p : Nat) :
    ∃ s, fitStart env cfg p = ok s := by
  obtain ⟨all, h1, _, h2⟩ := (C22_subsample env.toInt env.ofNat env.draw env.grads.length cfg.exampleRate p).2 hi.examples
  have hall : ∀ i ∈ all, i < env.grads.length := fun i h => ((h2 i).mp h).1
  obtain ⟨total, h3⟩ := weightedSum_total hi hall
  obtain ⟨best, p2, h4⟩ := bestFeature_total hi hall total (p + env.grads.length)
  exact ⟨_, by simp only [fitStart, h1, ok_bind, h3, h4, pure_eq]; rfl⟩

theorem fitStep_total {env : FitEnv D A} {cfg : FitConfig D} (hi : FitInput env cfg)
    {columns : String → Option (Column A)} {all : List Nat} {s : FitState D A}
    (hall : ∀ i ∈ all, i < env.grads.length)
    (hg : Grown env cfg columns all s) {k : Nat} {e : NodeData A} (hk : s.queue[k]? = some e) {f : Column A}
    (hf : e.feature = some f) : ∃ s', fitStep env cfg s k e f = ok s' := by
  have he : e ∈ s.queue := List.mem_of_getElem? hk
  obtain ⟨total, best, p, p1, hw, hb, hfe, hat⟩ := hg.entry e he
  rw [newNode_eq env cfg total hb] at hat
  have hbest : ∃ sp, best = some (sp, f) := by
    rw [hf] at hfe
    cases best with
    | none => cases hfe
    | some b =>
      obtain ⟨sp, c⟩ := b
      simp only [Option.map_some, Option.some.injEq] at hfe
      exact ⟨sp, by rw [hfe]⟩
  obtain ⟨sp, rfl⟩ := hbest
  have hch := bestFeature_chosen hb
  have hrows := (hi.rows _ _ hch.2.1).hasRows
  have hin : ∀ i ∈ e.samples, i < env.grads.length := fun i hi => hall i (hg.perm.mem_iff.mp (List.mem_flatMap.mpr ⟨e, he, hi⟩))
  obtain ⟨R, hpart, hR⟩ := partition_sendsLeft hrows hch.2.2 hin
  generalize hL : e.samples.filter (fun i => sendsLeft f sp i == some true) = L at hpart
  have hLin : ∀ i ∈ L, i < env.grads.length := by
    intro i hi
    rw [← hL] at hi
    exact hin i (List.mem_filter.mp hi).1
  have hRin : ∀ i ∈ R, i < env.grads.length := fun i hi => hin i (List.mem_filter.mp (hR.mem_iff.mp hi)).1
  have hsplit : ((leaf (env.rnd32 (total.score cfg.l2Lambda)) (some sp)) : Tree D A).splitOf = sp := rfl
  obtain ⟨lt, hlt⟩ := weightedSum_total hi hLin
  obtain ⟨rt, hrt⟩ := weightedSum_total hi hRin
  obtain ⟨lb, p2, hlb⟩ := bestFeature_total hi hLin lt s.pos
  obtain ⟨rb, p3, hrb⟩ := bestFeature_total hi hRin rt p2
  exact ⟨_, by simp only [fitStep, hat, Option.map_some, ok_bind, hsplit, hpart, hlt, hrt, hlb, hrb, pure_eq]; rfl⟩

theorem fitLoop_total {env : FitEnv D A} {cfg : FitConfig D} (hi : FitInput env cfg)
    {columns : String → Option (Column A)} (hd : FitData env columns) {all : List Nat}
    (hall : ∀ i ∈ all, i < env.grads.length) :
    ∀ (fuel : Nat) {s : FitState D A}, Grown env cfg columns all s → ∃ s', fitLoop env cfg fuel s = ok s'
  | 0, s, _ => ⟨s, rfl⟩
  | fuel + 1, s, hg => by
    rw [fitLoop]
    by_cases hc : s.queue.length > 0 ∧ s.queue.length < cfg.numLeaves
    · rw [if_pos hc]
      have hne : queueGains s ≠ [] := by
        intro h
        have : s.queue = [] := by simpa [queueGains] using h
        rw [this] at hc
        simp at hc
      obtain ⟨g, hgk, _⟩ := hi.top s.step (queueGains s) hne
      have hlt : env.top s.step (queueGains s) < s.queue.length := by
        have := (List.getElem?_eq_some_iff.mp hgk).1
        simpa [queueGains] using this
      simp only [vecGet_lt hlt, ok_bind]
      cases hf : (s.queue[env.top s.step (queueGains s)]).feature with
      | none => exact ⟨s, rfl⟩
      | some f =>
        obtain ⟨s1, hs1⟩ := fitStep_total hi hall hg (List.getElem?_eq_getElem hlt) hf
        obtain ⟨_, _, _, _, _, _, _, _, _, _, _, hg1⟩ := fitStep_ok hd hall hg (List.getElem?_eq_getElem hlt) hf hs1
        simp only [hs1, ok_bind]
        exact fitLoop_total hi hd hall fuel hg1
    · rw [if_neg hc]
      exact ⟨s, rfl⟩

end total

end Gbdt
