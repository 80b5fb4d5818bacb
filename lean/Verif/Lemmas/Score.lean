import Verif.Model.Score
import Verif.Spec.Tree
import Verif.Props.Partition
import Verif.Props.Subsampling

/-!
# Scoring: helper lemmas
-/

set_option autoImplicit false
set_option linter.unusedSectionVars false

namespace Gbdt

open Outcome

variable {D A : Type} [LinearOrder A]

theorem SplitFits.matches {c : Column A} {s : Split D A} (h : SplitFits c s) : Matches c s := by
  cases c with
  | str c => obtain ⟨cs, h1, _⟩ := h; simp [Matches, h1]
  | bkt c => obtain ⟨cs, h1⟩ := h; simp [Matches, h1]
  | raw c => trivial

theorem names_index (blocks : List (List String)) (h : blocks.flatten.length + 1 < 2 ^ 32) :
    ∀ (idx : List Nat) (names : List String), idx.mapM (StrCol.build blocks).catString = ok names →
      names.filterMap (StrCol.build blocks).catIndex = idx := by
  intro idx
  induction idx with
  | nil => intro names hn; simp only [List.mapM_nil, pure_eq, Outcome.ok.injEq] at hn; subst hn; rfl
  | cons k ks ih =>
    intro names hn
    simp only [List.mapM_cons, bind_eq_ok, pure_eq, Outcome.ok.injEq] at hn
    obtain ⟨x, hx, xs, hxs, rfl⟩ := hn
    rw [List.filterMap_cons, ((C02_lookup_inverse blocks h).1 x k).mpr hx, ih xs hxs]

/-- The test of the code is the one of the specification. -/
theorem rowTest_sendsLeft {n : Nat} {c : Column A} (hc : HasRows n c) {s : Split D A} (hs : SplitFits c s) {i : Nat}
    (hi : i < n) : ∃ b, sendsLeft c s i = some b ∧ rowTest c s i = ok b := by
  cases hc with
  | str blocks hlen hsize =>
    subst hlen
    obtain ⟨cs, h1, h2⟩ := hs
    obtain ⟨k, _, hk, _, _, _⟩ := C02_same_code_iff_same_string blocks hsize i i hi hi
    have hrow := (C01_string_roundtrip blocks hsize).2 i hi
    have hcat : (StrCol.build blocks).catString k = ok blocks.flatten[i] := by
      simpa [StrCol.rowString, hk] using hrow
    have hset : categorySet (StrCol.build blocks) cs = cs.category.filterMap (StrCol.build blocks).catIndex := by
      unfold categorySet
      rcases h2 with h2 | h2
      · simp [h2]
      · split
        · exact (names_index blocks hsize _ _ h2).symm
        · rfl
    have hmem : (categorySet (StrCol.build blocks) cs).contains k = cs.category.contains blocks.flatten[i] := by
      rw [Bool.eq_iff_iff, List.contains_iff_mem, List.contains_iff_mem, hset, List.mem_filterMap]
      constructor
      · rintro ⟨x, hx, hxk⟩
        have := ((C02_lookup_inverse blocks hsize).1 x k).mp hxk
        rw [hcat, Outcome.ok.injEq] at this
        rwa [this]
      · intro hx
        exact ⟨_, hx, ((C02_lookup_inverse blocks hsize).1 _ k).mpr hcat⟩
    refine ⟨cs.category.contains blocks.flatten[i], ?_, ?_⟩
    · simp only [sendsLeft, h1, hrow]
    · simp only [rowTest, h1, stringGoesLeft, hk, ok_bind, pure_eq, hmem]
  | bkt fmax nb blocks c hlen hsize hnb hok =>
    subst hlen
    obtain ⟨f, h1⟩ := hs
    have hfit : Fits nb blocks := ⟨hsize, hnb⟩
    have hm := (C03_missing_iff_nan hfit hok).2 i hi
    have hget := List.getElem?_eq_getElem hi
    cases hv : blocks.flatten[i] with
    | nan =>
      rw [hv] at hm
      refine ⟨!f.missingToRight, ?_, ?_⟩
      · simp only [sendsLeft, h1, hm]; rfl
      · simp only [rowTest, h1, floatGoesLeft, hm, ok_bind]
        cases f.missingToRight <;> rfl
    | num v =>
      rw [hv] at hm hget
      obtain ⟨buf, rest, M, e, hr, _, _, r⟩ := build_ok hfit.1 hfit.2 hok
      obtain ⟨k, m, hk, hx, _⟩ := r.row hget
      refine ⟨Fl.lt (.num k) f.threshold, ?_, ?_⟩
      · simp only [sendsLeft, h1, hm, hx]; rfl
      · simp only [rowTest, h1, floatGoesLeft, hm, hx, ok_bind]; rfl
  | raw c hlen => exact ⟨false, rfl, rfl⟩

/-- Partitioning by the specification. -/
theorem partition_sendsLeft {n : Nat} {c : Column A} (hc : HasRows n c) {s : Split D A} (hs : SplitFits c s)
    {samples : List Nat} (hin : ∀ i ∈ samples, i < n) :
    ∃ R, partition c s samples = ok (samples.filter (fun i => sendsLeft c s i == some true), R) ∧
      R.Perm (samples.filter (fun i => !(sendsLeft c s i == some true))) := by
  refine partition_spec hs.matches (fun i => sendsLeft c s i == some true) samples ?_
  intro i hi
  obtain ⟨b, h1, h2⟩ := rowTest_sendsLeft hc hs (hin i hi)
  rw [h2, h1]
  cases b <;> rfl

variable [Dbl D]

theorem addToAll_spec (x : D) : ∀ (samples : List Nat) (scores : List D), samples.Nodup →
    (∀ i ∈ samples, i < scores.length) →
    ∃ sc, addToAll x samples scores = ok sc ∧ sc.length = scores.length ∧
      (∀ i ∈ samples, ∃ old, scores[i]? = some old ∧ sc[i]? = some (old + x)) ∧
      ∀ i, i ∉ samples → sc[i]? = scores[i]?
  | [], scores, _, _ => ⟨scores, rfl, rfl, by simp, by simp⟩
  | i :: rest, scores, hn, hin => by
    have hi : i < scores.length := hin i (by simp)
    rw [List.nodup_cons] at hn
    obtain ⟨sc, h1, h2, h3, h4⟩ := addToAll_spec x rest (scores.set i (scores[i] + x)) hn.2
      (fun j hj => by rw [List.length_set]; exact hin j (by simp [hj]))
    refine ⟨sc, ?_, by rw [h2, List.length_set], ?_, ?_⟩
    · rw [addToAll, List.foldlM_cons, vecGet_lt hi, ok_bind, pure_eq, ok_bind]
      exact h1
    · intro j hj
      rcases List.mem_cons.mp hj with rfl | hj
      · refine ⟨scores[j], List.getElem?_eq_getElem hi, ?_⟩
        rw [h4 j hn.1, List.getElem?_set_self hi]
      · obtain ⟨old, g1, g2⟩ := h3 j hj
        have hne : i ≠ j := fun h => hn.1 (h ▸ hj)
        rw [List.getElem?_set_ne hne] at g1
        exact ⟨old, g1, g2⟩
    · intro j hj
      rw [List.mem_cons, not_or] at hj
      rw [h4 j hj.2, List.getElem?_set_ne (fun h => hj.1 h.symm)]

/-- What scoring does: the samples are rearranged, each sample's score grows by the score of its leaf and the
constant, and nothing else changes. -/
def ScoresAdded (columns : String → Option (Column A)) (k : D) (t : Tree D A) (samples : List Nat) (scores : List D)
    (sc : List D) : Prop :=
  sc.length = scores.length ∧
  (∀ i ∈ samples, ∃ x old, scoreOf columns t i = some x ∧ scores[i]? = some old ∧ sc[i]? = some (old + (x + k))) ∧
  ∀ i, i ∉ samples → sc[i]? = scores[i]?

theorem addSampleScores_spec {columns : String → Option (Column A)} {n : Nat}
    (hcols : ∀ name c, columns name = some c → HasRows n c) (k : D) :
    ∀ (t : Tree D A) (samples : List Nat) (scores : List D), Scorable columns t → samples.Nodup →
      (∀ i ∈ samples, i < n) → scores.length = n →
      ∃ s' sc, addSampleScores columns k t samples scores = ok (s', sc) ∧ s'.Perm samples ∧
        ScoresAdded columns k t samples scores sc := by
  intro t
  induction t with
  | absent =>
    intro samples scores _ hn hin hl
    obtain ⟨sc, h1, h2, h3, h4⟩ := addToAll_spec (0 + k) samples scores hn (by simpa [hl] using hin)
    refine ⟨samples, sc, by simp [addSampleScores, h1], List.Perm.refl _, h2, ?_, h4⟩
    intro i hi
    obtain ⟨old, g1, g2⟩ := h3 i hi
    exact ⟨0, old, rfl, g1, g2⟩
  | node score split left right ihl ihr =>
    intro samples scores hsc hn hin hl
    cases left with
    | absent =>
      obtain ⟨sc, h1, h2, h3, h4⟩ := addToAll_spec (score + k) samples scores hn (by simpa [hl] using hin)
      refine ⟨samples, sc, by simp [addSampleScores, Tree.isSet, h1], List.Perm.refl _, h2, ?_, h4⟩
      intro i hi
      obtain ⟨old, g1, g2⟩ := h3 i hi
      exact ⟨score, old, rfl, g1, g2⟩
    | node a b c d =>
      obtain ⟨⟨s, col, rfl, hcol, hfit⟩, hscl, hscr⟩ := hsc
      have hrows := hcols _ _ hcol
      obtain ⟨R, hp, hR⟩ := partition_sendsLeft hrows hfit hin
      generalize hL : samples.filter (fun i => sendsLeft col s i == some true) = L at hp
      have hLm : ∀ i, i ∈ L ↔ i ∈ samples ∧ sendsLeft col s i = some true := by
        intro i; rw [← hL, List.mem_filter]; simp
      have hRm : ∀ i, i ∈ R ↔ i ∈ samples ∧ ¬ sendsLeft col s i = some true := by
        intro i; rw [hR.mem_iff, List.mem_filter]; simp
      have hLn : L.Nodup := hL ▸ hn.filter _
      have hRn : R.Nodup := hR.nodup_iff.mpr (hn.filter _)
      obtain ⟨ls, sc1, hl1, hl2, hl3, hl4, hl5⟩ := ihl L scores hscl hLn (fun i hi => hin i ((hLm i).mp hi).1) hl
      obtain ⟨rs, sc2, hr1, hr2, hr3, hr4, hr5⟩ := ihr R sc1 hscr hRn (fun i hi => hin i ((hRm i).mp hi).1) (by omega)
      refine ⟨ls ++ rs, sc2, ?_, ?_, ?_, ?_, ?_⟩
      · rw [addSampleScores, if_pos (show (Tree.node a b c d).isSet = true from rfl)]
        simp only [Tree.splitOf, hcol, hp, ok_bind, hl1, hr1, pure_eq]
      · refine (hl2.append hr2).trans ?_
        rw [← hL]
        exact (List.Perm.append_left _ hR).trans (List.filter_append_perm _ samples)
      · omega
      · intro i hi
        obtain ⟨b', hb, _⟩ := rowTest_sendsLeft hrows hfit (hin i hi)
        cases b' with
        | true =>
          obtain ⟨x, old, g1, g2, g3⟩ := hl4 i ((hLm i).mpr ⟨hi, hb⟩)
          refine ⟨x, old, ?_, g2, ?_⟩
          · simp only [scoreOf, leafOf, hcol, hb, Option.map_map] at g1 ⊢
            exact g1
          · rw [hr5 i (fun h => ((hRm i).mp h).2 hb), g3]
        | false =>
          obtain ⟨x, old, g1, g2, g3⟩ := hr4 i ((hRm i).mpr ⟨hi, by simp [hb]⟩)
          refine ⟨x, old, ?_, ?_, g3⟩
          · simp only [scoreOf, leafOf, hcol, hb, Option.map_map] at g1 ⊢
            exact g1
          · rw [← hl5 i (fun h => by have := ((hLm i).mp h).2; rw [hb] at this; cases this), g2]
      · intro i hi
        rw [hr5 i (fun h => hi ((hRm i).mp h).1), hl5 i (fun h => hi ((hLm i).mp h).1)]

theorem addTreeScores_spec {columns : String → Option (Column A)} {n : Nat}
    (hcols : ∀ name c, columns name = some c → HasRows n c) (k : D) {t : Tree D A} (ht : Scorable columns t) :
    ∀ (slices : List (List Nat)) (scores : List D), slices.flatten.Nodup →
      (∀ i ∈ slices.flatten, i < n) → scores.length = n →
      ∃ ss sc, addTreeScores columns t k slices scores = ok (ss, sc) ∧ ss.flatten.Perm slices.flatten ∧
        ScoresAdded columns k t slices.flatten scores sc
  | [], scores, _, _, _ => ⟨[], scores, rfl, List.Perm.refl _, rfl, by simp, by simp⟩
  | slice :: slices, scores, hn, hin, hl => by
    rw [List.flatten_cons] at hn hin
    have hdis := List.disjoint_of_nodup_append hn
    obtain ⟨s1, sc1, a1, a2, a3, a4, a5⟩ := addSampleScores_spec hcols k t slice scores ht (List.nodup_append.mp hn).1
      (fun i hi => hin i (by simp only [List.mem_append]; exact Or.inl hi)) hl
    obtain ⟨ss, sc2, b1, b2, b3, b4, b5⟩ := addTreeScores_spec hcols k ht slices sc1 (List.nodup_append.mp hn).2.1
      (fun i hi => hin i (by simp only [List.mem_append]; exact Or.inr hi)) (by omega)
    refine ⟨s1 :: ss, sc2, by simp only [addTreeScores, a1, ok_bind, b1, pure_eq], ?_, by omega, ?_, ?_⟩
    · rw [List.flatten_cons, List.flatten_cons]
      exact a2.append b2
    · intro i hi
      rw [List.flatten_cons, List.mem_append] at hi
      rcases hi with hi | hi
      · obtain ⟨x, old, g1, g2, g3⟩ := a4 i hi
        exact ⟨x, old, g1, g2, by rw [b5 i (fun h => hdis hi h), g3]⟩
      · obtain ⟨x, old, g1, g2, g3⟩ := b4 i hi
        exact ⟨x, old, g1, by rw [← a5 i (fun h => hdis h hi), g2], g3⟩
    · intro i hi
      rw [List.flatten_cons, List.mem_append, not_or] at hi
      rw [b5 i hi.2, a5 i hi.1]

/-- The slices of `ComputeTreeScores` at any time: each row once. -/
def Slices (n : Nat) (slices : List (List Nat)) : Prop := slices.flatten.Perm (List.range n)

theorem scoreSlices_ok {numThreads : Int} (h : 0 < numThreads) (n : Nat) :
    ∃ slices, scoreSlices numThreads n = ok slices ∧ Slices n slices := by
  obtain ⟨k, hk⟩ : ∃ k : Nat, numThreads * 5 = k := ⟨(numThreads * 5).toNat, by omega⟩
  obtain ⟨g, h1, _, h3, _⟩ := C21_divide_samples (createAllSamples n) k (by omega)
  refine ⟨g, by rw [scoreSlices, hk, h1], ?_⟩
  rw [Slices, h3, C22_all_samples]

theorem Slices.add {columns : String → Option (Column A)} {n : Nat} {slices : List (List Nat)} (h : Slices n slices)
    (hcols : ∀ name c, columns name = some c → HasRows n c) (k : D) {t : Tree D A} (ht : Scorable columns t)
    {scores : List D} (hl : scores.length = n) :
    ∃ ss sc, addTreeScores columns t k slices scores = ok (ss, sc) ∧ Slices n ss ∧ sc.length = n ∧
      ∀ i < n, ∃ x old, scoreOf columns t i = some x ∧ scores[i]? = some old ∧ sc[i]? = some (old + (x + k)) := by
  have hmem : ∀ i, i ∈ slices.flatten ↔ i < n := fun i => by rw [h.mem_iff, List.mem_range]
  obtain ⟨ss, sc, h1, h2, h3, h4, _⟩ := addTreeScores_spec hcols k ht slices scores (h.nodup_iff.mpr List.nodup_range)
    (fun i hi => (hmem i).mp hi) hl
  exact ⟨ss, sc, h1, h2.trans h, by omega, fun i hi => h4 i ((hmem i).mpr hi)⟩

end Gbdt
