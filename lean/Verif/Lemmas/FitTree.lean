import Verif.Lemmas.Tree

/-!
# Growing a tree: helper lemmas
-/

set_option autoImplicit false
set_option linter.unusedSectionVars false

namespace Gbdt

open Outcome

variable {D A : Type} [Dbl D] [LinearOrder A] [ThrOps A]

theorem mapM_ok {α β : Type} {f : α → Outcome β} : ∀ {l : List α} {r : List β}, l.mapM f = ok r →
    r.length = l.length ∧ ∀ (i : Nat) (a : α), l[i]? = some a → ∃ b, r[i]? = some b ∧ f a = ok b
  | [], r, h => by
    simp only [List.mapM_nil, pure_eq, Outcome.ok.injEq] at h
    subst h
    exact ⟨rfl, by simp⟩
  | x :: l, r, h => by
    simp only [List.mapM_cons, bind_eq_ok, pure_eq, Outcome.ok.injEq] at h
    obtain ⟨b, hb, bs, hbs, rfl⟩ := h
    obtain ⟨h1, h2⟩ := mapM_ok hbs
    refine ⟨by simp [h1], ?_⟩
    intro i a hi
    cases i with
    | zero =>
      simp only [List.getElem?_cons_zero, Option.some.injEq] at hi
      subst hi
      exact ⟨b, by simp, hb⟩
    | succ i =>
      simp only [List.getElem?_cons_succ] at hi ⊢
      exact h2 i a hi

/-- The kind of split each kind of column yields. -/
def KindOf (c : Column A) (s : Split D A) : Prop :=
  match c with
  | .str _ => ∃ idx, s.catSplit = some { category := [], index := idx }
  | .bkt _ => s.catSplit = none ∧ ∃ f, s.floatSplit = some f
  | .raw _ => False

theorem findBestSplit_kind {sort : (Nat → D) → List Nat → List Nat} {c : Column A} {w : Nat → D} {grads : List (GD D)}
    {samples : List Nat} {cfg : SplitConfig D} {total : GD D} {s : Split D A}
    (h : findBestSplit sort c w grads samples cfg total = ok (some s)) : KindOf c s := by
  cases c with
  | str c =>
    simp only [findBestSplit, findBestStringSplit, bind_eq_ok, pure_eq] at h
    obtain ⟨_, _, _, _, _, _, h⟩ := h
    split at h
    · cases h
    · cases h; exact ⟨_, rfl⟩
  | bkt c =>
    simp only [findBestSplit, findBestFloatSplit, bind_eq_ok, pure_eq] at h
    obtain ⟨_, _, _, _, _, _, _, _, h⟩ := h
    split at h
    · cases h
    · simp only [bind_eq_ok] at h
      obtain ⟨_, _, _, _, _, _, h⟩ := h
      cases h; exact ⟨rfl, _, rfl⟩
  | raw c => simp [findBestSplit] at h

theorem bestIndexFrom_lt {gains : List D} : ∀ {fuel i best k : Nat}, bestIndexFrom gains fuel i best = ok k →
    k = best ∨ (i ≤ k ∧ k < i + fuel)
  | 0, i, best, k, h => by simp only [bestIndexFrom, Outcome.ok.injEq] at h; exact Or.inl h.symm
  | fuel + 1, i, best, k, h => by
    simp only [bestIndexFrom, bind_eq_ok] at h
    obtain ⟨g, _, b, _, h⟩ := h
    rcases bestIndexFrom_lt h with h | h
    · split at h
      · right; omega
      · left; exact h
    · right; omega

/-- The index found has a gain that no other exceeds (for gains that are not NaN). -/
theorem bestIndexFrom_max [FpOrder D] {gains : List D} (hnan : ∀ g ∈ gains, Dbl.eqb g g = true) :
    ∀ {fuel i best k : Nat}, bestIndexFrom gains fuel i best = ok k →
    (∀ j < i, ∀ g b, gains[j]? = some g → gains[best]? = some b → Dbl.ltb b g = false) → (best < i) →
    ∀ j < i + fuel, ∀ g b, gains[j]? = some g → gains[k]? = some b → Dbl.ltb b g = false
  | 0, i, best, k, h, hinv, _ => by
    simp only [bestIndexFrom, Outcome.ok.injEq] at h
    subst h
    exact hinv
  | fuel + 1, i, best, k, h, hinv, hbi => by
    simp only [bestIndexFrom, bind_eq_ok] at h
    obtain ⟨g, hg, b, hb, h⟩ := h
    rw [vecGet_eq_ok] at hg hb
    have hgn := hnan g (List.mem_of_getElem? hg)
    have hbn := hnan b (List.mem_of_getElem? hb)
    have key : ∀ j < i + 1, ∀ g' b', gains[j]? = some g' →
        gains[if Dbl.ltb b g = true then i else best]? = some b' → Dbl.ltb b' g' = false := by
      intro j hj g' b' hg' hb'
      by_cases hlt : Dbl.ltb b g = true
      · rw [if_pos hlt] at hb'
        rw [hg] at hb'
        cases hb'
        by_cases hji : j = i
        · subst hji
          rw [hg] at hg'
          cases hg'
          exact StrictLt.irrefl _
        · have := hinv j (by omega) g' b hg' hb
          cases hgg : Dbl.ltb g g' with
          | false => rfl
          | true => rw [StrictLt.trans _ _ _ hlt hgg] at this; cases this
      · rw [if_neg hlt] at hb'
        rw [hb] at hb'
        cases hb'
        by_cases hji : j = i
        · subst hji
          rw [hg] at hg'
          cases hg'
          simpa using hlt
        · exact hinv j (by omega) g' b hg' hb
    intro j hj
    refine bestIndexFrom_max hnan h key ?_ j (by omega)
    split <;> omega

/-- What is known of the split a node is given. -/
def Chosen (features : List (String × Column A)) (s : Split D A) (c : Column A) : Prop :=
  Dbl.ltb 0 s.gain = true ∧ (s.feature, c) ∈ features ∧ SplitFits c s

theorem nameCategories_fits {c : Column A} {s s1 : Split D A} (h : nameCategories c s = ok s1)
    (hk : KindOf c s) : SplitFits c s1 ∧ s1.gain = s.gain ∧ s1.feature = s.feature := by
  cases c with
  | str c =>
    obtain ⟨idx, hidx⟩ := hk
    simp only [nameCategories, hidx, bind_eq_ok, pure_eq, Outcome.ok.injEq] at h
    obtain ⟨names, hn, rfl⟩ := h
    exact ⟨⟨_, rfl, Or.inr (by simpa using hn)⟩, rfl, rfl⟩
  | bkt c =>
    obtain ⟨h1, f, h2⟩ := hk
    simp only [nameCategories, h1, Outcome.ok.injEq] at h
    subst h
    exact ⟨⟨f, h2⟩, rfl, rfl⟩
  | raw c => exact absurd hk id

/-- A run of `bestFeature` taken apart. -/
theorem bestFeature_ok {env : FitEnv D A} {cfg : FitConfig D} {samples : List Nat} {total : GD D} {p p1 : Nat}
    {best : Option (Split D A × Column A)} (h : bestFeature env cfg samples total p = ok (best, p1)) :
    ∃ (chosen : List Nat) (splits : List (Split D A)) (k : Nat), uniformSubsample env.toInt env.ofNat env.draw env.features.length cfg.featureRate p
        = ok (chosen, p1) ∧ splits.length = chosen.length ∧
      (∀ (i j : Nat), chosen[i]? = some j → ∃ f s, env.features[j]? = some f ∧ splits[i]? = some s ∧
        ∃ o, findBestSplit env.sort f.2 env.w env.grads samples cfg.toSplitConfig total = ok o ∧
          s = o.getD { gain := 0 }) ∧
      bestIndexFrom (splits.map Split.gain) (chosen.length - 1) 1 0 = ok k ∧
      match best with
      | none => ∀ s : Split D A, splits[k]? = some s → Dbl.ltb 0 s.gain = false
      | some (s1, c) => ∃ (s : Split D A) (j : Nat) (f : String × Column A), splits[k]? = some s ∧ Dbl.ltb 0 s.gain = true ∧ chosen[k]? = some j ∧
          env.features[j]? = some f ∧ nameCategories f.2 { s with feature := f.1 } = ok s1 ∧ c = f.2 := by
  simp only [bestFeature, bind_eq_ok] at h
  obtain ⟨⟨chosen, q⟩, h1, splits, h2, k, h3, h4⟩ := h
  obtain ⟨hlen, hsp⟩ := mapM_ok h2
  have hq : q = p1 := by
    split at h4
    · simp only [bind_eq_ok] at h4
      obtain ⟨s, _, h4⟩ := h4
      split at h4
      · simp only [bind_eq_ok] at h4
        obtain ⟨_, _, _, _, _, _, h4⟩ := h4
        cases h4; rfl
      · cases h4; rfl
    · cases h4; rfl
  subst hq
  refine ⟨chosen, splits, k, h1, hlen, ?_, h3, ?_⟩
  · intro i j hij
    obtain ⟨s, hs, hf⟩ := hsp i j hij
    simp only [bind_eq_ok, pure_eq, Outcome.ok.injEq] at hf
    obtain ⟨f, hf, o, ho, rfl⟩ := hf
    rw [vecGet_eq_ok] at hf
    exact ⟨f, _, hf, hs, o, ho, rfl⟩
  · by_cases hpos : splits.length > 0
    · rw [if_pos hpos] at h4
      simp only [bind_eq_ok] at h4
      obtain ⟨s, hs, h4⟩ := h4
      rw [vecGet_eq_ok] at hs
      by_cases hg : Dbl.ltb 0 s.gain = true
      · rw [if_pos hg] at h4
        simp only [bind_eq_ok] at h4
        obtain ⟨j, hj, f, hf, s1, hs1, h4⟩ := h4
        rw [vecGet_eq_ok] at hj hf
        cases h4
        exact ⟨s, j, f, hs, hg, hj, hf, hs1, rfl⟩
      · rw [if_neg hg] at h4
        cases h4
        intro s' hs'
        rw [hs] at hs'
        cases hs'
        simpa using hg
    · rw [if_neg hpos] at h4
      cases h4
      intro s' hs'
      have := List.length_eq_zero_iff.mp (show splits.length = 0 by omega)
      rw [this] at hs'
      cases hs'

theorem bestFeature_chosen [FpOrder D] {env : FitEnv D A} {cfg : FitConfig D} {samples : List Nat} {total : GD D} {p p1 : Nat}
    {s : Split D A} {c : Column A} (h : bestFeature env cfg samples total p = ok (some (s, c), p1)) :
    Chosen env.features s c := by
  obtain ⟨chosen, splits, k, _, _, h3, _, s0, j, f, h5, h6, h7, h8, h9, rfl⟩ := bestFeature_ok h
  obtain ⟨f', s', g1, g2, o, g3, g4⟩ := h3 k j h7
  rw [h8] at g1
  cases g1
  rw [h5] at g2
  cases g2
  cases o with
  | none =>
    subst g4
    simp only [Option.getD_none] at h6
    rw [StrictLt.irrefl] at h6
    cases h6
  | some s'' =>
    simp only [Option.getD_some] at g4
    subst g4
    obtain ⟨k1, k2, k3⟩ := nameCategories_fits h9 (by
      have := findBestSplit_kind g3
      exact this)
    refine ⟨by rw [k2]; exact h6, ?_, k1⟩
    rw [k3]
    exact List.mem_of_getElem? h8

/-- The state while a tree is grown. -/
structure Grown (env : FitEnv D A) (cfg : FitConfig D) (columns : String → Option (Column A)) (all : List Nat)
    (s : FitState D A) : Prop where
  wf : s.tree.WellFormed (fun sp => ∃ c, Chosen env.features sp c)
  count : s.tree.countLeaves = s.queue.length
  nodup : (s.queue.map NodeData.path).Nodup
  leaves : ∀ q, (∃ x sp, IsLeafAt s.tree q x sp) ↔ q ∈ s.queue.map NodeData.path
  entry : ∀ e ∈ s.queue, ∃ total best p p1, weightedSum env.numThreads env.w env.grads e.samples = ok total ∧
    bestFeature env cfg e.samples total p = ok (best, p1) ∧ e.feature = best.map Prod.snd ∧
    s.tree.at? e.path = some (newNode env cfg total best)
  perm : (s.queue.flatMap NodeData.samples).Perm all
  routed : ∀ e ∈ s.queue, ∀ i ∈ e.samples, ∃ x, leafOf columns s.tree i = some (e.path, x)

theorem newNode_eq [FpOrder D] (env : FitEnv D A) (cfg : FitConfig D) (total : GD D) {samples : List Nat} {p p1 : Nat}
    {best : Option (Split D A × Column A)} (h : bestFeature env cfg samples total p = ok (best, p1)) :
    newNode env cfg total best = leaf (env.rnd32 (total.score cfg.l2Lambda)) (best.map Prod.fst) := by
  cases best with
  | none => rfl
  | some b =>
    have := (bestFeature_chosen h).1
    simp only [newNode, this, if_true, Option.map_some]

theorem Grown.start [FpOrder D] {env : FitEnv D A} {cfg : FitConfig D} {columns : String → Option (Column A)} {p : Nat}
    {s : FitState D A} (h : fitStart env cfg p = ok s) :
    ∃ all p1, uniformSubsample env.toInt env.ofNat env.draw env.grads.length cfg.exampleRate p = ok (all, p1) ∧
      Grown env cfg columns all s ∧ s.queue.length = 1 := by
  simp only [fitStart, bind_eq_ok] at h
  obtain ⟨⟨all, p1⟩, h1, total, h2, ⟨best, p2⟩, h3, h4⟩ := h
  cases h4
  have hnew := newNode_eq env cfg total h3
  refine ⟨all, p1, h1, ⟨?_, ?_, ?_, ?_, ?_, ?_, ?_⟩, rfl⟩
  · simp only [hnew]; trivial
  · simp only [hnew]; rfl
  · simp
  · intro q
    simp only [hnew, at?_leaf, List.map_cons, List.map_nil, List.mem_singleton]
    constructor
    · rintro ⟨x, sp, h, _⟩; exact h
    · intro h; exact ⟨_, _, h, rfl, rfl⟩
  · intro e he
    rw [List.mem_singleton] at he
    subst he
    exact ⟨total, best, p1, p2, h2, h3, rfl, rfl⟩
  · simp
  · intro e he i hi
    rw [List.mem_singleton] at he
    subst he
    simp only [hnew]
    exact ⟨_, rfl⟩

theorem perm_cons_eraseIdx {α : Type} {l : List α} {k : Nat} {a : α} (h : l[k]? = some a) :
    l.Perm (a :: l.eraseIdx k) := by
  obtain ⟨hk, rfl⟩ := List.getElem?_eq_some_iff.mp h
  have h1 : l = l.take k ++ l[k] :: l.drop (k + 1) := by
    rw [List.getElem_cons_drop, List.take_append_drop]
  rw [List.eraseIdx_eq_take_drop_succ]
  conv => lhs; rw [h1]
  exact List.perm_middle

theorem subsample_lt {env : FitEnv D A} {rate : D} {n p p1 : Nat} {all : List Nat}
    (h : uniformSubsample env.toInt env.ofNat env.draw n rate p = ok (all, p1)) : ∀ i ∈ all, i < n := by
  obtain ⟨h1, h2⟩ := C22_subsample env.toInt env.ofNat env.draw n rate p
  cases hc : env.toInt (rate * env.ofNat n) with
  | none => rw [h1 hc] at h; cases h
  | some z =>
    obtain ⟨s, g1, _, g2⟩ := h2 (by rw [hc]; simp)
    rw [h] at g1
    cases g1
    exact fun i hi => ((g2 i).mp hi).1

/-- One step, taken apart. -/
theorem fitStep_ok [FpOrder D] {env : FitEnv D A} {cfg : FitConfig D} {columns : String → Option (Column A)}
    {all : List Nat} {s s' : FitState D A} (hd : FitData env columns) (hall : ∀ i ∈ all, i < env.grads.length)
    (hg : Grown env cfg columns all s) {k : Nat} {e : NodeData A} (hk : s.queue[k]? = some e) {f : Column A}
    (hf : e.feature = some f) (h : fitStep env cfg s k e f = ok s') :
    ∃ sc sp a sa b sb, IsLeafAt s.tree e.path sc (some sp) ∧ Chosen env.features sp f ∧
      s'.tree = s.tree.graft e.path (leaf a sa) (leaf b sb) ∧ s'.queue.length = s.queue.length + 1 ∧
      s'.step = s.step + 1 ∧ Grown env cfg columns all s' := by
  have he : e ∈ s.queue := List.mem_of_getElem? hk
  obtain ⟨total, best, p, p1, hw, hb, hfe, hat⟩ := hg.entry e he
  rw [newNode_eq env cfg total hb] at hat
  have hbest : ∃ sp, best = some (sp, f) := by
    rw [hf] at hfe
    cases best with
    | none => cases hfe
    | some b =>
      obtain ⟨sp, c⟩ := b
      simp only [Option.map_some, Option.some.injEq] at hfe
      exact ⟨sp, by rw [hfe]⟩
  obtain ⟨sp, rfl⟩ := hbest
  have hch := bestFeature_chosen hb
  have hleaf : IsLeafAt s.tree e.path (env.rnd32 (total.score cfg.l2Lambda)) (some sp) := hat
  have hrows := hd.rows _ _ hch.2.1
  have hcol := hd.stored _ _ hch.2.1
  have hin : ∀ i ∈ e.samples, i < env.grads.length := fun i hi => hall i (hg.perm.mem_iff.mp (List.mem_flatMap.mpr ⟨e, he, hi⟩))
  obtain ⟨R, hpart, hR⟩ := partition_sendsLeft hrows hch.2.2 hin
  generalize hL : e.samples.filter (fun i => sendsLeft f sp i == some true) = L at hpart
  have hsplit : ((leaf (env.rnd32 (total.score cfg.l2Lambda)) (some sp)) : Tree D A).splitOf = sp := rfl
  simp only [fitStep, hat, Option.map_some, ok_bind, hsplit, hpart, bind_eq_ok] at h
  obtain ⟨lt, hlt, rt, hrt, ⟨lb, p2⟩, hlb, ⟨rb, p3⟩, hrb, h⟩ := h
  have hnl := newNode_eq env cfg lt hlb
  have hnr := newNode_eq env cfg rt hrb
  simp only [hnl, hnr, pure_eq, Outcome.ok.injEq] at h
  subst h
  have hqp := perm_cons_eraseIdx hk
  have hklt : k < s.queue.length := (List.getElem?_eq_some_iff.mp hk).1
  have hmap : (s.queue.map NodeData.path).Perm (e.path :: (s.queue.eraseIdx k).map NodeData.path) := hqp.map _
  have hnod := hmap.nodup_iff.mp hg.nodup
  rw [List.nodup_cons] at hnod
  have hnotleaf : ∀ (q : List Bool) (d : Bool), q ∈ s.queue.map NodeData.path → q ≠ e.path ++ [d] := by
    intro q d hq heq
    obtain ⟨x, sq, hx⟩ := (hg.leaves q).mpr hq
    have : ∀ (t : Tree D A) (path : List Bool) (x y : D) (sa sb : Option (Split D A)), IsLeafAt t path x sa →
        IsLeafAt t (path ++ [d]) y sb → False := by
      intro t path
      induction path generalizing t with
      | nil =>
        intro x y sa sb h1 h2
        cases t with
        | absent => exact not_at?_absent h1
        | node s sp l r =>
          obtain ⟨_, _, rfl, rfl⟩ := isLeafAt_nil.mp h1
          rw [List.nil_append, isLeafAt_cons] at h2
          cases d <;> exact not_at?_absent h2
      | cons b path ih =>
        intro x y sa sb h1 h2
        cases t with
        | absent => exact not_at?_absent h1
        | node s sp l r =>
          rw [isLeafAt_cons] at h1
          rw [List.cons_append, isLeafAt_cons] at h2
          exact ih _ _ _ _ _ h1 h2
    rw [heq] at hx
    exact this _ _ _ _ _ _ hleaf hx
  refine ⟨_, sp, _, _, _, _, hleaf, hch, rfl, ?_, rfl, ⟨?_, ?_, ?_, ?_, ?_, ?_, ?_⟩⟩
  · simp only [List.length_append, List.length_eraseIdx, hklt, if_true, List.length_cons, List.length_nil]
    omega
  · exact wellFormed_graft hleaf ⟨f, hch⟩ hg.wf
  · rw [countLeaves_graft hleaf, hg.count]
    simp only [List.length_append, List.length_eraseIdx, hklt, if_true, List.length_cons, List.length_nil]
    omega
  · simp only [List.map_append, List.map_cons, List.map_nil]
    rw [List.nodup_append]
    refine ⟨hnod.2, by simp, ?_⟩
    intro q hq q' hq' heq
    subst heq
    have hq0 : q ∈ s.queue.map NodeData.path := hmap.mem_iff.mpr (List.mem_cons_of_mem _ hq)
    simp only [List.mem_cons, List.not_mem_nil, or_false] at hq'
    rcases hq' with h | h
    · exact hnotleaf q false hq0 h
    · exact hnotleaf q true hq0 h
  · intro q
    simp only [isLeafAt_graft hleaf, List.map_append, List.map_cons, List.map_nil, List.mem_append, List.mem_cons,
      List.not_mem_nil, or_false]
    constructor
    · rintro ⟨x, sq, ⟨h1, h2⟩ | ⟨h1, _⟩ | ⟨h1, _⟩⟩
      · left
        have := hmap.mem_iff.mp ((hg.leaves q).mp ⟨x, sq, h2⟩)
        rcases List.mem_cons.mp this with h | h
        · exact absurd h h1
        · exact h
      · right; left; exact h1
      · right; right; exact h1
    · rintro (h1 | h1 | h1)
      · have hq0 : q ∈ s.queue.map NodeData.path := hmap.mem_iff.mpr (List.mem_cons_of_mem _ h1)
        obtain ⟨x, sq, hx⟩ := (hg.leaves q).mpr hq0
        exact ⟨x, sq, Or.inl ⟨fun h => hnod.1 (h ▸ h1), hx⟩⟩
      · exact ⟨_, _, Or.inr (Or.inl ⟨h1, rfl, rfl⟩)⟩
      · exact ⟨_, _, Or.inr (Or.inr ⟨h1, rfl, rfl⟩)⟩
  · intro e' he'
    simp only [List.mem_append, List.mem_cons, List.not_mem_nil, or_false] at he'
    rcases he' with h1 | rfl | rfl
    · have hm : e' ∈ s.queue := hqp.mem_iff.mpr (List.mem_cons_of_mem _ h1)
      obtain ⟨t', b', q, q1, g1, g2, g3, g4⟩ := hg.entry e' hm
      refine ⟨t', b', q, q1, g1, g2, g3, ?_⟩
      rw [newNode_eq env cfg t' g2] at g4 ⊢
      have hne : e'.path ≠ e.path := fun h => hnod.1 (h ▸ List.mem_map_of_mem h1)
      exact (isLeafAt_graft hleaf).mpr (Or.inl ⟨hne, g4⟩)
    · refine ⟨lt, lb, _, p2, hlt, hlb, rfl, ?_⟩
      rw [hnl]
      exact (isLeafAt_graft hleaf).mpr (Or.inr (Or.inl ⟨rfl, rfl, rfl⟩))
    · refine ⟨rt, rb, _, p3, hrt, hrb, rfl, ?_⟩
      rw [hnr]
      exact (isLeafAt_graft hleaf).mpr (Or.inr (Or.inr ⟨rfl, rfl, rfl⟩))
  · simp only [List.flatMap_append, List.flatMap_cons, List.flatMap_nil, List.append_nil]
    refine List.Perm.trans ?_ hg.perm
    refine List.Perm.trans ?_ (hqp.flatMap_right _).symm
    rw [List.flatMap_cons]
    refine List.perm_append_comm.trans (List.Perm.append_right _ ?_)
    rw [← hL]
    exact (List.Perm.append_left _ hR).trans (List.filter_append_perm _ e.samples)
  · intro e' he' i hi
    simp only [List.mem_append, List.mem_cons, List.not_mem_nil, or_false] at he'
    rcases he' with h1 | rfl | rfl
    · have hm : e' ∈ s.queue := hqp.mem_iff.mpr (List.mem_cons_of_mem _ h1)
      obtain ⟨x, hx⟩ := hg.routed e' hm i hi
      have hne : e'.path ≠ e.path := fun h => hnod.1 (h ▸ List.mem_map_of_mem h1)
      exact ⟨x, leafOf_graft_ne hleaf hg.wf hx hne⟩
    · simp only at hi ⊢
      rw [← hL, List.mem_filter] at hi
      obtain ⟨x, hx⟩ := hg.routed e he i hi.1
      exact ⟨_, leafOf_graft_eq hcol hleaf hg.wf hx (by simpa using hi.2)⟩
    · simp only at hi ⊢
      have hi' := hR.mem_iff.mp hi
      rw [List.mem_filter] at hi'
      obtain ⟨x, hx⟩ := hg.routed e he i hi'.1
      obtain ⟨d, hd1, _⟩ := rowTest_sendsLeft hrows hch.2.2 (hin i hi'.1)
      cases d with
      | true => simp [hd1] at hi'
      | false => exact ⟨_, leafOf_graft_eq hcol hleaf hg.wf hx hd1⟩

/-- The whole loop. -/
theorem fitLoop_ok [FpOrder D] {env : FitEnv D A} {cfg : FitConfig D} {columns : String → Option (Column A)}
    {all : List Nat} (hd : FitData env columns) (hall : ∀ i ∈ all, i < env.grads.length) :
    ∀ {fuel : Nat} {s s' : FitState D A}, Grown env cfg columns all s → cfg.numLeaves ≤ s.queue.length + fuel →
    0 < s.queue.length → fitLoop env cfg fuel s = ok s' →
    Grown env cfg columns all s' ∧ s.queue.length ≤ s'.queue.length ∧
      (s'.queue.length ≤ s.queue.length ∨ s'.queue.length ≤ cfg.numLeaves) ∧
      (cfg.numLeaves ≤ s'.queue.length ∨
        ∃ e, s'.queue[env.top s'.step (queueGains s')]? = some e ∧ e.feature = none)
  | 0, s, s', hg, hfuel, _, h => by
    simp only [fitLoop, Outcome.ok.injEq] at h
    subst h
    exact ⟨hg, le_refl _, Or.inl (le_refl _), Or.inl (by omega)⟩
  | fuel + 1, s, s', hg, hfuel, hpos, h => by
    rw [fitLoop] at h
    by_cases hc : s.queue.length > 0 ∧ s.queue.length < cfg.numLeaves
    · rw [if_pos hc] at h
      simp only [bind_eq_ok] at h
      obtain ⟨e, he, h⟩ := h
      rw [vecGet_eq_ok] at he
      cases hf : e.feature with
      | none =>
        rw [hf] at h
        simp only [pure_eq, Outcome.ok.injEq] at h
        subst h
        exact ⟨hg, le_refl _, Or.inl (le_refl _), Or.inr ⟨e, he, hf⟩⟩
      | some f =>
        rw [hf] at h
        simp only [bind_eq_ok] at h
        obtain ⟨s1, hs1, h⟩ := h
        obtain ⟨_, _, _, _, _, _, _, _, _, hl, _, hg1⟩ := fitStep_ok hd hall hg he hf hs1
        obtain ⟨a1, a2, a3, a4⟩ := fitLoop_ok hd hall hg1 (by omega) (by omega) h
        exact ⟨a1, by omega, by omega, a4⟩
    · rw [if_neg hc] at h
      simp only [Outcome.ok.injEq] at h
      subst h
      exact ⟨hg, le_refl _, Or.inl (le_refl _), Or.inl (by omega)⟩

end Gbdt
