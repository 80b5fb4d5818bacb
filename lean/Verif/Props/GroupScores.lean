import Verif.Lemmas.Shift
import Verif.Props.TargetOrder
import Verif.Props.EqualGroup

/-!
# C204: pairwise losses see differences of scores within groups only

Adding a number to the scores of all rows of a group, another one for each group, does not change what a pairwise loss or LambdaMART learns.
-/

set_option autoImplicit false
set_option linter.unusedSectionVars false

namespace Gbdt

open Outcome

section
variable {K : Type} [Field K] [LinearOrder K] [IsStrictOrderedRing K]

/-- On the rows of a group, the function values differ by a constant. -/
def ShiftOn (rows : List Nat) (f f' : List K) : Prop := ∃ c : K, ∀ i ∈ rows, f'[i]? = f[i]?.map (· + c)

theorem vecGet_shift {f f' : List K} {c : K} {i : Nat} (h : f'[i]? = f[i]?.map (· + c)) :
    OutRel (fun a b => b = a + c) (vecGet f i) (vecGet f' i) := by
  cases hf : f[i]? with
  | none =>
    rw [hf] at h
    simp only [vecGet, h, hf, Option.map_none]
    exact .ub
  | some a =>
    rw [hf] at h
    simp only [vecGet, h, hf, Option.map_some]
    exact .ok rfl

theorem pairStep_shift {e : PairLoss K} {g : Group} {f f' : List K} (h : ShiftOn g.rows f f') (factor : K) (index : Nat) (grads : List (GD K)) :
    pairStep e f g factor index grads = pairStep e f' g factor index grads := by
  obtain ⟨c, h⟩ := h
  unfold pairStep
  refine bind_congr_ok (fun ab _ => ?_)
  obtain ⟨a, b⟩ := ab
  refine bind_congr_ok (fun pos hpos => ?_)
  refine bind_congr_ok (fun neg hneg => ?_)
  refine bind_congr_ok (fun pw _ => ?_)
  have hp : pos ∈ g.rows := List.mem_of_getElem? (vecGet_eq_ok.mp hpos)
  have hn : neg ∈ g.rows := List.mem_of_getElem? (vecGet_eq_ok.mp hneg)
  apply OutRel.eq
  refine OutRel.bind (vecGet_shift (h pos hp)) ?_
  rintro fp _ rfl
  refine OutRel.bind (vecGet_shift (h neg hn)) ?_
  rintro fn _ rfl
  rw [add_sub_add_right_eq_sub]
  exact OutRel.refl _

theorem pairLoop_shift {e : PairLoss K} {g : Group} {f f' : List K} (h : ShiftOn g.rows f f') (factor : K) (draw : Nat → Nat) :
    ∀ (left i : Nat) (grads : List (GD K)), pairLoop e f g factor draw left i grads = pairLoop e f' g factor draw left i grads
  | 0, _, _ => rfl
  | left + 1, i, grads => by
    unfold pairLoop
    rw [pairStep_shift h]
    exact bind_congr_ok (fun r _ => pairLoop_shift h factor draw left (i + 1) r)

theorem groupValues_shift {f f' : List K} {c : K} : ∀ {rows : List Nat}, (∀ i ∈ rows, f'[i]? = f[i]?.map (· + c)) →
    OutRel (fun a b => b = a.map (· + c)) (groupValues f rows) (groupValues f' rows)
  | [], _ => .ok rfl
  | r :: rows, h => by
    simp only [groupValues, List.mapM_cons]
    refine OutRel.bind (vecGet_shift (h r (by simp))) ?_
    rintro a _ rfl
    refine OutRel.bind (groupValues_shift (fun i hi => h i (List.mem_cons_of_mem _ hi))) ?_
    rintro l _ rfl
    exact .ok rfl

theorem groupValues_size {f : List K} : ∀ {rows : List Nat} {a : List K}, groupValues f rows = ok a → a.length = rows.length
  | [], _, h => by cases h; rfl
  | r :: rows, a, h => by
    simp only [groupValues, List.mapM_cons, bind_eq_ok, pure_eq, Outcome.ok.injEq] at h
    obtain ⟨x, _, l, hl, rfl⟩ := h
    rw [List.length_cons, List.length_cons, groupValues_size hl]

theorem rerank_shift {sort : (Nat → K) → List Nat → List Nat} (hs : ComparisonSort sort) {g : Group} {f f' : List K} (h : ShiftOn g.rows f f') :
    rerank sort f g = rerank sort f' g := by
  obtain ⟨c, h⟩ := h
  unfold rerank
  apply OutRel.eq
  have hl : ∀ a, groupValues f g.rows = ok a → a.length = g.rows.length := by
    intro a ha
    exact groupValues_size ha
  refine OutRel.bind ((groupValues_shift h).and_left hl) ?_
  rintro values _ ⟨rfl, hlen⟩
  have key : ∀ i < values.length, positionKey (values.map (· + c)) i = positionKey values i + c := by
    intro i hi
    simp [positionKey, hi]
  have h1 : sort (positionKey values) (List.range g.rows.length) = sort (positionKey (values.map (· + c))) (List.range g.rows.length) := by
    refine hs _ _ _ (fun a ha b hb => ?_)
    rw [key a (by rw [hlen]; exact List.mem_range.mp ha), key b (by rw [hlen]; exact List.mem_range.mp hb)]
    simp
  have h2 : sortDesc sort (positionKey (values.map (· + c))) (List.range g.rows.length) = sortDesc sort (positionKey values) (List.range g.rows.length) := by
    unfold sortDesc
    rw [h1]
    simp
  rw [h2]
  exact OutRel.refl _

theorem pairGroup_shift {e : PairLoss K} (hs : ComparisonSort e.sort) {s : PairState K} {f f' : List K} (h : ∀ g ∈ s.groups, ShiftOn g.rows f f')
    (index : Nat) (grads : List (GD K)) : pairGroup e s f index grads = pairGroup e s f' index grads ∧
      ∀ r, pairGroup e s f index grads = ok r → ShiftOn r.1.rows f f' := by
  by_cases hre : e.rerank = true
  · have hrows : ∀ g g1, g ∈ s.groups → Gbdt.rerank e.sort f g = ok g1 → ShiftOn g1.rows f f' := by
      intro g g1 hg h1
      simp only [Gbdt.rerank, bind_eq_ok, pure_eq, Outcome.ok.injEq] at h1
      obtain ⟨_, _, _, _, _, _, rfl⟩ := h1
      exact h g hg
    simp only [pairGroup, hre, if_true]
    constructor
    · refine bind_congr_ok (fun g hg => ?_)
      have hmem : g ∈ s.groups := List.mem_of_getElem? (vecGet_eq_ok.mp hg)
      rw [← rerank_shift hs (h g hmem)]
      refine bind_congr_ok (fun g1 h1 => ?_)
      refine bind_congr_ok (fun m _ => ?_)
      rw [pairLoop_shift (hrows g g1 hmem h1)]
    · intro r hr
      simp only [bind_eq_ok, pure_eq, Outcome.ok.injEq] at hr
      obtain ⟨g, hg, g1, h1, _, _, _, _, rfl⟩ := hr
      exact hrows g g1 (List.mem_of_getElem? (vecGet_eq_ok.mp hg)) h1
  · rw [Bool.not_eq_true] at hre
    simp only [pairGroup, hre, Bool.false_eq_true, if_false, pure_eq, ok_bind]
    constructor
    · refine bind_congr_ok (fun g hg => ?_)
      have hmem : g ∈ s.groups := List.mem_of_getElem? (vecGet_eq_ok.mp hg)
      refine bind_congr_ok (fun m _ => ?_)
      rw [pairLoop_shift (h g hmem)]
    · intro r hr
      simp only [bind_eq_ok, Outcome.ok.injEq] at hr
      obtain ⟨g, hg, _, _, _, _, rfl⟩ := hr
      exact h g (List.mem_of_getElem? (vecGet_eq_ok.mp hg))

theorem pairGroups_shift {e : PairLoss K} (hs : ComparisonSort e.sort) {f f' : List K} : ∀ (order : List Nat) (s : PairState K) (grads : List (GD K)),
    (∀ g ∈ s.groups, ShiftOn g.rows f f') → pairGroups e f order s grads = pairGroups e f' order s grads
  | [], _, _, _ => rfl
  | index :: rest, s, grads, h => by
    obtain ⟨h1, h2⟩ := pairGroup_shift hs h index grads
    unfold pairGroups
    rw [← h1]
    refine bind_congr_ok (fun r hr => ?_)
    refine pairGroups_shift hs rest _ _ (fun g hg => ?_)
    rcases List.mem_or_eq_of_mem_set hg with hg | rfl
    · exact h g hg
    · exact h2 r hr

theorem pairCompute_shift {e : PairLoss K} (hs : ComparisonSort e.sort) {f f' : List K} (hlen : f'.length = f.length) {s : PairState K}
    (h : ∀ g ∈ s.groups, ShiftOn g.rows f f') : pairCompute e s f = pairCompute e s f' := by
  unfold pairCompute
  rw [hlen]
  simp only [pairGroups_shift hs _ s _ h]

/-- **C204.** Computing gradients with a pairwise loss or LambdaMART (in exact arithmetic): if to the score of every row a number is added that
depends on the group of the row only, the gradients, the hessians, the constant and the next state are the same, for every outcome of the draws. -/
theorem C204_within_groups {e : PairLoss K} (hs : ComparisonSort e.sort) (hsort : DescSortSpec e.sort) {blocks : List (List String)}
    (hsize : blocks.flatten.length + 1 < 2 ^ 32) (hm : "__missing__" ∉ blocks.flatten) {numRows : Nat} {s : PairState K}
    (hr : PairReach e numRows (some (StrCol.build blocks)) s) {f f' : List K} (hlen : f'.length = f.length) {δ : String → K}
    (hf : ∀ (i : Nat) (group : String), blocks.flatten[i]? = some group → f'[i]? = f[i]?.map (· + δ group)) :
    pairCompute e s f' = pairCompute e s f := by
  obtain ⟨groups, hg, _, hne, hmem⟩ := C56_groups blocks hsize hm numRows
  refine (pairCompute_shift hs hlen (fun g hgs => ?_)).symm
  have hperm := List.forall₂_iff_get.mp ((hr.inv hsort).rows hsort hg)
  obtain ⟨k, hk, rfl⟩ := List.mem_iff_getElem.mp hgs
  have hp := hperm.2 k (by omega) hk
  simp only [List.get_eq_getElem] at hp
  have hin : groups[k]'(by omega) ∈ groups := List.getElem_mem _
  obtain ⟨i, hi⟩ := List.exists_mem_of_ne_nil _ (hne _ hin).1
  obtain ⟨x, hx, _⟩ := (hmem _ hin i hi i).mp hi
  refine ⟨δ x, fun j hj => ?_⟩
  obtain ⟨z, hz, hz'⟩ := (hmem _ hin i hi j).mp (hp.mem_iff.mp hj)
  rw [hx, Option.some.injEq] at hz'
  subst hz'
  exact hf j _ hz

end

section train
variable {K A : Type} [Field K] [LinearOrder K] [IsStrictOrderedRing K] [LinearOrder A] [ThrOps A] {s : K}

theorem pairShift_trainLoop {e : PairLoss K} (hs : ComparisonSort e.sort) {env : TrainEnv K A} (hrnd : ∀ x, env.rnd32 x = x)
    (features : List (String × Column A)) (cfg : TrainConfig K) : ∀ (m : Nat) {forest forest' : List (Tree K A)}, ShiftForest s forest forest' →
    ∀ (slices : List (List Nat)) (f : List K) (ls : PairState K) (p : Nat),
    OutRel (fun a b => b.1 = a.1 ∧ ShiftForest s a.2.forest b.2.forest ∧ b.2.f = a.2.f.map (· + s) ∧ b.2.pos = a.2.pos)
      (trainLoop env e.toLoss features cfg 0 m ⟨forest, slices, f, ls, p⟩)
      (trainLoop env e.toLoss features cfg 0 m ⟨forest', slices, f.map (· + s), ls, p⟩)
  | 0, _, _, hfo, _, _, _, _ => .ok ⟨rfl, hfo, rfl, rfl⟩
  | m + 1, forest, forest', hfo, slices, f, ls, p => by
    rw [trainLoop, trainLoop]
    have hc : e.toLoss.compute ls (f.map (· + s)) = e.toLoss.compute ls f :=
      (pairCompute_shift hs (by simp) (fun g _ => ⟨s, fun i _ => by rw [List.getElem?_map]⟩)).symm
    rw [hc]
    refine OutRel.bind (OutRel.refl _) ?_
    rintro ⟨ls1, c, g⟩ _ rfl
    simp only
    split
    · exact .ok ⟨rfl, hfo, rfl, rfl⟩
    · refine OutRel.bind (OutRel.refl _) ?_
      rintro ⟨t, pos⟩ _ rfl
      simp only
      refine OutRel.bind (shift_addTreeScores_same env.columns c s _ slices f) ?_
      rintro ⟨ss, f1⟩ ⟨_, _⟩ ⟨rfl, _, h2⟩
      simp only at h2
      subst h2
      simp only
      refine pairShift_trainLoop hs hrnd features cfg m ?_ _ _ _ _
      obtain ⟨k, rest, rfl, rfl⟩ := hfo
      refine ⟨k + c, rest ++ [applyShrinkage env.rnd32 cfg.shrinkage t], ?_, ?_⟩
      · simp only [List.cons_append, List.modify_zero_cons, addRootScore, hrnd]
      · simp only [List.cons_append, List.modify_zero_cons, addRootScore, hrnd]
        congr 2
        ring

theorem leaf_addSampleScores (cols : String → Option (Column A)) (b k : K) (sl : List Nat) (f : List K) :
    addSampleScores cols k (.node (b + s) none .absent .absent) sl f = addSampleScores cols (k + s) (.node b none .absent .absent) sl f := by
  have : b + s + k = b + (k + s) := by ring
  simp [addSampleScores, Tree.isSet, this]

theorem leaf_addTreeScores (cols : String → Option (Column A)) (b k : K) : ∀ (slices : List (List Nat)) (f : List K),
    addTreeScores cols (.node (b + s) none .absent .absent) k slices f = addTreeScores cols (.node b none .absent .absent) (k + s) slices f
  | [], _ => rfl
  | sl :: slices, f => by
    rw [addTreeScores, addTreeScores, leaf_addSampleScores]
    simp only [leaf_addTreeScores cols b k slices]

theorem pairShift_initWithBase {env : TrainEnv K A} (hrnd : ∀ x, env.rnd32 x = x) : ∀ (base : List (Tree K A)) {forest forest' : List (Tree K A)},
    ShiftForest s forest forest' → ∀ (slices : List (List Nat)) (f : List K),
    OutRel (fun a b => ShiftForest s a.1 b.1 ∧ b.2.1 = a.2.1 ∧ b.2.2 = a.2.2.map (· + s))
      (initWithBase env base forest slices f) (initWithBase env base forest' slices (f.map (· + s)))
  | [], _, _, hfo, _, _ => .ok ⟨hfo, rfl, rfl⟩
  | t :: ts, forest, forest', hfo, slices, f => by
    rw [initWithBase, initWithBase]
    refine OutRel.bind (shift_addTreeScores_same env.columns 0 s t slices f) ?_
    rintro ⟨ss, f1⟩ ⟨_, _⟩ ⟨rfl, _, h2⟩
    simp only at h2
    subst h2
    refine pairShift_initWithBase hrnd ts ?_ _ _
    obtain ⟨k, rest, rfl, rfl⟩ := hfo
    split
    · refine ⟨k + rootScore t, rest, ?_, ?_⟩
      · simp only [List.modify_zero_cons, addRootScore, hrnd]
      · simp only [List.modify_zero_cons, addRootScore, hrnd]
        congr 2
        ring
    · exact ⟨k, rest ++ [t], rfl, rfl⟩

/-- **C204.** Continuing from a base forest with a pairwise loss or LambdaMART (in exact arithmetic): if `s` is added to the constant of the base forest, so
that all its scores are larger by `s`, training ends in the same way, draws the same numbers, and returns the same trees after a constant that is larger by `s`. -/
theorem C204_base_constant {e : PairLoss K} (hs : ComparisonSort e.sort) {env : TrainEnv K A} (hrnd : ∀ x, env.rnd32 x = x) (names : List String)
    (cfg : TrainConfig K) (b : K) (rest : List (Tree K A)) (p : Nat) {r : TrainResult K A}
    (h : trainGBDT env e.toLoss names cfg (some (.node b none .absent .absent :: rest)) [] p = ok r) :
    ∃ r', trainGBDT env e.toLoss names cfg (some (.node (b + s) none .absent .absent :: rest)) [] p = ok r' ∧ r'.code = r.code ∧ r'.pos = r.pos ∧
      (r.code = .ok → r'.f = r.f.map (· + s) ∧
        ∃ k trees, r.forest = .node k none .absent .absent :: trees ∧ r'.forest = .node (k + s) none .absent .absent :: trees) := by
  suffices hrel : OutRel (fun a b => b.code = a.code ∧ b.pos = a.pos ∧ (a.code = .ok → b.f = a.f.map (· + s) ∧ ShiftForest s a.forest b.forest))
      (trainGBDT env e.toLoss names cfg (some (.node b none .absent .absent :: rest)) [] p)
      (trainGBDT env e.toLoss names cfg (some (.node (b + s) none .absent .absent :: rest)) [] p) by
    rw [h] at hrel
    generalize trainGBDT env e.toLoss names cfg (some (.node (b + s) none .absent .absent :: rest)) [] p = o at hrel
    cases hrel with
    | ok hq => exact ⟨_, rfl, hq⟩
  clear h
  unfold trainGBDT
  split
  · next hck => exact .ok ⟨rfl, rfl, fun hc => absurd hc hck⟩
  · cases hload : loadFeatures env.columns names with
    | error x =>
      refine .ok ⟨rfl, rfl, fun hc => ?_⟩
      have := loadFeatures_raises hload
      simp only at hc
      rw [hc] at this
      cases this
    | ok features =>
      simp only
      refine OutRel.bind (OutRel.refl _) ?_
      rintro group _ rfl
      cases hin : e.toLoss.init env.numRows group with
      | ub => exact .ub
      | fatal => exact .fatal
      | ok init =>
        simp only [ok_bind]
        cases init with
        | error x =>
          refine .ok ⟨rfl, rfl, fun hc => ?_⟩
          have hin : pairInit e env.numRows group = _ := hin
          unfold pairInit at hin
          simp only at hc
          subst hc
          split at hin
          · cases hin
          · simp only [bind_eq_ok, pure_eq, Outcome.ok.injEq] at hin
            obtain ⟨_, _, _, _, _, _, hq⟩ := hin
            cases hq
        | ok ls =>
          simp only
          cases hsl : scoreSlices env.numThreads env.numRows with
          | ub => exact .ub
          | fatal => exact .fatal
          | ok slices =>
            have hS : Slices env.numRows slices := scoreSlices_of_ok hsl
            simp only [ok_bind, Option.getD_some, List.nil_append]
            refine OutRel.bind (r := fun a b => ShiftForest s a.1 b.1 ∧ b.2.1 = a.2.1 ∧ b.2.2 = a.2.2.map (· + s)) ?_ ?_
            · rw [initWithBase, initWithBase, leaf_addTreeScores]
              refine OutRel.bind (shift_addTreeScores_const env.columns 0 s _ hS List.length_replicate) ?_
              rintro ⟨ss, f1⟩ ⟨_, _⟩ ⟨rfl, _, h2⟩
              simp only at h2
              subst h2
              refine pairShift_initWithBase hrnd rest ?_ _ _
              refine ⟨0 + b, [], ?_, ?_⟩
              · simp only [isSingleNode, Tree.isSet, List.modify_zero_cons, addRootScore, rootScore, hrnd]
                simp
              · simp only [isSingleNode, Tree.isSet, List.modify_zero_cons, addRootScore, rootScore, hrnd]
                simp
            · rintro ⟨forest1, s1, f1⟩ ⟨forest2, _, _⟩ ⟨hfo, rfl, h2⟩
              simp only at h2 hfo
              subst h2
              simp only [List.length_nil]
              refine OutRel.bind (pairShift_trainLoop hs hrnd features cfg _ hfo _ _ _ _) ?_
              rintro ⟨b1, s1⟩ ⟨_, s2⟩ ⟨rfl, ⟨k, trees, h1, h2⟩, h3, h4⟩
              simp only at h1 h2 h3 h4 ⊢
              split
              · exact .ok ⟨rfl, h4, fun hc => by cases hc⟩
              · refine .ok ⟨rfl, h4, fun _ => ⟨h3, ?_⟩⟩
                rw [h1, h2]
                exact ⟨k, trees.map clearInternal, rfl, rfl⟩

end train

section examples

/-- A loss that ranks anew in each round and weights pairs by the distance of their ranks. -/
def rankedLoss : PairLoss ℚ :=
  { fewLoss 4 (fun i => [1, 2, 2, 3, 1, 3].getD i 0) with rerank := true, discount := some (fun r => 1 / (r + 1)) }

/-- Hypotheses of C204 met: with 7 added in group `a`, -3 in `b` and 0 in `c`, the gradients are the same and not zero; with a number added to one row of a
group they are not. -/
example : ComparisonSort rankedLoss.sort ∧ DescSortSpec rankedLoss.sort ∧ "__missing__" ∉ threeGroups.flatten ∧
    (match pairInit rankedLoss 6 (some (StrCol.build threeGroups)) with
    | .ok (.ok s) => match pairCompute rankedLoss s [0, 1/2, 1/4, 0, 1/3, 0], pairCompute rankedLoss s [7, -5/2, 29/4, -3, 1/3, 0],
        pairCompute rankedLoss s [1, 1/2, 1/4, 0, 1/3, 0] with
      | .ok (_, _, g1), .ok (_, _, g2), .ok (_, _, g3) => decide (g1.map (·.g) = g2.map (·.g) ∧ g1.map (·.h) = g2.map (·.h) ∧ g1.map (·.g) ≠ g3.map (·.g) ∧ gOf g1 0 ≠ 0 ∧ gOf g1 1 ≠ 0 ∧ gOf g1 4 ≠ 0)
      | _, _, _ => false
    | _ => false) = true := ⟨ratDescSort_comparison, ratDescSort_spec, by decide +kernel, by decide +kernel⟩

/-- Hypotheses of C204 met for training: with 10 added to the constant of the base forest, the same trees after a constant that is larger by 10. -/
example : ComparisonSort rankedLoss.sort ∧ (∀ x, trainEnv.rnd32 x = x) ∧
    (match trainGBDT trainEnv rankedLoss.toLoss ["color", "size"] trainCfg (some trainBase) [] 0,
      trainGBDT trainEnv rankedLoss.toLoss ["color", "size"] trainCfg (some (.node 12 none .absent .absent :: trainBase.tail)) [] 0 with
    | .ok r, .ok r' => decide (r.code = .ok ∧ r.forest.map Tree.countLeaves = [1, 2, 3, 3] ∧ r'.forest.tail = r.forest.tail ∧ r'.f = r.f.map (· + 10))
    | _, _ => false) = true := ⟨ratDescSort_comparison, fun _ => rfl, by decide +kernel⟩

end examples

end Gbdt
