import Verif.Props.PairwiseDefined

/-!
# C109, C110, C111: how many pairs are drawn, and what the groups weigh

Specification: `pairCount` counts the pairs of rows with different targets; C75 says that in each round pairs are drawn from each
group, `DrawsOf` which.  `config.proto:48-50` calls `pair_sampling_rate` the average number of pairs per example (a pair has two
examples), and `config.proto:54-55` says that `equal_group_weight` makes the weights of the groups equal.
-/

set_option autoImplicit false
set_option linter.unusedSectionVars false

namespace Gbdt

open Outcome

section counts
variable {K : Type} [Field K] [LinearOrder K] [IsStrictOrderedRing K] [FloorSemiring K]

/-! ## Specification -/

/-- The number of pairs of rows of which the first has the larger target. -/
def pairCount (y : Nat → K) (rows : List Nat) : Nat :=
  ((rows.flatMap (fun r => rows.map (fun s => (r, s)))).filter (fun p => decide (y p.2 < y p.1))).length

/-- The number of pairs in all groups. -/
def totalPairs (y : Nat → K) (groups : List (List Nat)) : Nat := (groups.map (pairCount y)).sum

/-- A loss on a machine that computes exactly. -/
structure ExactPair (e : PairLoss K) : Prop where
  sort : DescSortSpec e.sort
  ofNat : ∀ n : Nat, e.ofNat n = n
  toU64 : ∀ x : K, 0 ≤ x → x < 18446744073709551616 → e.toU64 x = some ⌊x⌋₊
  rate : 0 < e.rate

/-- What is drawn in one round: a list of pairs for each group (see `C75_gradients`). -/
structure RoundDraws (e : PairLoss K) (s : PairState K) (f : List K) (draws : List (List (Draw K))) : Prop where
  length : draws.length = s.groups.length
  each : ∀ (index : Nat) (ds : List (Draw K)), draws[index]? = some ds → DrawsOf e s f index ds

/-! ## Lemmas -/

theorem foldl_add_eq (l : List Nat) (a : Nat) : l.foldl (· + ·) a = a + l.sum := by
  induction l generalizing a with
  | nil => simp
  | cons b l ih => rw [List.foldl_cons, ih, List.sum_cons]; omega

theorem cast_sum_map {α : Type} (l : List α) (F : α → Nat) : (l.map (fun a => (F a : K))).sum = ((l.map F).sum : Nat) := by
  induction l with
  | nil => simp
  | cons a l ih => rw [List.map_cons, List.sum_cons, ih, List.map_cons, List.sum_cons, Nat.cast_add]

theorem sum_map_mul_const {α : Type} (l : List α) (F : α → K) (c : K) : (l.map (fun a => F a * c)).sum = (l.map F).sum * c := by
  induction l with
  | nil => simp
  | cons a l ih => rw [List.map_cons, List.sum_cons, ih, List.map_cons, List.sum_cons, add_mul]

/-- What the loss keeps, in terms of the targets. -/
theorem PairReach.counts {e : PairLoss K} (he : ExactPair e) {numRows : Nat} {col : Option StrCol} {s : PairState K}
    (hr : PairReach e numRows col s) {groups : List (List Nat)} (hg : rowGroups numRows col = ok groups) :
    s.groups.map (·.numPairs) = groups.map (pairCount e.y) ∧ s.prob = e.rate * numRows / totalPairs e.y groups / 2 ∧
      s.minNumPairs = (groups.map (pairCount e.y)).foldl max 1 := by
  obtain ⟨groups', starts, h1, h2, h3, h4, h5⟩ := (hr.inv he.sort).start
  rw [hg, Outcome.ok.injEq] at h1
  subst h1
  have hnd := (List.nodup_flatten.mp (rowGroups_nodup hg)).1
  have e1 : starts.map (·.numPairs) = groups.map (pairCount e.y) := by
    clear h3 h4 h5 hg
    induction h2 with
    | nil => rfl
    | cons h _ ih =>
      rw [List.map_cons, List.map_cons, ih (fun l hl => hnd l (List.mem_cons_of_mem _ hl)),
        C49_num_pairs he.sort (hnd _ (List.mem_cons_self ..)) h]
      rfl
  have e2 : s.groups.map (·.numPairs) = starts.map (·.numPairs) := by
    clear h2 h4 h5 e1
    generalize s.groups = gs at h3
    induction h3 with
    | nil => rfl
    | cons h _ ih => rw [List.map_cons, List.map_cons, ih, h]
  refine ⟨e2.trans e1, ?_, ?_⟩
  · rw [h5, foldl_add_eq, e1, Nat.zero_add, he.ofNat, he.ofNat, he.ofNat, totalPairs]
    norm_num
  · rw [h4, ← e1, List.foldl_map]

/-- As many pairs are drawn from a group as the formula says. -/
theorem RoundDraws.count {e : PairLoss K} (he : ExactPair e) {numRows : Nat} {col : Option StrCol} {s : PairState K}
    (hr : PairReach e numRows col s) {groups : List (List Nat)} (hg : rowGroups numRows col = ok groups)
    (hbound : e.rate * numRows / 2 < 2147483648) {f : List K} {draws : List (List (Draw K))} (hd : RoundDraws e s f draws)
    {index : Nat} {ds : List (Draw K)} (hds : draws[index]? = some ds) :
    ∃ rows g0, groups[index]? = some rows ∧ s.groups[index]? = some g0 ∧ g0.numPairs = pairCount e.y rows ∧
      ds.length = ⌊(pairCount e.y rows : K) * (e.rate * numRows / totalPairs e.y groups / 2)⌋₊ ∧
      (pairCount e.y rows : K) * (e.rate * numRows / totalPairs e.y groups / 2) ≤ e.rate * numRows / 2 := by
  obtain ⟨c1, c2, _⟩ := hr.counts he hg
  obtain ⟨g0, g, d1, _, d3, _⟩ := hd.each index ds hds
  have hx := congrArg (fun l : List Nat => l[index]?) c1
  simp only [List.getElem?_map, d1, Option.map_some] at hx
  cases hrows : groups[index]? with
  | none => rw [hrows] at hx; cases hx
  | some rows =>
    rw [hrows, Option.map_some, Option.some.injEq] at hx
    have hle : pairCount e.y rows ≤ totalPairs e.y groups := by
      rw [totalPairs]
      exact List.le_sum_of_mem (List.mem_map_of_mem (List.mem_of_getElem? hrows))
    have hR : (0 : K) ≤ e.rate * numRows / 2 := by have := he.rate; positivity
    have hb : (pairCount e.y rows : K) * (e.rate * numRows / totalPairs e.y groups / 2) ≤ e.rate * numRows / 2 := by
      rcases Nat.eq_zero_or_pos (totalPairs e.y groups) with h0 | h0
      · rw [h0, Nat.cast_zero, div_zero, zero_div, mul_zero]
        exact hR
      · have hT : (0 : K) < totalPairs e.y groups := by exact_mod_cast h0
        have hN : (pairCount e.y rows : K) ≤ totalPairs e.y groups := by exact_mod_cast hle
        calc (pairCount e.y rows : K) * (e.rate * numRows / totalPairs e.y groups / 2)
            = (pairCount e.y rows : K) / totalPairs e.y groups * (e.rate * numRows / 2) := by ring
          _ ≤ 1 * (e.rate * numRows / 2) := by
            refine mul_le_mul_of_nonneg_right ?_ hR
            rwa [div_le_one hT]
          _ = _ := one_mul _
    refine ⟨rows, g0, rfl, d1, hx, ?_, hb⟩
    have hnn : (0 : K) ≤ (pairCount e.y rows : K) * (e.rate * numRows / totalPairs e.y groups / 2) := by
      have := he.rate
      positivity
    rw [he.ofNat, hx, c2, he.toU64 _ hnn (lt_of_le_of_lt hb (lt_trans hbound (by norm_num))), Option.some.injEq] at d3
    exact d3.symm

theorem flatten_length_bounds : ∀ {groups : List (List Nat)} {draws : List (List (Draw K))} {F : List Nat → K},
    draws.length = groups.length → (∀ (i : Nat) (ds : List (Draw K)) (rows : List Nat), draws[i]? = some ds → groups[i]? = some rows →
      F rows - 1 < ds.length ∧ (ds.length : K) ≤ F rows) →
    (groups.map F).sum - groups.length ≤ (draws.flatten.length : K) ∧ (draws.flatten.length : K) ≤ (groups.map F).sum ∧
      (groups ≠ [] → (groups.map F).sum - groups.length < (draws.flatten.length : K))
  | [], [], F, _, _ => by simp
  | rows :: groups, ds :: draws, F, hl, h => by
    obtain ⟨h1, h2, _⟩ := flatten_length_bounds (groups := groups) (draws := draws) (F := F) (by simpa using hl)
      (fun i ds' rows' a b => h (i + 1) ds' rows' (by simpa using a) (by simpa using b))
    obtain ⟨k1, k2⟩ := h 0 ds rows rfl rfl
    rw [List.flatten_cons, List.length_append, List.map_cons, List.sum_cons, List.length_cons]
    push_cast
    refine ⟨by linarith, by linarith, fun _ => by linarith⟩

/-! ## C109 -/

/-- **C109.** In exact arithmetic, if there is a pair at all, the number of pairs drawn in a round is at most
`pair_sampling_rate * num_rows / 2`, and less than one pair per group below that. -/
theorem C109_total {e : PairLoss K} (he : ExactPair e) {numRows : Nat} {col : Option StrCol} {s : PairState K}
    (hr : PairReach e numRows col s) {groups : List (List Nat)} (hg : rowGroups numRows col = ok groups)
    (hbound : e.rate * numRows / 2 < 2147483648) (hpairs : 0 < totalPairs e.y groups) {f : List K} {draws : List (List (Draw K))}
    (hd : RoundDraws e s f draws) :
    e.rate * numRows / 2 - groups.length < draws.flatten.length ∧ (draws.flatten.length : K) ≤ e.rate * numRows / 2 := by
  have hlen : draws.length = groups.length := by
    have := congrArg List.length (hr.counts he hg).1
    rw [List.length_map, List.length_map] at this
    rw [hd.length, this]
  obtain ⟨_, h2, h3⟩ := flatten_length_bounds (groups := groups) (draws := draws)
    (F := fun rows => (pairCount e.y rows : K) * (e.rate * numRows / totalPairs e.y groups / 2)) hlen (by
      intro i ds rows h1 h2
      obtain ⟨rows', g0, k1, _, _, k4, _⟩ := hd.count he hr hg hbound h1
      rw [h2, Option.some.injEq] at k1
      subst k1
      have hnn : (0 : K) ≤ (pairCount e.y rows : K) * (e.rate * numRows / totalPairs e.y groups / 2) := by
        have := he.rate
        positivity
      simp only [k4]
      exact ⟨by have := Nat.lt_floor_add_one ((pairCount e.y rows : K) * (e.rate * numRows / totalPairs e.y groups / 2)); linarith,
        Nat.floor_le hnn⟩)
  have hsum : (groups.map (fun rows => (pairCount e.y rows : K) * (e.rate * numRows / totalPairs e.y groups / 2))).sum =
      e.rate * numRows / 2 := by
    rw [sum_map_mul_const]
    have : (groups.map (fun rows => (pairCount e.y rows : K))).sum = totalPairs e.y groups := by
      rw [totalPairs]
      exact cast_sum_map _ _
    rw [this]
    have hT : (totalPairs e.y groups : K) ≠ 0 := by exact_mod_cast hpairs.ne'
    field_simp
  rw [hsum] at h2 h3
  refine ⟨h3 ?_, h2⟩
  rintro rfl
  simp [totalPairs] at hpairs

/-- **C109.** Without a group column it is that number rounded down. -/
theorem C109_no_group {e : PairLoss K} (he : ExactPair e) {numRows : Nat} {s : PairState K} (hr : PairReach e numRows none s)
    (hbound : e.rate * numRows / 2 < 2147483648) {a b : Nat} (ha : a < numRows) (hb : b < numRows) (hab : e.y a < e.y b) {f : List K}
    {draws : List (List (Draw K))} (hd : RoundDraws e s f draws) : draws.flatten.length = ⌊e.rate * numRows / 2⌋₊ := by
  have hg := C56_no_column numRows
  have hpairs : 0 < totalPairs e.y [List.range numRows] := by
    rw [totalPairs, List.map_singleton, List.sum_singleton, pairCount, List.length_pos_iff_exists_mem]
    refine ⟨(b, a), List.mem_filter.mpr ⟨List.mem_flatMap.mpr ⟨b, List.mem_range.mpr hb, List.mem_map.mpr ⟨a, List.mem_range.mpr ha, rfl⟩⟩,
      by simpa using hab⟩⟩
  obtain ⟨h1, h2⟩ := C109_total he hr hg hbound hpairs hd
  have hR : (0 : K) ≤ e.rate * numRows / 2 := by have := he.rate; positivity
  symm
  rw [Nat.floor_eq_iff hR]
  simp only [List.length_singleton, Nat.cast_one] at h1
  exact ⟨h2, by linarith⟩

/-! ## C110 -/

/-- **C110 (partial).** From a group with fewer pairs than there are pairs for each pair to be drawn, nothing is ever drawn,
whatever the generator does.  Missing: that every group is drawn from, or that rounding loses less than a pair, both false. -/
theorem C110_starved_partial {e : PairLoss K} (he : ExactPair e) {numRows : Nat} {col : Option StrCol} {s : PairState K}
    (hr : PairReach e numRows col s) {groups : List (List Nat)} (hg : rowGroups numRows col = ok groups)
    (hbound : e.rate * numRows / 2 < 2147483648) {f : List K} {draws : List (List (Draw K))} (hd : RoundDraws e s f draws)
    {index : Nat} {rows : List Nat} (hrows : groups[index]? = some rows)
    (hfew : (pairCount e.y rows : K) * (e.rate * numRows) < 2 * totalPairs e.y groups) {ds : List (Draw K)}
    (hds : draws[index]? = some ds) : ds = [] := by
  obtain ⟨rows', g0, k1, _, _, k4, _⟩ := hd.count he hr hg hbound hds
  rw [hrows, Option.some.injEq] at k1
  subst k1
  have : ds.length = 0 := by
    rw [k4, Nat.floor_eq_zero]
    have hnn : (0 : K) ≤ (pairCount e.y rows : K) * (e.rate * numRows) := by have := he.rate; positivity
    have hT : (0 : K) < totalPairs e.y groups := by linarith
    calc (pairCount e.y rows : K) * (e.rate * numRows / totalPairs e.y groups / 2)
        = (pairCount e.y rows : K) * (e.rate * numRows) / (2 * totalPairs e.y groups) := by field_simp
      _ < 1 := by rwa [div_lt_one (by linarith)]
  exact List.eq_nil_of_length_eq_zero this

/-! ## C111 -/

/-- **C111 (partial).** With `equal_group_weight`, rows of weight 1 and pairs of weight 1, the pairs drawn from a group weigh together
at most `M * p`, and less than the weight of one of its pairs below that, where `M` is the largest number of pairs of a group
(at least 1) and `p` the sampling probability.  Missing: that the weights of groups are equal, which is false. -/
theorem C111_weights_partial {e : PairLoss K} (he : ExactPair e) {numRows : Nat} {col : Option StrCol} {s : PairState K}
    (hr : PairReach e numRows col s) {groups : List (List Nat)} (hg : rowGroups numRows col = ok groups)
    (hbound : e.rate * numRows / 2 < 2147483648) {f : List K} {draws : List (List (Draw K))} (hd : RoundDraws e s f draws)
    (hequal : e.equalWeight = true) (hdelta : e.byDelta = false) (hdisc : e.discount = none) (hw : ∀ i, e.w i = 1)
    (hrnd : e.rnd32 = id) {index : Nat} {rows : List Nat} (hrows : groups[index]? = some rows) (hpos : 0 < pairCount e.y rows)
    {ds : List (Draw K)} (hds : draws[index]? = some ds) :
    let M : K := ((groups.map (pairCount e.y)).foldl max 1 : Nat)
    let p : K := e.rate * numRows / totalPairs e.y groups / 2
    (∀ d ∈ ds, d.weight = M / pairCount e.y rows) ∧ M * p - M / pairCount e.y rows < (ds.map (·.weight)).sum ∧
      (ds.map (·.weight)).sum ≤ M * p := by
  intro M p
  obtain ⟨rows', g0, k1, k2, k3, k4, _⟩ := hd.count he hr hg hbound hds
  rw [hrows, Option.some.injEq] at k1
  subst k1
  obtain ⟨_, _, c3⟩ := hr.counts he hg
  obtain ⟨g0', g, d1, _, _, d4⟩ := hd.each index ds hds
  rw [k2, Option.some.injEq] at d1
  subst d1
  have hone : e.ofNat 1 = 1 := by rw [he.ofNat]; simp
  have hall : ∀ d ∈ ds, d.weight = M / pairCount e.y rows := by
    intro d hdm
    obtain ⟨i, hi⟩ := List.getElem?_of_mem hdm
    obtain ⟨_, _, _, a, b, ra, rb, _, _, _, _, hwt⟩ := d4 i d hi
    rw [hwt, hw, hw, hrnd, weightOf, hdisc]
    simp only [hdelta, hequal, if_true, Bool.false_eq_true, if_false, hone, id, mul_one, one_mul, he.ofNat, c3, k3]
    rfl
  have hsum : (ds.map (·.weight)).sum = ds.length * (M / pairCount e.y rows) := by
    rw [List.map_congr_left hall, List.map_const', List.sum_replicate, nsmul_eq_mul]
  have hP : (0 : K) < pairCount e.y rows := by exact_mod_cast hpos
  have hM : (0 : K) < M := by
    have : 1 ≤ (groups.map (pairCount e.y)).foldl max 1 := by
      have hm : ∀ (l : List Nat) (a : Nat), a ≤ l.foldl max a := by
        intro l
        induction l with
        | nil => intro a; exact le_refl _
        | cons b l ih => intro a; exact le_trans (le_max_left a b) (ih _)
      exact hm _ _
    have : (1 : K) ≤ M := by
      show (1 : K) ≤ (((groups.map (pairCount e.y)).foldl max 1 : Nat) : K)
      exact_mod_cast this
    linarith
  have hq : (0 : K) < M / pairCount e.y rows := div_pos hM hP
  have hnn : (0 : K) ≤ (pairCount e.y rows : K) * p := by
    have := he.rate
    positivity
  have f1 := Nat.floor_le hnn
  have f2 := Nat.lt_floor_add_one ((pairCount e.y rows : K) * p)
  rw [← k4] at f1 f2
  refine ⟨hall, ?_, ?_⟩
  · rw [hsum]
    have : M * p - M / pairCount e.y rows = ((pairCount e.y rows : K) * p - 1) * (M / pairCount e.y rows) := by field_simp
    rw [this]
    exact mul_lt_mul_of_pos_right (by linarith) hq
  · rw [hsum]
    have : M * p = ((pairCount e.y rows : K) * p) * (M / pairCount e.y rows) := by field_simp
    rw [this]
    exact mul_le_mul_of_nonneg_right f1 hq.le

end counts

/-! ## Refutations -/

/-- C110 in full: rounding loses less than one pair in all. -/
def C110_full : Prop :=
  ∀ (e : PairLoss ℚ) (numRows : Nat) (col : Option StrCol) (s : PairState ℚ) (groups : List (List Nat)) (f : List ℚ)
    (draws : List (List (Draw ℚ))), ExactPair e → PairReach e numRows col s → rowGroups numRows col = ok groups →
    e.rate * numRows / 2 < 2147483648 → 0 < totalPairs e.y groups → RoundDraws e s f draws →
    e.rate * numRows / 2 - 1 < draws.flatten.length

/-- C111 in full: the groups that have pairs weigh the same. -/
def C111_full : Prop :=
  ∀ (e : PairLoss ℚ) (numRows : Nat) (col : Option StrCol) (s : PairState ℚ) (groups : List (List Nat)) (f : List ℚ)
    (draws : List (List (Draw ℚ))), ExactPair e → PairReach e numRows col s → rowGroups numRows col = ok groups →
    e.rate * numRows / 2 < 2147483648 → RoundDraws e s f draws → e.equalWeight = true → e.byDelta = false → e.discount = none →
    (∀ i, e.w i = 1) → e.rnd32 = id → ∀ (i j : Nat) (r1 r2 : List Nat) (d1 d2 : List (Draw ℚ)), groups[i]? = some r1 →
    groups[j]? = some r2 → 0 < pairCount e.y r1 → 0 < pairCount e.y r2 → draws[i]? = some d1 → draws[j]? = some d2 →
    (d1.map (·.weight)).sum = (d2.map (·.weight)).sum

/-- Pairwise squared differences. -/
def fewLoss (rate : ℚ) (y : Nat → ℚ) : PairLoss ℚ where
  rate := rate
  byDelta := false
  equalWeight := true
  rerank := false
  lossFn := fun _ d => if d < 1 then ((1 - d) * (1 - d) / 2, 1 - d, 1) else (0, 0, 0)
  discount := none
  w := fun _ => 1
  y := y
  sort := ratDescSort
  ofNat := fun n => n
  toU64 := fun x => some x.floor.toNat
  rnd32 := id
  fabs := fun x => if x < 0 then -x else x
  numThreads := 1
  draw := fun t _ i n => (t + i) % n

theorem fewLoss_exact {rate : ℚ} (h : 0 < rate) (y : Nat → ℚ) : ExactPair (fewLoss rate y) where
  sort := ratDescSort_spec
  ofNat := fun _ => rfl
  toU64 := fun x hx _ => by
    show some x.floor.toNat = _
    rw [← Int.floor_toNat]
    rfl
  rate := h

/-- What a round draws. -/
theorem round_exists {e : PairLoss ℚ} (he : ExactPair e) {numRows : Nat} {col : Option StrCol} {s s' : PairState ℚ} {f : List ℚ}
    {c : ℚ} {grads : List (GD ℚ)} (hr : PairReach e numRows col s) (h : pairCompute e s f = ok (s', c, grads)) :
    ∃ draws, RoundDraws e s f draws := by
  obtain ⟨_, _, draws, h1, h2, _⟩ := C75_gradients he.sort hr h
  exact ⟨draws, h1, h2⟩

/-- Two groups of two rows. -/
def twoGroups : StrCol := StrCol.build [["q1", "q1", "q2", "q2"]]

/-- The state after setting up, if it can be. -/
def madeState (e : PairLoss ℚ) (n : Nat) (col : Option StrCol) : PairState ℚ :=
  match pairInit e n col with
  | .ok (.ok s) => s
  | _ => ⟨[], 0, 0, [], 0⟩

theorem madeState_eq {e : PairLoss ℚ} {n : Nat} {col : Option StrCol}
    (h : (match pairInit e n col with | .ok (.ok _) => true | _ => false) = true) :
    pairInit e n col = ok (.ok (madeState e n col)) := by
  unfold madeState
  revert h
  generalize pairInit e n col = r
  intro h
  match r, h with
  | .ok (.ok _), _ => rfl

theorem defined_of {α : Type} {o : Outcome α} (h : (match o with | .ok _ => true | _ => false) = true) : ∃ a, o = ok a := by
  match o, h with
  | .ok a, _ => exact ⟨a, rfl⟩

theorem groups_of {n : Nat} {col : Option StrCol} {groups : List (List Nat)}
    (h : (match rowGroups n col with | .ok g => decide (g = groups) | _ => false) = true) : rowGroups n col = ok groups := by
  revert h
  generalize rowGroups n col = r
  intro h
  match r, h with
  | .ok g, h => rw [of_decide_eq_true h]

/-- C110 is false in full: with two groups of one pair each and half a pair per row, one pair should be drawn, and none is. -/
theorem C110_refuted : ¬ C110_full := by
  intro h
  have he : ExactPair (fewLoss (1 / 2) (fun i => [1, 2, 1, 2].getD i 0)) := fewLoss_exact (by norm_num) _
  have hi := madeState_eq (e := fewLoss (1 / 2) (fun i => [1, 2, 1, 2].getD i 0)) (n := 4) (col := some twoGroups) (by decide +kernel)
  have hg : rowGroups 4 (some twoGroups) = ok [[0, 1], [2, 3]] := groups_of (by decide +kernel)
  have hr := PairReach.init hi
  have hb : (fewLoss (1 / 2) (fun i => [1, 2, 1, 2].getD i 0)).rate * (4 : Nat) / 2 < 2147483648 := by simp only [fewLoss]; norm_num
  obtain ⟨⟨s', c, grads⟩, hc⟩ := defined_of (o := pairCompute (fewLoss (1 / 2) (fun i => [1, 2, 1, 2].getD i 0))
    (madeState (fewLoss (1 / 2) (fun i => [1, 2, 1, 2].getD i 0)) 4 (some twoGroups)) [0, 0, 0, 0]) (by decide +kernel)
  obtain ⟨draws, hd⟩ := round_exists he hr hc
  have := h _ 4 (some twoGroups) _ _ _ draws he hr hg hb (by decide +kernel) hd
  have hnil : ∀ ds ∈ draws, ds = [] := by
    intro ds hds
    obtain ⟨i, hi'⟩ := List.getElem?_of_mem hds
    obtain ⟨rows, g0, k1, _⟩ := hd.count he hr hg hb hi'
    refine C110_starved_partial he hr hg hb hd k1 ?_ hi'
    have : rows = [0, 1] ∨ rows = [2, 3] := by simpa using List.mem_of_getElem? k1
    rcases this with rfl | rfl <;> decide +kernel
  rw [List.flatten_eq_nil_iff.mpr hnil] at this
  revert this
  decide +kernel

/-- Groups of one and of three pairs. -/
def unevenGroups : StrCol := StrCol.build [["q1", "q1", "q2", "q2", "q2"]]

/-- C111 is false in full: from a group of one pair nothing is drawn, so it weighs nothing, while one of three pairs does. -/
theorem C111_refuted : ¬ C111_full := by
  intro h
  have he : ExactPair (fewLoss 1 (fun i => [1, 2, 1, 2, 3].getD i 0)) := fewLoss_exact (by norm_num) _
  have hi := madeState_eq (e := fewLoss 1 (fun i => [1, 2, 1, 2, 3].getD i 0)) (n := 5) (col := some unevenGroups) (by decide +kernel)
  have hg : rowGroups 5 (some unevenGroups) = ok [[0, 1], [2, 3, 4]] := groups_of (by decide +kernel)
  have hr := PairReach.init hi
  have hb : (fewLoss 1 (fun i => [1, 2, 1, 2, 3].getD i 0)).rate * (5 : Nat) / 2 < 2147483648 := by simp only [fewLoss]; norm_num
  obtain ⟨⟨s', c, grads⟩, hc⟩ := defined_of (o := pairCompute (fewLoss 1 (fun i => [1, 2, 1, 2, 3].getD i 0))
    (madeState (fewLoss 1 (fun i => [1, 2, 1, 2, 3].getD i 0)) 5 (some unevenGroups)) [0, 0, 0, 0, 0]) (by decide +kernel)
  obtain ⟨draws, hd⟩ := round_exists he hr hc
  have hl : draws.length = 2 := by rw [hd.length]; decide +kernel
  obtain ⟨a, b, rfl⟩ := List.length_eq_two.mp hl
  have := h _ 5 (some unevenGroups) _ _ _ [a, b] he hr hg hb hd rfl rfl rfl (fun _ => rfl) rfl 0 1 [0, 1] [2, 3, 4] a b rfl rfl
    (by decide +kernel) (by decide +kernel) rfl rfl
  have ha : a = [] := C110_starved_partial he hr hg hb hd (index := 0) rfl (by decide +kernel) rfl
  obtain ⟨_, h2, _⟩ := C111_weights_partial he hr hg hb hd rfl rfl rfl (fun _ => rfl) rfl (index := 1) rfl (by decide +kernel)
    (ds := b) rfl
  rw [← this, ha] at h2
  revert h2
  decide +kernel

/-- Hypotheses of C109 met without a group column: four rows, two of three pairs per round. -/
example : ∃ (s : PairState ℚ) (draws : List (List (Draw ℚ))),
    PairReach (fewLoss (5 / 4) (fun i => [1, 2, 1, 3].getD i 0)) 4 none s ∧
    RoundDraws (fewLoss (5 / 4) (fun i => [1, 2, 1, 3].getD i 0)) s [0, 0, 0, 0] draws ∧ draws.flatten.length = 2 := by
  have he : ExactPair (fewLoss (5 / 4) (fun i => [1, 2, 1, 3].getD i 0)) := fewLoss_exact (by norm_num) _
  have hi := madeState_eq (e := fewLoss (5 / 4) (fun i => [1, 2, 1, 3].getD i 0)) (n := 4) (col := none) (by decide +kernel)
  have hr := PairReach.init hi
  obtain ⟨⟨s', c, grads⟩, hc⟩ := defined_of (o := pairCompute (fewLoss (5 / 4) (fun i => [1, 2, 1, 3].getD i 0))
    (madeState (fewLoss (5 / 4) (fun i => [1, 2, 1, 3].getD i 0)) 4 none) [0, 0, 0, 0]) (by decide +kernel)
  obtain ⟨draws, hd⟩ := round_exists he hr hc
  refine ⟨_, draws, hr, hd, ?_⟩
  rw [C109_no_group he hr (by simp only [fewLoss]; norm_num) (a := 0) (b := 1) (by decide) (by decide) (by decide +kernel) hd]
  simp only [fewLoss]
  rw [Nat.floor_eq_iff (by norm_num)]
  norm_num

/-- Enough pairs for both groups: what is drawn from them, and how the gradients come out. -/
example : (match pairInit (fewLoss 4 (fun i => [1, 2, 1, 2, 3].getD i 0)) 5 (some unevenGroups) with
    | .ok (.ok s) => match pairCompute (fewLoss 4 (fun i => [1, 2, 1, 2, 3].getD i 0)) s [0, 0, 0, 0, 0] with
      | .ok (_, _, grads) => decide (s.prob = 5 / 2 ∧ s.minNumPairs = 3 ∧ s.groups.map (·.numPairs) = [1, 3] ∧
          grads.map (·.g) = [-6, 6, -5, 0, 5])
      | _ => false
    | _ => false) = true := by decide +kernel

end Gbdt
