import Verif.Model.Importance
import Verif.Spec.Tree
import Verif.Props.Train

/-!
# C45: feature importance

Specification: `innerSplits` lists the splits of the inner nodes of a tree (parent first), `gainsOf` the gains of those on
one feature.
-/

set_option autoImplicit false
set_option linter.unusedSectionVars false

namespace Gbdt

variable {D A : Type} [Dbl D]

/-- The splits of the inner nodes, parent before children, left before right. -/
def innerSplits : Tree D A → List (Split D A)
  | .absent => []
  | .node _ _ .absent _ => []
  | .node s split (.node a b c d) right =>
    (Tree.node s split (.node a b c d) right).splitOf :: (innerSplits (.node a b c d) ++ innerSplits right)

/-- The gains of the splits on one feature, in order. -/
def gainsOf (splits : List (Split D A)) (name : String) : List D :=
  (splits.filter (fun s => s.feature = name)).map (·.gain)

/-- Their sum, added in order from 0. -/
def totalGain (splits : List (Split D A)) (name : String) : D := (gainsOf splits name).foldl (· + ·) 0

/-- The value of an entry of a map. -/
def lookupName (name : String) : List (String × D) → Option D
  | [] => none
  | (n, v) :: rest => if n = name then some v else lookupName name rest

theorem lookupName_addGain (name : String) (gain : D) (name' : String) : ∀ m : List (String × D),
    lookupName name' (addGain name gain m) =
      if name' = name then some ((lookupName name m).getD 0 + gain) else lookupName name' m
  | [] => by
    simp only [addGain, lookupName, Option.getD_none]
    by_cases h : name' = name
    · simp [h]
    · simp [h, Ne.symm h]
  | (n, v) :: rest => by
    have ih := lookupName_addGain name gain name' rest
    by_cases hn : n = name
    · subst hn
      simp only [addGain, if_true, lookupName, Option.getD_some]
      by_cases h : name' = n
      · simp [h]
      · simp [h, Ne.symm h]
    · simp only [addGain, hn, if_false, lookupName]
      by_cases h : n = name'
      · subst h
        simp [hn]
      · simp only [h, if_false, ih]

theorem addGain_names (name : String) (gain : D) : ∀ m : List (String × D), (m.map Prod.fst).Nodup →
    ((addGain name gain m).map Prod.fst).Nodup ∧
    ∀ x, x ∈ (addGain name gain m).map Prod.fst ↔ x ∈ m.map Prod.fst ∨ x = name
  | [], _ => by simp [addGain]
  | (n, v) :: rest, h => by
    rw [List.map_cons, List.nodup_cons] at h
    obtain ⟨ih1, ih2⟩ := addGain_names name gain rest h.2
    by_cases hn : n = name
    · subst hn
      simp only [addGain, if_true, List.map_cons, List.nodup_cons]
      refine ⟨h, ?_⟩
      intro x
      simp only [List.mem_cons]
      tauto
    · simp only [addGain, hn, if_false, List.map_cons, List.nodup_cons]
      refine ⟨⟨fun hc => ?_, ih1⟩, ?_⟩
      · rcases (ih2 n).mp hc with h' | h'
        · exact h.1 h'
        · exact hn h'
      · intro x
        simp only [List.mem_cons, ih2]
        tauto

/-- The map holds, for each feature used, its total gain. -/
def HoldsGains (splits : List (Split D A)) (m : List (String × D)) : Prop :=
  (m.map Prod.fst).Nodup ∧
  (∀ name, name ∈ m.map Prod.fst ↔ ∃ s ∈ splits, s.feature = name) ∧
  ∀ name v, lookupName name m = some v → v = totalGain splits name

theorem lookupName_none {name : String} : ∀ {m : List (String × D)}, lookupName name m = none → name ∉ m.map Prod.fst
  | [], _ => by simp
  | (n, v) :: rest, h => by
    rw [lookupName] at h
    split at h
    · cases h
    · next hn =>
      have := lookupName_none h
      simp only [List.map_cons, List.mem_cons, not_or]
      exact ⟨fun h => hn h.symm, this⟩

theorem HoldsGains.add {splits : List (Split D A)} {m : List (String × D)} (h : HoldsGains splits m) (s : Split D A) :
    HoldsGains (splits ++ [s]) (addGain s.feature s.gain m) := by
  obtain ⟨h1, h2, h3⟩ := h
  obtain ⟨k1, k2⟩ := addGain_names s.feature s.gain m h1
  refine ⟨k1, ?_, ?_⟩
  · intro name
    rw [k2, h2]
    simp only [List.mem_append, List.mem_singleton]
    constructor
    · rintro (⟨t, ht, rfl⟩ | rfl)
      · exact ⟨t, Or.inl ht, rfl⟩
      · exact ⟨s, Or.inr rfl, rfl⟩
    · rintro ⟨t, ht | rfl, rfl⟩
      · exact Or.inl ⟨t, ht, rfl⟩
      · exact Or.inr rfl
  · intro name v hv
    rw [lookupName_addGain] at hv
    have hf : totalGain (splits ++ [s]) name =
        if name = s.feature then totalGain splits name + s.gain else totalGain splits name := by
      simp only [totalGain, gainsOf, List.filter_append, List.map_append, List.foldl_append]
      by_cases hn : name = s.feature
      · simp [hn]
      · simp [hn, Ne.symm hn]
    rw [hf]
    by_cases hn : name = s.feature
    · subst hn
      rw [if_pos rfl, Option.some.injEq] at hv
      rw [if_pos rfl, ← hv]
      cases hl : lookupName s.feature m with
      | some v' => rw [Option.getD_some, h3 _ _ hl]
      | none =>
        have hno := lookupName_none hl
        rw [h2] at hno
        have : splits.filter (fun t => t.feature = s.feature) = [] := by
          rw [List.filter_eq_nil_iff]
          intro t ht hts
          exact hno ⟨t, ht, by simpa using hts⟩
        rw [Option.getD_none, totalGain, gainsOf, this]
        rfl
    · rw [if_neg hn] at hv
      rw [if_neg hn]
      exact h3 _ _ hv

theorem treeImportance_holds (t : Tree D A) : ∀ {splits : List (Split D A)} {m : List (String × D)}, HoldsGains splits m →
    HoldsGains (splits ++ innerSplits t) (treeImportance t m) := by
  induction t with
  | absent => intro splits m h; simpa [innerSplits, treeImportance] using h
  | node score split left right ihl ihr =>
    intro splits m h
    cases left with
    | absent => simpa [innerSplits, treeImportance, Tree.isSet] using h
    | node a b c d =>
      have e1 := h.add (Tree.node score split (.node a b c d) right).splitOf
      have e2 := ihl e1
      have e3 := ihr e2
      rw [treeImportance, if_pos (show (Tree.node a b c d).isSet = true from rfl), innerSplits]
      simpa using e3

theorem forestImportance_holds : ∀ (forest : List (Tree D A)) {splits : List (Split D A)} {m : List (String × D)},
    HoldsGains splits m →
    HoldsGains (splits ++ forest.flatMap innerSplits) (forest.foldl (fun m t => treeImportance t m) m)
  | [], splits, m, h => by simpa using h
  | t :: ts, splits, m, h => by
    have := forestImportance_holds ts (treeImportance_holds t h)
    rw [List.flatMap_cons, List.foldl_cons, ← List.append_assoc]
    exact this

theorem lookupName_mem {name : String} {v : D} : ∀ {m : List (String × D)}, (m.map Prod.fst).Nodup → (name, v) ∈ m →
    lookupName name m = some v
  | [], _, h => by cases h
  | (n, w) :: rest, hn, h => by
    rw [List.map_cons, List.nodup_cons] at hn
    rw [lookupName]
    rcases List.mem_cons.mp h with h | h
    · cases h; rw [if_pos rfl]
    · rw [if_neg, lookupName_mem hn.2 h]
      rintro rfl
      exact hn.1 (List.mem_map.mpr ⟨_, h, rfl⟩)

/-- **C45.** In any arithmetic: the features used at inner nodes, each once; the value of each is its total gain divided
by that of the first, and no total gain is larger than one listed before it. -/
theorem C45_importance {sort : List (String × D) → List (String × D)} (hsort : ImportanceSortSpec sort)
    (forest : List (Tree D A)) :
    let splits := forest.flatMap innerSplits
    ∃ names : List String, names.Nodup ∧ (∀ name, name ∈ names ↔ ∃ s ∈ splits, s.feature = name) ∧
      names.Pairwise (fun a b => Dbl.ltb (totalGain splits a) (totalGain splits b) = false) ∧
      (∀ top, names.head? = some top →
        featureImportance sort forest = names.map (fun n => (n, totalGain splits n / totalGain splits top))) ∧
      (names = [] → featureImportance sort forest = []) := by
  intro splits
  have h : HoldsGains splits (forest.foldl (fun m t => treeImportance t m) []) := by
    have := forestImportance_holds forest (splits := []) (m := [])
      ⟨by simp, by simp, by intro name v h; cases h⟩
    simpa using this
  obtain ⟨h1, h2, h3⟩ := h
  obtain ⟨k1, k2⟩ := hsort (forest.foldl (fun m t => treeImportance t m) [])
  generalize hm : forest.foldl (fun m t => treeImportance t m) [] = m at h1 h2 h3 k1 k2
  have hval : ∀ e ∈ sort m, e.2 = totalGain splits e.1 := by
    intro e he
    exact h3 _ _ (lookupName_mem h1 (k1.mem_iff.mp he))
  refine ⟨(sort m).map Prod.fst, (k1.map Prod.fst).nodup_iff.mpr h1, ?_, ?_, ?_, ?_⟩
  · intro name
    rw [← h2, (k1.map Prod.fst).mem_iff]
  · rw [List.pairwise_map]
    refine k2.imp_of_mem ?_
    intro a b ha hb hab
    rw [← hval a ha, ← hval b hb]
    exact hab
  · intro top htop
    rw [featureImportance, hm]
    cases hs : sort m with
    | nil => rw [hs] at htop; cases htop
    | cons e rest =>
      obtain ⟨n, v⟩ := e
      rw [hs] at htop hval
      rw [List.map_cons, List.head?_cons, Option.some.injEq] at htop
      have hv := hval (n, v) (by simp)
      simp only at hv htop
      subst htop
      show List.map _ ((n, v) :: rest) = _
      rw [List.map_map]
      refine List.map_congr_left ?_
      intro e he
      simp only [Function.comp]
      rw [← hval e he, ← hv]
  · intro hnil
    rw [List.map_eq_nil_iff] at hnil
    rw [featureImportance, hm, hnil]

/-- **C45 (exact arithmetic, positive gains).** The first value is 1, values do not increase and lie in (0, 1], and each is
the feature's share of the first one's total gain.  Forests that training returns have positive gains (C40). -/
theorem C45_normalized {K : Type} [Field K] [LinearOrder K] [IsStrictOrderedRing K]
    {sort : List (String × K) → List (String × K)} (hsort : ImportanceSortSpec sort) (forest : List (Tree K A))
    (hpos : ∀ s ∈ forest.flatMap innerSplits, 0 < s.gain) :
    (∀ e, (featureImportance sort forest).head? = some e → e.2 = 1) ∧
    (featureImportance sort forest).Pairwise (fun a b => b.2 ≤ a.2) ∧
    (∀ e ∈ featureImportance sort forest, 0 < e.2 ∧ e.2 ≤ 1) ∧
    ∃ scale : K, 0 < scale ∧ ∀ e ∈ featureImportance sort forest,
      e.2 * scale = (gainsOf (forest.flatMap innerSplits) e.1).sum := by
  obtain ⟨names, h1, h2, h3, h4, h5⟩ := C45_importance hsort forest
  have hsum : ∀ l : List K, ∀ a, l.foldl (· + ·) a = a + l.sum := by
    intro l
    induction l with
    | nil => intro a; simp
    | cons x l ih => intro a; rw [List.foldl_cons, ih, List.sum_cons, add_assoc]
  have htot : ∀ name, totalGain (forest.flatMap innerSplits) name = (gainsOf (forest.flatMap innerSplits) name).sum := by
    intro name
    rw [totalGain, hsum, zero_add]
  have hposs : ∀ l : List K, (∀ x ∈ l, 0 < x) → l ≠ [] → 0 < l.sum := by
    intro l
    induction l with
    | nil => intro _ h; exact absurd rfl h
    | cons x l ih =>
      intro h _
      rw [List.sum_cons]
      cases l with
      | nil => simpa using h x (by simp)
      | cons y l => exact add_pos (h x (by simp)) (ih (fun z hz => h z (by simp [hz])) (by simp))
  have hname : ∀ name ∈ names, 0 < totalGain (forest.flatMap innerSplits) name := by
    intro name hn
    rw [htot]
    obtain ⟨s, hs, hf⟩ := (h2 name).mp hn
    refine hposs _ ?_ ?_
    · intro x hx
      obtain ⟨t, ht, rfl⟩ := List.mem_map.mp hx
      exact hpos t (List.mem_of_mem_filter ht)
    · intro hnil
      rw [gainsOf, List.map_eq_nil_iff, List.filter_eq_nil_iff] at hnil
      exact hnil s hs (by simpa using hf)
  cases names with
  | nil =>
    rw [h5 rfl]
    refine ⟨by simp, by simp, by simp, 1, one_pos, by simp⟩
  | cons top rest =>
    rw [h4 top rfl]
    have htop := hname top (by simp)
    have hle : ∀ name ∈ top :: rest, totalGain (forest.flatMap innerSplits) name ≤ totalGain (forest.flatMap innerSplits) top := by
      intro name hn
      rcases List.mem_cons.mp hn with rfl | hn
      · exact le_refl _
      · have := (List.pairwise_cons.mp h3).1 name hn
        simpa using this
    refine ⟨?_, ?_, ?_, totalGain (forest.flatMap innerSplits) top, htop, ?_⟩
    · intro e he
      rw [List.map_cons, List.head?_cons, Option.some.injEq] at he
      rw [← he]
      exact div_self (ne_of_gt htop)
    · rw [List.pairwise_map]
      refine h3.imp ?_
      intro a b hab
      simp only [exact_ltb, decide_eq_false_iff_not, not_lt] at hab
      exact div_le_div_of_nonneg_right hab (le_of_lt htop)
    · intro e he
      obtain ⟨name, hn, rfl⟩ := List.mem_map.mp he
      exact ⟨div_pos (hname name hn) htop, (div_le_one htop).mpr (hle name hn)⟩
    · intro e he
      obtain ⟨name, hn, rfl⟩ := List.mem_map.mp he
      rw [← htot]
      exact div_mul_cancel₀ _ (ne_of_gt htop)

/-- Sorting in the example. -/
def ratImportanceSort (l : List (String × ℚ)) : List (String × ℚ) := l.insertionSort (fun a b => b.2 ≤ a.2)

theorem ratImportanceSort_spec : ImportanceSortSpec ratImportanceSort := by
  intro l
  refine ⟨List.perm_insertionSort _ _, ?_⟩
  have : Std.Total (fun a b : String × ℚ => b.2 ≤ a.2) := ⟨fun a b => le_total b.2 a.2⟩
  have : IsTrans (String × ℚ) (fun a b => b.2 ≤ a.2) := ⟨fun a b c h1 h2 => le_trans h2 h1⟩
  refine (List.pairwise_insertionSort (fun a b : String × ℚ => b.2 ≤ a.2) l).imp ?_
  intro a b hab
  simpa using hab

/-- A tree that splits on a third feature. -/
def sampleTree : Tree ℚ ℚ :=
  .node 0 (some { feature := "weight", floatSplit := some ⟨.num 1, false⟩, gain := 1/2 })
    (.node 1 none .absent .absent) (.node 2 none .absent .absent)

/-- The fitted tree twice and a tree on another feature. -/
example : featureImportance ratImportanceSort [fittedTree, sampleTree, fittedTree] =
    [("color", 1), ("size", 142/3093), ("weight", 10/3093)] ∧
    ∀ s ∈ [fittedTree, sampleTree, fittedTree].flatMap innerSplits, 0 < s.gain := by decide +kernel

end Gbdt
