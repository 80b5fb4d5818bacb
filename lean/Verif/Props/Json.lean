import Verif.Model.Json
import Verif.Props.OtherStore

/-!
# C99, C100: saving and loading forests
-/

set_option autoImplicit false
set_option linter.unusedSectionVars false

namespace Gbdt

open Outcome

/-! ## Specification -/

/-- What is asked of protobuf's numbers: they are written as numbers or strings, and read back as they were. -/
structure NumCodec.Exact {D A N : Type} (nc : NumCodec D A N) : Prop where
  real : ∀ x, nc.readReal (nc.real x) = some x
  single : ∀ x, nc.readSingle (nc.single x) = some x
  index : ∀ i, nc.readIndex (nc.index i) = some i
  realPlain : ∀ x, (∃ n, nc.real x = .num n) ∨ ∃ s, nc.real x = .str s
  singlePlain : ∀ x, (∃ n, nc.single x = .num n) ∨ ∃ s, nc.single x = .str s

section roundtrip
variable {D A N : Type}

theorem readStrings_json (l : List String) : readStrings (jsonList (Json.str : String → Json N) l) = some l := by
  induction l with
  | nil => rfl
  | cons s l ih => simp only [jsonList, readStrings, ih, Option.map_some]

theorem readIndices_json {nc : NumCodec D A N} (hc : nc.Exact) (l : List Nat) : readIndices nc (jsonList nc.index l) = some l := by
  induction l with
  | nil => rfl
  | cons i l ih => simp only [jsonList, readIndices, ih, hc.index, Option.bind_some, Option.map_some]

theorem readFloatSplit_json {nc : NumCodec D A N} (hc : nc.Exact) (s s0 : FloatSplit A) :
    readFloatSplit nc (.cons "threshold" (nc.single s.threshold) (.cons "missingToRightChild" (.bool s.missingToRight) .nil)) s0 =
      some s := by
  have h := hc.single s.threshold
  have e : ¬ "missingToRightChild" = "threshold" := by decide +kernel
  have hm : ∀ s1 : FloatSplit A, readFloatSplit nc (.cons "missingToRightChild" (.bool s.missingToRight) .nil) s1 =
      some { s1 with missingToRight := s.missingToRight } := by
    intro s1
    rw [readFloatSplit, if_neg e, if_pos (Or.inl rfl)]
    rfl
  rcases hc.singlePlain s.threshold with ⟨n, hn⟩ | ⟨n, hn⟩ <;> rw [hn] at h ⊢
  · rw [readFloatSplit, if_pos rfl, h, Option.bind_some, hm]
    all_goals simp
  · rw [readFloatSplit, if_pos rfl, h, Option.bind_some, hm]
    all_goals simp

theorem readCatSplit_json {nc : NumCodec D A N} (hc : nc.Exact) (s s0 : CatSplit) :
    readCatSplit nc (.cons "category" (.arr (jsonList Json.str s.category))
      (.cons "internalCategoricalIndex" (.arr (jsonList nc.index s.index)) .nil)) s0 = some s := by
  have e : ¬ "internalCategoricalIndex" = "category" := by decide +kernel
  have hm : ∀ s1 : CatSplit, readCatSplit nc (.cons "internalCategoricalIndex" (.arr (jsonList nc.index s.index)) .nil) s1 =
      some { s1 with index := s.index } := by
    intro s1
    rw [readCatSplit, if_neg e, if_pos (Or.inl rfl)]
    simp only [readIndices_json hc, Option.bind_some]
    rfl
  rw [readCatSplit, if_pos rfl]
  simp only [readStrings_json, Option.bind_some, hm]

theorem readSplit_json {nc : NumCodec D A N} (hc : nc.Exact) (zero : A) (s : Split D A) (g : D) :
    ∃ o, splitJson nc s = .obj o ∧ readSplit nc zero o { gain := g } = some s := by
  refine ⟨_, rfl, ?_⟩
  obtain ⟨feature, fs, cs, gain⟩ := s
  have h := hc.real gain
  have e1 : ¬ "floatSplit" = "feature" := by decide +kernel
  have e2 : ¬ "catSplit" = "feature" := by decide +kernel
  have e3 : ¬ ("catSplit" = "floatSplit" ∨ "catSplit" = "float_split") := by decide +kernel
  have e4 : ¬ "gain" = "feature" := by decide +kernel
  have e5 : ¬ ("gain" = "floatSplit" ∨ "gain" = "float_split") := by decide +kernel
  have e6 : ¬ ("gain" = "catSplit" ∨ "gain" = "cat_split") := by decide +kernel
  have hgain : ∀ s0 : Split D A, readSplit nc zero (.cons "gain" (nc.real gain) .nil) s0 = some { s0 with gain := gain } := by
    intro s0
    rcases hc.realPlain gain with ⟨n, hn⟩ | ⟨n, hn⟩ <;> rw [hn] at h ⊢ <;>
      simp only [readSplit, h, if_neg e4, if_neg e5, if_neg e6, if_true, Option.bind_some]
  have hfeature : ∀ l (s0 : Split D A), readSplit nc zero (.cons "feature" (.str feature) l) s0 =
      readSplit nc zero l { s0 with feature := feature } := by
    intro l s0
    rw [readSplit, if_pos rfl]
  have hfloat : ∀ (l : JsonFields N) (s0 : Split D A), s0.floatSplit = none →
      readSplit nc zero ((jsonOpt "floatSplit" (fs.map (floatSplitJson nc))).append l) s0 =
        readSplit nc zero l { s0 with floatSplit := fs } := by
    intro l s0 h0
    cases fs with
    | none => obtain ⟨a, b, c, d⟩ := s0; cases h0; rfl
    | some fs =>
      simp only [Option.map_some, jsonOpt, JsonFields.append, floatSplitJson]
      rw [readSplit, if_neg e1, if_pos (Or.inl rfl)]
      simp only [readFloatSplit_json hc, Option.bind_some]
  have hcat : ∀ (l : JsonFields N) (s0 : Split D A), s0.catSplit = none →
      readSplit nc zero ((jsonOpt "catSplit" (cs.map (catSplitJson nc))).append l) s0 =
        readSplit nc zero l { s0 with catSplit := cs } := by
    intro l s0 h0
    cases cs with
    | none => obtain ⟨a, b, c, d⟩ := s0; cases h0; rfl
    | some cs =>
      simp only [Option.map_some, jsonOpt, JsonFields.append, catSplitJson]
      rw [readSplit, if_neg e2, if_neg e3, if_pos (Or.inl rfl)]
      simp only [readCatSplit_json hc, Option.bind_some]
  rw [hfeature, hfloat _ _ rfl, hcat _ _ rfl, hgain]

variable [Zero D]

theorem readNode_json {nc : NumCodec D A N} (hc : nc.Exact) (zero : A) : ∀ (t : Tree D A), t ≠ .absent →
    ∃ o v, treeJson nc t = some (.obj o) ∧ readNode nc zero o { score := 0 } = some v ∧ v.tree = t := by
  intro t
  induction t with
  | absent => intro h; exact absurd rfl h
  | node score split left right ihl ihr =>
    intro _
    have e1 : ¬ "leftChild" = "split" := by decide +kernel
    have e2 : ¬ "rightChild" = "split" := by decide +kernel
    have e3 : ¬ ("rightChild" = "leftChild" ∨ "rightChild" = "left_child") := by decide +kernel
    have hscore : ∀ l (n0 : NodeFields D A), readNode nc zero (.cons "score" (nc.real score) l) n0 =
        readNode nc zero l { n0 with score := score } := by
      intro l n0
      have h := hc.real score
      rcases hc.realPlain score with ⟨n, hn⟩ | ⟨n, hn⟩ <;> rw [hn] at h ⊢ <;>
        simp only [readNode, if_true, h, Option.bind_some]
    have hsplit : ∀ l (n0 : NodeFields D A), n0.split = none →
        readNode nc zero ((jsonOpt "split" (split.map (splitJson nc))).append l) n0 =
          readNode nc zero l { n0 with split := split } := by
      intro l n0 h0
      cases split with
      | none => obtain ⟨a, b, c, d⟩ := n0; cases h0; rfl
      | some s =>
        obtain ⟨o, ho, hr⟩ := readSplit_json hc zero s 0
        rw [Option.map_some, ho]
        simp only [jsonOpt, JsonFields.append, readNode, if_true, hr, Option.bind_some]
    have hleft : ∀ l (n0 : NodeFields D A), n0.left = .absent →
        readNode nc zero ((jsonOpt "leftChild" (treeJson nc left)).append l) n0 =
          readNode nc zero l { n0 with left := left } := by
      intro l n0 h0
      by_cases hl : left = .absent
      · subst hl; obtain ⟨a, b, c, d⟩ := n0; cases h0; rfl
      · obtain ⟨o, v, ho, hr, hv⟩ := ihl hl
        rw [ho]
        simp only [jsonOpt, JsonFields.append, readNode, if_neg e1, true_or, if_true, hr, Option.bind_some, hv]
    have hright : ∀ (n0 : NodeFields D A), n0.right = .absent →
        readNode nc zero (jsonOpt "rightChild" (treeJson nc right)) n0 = some { n0 with right := right } := by
      intro n0 h0
      by_cases hl : right = .absent
      · subst hl; obtain ⟨a, b, c, d⟩ := n0; cases h0; rfl
      · obtain ⟨o, v, ho, hr, hv⟩ := ihr hl
        rw [ho]
        simp only [jsonOpt, readNode, if_neg e2, if_neg e3, true_or, if_true, hr, Option.bind_some, hv]
    refine ⟨_, ⟨score, split, left, right⟩, rfl, ?_, rfl⟩
    rw [hscore, hsplit _ _ rfl, hleft _ _ rfl, hright _ rfl]

theorem readTrees_json {nc : NumCodec D A N} (hc : nc.Exact) (zero : A) (trees : List (Tree D A)) (h : ∀ t ∈ trees, t ≠ .absent) :
    readTrees nc zero (jsonList (fun t => (treeJson nc t).getD (.obj .nil)) trees) = some trees := by
  induction trees with
  | nil => rfl
  | cons t ts ih =>
    obtain ⟨o, v, ho, hr, hv⟩ := readNode_json hc zero t (h t (List.mem_cons_self ..))
    simp only [jsonList, ho, Option.getD_some, readTrees, hr, Option.bind_some, ih (fun t ht => h t (List.mem_cons_of_mem _ ht)),
      Option.map_some, hv]

/-! ## C99 -/

/-- **C99 (saving).** Writing a forest as JSON fails exactly if its messages are nested deeper than protobuf's limit. -/
theorem C99_saving (nc : NumCodec D A N) (limit : Nat) (f : ForestMsg D A) :
    (∃ j, forestToJson nc limit f = .ok j) ↔ ∀ t ∈ f.trees, treeNesting t ≤ limit := by
  have hn : forestNesting f.trees ≤ limit ↔ ∀ t ∈ f.trees, treeNesting t ≤ limit := by
    unfold forestNesting
    induction f.trees with
    | nil => simp
    | cons t ts ih => simp only [List.map_cons, List.foldr_cons, max_le_iff, ih, List.forall_mem_cons]
  rw [← hn]
  unfold forestToJson
  split
  · next h => exact ⟨fun _ => h, fun _ => ⟨_, rfl⟩⟩
  · next h => exact ⟨fun ⟨_, h'⟩ => (by cases h'), fun h' => absurd h' h⟩

/-- **C99 (round trip).** A forest that was written as JSON and is read again is the same forest: every score, split, category,
threshold, place of missing values and gain, and the meta information.  So it predicts the same scores and has the same feature
importance. -/
theorem C99_roundtrip {nc : NumCodec D A N} (hc : nc.Exact) (zero : A) {limit limit' : Nat} (f : ForestMsg D A)
    (hset : ∀ t ∈ f.trees, t ≠ .absent) (hl : ∀ t ∈ f.trees, treeNesting t ≤ limit') {j : Json N}
    (hj : forestToJson nc limit f = .ok j) : forestFromJson nc zero limit' j = .ok f := by
  unfold forestToJson at hj
  split at hj
  · next h =>
    cases hj
    obtain ⟨trees, info⟩ := f
    have hn : forestNesting trees ≤ limit' := by
      clear h
      unfold forestNesting
      simp only at hl
      clear hset
      induction trees with
      | nil => simp
      | cons t ts ih =>
        simp only [List.map_cons, List.foldr_cons, max_le_iff]
        exact ⟨hl t (List.mem_cons_self ..), ih (fun t ht => hl t (List.mem_cons_of_mem _ ht))⟩
    simp only at hset
    have e : ¬ "metaInfo" = "tree" := by decide +kernel
    simp only [forestFromJson, readForest, if_true, readTrees_json hc zero trees hset, Option.bind_some, if_neg e, true_or, hn]
  · cases hj

end roundtrip

/-! ## C100 -/

section trained
variable {D A : Type} [Dbl D] [LinearOrder A]

/-- A tree in which every node has two children or none, and only nodes with children have a split, is nested at most one deeper
than it has leaves. -/
theorem nesting_le_leaves {P : Split D A → Prop} : ∀ (t : Tree D A), t.WellFormed P → Stripped t →
    treeNesting t ≤ t.countLeaves + 1 ∧ (t.countLeaves = 1 → treeNesting t = 1) ∧ 1 ≤ t.countLeaves := by
  intro t
  induction t with
  | absent => intro h; exact h.elim
  | node score split left right ihl ihr =>
    intro hw hs
    have hsub : ∀ (b : Bool), Stripped (if b then right else left) := by
      intro b path sc s l r hp
      refine hs (b :: path) sc s l r ?_
      rw [Tree.at?]
      split
      · next hb => rw [if_pos hb] at hp; exact hp
      · next hb => rw [if_neg hb] at hp; exact hp
    have hl := hsub false
    have hr := hsub true
    simp only [Bool.false_eq_true, if_false, if_true] at hl hr
    have hsn : ∀ s : Split D A, splitNesting s ≤ 2 := by
      intro s
      unfold splitNesting
      split <;> omega
    cases left with
    | absent =>
      cases right with
      | absent =>
        cases split with
        | none => exact ⟨by simp [treeNesting, Tree.countLeaves], fun _ => by simp [treeNesting], by simp [Tree.countLeaves]⟩
        | some s => exact absurd (hs [] score s .absent .absent rfl).1 (by simp [Tree.isSet])
      | node a b c d => exact hw.2.1.elim
    | node a b c d =>
      cases right with
      | absent => exact hw.2.2.elim
      | node a' b' c' d' =>
        obtain ⟨⟨s, rfl, _⟩, h1, h2⟩ := hw
        obtain ⟨l1, l2, l3⟩ := ihl h1 hl
        obtain ⟨r1, r2, r3⟩ := ihr h2 hr
        have hc : (Tree.node score (some s) (.node a b c d) (.node a' b' c' d')).countLeaves =
            (Tree.node a b c d).countLeaves + (Tree.node a' b' c' d').countLeaves := by simp [Tree.countLeaves]
        have hn : treeNesting (Tree.node score (some s) (.node a b c d) (.node a' b' c' d')) =
            1 + max (splitNesting s) (max (treeNesting (Tree.node a b c d)) (treeNesting (Tree.node a' b' c' d'))) := by
          rw [treeNesting]
        have := hsn s
        rw [hc, hn]
        refine ⟨?_, fun h => by omega, by omega⟩
        omega

theorem nesting_clearInternal (t : Tree D A) : treeNesting (clearInternal t) ≤ treeNesting t := by
  induction t with
  | absent => exact le_refl _
  | node score split left right ihl ihr =>
    have hs : ∀ s : Split D A, splitNesting (clearIndex s) = splitNesting s := by
      intro s
      simp only [splitNesting, clearIndex, Option.isSome_map]
    simp only [clearInternal, treeNesting]
    cases split with
    | none =>
      simp only [Option.map_none, ite_self]
      omega
    | some s =>
      by_cases hl : left.isSet
      · simp only [hl, if_true, Option.map_some, hs]
        omega
      · simp only [hl, Bool.false_eq_true, if_false]
        omega

theorem clearInternal_set {t : Tree D A} (h : t ≠ .absent) : clearInternal t ≠ .absent := by
  cases t with
  | absent => exact absurd rfl h
  | node => simp [clearInternal]

variable [FpOrder D] [EqOrder D] [ThrOps A]

/-- **C100 (partial).** What `train` returns can be written as JSON and read again, if `num_leaves` is below protobuf's limit (64, so
for up to 63 leaves) and so are the trees of the base forest.  Missing: more leaves, for which it is false. -/
theorem C100_few_leaves_partial {N : Type} {nc : NumCodec D A N} (hc : nc.Exact) (zero : A) {mc : Machine D A} {t : DataStore A}
    {n : Nat} {c : Config D} {base : Option (List (Tree D A))} {nt : Int} (hi : PyInput mc t n c base nt) {limit limit' : Nat}
    (hleaves : 0 < limit ∧ c.numLeaves < limit) (hle : limit ≤ limit') (hbase : ∀ tr ∈ base.getD [], treeNesting tr ≤ limit)
    {y w : List (Fl A)} {features : List String} {seed : Int} {forest : List (Tree D A)}
    (h : pyTrain mc (some t) c y features w base seed nt = ok (.ok forest)) (info : String) :
    ∃ j, forestToJson nc limit ⟨forest, info⟩ = .ok j ∧ forestFromJson nc zero limit' j = .ok ⟨forest, info⟩ := by
  have key : ∀ tr ∈ forest, tr ≠ .absent ∧ treeNesting tr ≤ limit := by
    rcases pyTrain_cases hi y w features seed with ⟨_, h'⟩ | ⟨wf, yf, e, r, names, hne, h1, hok, he, _, _, hn, hs, hr⟩
    · rw [h] at h'; cases h'
    · rw [h] at h1
      simp only [Outcome.ok.injEq, Except.ok.injEq] at h1
      subst h1
      obtain ⟨k, trees, g1, _, g3⟩ := C40_shape (pointTrainData hs (e := e) (he.numThreads ▸ hi.threads)) hr hok
      intro tr htr
      rw [g1] at htr
      rcases List.mem_cons.mp htr with rfl | htr
      · refine ⟨by simp, ?_⟩
        simp only [treeNesting]
        omega
      · rcases List.mem_append.mp htr with htr | htr
        · obtain ⟨t0, ht0, rfl⟩ := List.mem_map.mp htr
          have hm := List.mem_filter.mp ht0
          refine ⟨clearInternal_set ?_, (nesting_clearInternal t0).trans (hbase t0 hm.1)⟩
          rintro rfl
          simp [isSingleNode] at hm
        · obtain ⟨a1, a2, a3, a4⟩ := g3 tr htr
          refine ⟨?_, ?_⟩
          · rintro rfl; exact a4
          · have := (nesting_le_leaves tr a4 a1).1
            simp only [Config.train] at a3
            omega
  obtain ⟨j, hj⟩ := (C99_saving nc limit ⟨forest, info⟩).mpr (fun tr htr => (key tr htr).2)
  exact ⟨j, hj, C99_roundtrip hc zero _ (fun tr htr => (key tr htr).1) (fun tr htr => (key tr htr).2.trans hle) hj⟩

end trained

/-! ## Examples and refutation -/

/-- Numbers written as they are, missing ones as a string. -/
def plainCodec : NumCodec ℚ ℚ (ℚ ⊕ Nat) where
  real := fun x => .num (.inl x)
  readReal := fun j => match j with
    | .num (.inl x) => some x
    | _ => none
  single := fun x => match x with
    | .num v => .num (.inl v)
    | .nan => .str "NaN"
  readSingle := fun j => match j with
    | .num (.inl x) => some (.num x)
    | .str _ => some .nan
    | _ => none
  index := fun i => .num (.inr i)
  readIndex := fun j => match j with
    | .num (.inr i) => some i
    | _ => none

theorem plainCodec_exact : plainCodec.Exact where
  real := fun _ => rfl
  single := fun x => by cases x <;> rfl
  index := fun _ => rfl
  realPlain := fun x => Or.inl ⟨_, rfl⟩
  singlePlain := fun x => by
    cases x with
    | num v => exact Or.inl ⟨_, rfl⟩
    | nan => exact Or.inr ⟨_, rfl⟩

/-- A tree with both kinds of split. -/
def jsonTree : Tree ℚ ℚ :=
  .node 0 (some { feature := "x", floatSplit := some ⟨.num 7, true⟩, gain := 3 })
    (.node (1 / 2) (some { feature := "color", catSplit := some ⟨["a", "b"], []⟩, gain := 1 })
      (.node 5 none .absent .absent) (.node (-6) none .absent .absent))
    (.node 1 none .absent .absent)

example : treeNesting jsonTree = 4 ∧ jsonTree ≠ .absent := by decide

example : ∃ j, forestToJson plainCodec 64 ⟨[jsonTree, .node 1 none .absent .absent], "trained"⟩ = .ok j ∧
    forestFromJson plainCodec 0 100 j = .ok ⟨[jsonTree, .node 1 none .absent .absent], "trained"⟩ :=
  ⟨_, rfl, C99_roundtrip plainCodec_exact 0 (limit := 64) _ (by decide) (by decide) rfl⟩

/-- What is read when fields are left out, in the other spelling, unknown or of the wrong type. -/
example : (match forestFromJson plainCodec 0 100 (.obj (.cons "tree" (.arr (.cons (.obj (.cons "left_child" (.obj .nil) .nil)) .nil)) .nil)) with
    | .ok f => decide (f.trees = [.node 0 none (.node 0 none .absent .absent) .absent] ∧ f.metaInfo = "")
    | _ => false) = true ∧
    (match forestFromJson plainCodec 0 100 (.obj (.cons "trees" .null .nil)) with | .ok _ => false | _ => true) = true ∧
    (match forestFromJson plainCodec 0 100 (.obj (.cons "metaInfo" (.bool true) .nil)) with | .ok _ => false | _ => true) = true := by
  decide +kernel

end Gbdt
