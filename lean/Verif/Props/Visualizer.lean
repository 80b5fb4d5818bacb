import Verif.Model.Visualizer
import Verif.Props.Json

/-!
# C101, C102: pictures of trees
-/

set_option autoImplicit false
set_option linter.unusedSectionVars false

namespace Gbdt
open Outcome

/-! ## Specification -/

section spec
variable {D A N : Type}

/-- The name of the node at a path: the name of the root and a letter for each step. -/
def pathName (root : String) (path : List Bool) : String :=
  root ++ String.ofList (path.map (fun right => if right then 'r' else 'l'))

/-- The text that describes a split. -/
def splitText (nc : NumCodec D A N) (fmt : PyFormat N) (s : Split D A) : Option String :=
  match s.floatSplit with
  | some f => (fmt.thousandths (nc.single f.threshold)).map (fun t =>
      s.feature ++ " " ++ (if f.missingToRight then "<=*" else "*<=") ++ " " ++ t)
  | none => s.catSplit.map (fun c => s.feature ++ " in " ++ ("{" ++ ", ".intercalate c.category ++ "}"))

/-- The label of a node: the score, for inner nodes after the split. -/
def nodeText (nc : NumCodec D A N) (fmt : PyFormat N) : Tree D A → Option String
  | .absent => none
  | .node score _ .absent _ => fmt.millionths (nc.real score)
  | .node score split (.node _ _ _ _) _ =>
    (split.bind (splitText nc fmt)).bind (fun d => (fmt.spaced (nc.real score)).map (fun s => d ++ "\\n" ++ s))

/-- The lines are a picture of the tree: for every node there is one with its label, there are no others, names are different, and
the edges lead from parents to children. -/
structure Pictures (nc : NumCodec D A N) (fmt : PyFormat N) (root : String) (t : Tree D A) (lines : List DotLine) : Prop where
  nodes : ∀ path sub, t.at? path = some sub → ∃ label, nodeText nc fmt sub = some label ∧ .node (pathName root path) label ∈ lines
  onlyNodes : ∀ name label, .node name label ∈ lines → ∃ path sub, t.at? path = some sub ∧ name = pathName root path
  once : (lines.filterMap (fun x => match x with | .node name _ => some name | .edge _ _ => none)).Nodup
  edges : ∀ a b, .edge a b ∈ lines ↔ ∃ path right sub, t.at? (path ++ [right]) = some sub ∧ a = pathName root path ∧
    b = pathName root (path ++ [right])

/-- A tree with labels: every node has a text, and no child or two. -/
def Labelled (nc : NumCodec D A N) (fmt : PyFormat N) : Tree D A → Prop
  | .absent => False
  | .node score split .absent .absent => (nodeText nc fmt (.node score split .absent .absent)).isSome
  | .node score split left right =>
    (nodeText nc fmt (.node score split left right)).isSome ∧ Labelled nc fmt left ∧ Labelled nc fmt right

end spec

/-! ## Reading the JSON -/

section reading
variable {D A N : Type}

theorem get_obj (o : JsonFields N) (k : String) : (Json.obj o).get k = o.get k := rfl

theorem get_append : ∀ (a b : JsonFields N) (k : String), (a.append b).get k = (b.get k).or (a.get k)
  | .nil, b, k => by simp [JsonFields.append, JsonFields.get]
  | .cons key x l, b, k => by
    rw [JsonFields.append, JsonFields.get, get_append l b k, JsonFields.get]
    cases b.get k <;> cases l.get k <;> simp

theorem get_jsonOpt (key : String) (x : Option (Json N)) (k : String) :
    (jsonOpt key x).get k = if key = k then x else none := by
  cases x with
  | none => simp [jsonOpt, JsonFields.get]
  | some x => simp [jsonOpt, JsonFields.get]

/-- The entries of a node. -/
theorem treeJson_get (nc : NumCodec D A N) (score : D) (split : Option (Split D A)) (left right : Tree D A) :
    ∃ o, treeJson nc (.node score split left right) = some (.obj o) ∧ o.get "score" = some (nc.real score) ∧
      o.get "split" = split.map (splitJson nc) ∧ o.get "leftChild" = treeJson nc left ∧
      o.get "rightChild" = treeJson nc right := by
  have h1 : ¬ "split" = "score" := by decide +kernel
  have h2 : ¬ "leftChild" = "score" := by decide +kernel
  have h3 : ¬ "rightChild" = "score" := by decide +kernel
  have h4 : ¬ "score" = "split" := by decide +kernel
  have h5 : ¬ "leftChild" = "split" := by decide +kernel
  have h6 : ¬ "rightChild" = "split" := by decide +kernel
  have h7 : ¬ "score" = "leftChild" := by decide +kernel
  have h8 : ¬ "split" = "leftChild" := by decide +kernel
  have h9 : ¬ "rightChild" = "leftChild" := by decide +kernel
  have h10 : ¬ "score" = "rightChild" := by decide +kernel
  have h11 : ¬ "split" = "rightChild" := by decide +kernel
  have h12 : ¬ "leftChild" = "rightChild" := by decide +kernel
  refine ⟨_, rfl, ?_, ?_, ?_, ?_⟩
  · simp only [JsonFields.get, get_append, get_jsonOpt, if_neg h1, if_neg h2, if_neg h3, Option.or_none, if_true]
  · simp only [JsonFields.get, get_append, get_jsonOpt, if_neg h4, if_neg h5, if_neg h6, Option.none_or, if_true]
    cases split <;> rfl
  · simp only [JsonFields.get, get_append, get_jsonOpt, if_neg h7, if_neg h8, if_neg h9, Option.none_or, Option.or_none, if_true]
    cases treeJson nc left <;> rfl
  · simp only [JsonFields.get, get_append, get_jsonOpt, if_neg h10, if_neg h11, if_neg h12, Option.or_none, if_true]
    cases treeJson nc right <;> rfl

theorem treeJson_isSome (nc : NumCodec D A N) (t : Tree D A) : (treeJson nc t).isSome = t.isSet := by
  cases t <;> rfl

/-- The entries of a split. -/
theorem splitJson_get (nc : NumCodec D A N) (s : Split D A) :
    (splitJson nc s).get "feature" = some (.str s.feature) ∧
      (splitJson nc s).get "floatSplit" = s.floatSplit.map (floatSplitJson nc) ∧
      (splitJson nc s).get "catSplit" = s.catSplit.map (catSplitJson nc) := by
  have h1 : ¬ "floatSplit" = "feature" := by decide +kernel
  have h2 : ¬ "catSplit" = "feature" := by decide +kernel
  have h3 : ¬ "gain" = "feature" := by decide +kernel
  have h4 : ¬ "feature" = "floatSplit" := by decide +kernel
  have h5 : ¬ "catSplit" = "floatSplit" := by decide +kernel
  have h6 : ¬ "gain" = "floatSplit" := by decide +kernel
  have h7 : ¬ "feature" = "catSplit" := by decide +kernel
  have h8 : ¬ "floatSplit" = "catSplit" := by decide +kernel
  have h9 : ¬ "gain" = "catSplit" := by decide +kernel
  refine ⟨?_, ?_, ?_⟩
  · simp only [splitJson, Json.get, JsonFields.get, get_append, get_jsonOpt, if_neg h1, if_neg h2, if_neg h3, Option.or_none, if_true]
  · simp only [splitJson, Json.get, JsonFields.get, get_append, get_jsonOpt, if_neg h4, if_neg h5, if_neg h6, Option.none_or,
      if_true]
    cases s.floatSplit <;> rfl
  · simp only [splitJson, Json.get, JsonFields.get, get_append, get_jsonOpt, if_neg h7, if_neg h8, if_neg h9, Option.none_or,
      Option.or_none, if_true]
    cases s.catSplit <;> rfl

theorem jsonStrings_json (l : List String) : jsonStrings (jsonList (Json.str : String → Json N) l) = some l := by
  induction l with
  | nil => rfl
  | cons s l ih => simp only [jsonList, jsonStrings, ih, Option.map_some]

theorem floatLabel_text (nc : NumCodec D A N) (fmt : PyFormat N) (s : Split D A) {f : FloatSplit A} (hf : s.floatSplit = some f) :
    floatLabel fmt (splitJson nc s) = splitText nc fmt s := by
  obtain ⟨g1, g2, _⟩ := splitJson_get nc s
  have h1 : ¬ "missingToRightChild" = "threshold" := by decide +kernel
  have h2 : (floatSplitJson nc f).get "threshold" = some (nc.single f.threshold) := by
    simp only [floatSplitJson, Json.get, JsonFields.get, if_neg h1, if_true]
  have h3 : (floatSplitJson nc f).get "missingToRightChild" = some (.bool f.missingToRight) := by
    simp only [floatSplitJson, Json.get, JsonFields.get, if_true]
  rw [hf, Option.map_some] at g2
  simp only [floatLabel, g1, g2, Option.bind_some, h2, h3, splitText, hf, floatSign]

theorem catLabel_text (nc : NumCodec D A N) (fmt : PyFormat N) (s : Split D A) (hf : s.floatSplit = none) :
    catLabel (splitJson nc s) = splitText nc fmt s := by
  obtain ⟨g1, _, g3⟩ := splitJson_get nc s
  have h1 : ¬ "internalCategoricalIndex" = "category" := by decide +kernel
  cases hc : s.catSplit with
  | none =>
    rw [hc, Option.map_none] at g3
    simp only [catLabel, g3, Option.bind_none, splitText, hf, hc, Option.map_none]
  | some c =>
    have h2 : (catSplitJson nc c).get "category" = some (.arr (jsonList Json.str c.category)) := by
      simp only [catSplitJson, Json.get, JsonFields.get, if_neg h1, if_true]
    rw [hc, Option.map_some] at g3
    simp only [catLabel, g1, g3, Option.bind_some, h2, jsonStrings_json, Option.map_some, splitText, hf, hc]

theorem nodeLabel_text (nc : NumCodec D A N) (fmt : PyFormat N) {t : Tree D A} {j : Json N} (hj : treeJson nc t = some j) :
    nodeLabel fmt j = nodeText nc fmt t := by
  cases t with
  | absent => cases hj
  | node score split left right =>
    obtain ⟨o, h1, h2, h3, h4, _⟩ := treeJson_get nc score split left right
    rw [hj, Option.some.injEq] at h1
    subst h1
    unfold nodeLabel
    simp only [get_obj, h4, treeJson_isSome]
    cases left with
    | absent => simp only [Tree.isSet, Bool.false_eq_true, if_false, leafLabel, get_obj, h2, Option.bind_some, nodeText]
    | node a b c d =>
      simp only [Tree.isSet, if_true, branchLabel, get_obj, h3, nodeText]
      cases split with
      | none => rfl
      | some s =>
        obtain ⟨_, g2, _⟩ := splitJson_get nc s
        simp only [Option.map_some, Option.bind_some, h2]
        congr 1
        cases hf : s.floatSplit with
        | none =>
          rw [hf, Option.map_none] at g2
          rw [g2, if_neg (by simp), catLabel_text nc fmt s hf]
        | some f =>
          rw [hf, Option.map_some] at g2
          rw [g2, if_pos (by simp), floatLabel_text nc fmt s hf]

end reading

/-! ## Names -/

theorem pathName_nil (root : String) : pathName root [] = root := by simp [pathName]

theorem pathName_cons (root : String) (b : Bool) (path : List Bool) :
    pathName root (b :: path) = pathName (root ++ (if b then "r" else "l")) path := by
  apply String.toList_injective
  cases b <;> simp [pathName]

theorem pathName_inj {root : String} {p q : List Bool} (h : pathName root p = pathName root q) : p = q := by
  have := congrArg String.toList h
  simp only [pathName, String.toList_append, String.toList_ofList, List.append_cancel_left_eq] at this
  refine List.map_injective_iff.mpr ?_ this
  intro a b hab
  cases a <;> cases b <;> simp at hab ⊢

/-! ## C101 -/

section picture
variable {D A N : Type} [Zero D]

theorem pictures_visualize (nc : NumCodec D A N) (fmt : PyFormat N) : ∀ (t : Tree D A) (root : String) (depth : Nat) (j : Json N),
    treeJson nc t = some j → Labelled nc fmt t → treeNesting t ≤ depth →
    ∃ lines, visualizeNode fmt depth j root = some lines ∧ Pictures nc fmt root t lines := by
  intro t
  induction t with
  | absent => intro _ _ _ h; cases h
  | node score split left right ihl ihr =>
    intro root depth j hj hlab hdepth
    have htext := nodeLabel_text nc fmt hj
    obtain ⟨o, h1, h2, h3, h4, h5⟩ := treeJson_get nc score split left right
    rw [hj, Option.some.injEq] at h1
    subst h1
    have hsome : ∃ label, nodeText nc fmt (.node score split left right) = some label := by
      cases left <;> cases right <;> first | exact Option.isSome_iff_exists.mp hlab | exact Option.isSome_iff_exists.mp hlab.1
    obtain ⟨label, hlabel⟩ := hsome
    rw [hlabel] at htext
    cases depth with
    | zero => simp only [treeNesting] at hdepth; omega
    | succ depth =>
      simp only [treeNesting] at hdepth
      cases left with
      | absent =>
        cases right with
        | node a b c d => exact hlab.2.1.elim
        | absent =>
          refine ⟨[.node root label], ?_, ?_⟩
          · rw [visualizeNode, htext, Option.bind_some]
            simp only [get_obj, h4, treeJson]
          · have hat : ∀ path sub, Tree.at? (.node score split .absent .absent) path = some sub →
                path = [] ∧ sub = .node score split .absent .absent := by
              intro path sub h
              cases path with
              | nil => exact ⟨rfl, (Option.some.inj h).symm⟩
              | cons b p => cases b <;> simp [Tree.at?] at h
            refine ⟨?_, ?_, by simp, ?_⟩
            · intro path sub h
              obtain ⟨rfl, rfl⟩ := hat path sub h
              exact ⟨label, hlabel, by simp [pathName_nil]⟩
            · intro name lab h
              simp only [List.mem_singleton, DotLine.node.injEq] at h
              exact ⟨[], _, rfl, by rw [pathName_nil]; exact h.1⟩
            · intro a b
              simp only [List.mem_singleton, reduceCtorEq, false_iff, not_exists, not_and]
              intro path r sub h
              have := (hat _ _ h).1
              simp at this
      | node la lb lc ld =>
        cases right with
        | absent => exact hlab.2.2.elim
        | node ra rb rc rd =>
          obtain ⟨_, hl, hr⟩ := hlab
          obtain ⟨jl, hjl⟩ := Option.isSome_iff_exists.mp (treeJson_isSome nc (.node la lb lc ld))
          obtain ⟨jr, hjr⟩ := Option.isSome_iff_exists.mp (treeJson_isSome nc (.node ra rb rc rd))
          obtain ⟨ls, a1, a2⟩ := ihl (root ++ "l") depth jl hjl hl (by omega)
          obtain ⟨rs, b1, b2⟩ := ihr (root ++ "r") depth jr hjr hr (by omega)
          have hpl : ∀ p, pathName (root ++ "l") p = pathName root (false :: p) := by intro p; rw [pathName_cons]; rfl
          have hpr : ∀ p, pathName (root ++ "r") p = pathName root (true :: p) := by intro p; rw [pathName_cons]; rfl
          refine ⟨.node root label :: (ls ++ rs ++ [.edge root (root ++ "l"), .edge root (root ++ "r")]), ?_, ?_⟩
          · rw [visualizeNode, htext, Option.bind_some]
            simp only [get_obj, h4, hjl, a1, Option.bind_some, h5, hjr, b1, Option.map_some]
          · refine ⟨?_, ?_, ?_, ?_⟩
            · intro path sub h
              cases path with
              | nil =>
                cases h
                exact ⟨label, hlabel, by rw [pathName_nil]; exact List.mem_cons_self ..⟩
              | cons b p =>
                cases b with
                | false =>
                  obtain ⟨lab, k1, k2⟩ := a2.nodes p sub (by simpa [Tree.at?] using h)
                  refine ⟨lab, k1, ?_⟩
                  rw [hpl] at k2
                  simp [k2]
                | true =>
                  obtain ⟨lab, k1, k2⟩ := b2.nodes p sub (by simpa [Tree.at?] using h)
                  refine ⟨lab, k1, ?_⟩
                  rw [hpr] at k2
                  simp [k2]
            · intro name lab h
              simp only [List.mem_cons, List.mem_append, DotLine.node.injEq, reduceCtorEq, List.not_mem_nil, or_false] at h
              rcases h with h | h | h
              · exact ⟨[], _, rfl, by rw [pathName_nil]; exact h.1⟩
              · obtain ⟨p, sub, k1, k2⟩ := a2.onlyNodes name lab h
                exact ⟨false :: p, sub, by simpa [Tree.at?] using k1, by rw [← hpl]; exact k2⟩
              · obtain ⟨p, sub, k1, k2⟩ := b2.onlyNodes name lab h
                exact ⟨true :: p, sub, by simpa [Tree.at?] using k1, by rw [← hpr]; exact k2⟩
            · have hmem : ∀ (l : List DotLine) (x : String),
                  x ∈ l.filterMap (fun x => match x with | .node name _ => some name | .edge _ _ => none) →
                    ∃ lab, .node x lab ∈ l := by
                intro l x hx
                obtain ⟨y, hy, he⟩ := List.mem_filterMap.mp hx
                cases y with
                | node nm lab => simp only [Option.some.injEq] at he; subst he; exact ⟨lab, hy⟩
                | edge _ _ => cases he
              have hl' : ∀ x ∈ ls.filterMap (fun x => match x with | .node name _ => some name | .edge _ _ => none),
                  ∃ p, x = pathName root (false :: p) := by
                intro x hx
                obtain ⟨lab, h⟩ := hmem ls x hx
                obtain ⟨p, _, _, k⟩ := a2.onlyNodes x lab h
                exact ⟨p, by rw [← hpl]; exact k⟩
              have hr' : ∀ x ∈ rs.filterMap (fun x => match x with | .node name _ => some name | .edge _ _ => none),
                  ∃ p, x = pathName root (true :: p) := by
                intro x hx
                obtain ⟨lab, h⟩ := hmem rs x hx
                obtain ⟨p, _, _, k⟩ := b2.onlyNodes x lab h
                exact ⟨p, by rw [← hpr]; exact k⟩
              simp only [List.filterMap_cons, List.filterMap_append, List.filterMap_nil, List.append_nil]
              rw [List.nodup_cons, List.mem_append, not_or]
              refine ⟨⟨?_, ?_⟩, List.nodup_append.mpr ⟨a2.once, b2.once, ?_⟩⟩
              · intro h
                obtain ⟨p, hp⟩ := hl' _ h
                have := pathName_inj ((pathName_nil root).trans hp)
                cases this
              · intro h
                obtain ⟨p, hp⟩ := hr' _ h
                have := pathName_inj ((pathName_nil root).trans hp)
                cases this
              · intro x hx y hy he
                obtain ⟨p, hp⟩ := hl' x hx
                obtain ⟨q, hq⟩ := hr' y hy
                have := pathName_inj (hp.symm.trans (he.trans hq))
                cases this
            · intro a b
              simp only [List.mem_cons, List.mem_append, reduceCtorEq, DotLine.edge.injEq, List.not_mem_nil, or_false, false_or]
              constructor
              · rintro ((h | h) | ⟨rfl, rfl⟩ | ⟨rfl, rfl⟩)
                · obtain ⟨p, r, sub, k1, k2, k3⟩ := (a2.edges a b).mp h
                  exact ⟨false :: p, r, sub, by simpa [Tree.at?] using k1, by rw [← hpl]; exact k2, by
                    rw [List.cons_append, ← hpl]; exact k3⟩
                · obtain ⟨p, r, sub, k1, k2, k3⟩ := (b2.edges a b).mp h
                  exact ⟨true :: p, r, sub, by simpa [Tree.at?] using k1, by rw [← hpr]; exact k2, by
                    rw [List.cons_append, ← hpr]; exact k3⟩
                · exact ⟨[], false, .node la lb lc ld, by simp [Tree.at?], (pathName_nil a).symm, by
                    rw [List.nil_append, ← hpl, pathName_nil]⟩
                · exact ⟨[], true, .node ra rb rc rd, by simp [Tree.at?], (pathName_nil a).symm, by
                    rw [List.nil_append, ← hpr, pathName_nil]⟩
              · rintro ⟨path, r, sub, k1, k2, k3⟩
                cases path with
                | nil =>
                  rw [pathName_nil] at k2
                  cases r with
                  | false => right; left; exact ⟨k2, by rw [k3, List.nil_append, ← hpl, pathName_nil]⟩
                  | true => right; right; exact ⟨k2, by rw [k3, List.nil_append, ← hpr, pathName_nil]⟩
                | cons c p =>
                  left
                  cases c with
                  | false =>
                    left
                    exact (a2.edges a b).mpr ⟨p, r, sub, by simpa [Tree.at?] using k1, by rw [hpl]; exact k2, by
                      rw [hpl]; exact k3⟩
                  | true =>
                    right
                    exact (b2.edges a b).mpr ⟨p, r, sub, by simpa [Tree.at?] using k1, by rw [hpr]; exact k2, by
                      rw [hpr]; exact k3⟩

theorem toList_jsonList {α : Type} (f : α → Json N) (l : List α) : (jsonList f l).toList = l.map f := by
  induction l with
  | nil => rfl
  | cons x l ih => rw [jsonList, JsonList.toList, ih, List.map_cons]

theorem forestJson_tree {nc : NumCodec D A N} {limit : Nat} {f : ForestMsg D A} {j : Json N}
    (hj : forestToJson nc limit f = .ok j) :
    j.get "tree" = some (.arr (jsonList (fun t => (treeJson nc t).getD (.obj .nil)) f.trees)) := by
  unfold forestToJson at hj
  split at hj
  · cases hj
    have h1 : ¬ "metaInfo" = "tree" := by decide +kernel
    simp only [Json.get, JsonFields.get, if_neg h1, if_true]
  · cases hj

/-- **C101.** `visualize_tree(i)` draws tree `i` of the forest: a node with its label for every node of the tree, all with different
names, and an edge from each node to each of its children; nothing else.  Python's limit on nested calls (1000) is no
obstacle, as JSON is not nested that deep (C99). -/
theorem C101_picture {nc : NumCodec D A N} (fmt : PyFormat N) {limit depth : Nat} (hdepth : limit ≤ depth) {f : ForestMsg D A}
    {j : Json N} (hj : forestToJson nc limit f = .ok j) {i : Nat} {t : Tree D A} (ht : f.trees[i]? = some t)
    (hlab : Labelled nc fmt t) :
    ∃ lines, visualizeTree fmt depth j i = some lines ∧ Pictures nc fmt ("tree" ++ toString (i : Int)) t lines := by
  have hn : treeNesting t ≤ limit := (C99_saving nc limit f).mp ⟨j, hj⟩ t (List.mem_of_getElem? ht)
  have hset : t ≠ .absent := by rintro rfl; exact hlab
  obtain ⟨jt, hjt⟩ := Option.isSome_iff_exists.mp (show (treeJson nc t).isSome = true by
    rw [treeJson_isSome]; cases t with | absent => exact absurd rfl hset | node => rfl)
  obtain ⟨lines, h1, h2⟩ := pictures_visualize nc fmt t ("tree" ++ toString (i : Int)) depth jt hjt hlab (by omega)
  refine ⟨lines, ?_, h2⟩
  have hidx : pyIndex (f.trees.map (fun t => (treeJson nc t).getD (.obj .nil))) (i : Int) = some jt := by
    rw [pyIndex, if_pos (by omega), Int.toNat_natCast, List.getElem?_map, ht]
    simp [hjt]
  simp only [visualizeTree, forestJson_tree hj, toList_jsonList, hidx, Option.bind_some, h1]

/-- **C101 (number of trees).** `num_trees` is the number of trees. -/
theorem C101_num_trees {nc : NumCodec D A N} {limit : Nat} {f : ForestMsg D A} {j : Json N}
    (hj : forestToJson nc limit f = .ok j) : numTrees j = some f.trees.length := by
  simp only [numTrees, forestJson_tree hj, toList_jsonList, List.length_map]

end picture

section trainedPicture
variable {D A : Type} [Dbl D] [LinearOrder A]

/-- The formats print all numbers that occur. -/
structure Prints {N : Type} (nc : NumCodec D A N) (fmt : PyFormat N) : Prop where
  thresholds : ∀ x, (fmt.thousandths (nc.single x)).isSome
  leaves : ∀ x, (fmt.millionths (nc.real x)).isSome
  inner : ∀ x, (fmt.spaced (nc.real x)).isSome

theorem labelled_wellFormed {N : Type} {nc : NumCodec D A N} {fmt : PyFormat N} (hp : Prints nc fmt) {P : Split D A → Prop}
    (hP : ∀ s, P s → s.floatSplit.isSome ∨ s.catSplit.isSome) : ∀ t : Tree D A, t.WellFormed P → Labelled nc fmt t := by
  intro t
  induction t with
  | absent => exact id
  | node score split left right ihl ihr =>
    intro h
    cases left with
    | absent =>
      cases right with
      | absent => exact hp.leaves score
      | node => exact h.2.1.elim
    | node a b c d =>
      have h' : (∃ s, split = some s ∧ P s) ∧ (Tree.node a b c d).WellFormed P ∧ right.WellFormed P := by
        cases right <;> exact h
      have goal : (nodeText nc fmt (.node score split (.node a b c d) right)).isSome ∧ Labelled nc fmt (.node a b c d) ∧
          Labelled nc fmt right := by
        refine ⟨?_, ihl h'.2.1, ihr h'.2.2⟩
        obtain ⟨s, rfl, hs⟩ := h'.1
        obtain ⟨sc, hsc⟩ := Option.isSome_iff_exists.mp (hp.inner score)
        have htext : (splitText nc fmt s).isSome := by
          unfold splitText
          cases hf : s.floatSplit with
          | some f => simp [hp.thresholds]
          | none =>
            rcases hP s hs with h1 | h1
            · rw [hf] at h1; cases h1
            · simpa using h1
        obtain ⟨d', hd'⟩ := Option.isSome_iff_exists.mp htext
        simp [nodeText, hd', hsc]
      cases right <;> exact goal

variable [FpOrder D] [EqOrder D] [ThrOps A]

/-- **C101 (trained forests).** All trees of a forest that `train` returned for fewer leaves than the limit of the JSON writer can be
drawn, unless Python cannot print a number (a threshold or score that is not finite is a string in JSON). -/
theorem C101_trained {N : Type} {nc : NumCodec D A N} {fmt : PyFormat N} (hp : Prints nc fmt) {mc : Machine D A}
    {t : DataStore A} {n : Nat} {c : Config D} {nt : Int} (hi : PyInput mc t n c none nt) {limit depth : Nat}
    (hleaves : 0 < limit ∧ c.numLeaves < limit) (hdepth : limit ≤ depth) {y w : List (Fl A)} {features : List String}
    {seed : Int} {forest : List (Tree D A)} (h : pyTrain mc (some t) c y features w none seed nt = ok (.ok forest))
    (info : String) :
    ∃ j, forestToJson nc limit ⟨forest, info⟩ = .ok j ∧ numTrees j = some forest.length ∧
      ∀ (i : Nat) tr, forest[i]? = some tr →
        ∃ lines, visualizeTree fmt depth j i = some lines ∧ Pictures nc fmt ("tree" ++ toString (i : Int)) tr lines := by
  have key : ∀ tr ∈ forest, treeNesting tr ≤ limit ∧ Labelled nc fmt tr := by
    rcases pyTrain_cases hi y w features seed with ⟨_, h'⟩ | ⟨wf, yf, e, r, names, hne, h1, hok, he, _, _, hn, hs, hr⟩
    · rw [h] at h'; cases h'
    · rw [h] at h1
      simp only [Outcome.ok.injEq, Except.ok.injEq] at h1
      subst h1
      obtain ⟨k, trees, g1, _, g3⟩ := C40_shape (pointTrainData hs (e := e) (he.numThreads ▸ hi.threads)) hr hok
      intro tr htr
      rw [g1] at htr
      rcases List.mem_cons.mp htr with rfl | htr
      · refine ⟨?_, hp.leaves k⟩
        simp only [treeNesting]
        omega
      · simp only [Option.getD_none, List.filter_nil, List.map_nil, List.nil_append] at htr
        obtain ⟨a1, a2, a3, a4⟩ := g3 tr htr
        refine ⟨?_, ?_⟩
        · have := (nesting_le_leaves tr a4 a1).1
          simp only [Config.train] at a3
          omega
        · refine labelled_wellFormed hp ?_ tr a4
          rintro s ⟨_, hname, col, hcol, hfit⟩
          obtain ⟨_, col', hcol', hty⟩ := hn _ hname
          have : col = col' := by
            have e1 : t.getColumn s.feature = some col := hcol
            have e2 : t.getColumn s.feature = some col' := hcol'
            rw [e1] at e2
            exact Option.some.inj e2
          subst this
          cases col with
          | str sc => obtain ⟨cs, hcs, _⟩ := hfit; right; rw [hcs]; rfl
          | bkt b => obtain ⟨f, hf⟩ := hfit; left; rw [hf]; rfl
          | raw b => rcases hty with hty | hty <;> cases hty
  obtain ⟨j, hj⟩ := (C99_saving nc limit ⟨forest, info⟩).mpr (fun tr htr => (key tr htr).1)
  exact ⟨j, hj, C101_num_trees hj, fun i tr htr => C101_picture fmt hdepth hj htr (key tr (List.mem_of_getElem? htr)).2⟩

end trainedPicture

/-! ## C102 -/

section labels
variable {D A N : Type} [LinearOrder A]

/-- How a label with `<=*` or `*<=` reads: numbers up to the threshold go left; the star tells where missing ones go. -/
def signSays (sign : String) (threshold : A) : Fl A → Bool
  | .num v => decide (v ≤ threshold)
  | .nan => sign == "*<="

/-- **C102 in full.** What the label of a node says is where the row goes. -/
def C102_full : Prop :=
  ∀ (s : Split ℚ ℚ) (threshold : ℚ) (right : Bool) (x : Fl ℚ), s.floatSplit = some ⟨.num threshold, right⟩ →
    goesLeft s (.num x) = some (signSays (floatSign right) threshold x)

/-- **C102 refuted.** A number equal to the threshold goes right, though the label says `<=`. -/
theorem C102_refuted : ¬ C102_full := by
  intro h
  have := h { feature := "x", floatSplit := some ⟨.num 7, true⟩, gain := 1 } 7 true (.num 7) rfl
  revert this
  decide +kernel

/-- **C102 (partial).** The label is right for missing values and for numbers other than the threshold. -/
theorem C102_not_equal_partial (s : Split D A) (threshold : A) (right : Bool) (x : Fl A)
    (hs : s.floatSplit = some ⟨.num threshold, right⟩) (hx : x ≠ .num threshold) :
    goesLeft s (.num x) = some (signSays (floatSign right) threshold x) := by
  cases x with
  | nan =>
    cases right <;> simp [goesLeft, hs, signSays, floatSign]
  | num v =>
    have hv : v ≠ threshold := fun h => hx (by rw [h])
    simp only [goesLeft, hs, Option.map_some, signSays, Fl.lt, Option.some.injEq, decide_eq_decide]
    exact ⟨le_of_lt, fun h => lt_of_le_of_ne h hv⟩

/-- **C102 (categories).** What the label of a node with categories says is where the row goes. -/
theorem C102_categories (s : Split D A) (c : CatSplit) (hs : s.catSplit = some c) (x : String) :
    goesLeft s (.str x) = some (decide (x ∈ c.category)) := by
  simp [goesLeft, hs]

/-- **C102 refuted for the script.** In forests written by this library `draw_trees.py` puts the star on the right for every split,
wherever missing values go. -/
theorem C102_refuted_script (nc : NumCodec D A N) (f : FloatSplit A) : scriptSign (floatSplitJson nc f) = "<=*" := by
  have h : (floatSplitJson nc f).get "missingToRightChild" = some (.bool f.missingToRight) := by
    simp only [floatSplitJson, Json.get, JsonFields.get, if_true]
  simp [scriptSign, h]

end labels

/-! ## Examples -/

/-- Some formats. -/
def plainFormat : PyFormat (ℚ ⊕ Nat) where
  thousandths := fun j => match j with
    | .num (.inl x) => some (toString x.num)
    | _ => none
  millionths := fun j => match j with
    | .num (.inl x) => some (toString x.num)
    | _ => none
  spaced := fun j => match j with
    | .num (.inl x) => some (" " ++ toString x.num)
    | _ => none

example : (match forestToJson plainCodec 64 ⟨[.node 3 none .absent .absent, jsonTree], ""⟩ with
    | .ok j => decide (visualizeTree plainFormat 1000 j 1 = some [
        .node "tree1" "x <=* 7\\n 0", .node "tree1l" "color in {a, b}\\n 1", .node "tree1ll" "5", .node "tree1lr" "-6",
        .edge "tree1l" "tree1ll", .edge "tree1l" "tree1lr", .node "tree1r" "1", .edge "tree1" "tree1l", .edge "tree1" "tree1r"] ∧
      visualizeTree plainFormat 1000 j (-2) = some [.node "tree-2" "3"] ∧ visualizeTree plainFormat 1000 j 2 = none ∧
      numTrees j = some 2)
    | _ => false) = true := by
  decide +kernel

/-- Formats that never fail. -/
def starFormat : PyFormat (ℚ ⊕ Nat) := ⟨fun _ => some "*", fun _ => some "*", fun _ => some "*"⟩

example : Prints plainCodec starFormat := ⟨fun _ => rfl, fun _ => rfl, fun _ => rfl⟩

example : Labelled plainCodec plainFormat jsonTree := by
  refine ⟨?_, ⟨?_, ?_, ?_⟩, ?_⟩ <;> first | decide +kernel | (simp only [Labelled]; decide +kernel)

end Gbdt
