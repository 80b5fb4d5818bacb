import Verif.Model.DrawTrees
import Verif.Spec.Dot
import Verif.Props.Visualizer

/-!
# C190: the file that `draw_trees.py` writes
-/

set_option autoImplicit false

namespace Gbdt

section spec
variable {D A N : Type}

/-- The numbers of forests are finite and are printed without quotation marks, backslashes and line feeds. -/
structure PrintsPlainly (nc : NumCodec D A N) (fmt : PyFormat N) (thr : Fl A → String) (sc : D → String) : Prop where
  thresholds : ∀ x, fmt.thousandths (nc.single x) = some (thr x)
  scores : ∀ x, fmt.millionths (nc.real x) = some (sc x)
  plainThresholds : ∀ x, ∀ c ∈ (thr x).toList, c ≠ '"' ∧ c ≠ '\\' ∧ c ≠ '\n'
  plainScores : ∀ x, ∀ c ∈ (sc x).toList, c ≠ '"' ∧ c ≠ '\\' ∧ c ≠ '\n'

/-- The label of a node: the score for leaves, the split and the score for splits of numbers, the split for splits of categories. -/
def scriptText (thr : Fl A → String) (sc : D → String) : Tree D A → Text
  | .node score _ .absent _ => (sc score).toList
  | .node score (some s) _ _ => match s.floatSplit, s.catSplit with
    | some f, _ => s.feature.toList ++ " <=* ".toList ++ (thr f.threshold).toList ++ " \\n".toList ++ (sc score).toList
    | none, some c => s.feature.toList ++ " in ".toList ++ pyListText c.category
    | none, none => []
  | _ => []

/-- The picture of a tree: a node and, if it has children, edges to them and their pictures; names say the way from the root. -/
def treePicture (label : Tree D A → Text) : Tree D A → Text → List DotStmt
  | .absent, _ => []
  | .node score split .absent right, name => [.node name (label (.node score split .absent right))]
  | .node score split left right, name =>
    [.node name (label (.node score split left right)), .edge name (name ++ ['l']), .edge name (name ++ ['r']), .hidden (name ++ ['l']) (name ++ ['r'])] ++
      treePicture label left (name ++ ['l']) ++ treePicture label right (name ++ ['r'])

/-- Inner nodes have two children and a split of numbers or of categories. -/
def SplitTree : Tree D A → Prop
  | .absent => False
  | .node _ _ .absent right => right = .absent
  | .node _ split left right => (∃ s, split = some s ∧ (s.floatSplit.isSome ∨ s.catSplit.isSome)) ∧ SplitTree left ∧ SplitTree right

/-- The features of a tree have only characters of ASCII, and no character that ends a string or a line; its categories have no quotation marks of
either kind. -/
def PlainNames : Tree D A → Prop
  | .absent => True
  | .node _ split left right =>
    (∀ s, split = some s → (∀ c ∈ s.feature.toList, c.toNat < 128 ∧ c ≠ '"' ∧ c ≠ '\n') ∧
      ∀ k, s.catSplit = some k → ∀ name ∈ k.category, '"' ∉ name.toList ∧ '\'' ∉ name.toList) ∧ PlainNames left ∧ PlainNames right

/-- The file is the pictures of the trees, one graph after the other. -/
def DrawsForest (label : Tree D A → Text) (trees : List (Tree D A)) (file : Text) : Prop :=
  readDot file = some ((trees.zipIdx.map (fun p => dotGraph (treePicture label p.1 ("node".toList ++ Nat.toDigits 10 p.2)))).flatten)

end spec

/-! ## Reading DOT -/

theorem dotRun_append : ∀ (a b : Text) (s : DotState),
    dotRun s (a ++ b) = ((dotRun s a).1 ++ (dotRun (dotRun s a).2 b).1, (dotRun (dotRun s a).2 b).2)
  | [], b, s => by simp [dotRun]
  | c :: a, b, s => by
    rw [List.cons_append, dotRun, dotRun, dotRun_append a b]
    simp [List.append_assoc]

/-- A text that can stand between quotation marks as it is. -/
def QuoteSafe (t : Text) : Prop := (∀ c ∈ t, c ≠ '"' ∧ c ≠ '\n') ∧ t.getLast? ≠ some '\\'

theorem quoteSafe_tail {c d : Char} {t : Text} (h : QuoteSafe (c :: d :: t)) : QuoteSafe (d :: t) :=
  ⟨fun x hx => h.1 x (List.mem_cons_of_mem _ hx), by rw [← List.getLast?_cons_cons (a := c)]; exact h.2⟩

theorem dotRun_quote : ∀ (t : Text), QuoteSafe t →
    (∀ q, dotRun (.inQuotes q) (t ++ ['"']) = ([.quoted (q ++ t)], .between)) ∧
      (t ≠ [] → ∀ q, dotRun (.escaped q) (t ++ ['"']) = ([.quoted (q ++ '\\' :: t)], .between))
  | [], _ => ⟨fun q => by simp [dotRun, dotStep], fun h => absurd rfl h⟩
  | [c], h => by
    obtain ⟨h1, h2⟩ := h.1 c (by simp)
    have h3 : c ≠ '\\' := fun hc => h.2 (by simp [hc])
    refine ⟨fun q => ?_, fun _ q => ?_⟩
    · simp [dotRun, dotStep, h1, h3]
    · simp [dotRun, dotStep, h1, h2]
  | c :: d :: t, h => by
    obtain ⟨h1, h2⟩ := h.1 c (by simp)
    obtain ⟨ih1, ih2⟩ := dotRun_quote (d :: t) (quoteSafe_tail h)
    refine ⟨fun q => ?_, fun _ q => ?_⟩
    · rw [List.cons_append, dotRun]
      by_cases hc : c = '\\'
      · subst hc
        have : dotStep (.inQuotes q) '\\' = ([], .escaped q) := rfl
        rw [this, ih2 (by simp)]
        simp
      · have : dotStep (.inQuotes q) c = ([], .inQuotes (q ++ [c])) := by simp [dotStep, h1, hc]
        rw [this, ih1]
        simp
    · rw [List.cons_append, dotRun]
      have : dotStep (.escaped q) c = ([], .inQuotes (q ++ ['\\', c])) := by simp [dotStep, h1, h2]
      rw [this, ih1]
      simp

theorem dotRun_inWord : ∀ (t w : Text), (∀ c ∈ t, wordChar c = true) → dotRun (.inWord w) t = ([], .inWord (w ++ t))
  | [], w, _ => by simp [dotRun]
  | c :: t, w, h => by
    have : dotStep (.inWord w) c = ([], .inWord (w ++ [c])) := by simp [dotStep, h c (by simp)]
    rw [dotRun, this, dotRun_inWord t _ (fun d hd => h d (List.mem_cons_of_mem _ hd))]
    simp

/-- A word: it is not empty. -/
def IsWord (t : Text) : Prop := t ≠ [] ∧ ∀ c ∈ t, wordChar c = true

theorem dotRun_word {t : Text} (h : IsWord t) : dotRun .between t = ([], .inWord t) := by
  cases t with
  | nil => exact absurd rfl h.1
  | cons c t =>
    have hc := h.2 c (by simp)
    have h1 : c ≠ '"' := by rintro rfl; revert hc; decide
    have : dotStep .between c = ([], .inWord [c]) := by simp [dotStep, dotFresh, h1, hc]
    rw [dotRun, this, dotRun_inWord t _ (fun d hd => h.2 d (List.mem_cons_of_mem _ hd))]
    simp

theorem dotRun_node {name label : Text} (hn : IsWord name) (hl : QuoteSafe label) :
    dotRun .between (dotNode name label) = ((DotStmt.node name label).tokens, .between) := by
  have h1 : ∀ w, dotRun (.inWord w) [' ', '[', 'l', 'a', 'b', 'e', 'l', '=', '"'] =
      ([.word w, .sign '[', .word "label".toList, .sign '='], .inQuotes []) := fun w => rfl
  have h2 : dotRun .between [' ', 'c', 'o', 'l', 'o', 'r', '=', 'b', 'l', 'u', 'e', ']', ';', '\n'] =
      ([.word "color".toList, .sign '=', .word "blue".toList, .sign ']', .sign ';'], .between) := rfl
  have h3 := (dotRun_quote label hl).1 []
  rw [dotNode, show label ++ ['"', ' ', 'c', 'o', 'l', 'o', 'r', '=', 'b', 'l', 'u', 'e', ']', ';', '\n'] =
    (label ++ ['"']) ++ [' ', 'c', 'o', 'l', 'o', 'r', '=', 'b', 'l', 'u', 'e', ']', ';', '\n'] by simp]
  rw [dotRun_append, dotRun_word hn, dotRun_append, h1, dotRun_append, h3, h2]
  rfl

theorem dotRun_edge {a b : Text} (ha : IsWord a) (hb : IsWord b) :
    dotRun .between (dotEdge a b) = ((DotStmt.edge a b).tokens, .between) := by
  have h1 : ∀ w, dotRun (.inWord w) [' ', '-', '>', ' '] = ([.word w, .sign '-', .sign '>'], .between) := fun w => rfl
  have h2 : ∀ w, dotRun (.inWord w) [';', '\n'] = ([.word w, .sign ';'], .between) := fun w => rfl
  rw [dotEdge, dotRun_append, dotRun_word ha, dotRun_append, h1, dotRun_append, dotRun_word hb, h2]
  rfl

theorem dotRun_hidden {a b : Text} (ha : IsWord a) (hb : IsWord b) :
    dotRun .between (dotHidden a b) = ((DotStmt.hidden a b).tokens, .between) := by
  have h1 : ∀ w, dotRun (.inWord w) [' ', '-', '>', ' '] = ([.word w, .sign '-', .sign '>'], .between) := fun w => rfl
  have h2 : ∀ w, dotRun (.inWord w) ['[', 's', 't', 'y', 'l', 'e', '=', 'i', 'n', 'v', 'i', 's', ' ', 'c', 'o', 'n', 's', 't', 'r', 'a', 'i', 'n', 't', '=',
      'f', 'a', 'l', 's', 'e', ']', ';', '\n'] = ([.word w, .sign '[', .word "style".toList, .sign '=', .word "invis".toList, .word "constraint".toList,
      .sign '=', .word "false".toList, .sign ']', .sign ';'], .between) := fun w => rfl
  rw [dotHidden, dotRun_append, dotRun_word ha, dotRun_append, h1, dotRun_append, dotRun_word hb, h2]
  rfl

theorem dotRun_two {a b : Text} {x y : List DotToken} (ha : dotRun .between a = (x, .between)) (hb : dotRun .between b = (y, .between)) :
    dotRun .between (a ++ b) = (x ++ y, .between) := by
  rw [dotRun_append, ha, hb]

/-! ## Labels -/

theorem digitChar_safe : ∀ n, n < 16 → Nat.digitChar n ≠ '"' ∧ Nat.digitChar n ≠ '\n' := by decide

theorem hexText_safe : ∀ (width n : Nat), ∀ c ∈ hexText width n, c ≠ '"' ∧ c ≠ '\n'
  | 0, _, c, h => by cases h
  | width + 1, n, c, h => by
    rw [hexText, List.mem_append, List.mem_singleton] at h
    rcases h with h | rfl
    · exact hexText_safe width _ c h
    · exact digitChar_safe _ (Nat.mod_lt _ (by norm_num))

theorem reprChar_safe {q d : Char} (hq : q ≠ '\n') (hd : d ≠ '"') : ∀ c ∈ reprChar q d, c ≠ '"' ∧ c ≠ '\n' := by
  intro c hc
  unfold reprChar at hc
  have hp : ∀ {x : Char} {t : Text} {w n : Nat}, x ≠ '"' → x ≠ '\n' → t = hexText w n → c ∈ '\\' :: x :: t → c ≠ '"' ∧ c ≠ '\n' := by
    intro x t w n h1 h2 ht h
    rcases List.mem_cons.mp h with rfl | h
    · decide
    rcases List.mem_cons.mp h with rfl | h
    · exact ⟨h1, h2⟩
    · exact hexText_safe w n c (ht ▸ h)
  split_ifs at hc with a1 a2 a3 a4 a5 a6 a7
  · have hn : d ≠ '\n' := by
      rintro rfl
      rcases a1 with h | h
      · exact hq h.symm
      · revert h; decide
    simp only [List.mem_cons, List.not_mem_nil, or_false] at hc
    rcases hc with rfl | rfl
    · decide
    · exact ⟨hd, hn⟩
  · simp only [List.mem_cons, List.not_mem_nil, or_false] at hc
    rcases hc with rfl | rfl <;> decide
  · simp only [List.mem_cons, List.not_mem_nil, or_false] at hc
    rcases hc with rfl | rfl <;> decide
  · simp only [List.mem_cons, List.not_mem_nil, or_false] at hc
    rcases hc with rfl | rfl <;> decide
  · exact hp (by decide) (by decide) rfl hc
  · exact hp (by decide) (by decide) rfl hc
  · exact hp (by decide) (by decide) rfl hc
  · simp only [List.mem_singleton] at hc
    exact ⟨hc ▸ hd, hc ▸ a3⟩

theorem pyRepr_safe {s : String} (h1 : '"' ∉ s.toList) (h2 : '\'' ∉ s.toList) : ∀ c ∈ pyRepr s, c ≠ '"' ∧ c ≠ '\n' := by
  have hq : (if s.toList.contains '\'' && !s.toList.contains '"' then '"' else '\'') = '\'' := by
    rw [if_neg]
    simp [h2]
  intro c hc
  simp only [pyRepr, hq, List.mem_cons, List.mem_append, List.mem_flatMap, List.not_mem_nil, or_false] at hc
  rcases hc with rfl | rfl | ⟨d, hd, hc⟩ | rfl
  · decide
  · decide
  · exact reprChar_safe (by decide) (fun h => h1 (h ▸ hd)) c hc
  · decide

theorem pyReprs_safe : ∀ (l : List String), (∀ s ∈ l, '"' ∉ s.toList ∧ '\'' ∉ s.toList) → ∀ c ∈ pyReprs l, c ≠ '"' ∧ c ≠ '\n'
  | [], _, c, hc => by cases hc
  | [s], h, c, hc => pyRepr_safe (h s (by simp)).1 (h s (by simp)).2 c hc
  | s :: t :: l, h, c, hc => by
    rw [pyReprs] at hc
    simp only [List.mem_append, List.mem_cons, List.not_mem_nil, or_false] at hc
    rcases hc with hc | (rfl | rfl) | hc
    · exact pyRepr_safe (h s (by simp)).1 (h s (by simp)).2 c hc
    · decide
    · decide
    · exact pyReprs_safe (t :: l) (fun x hx => h x (List.mem_cons_of_mem _ hx)) c hc

theorem quoteSafe_plain {t : Text} (h : ∀ c ∈ t, c ≠ '"' ∧ c ≠ '\\' ∧ c ≠ '\n') : QuoteSafe t :=
  ⟨fun c hc => ⟨(h c hc).1, (h c hc).2.2⟩, fun hl => (h _ (List.mem_of_getLast? hl)).2.1 rfl⟩

/-- A safe text after harmless characters. -/
theorem quoteSafe_append {a b : Text} (ha : ∀ c ∈ a, c ≠ '"' ∧ c ≠ '\n') (hb : QuoteSafe b) (hne : b ≠ []) : QuoteSafe (a ++ b) := by
  refine ⟨fun c hc => ?_, ?_⟩
  · rcases List.mem_append.mp hc with h | h
    · exact ha c h
    · exact hb.1 c h
  · rw [List.getLast?_append_of_ne_nil _ hne]
    exact hb.2

section picture
variable {D A N : Type} {nc : NumCodec D A N} {fmt : PyFormat N} {thr : Fl A → String} {sc : D → String}

theorem asciiText_str {s : String} (h : ∀ c ∈ s.toList, c.toNat < 128) : asciiText (Json.str s : Json N) = some s.toList := by
  rw [asciiText, if_pos]
  simpa [List.all_eq_true] using h

theorem scriptSign_json (f : FloatSplit A) : scriptSign (floatSplitJson nc f) = "<=*" := by
  have h : (floatSplitJson nc f).get "missingToRightChild" = some (.bool f.missingToRight) := by
    simp only [floatSplitJson, Json.get, JsonFields.get, if_true]
  simp [scriptSign, h]

/-- The label of an inner node. -/
theorem scriptBranchLabel_text (hp : PrintsPlainly nc fmt thr sc) {score : D} {s : Split D A} {la : D} {lb : Option (Split D A)} {lc ld right : Tree D A} {j : Json N}
    (hj : treeJson nc (.node score (some s) (.node la lb lc ld) right) = some j)
    (hsplit : s.floatSplit.isSome ∨ s.catSplit.isSome)
    (hname : ∀ c ∈ s.feature.toList, c.toNat < 128) :
    scriptBranchLabel fmt j = some (scriptText thr sc (.node score (some s) (.node la lb lc ld) right)) := by
  obtain ⟨o, h1, h2, h3, h4, h5⟩ := treeJson_get nc score (some s) (.node la lb lc ld) right
  rw [hj, Option.some.injEq] at h1
  subst h1
  obtain ⟨g1, g2, g3⟩ := splitJson_get nc s
  have k1 : ¬ "missingToRightChild" = "threshold" := by decide +kernel
  have k2 : ¬ "internalCategoricalIndex" = "category" := by decide +kernel
  cases hf : s.floatSplit with
  | some f =>
    have t1 : (floatSplitJson nc f).get "threshold" = some (nc.single f.threshold) := by
      simp only [floatSplitJson, Json.get, JsonFields.get, if_neg k1, if_true]
    rw [hf, Option.map_some] at g2
    simp only [scriptBranchLabel, get_obj, h3, Option.map_some, Option.bind_some, g2, g1, asciiText_str hname, t1, hp.thresholds, h2, hp.scores,
      scriptSign_json, scriptText, hf]
    simp [List.append_assoc]
  | none =>
    cases hc : s.catSplit with
    | none => simp [hf, hc] at hsplit
    | some c =>
      have t1 : (catSplitJson nc c).get "category" = some (.arr (jsonList Json.str c.category)) := by
        simp only [catSplitJson, Json.get, JsonFields.get, if_neg k2, if_true]
      rw [hf, Option.map_none] at g2
      rw [hc, Option.map_some] at g3
      simp only [scriptBranchLabel, get_obj, h3, Option.map_some, Option.bind_some, g2, g1, g3, asciiText_str hname, t1, jsonStrings_json, scriptText, hf, hc]
      simp [List.append_assoc]

theorem scriptText_safe (hp : PrintsPlainly nc fmt thr sc) {t : Tree D A} (ht : PlainNames t) : QuoteSafe (scriptText thr sc t) := by
  have hnil : QuoteSafe [] := ⟨by simp, by simp⟩
  cases t with
  | absent => exact hnil
  | node score split left right =>
    cases left with
    | absent => exact quoteSafe_plain (hp.plainScores score)
    | node la lb lc ld =>
      cases split with
      | none => exact hnil
      | some s =>
        obtain ⟨hs, _⟩ := ht
        obtain ⟨hs1, hs2⟩ := hs s rfl
        have hs1' : ∀ c ∈ s.feature.toList, c ≠ '"' ∧ c ≠ '\n' := fun c hc => (hs1 c hc).2
        simp only [scriptText]
        cases hf : s.floatSplit with
        | some f =>
          have hlit : QuoteSafe (" \\n".toList ++ (sc score).toList) := by
            by_cases he : (sc score).toList = []
            · rw [he]
              exact ⟨by decide, by decide⟩
            · exact quoteSafe_append (by decide) (quoteSafe_plain (hp.plainScores score)) he
          have := quoteSafe_append (a := s.feature.toList ++ " <=* ".toList ++ (thr f.threshold).toList) (b := " \\n".toList ++ (sc score).toList) (by
            intro c hc
            rcases List.mem_append.mp hc with hc | hc
            · rcases List.mem_append.mp hc with hc | hc
              · exact hs1' c hc
              · exact (show ∀ c ∈ " <=* ".toList, c ≠ '"' ∧ c ≠ '\n' by decide) c hc
            · exact ⟨(hp.plainThresholds _ c hc).1, (hp.plainThresholds _ c hc).2.2⟩) hlit (by simp)
          simpa only [List.append_assoc] using this
        | none =>
          cases hc : s.catSplit with
          | none => exact hnil
          | some k =>
            have := quoteSafe_append (a := s.feature.toList ++ " in ".toList ++ '[' :: pyReprs k.category) (b := [']']) (by
              intro c hc'
              rcases List.mem_append.mp hc' with hc' | hc'
              · rcases List.mem_append.mp hc' with hc' | hc'
                · exact hs1' c hc'
                · exact (show ∀ c ∈ " in ".toList, c ≠ '"' ∧ c ≠ '\n' by decide) c hc'
              · rcases List.mem_cons.mp hc' with rfl | hc'
                · decide
                · exact pyReprs_safe k.category (hs2 k hc) c hc') ⟨by decide, by decide⟩ (by simp)
            simpa only [pyListText, List.append_assoc, List.cons_append] using this

theorem isWord_child {name : Text} (h : IsWord name) (c : Char) (hc : wordChar c = true) : IsWord (name ++ [c]) :=
  ⟨by simp, fun d hd => by
    rcases List.mem_append.mp hd with hd | hd
    · exact h.2 d hd
    · rw [List.mem_singleton.mp hd]; exact hc⟩

theorem traverse_picture (hp : PrintsPlainly nc fmt thr sc) : ∀ (t : Tree D A) (name : Text) (depth : Nat) (j : Json N), treeJson nc t = some j →
    SplitTree t → PlainNames t → treeNesting t ≤ depth → IsWord name →
    ∃ text, scriptTraverse fmt depth j name = some text ∧
      dotRun .between text = ((treePicture (scriptText thr sc) t name).flatMap DotStmt.tokens, .between) := by
  intro t
  induction t with
  | absent => intro _ _ _ h; cases h
  | node score split left right ihl ihr =>
    intro name depth j hj hst hpl hdepth hn
    have hsafe := scriptText_safe hp hpl
    cases depth with
    | zero => simp only [treeNesting] at hdepth; omega
    | succ depth =>
      simp only [treeNesting] at hdepth
      cases left with
      | absent =>
        obtain ⟨o, h1, h2, h3, h4, h5⟩ := treeJson_get nc score split .absent right
        rw [hj, Option.some.injEq] at h1
        subst h1
        refine ⟨dotNode name (sc score).toList, ?_, ?_⟩
        · rw [scriptTraverse]
          simp only [get_obj, h4, treeJson, h2, Option.bind_some, hp.scores, Option.map_some]
        · rw [dotRun_node hn (quoteSafe_plain (hp.plainScores score))]
          simp [treePicture, scriptText]
      | node la lb lc ld =>
        obtain ⟨⟨s, rfl, hs⟩, hl, hr⟩ := hst
        obtain ⟨hpn, hpl1, hpl2⟩ := hpl
        cases right with
        | absent => exact hr.elim
        | node ra rb rc rd =>
          have hlab := scriptBranchLabel_text hp hj hs (fun c hc => ((hpn s rfl).1 c hc).1)
          obtain ⟨o, h1, h2, h3, h4, h5⟩ := treeJson_get nc score (some s) (.node la lb lc ld) (.node ra rb rc rd)
          rw [hj, Option.some.injEq] at h1
          subst h1
          obtain ⟨jl, hjl⟩ := Option.isSome_iff_exists.mp (treeJson_isSome nc (.node la lb lc ld))
          obtain ⟨jr, hjr⟩ := Option.isSome_iff_exists.mp (treeJson_isSome nc (.node ra rb rc rd))
          have hnl := isWord_child hn 'l' rfl
          have hnr := isWord_child hn 'r' rfl
          obtain ⟨ls, a1, a2⟩ := ihl (name ++ ['l']) depth jl hjl hl hpl1 (by omega) hnl
          obtain ⟨rs, b1, b2⟩ := ihr (name ++ ['r']) depth jr hjr hr hpl2 (by omega) hnr
          refine ⟨dotNode name (scriptText thr sc (.node score (some s) (.node la lb lc ld) (.node ra rb rc rd))) ++ (dotEdge name (name ++ ['l']) ++
            (dotEdge name (name ++ ['r']) ++ (dotHidden (name ++ ['l']) (name ++ ['r']) ++ (ls ++ rs)))), ?_, ?_⟩
          · rw [scriptTraverse]
            simp only [get_obj, h4, hjl, hlab, Option.bind_some, a1, h5, hjr, b1, Option.map_some]
          · rw [dotRun_two (dotRun_node hn hsafe) (dotRun_two (dotRun_edge hn hnl) (dotRun_two (dotRun_edge hn hnr)
              (dotRun_two (dotRun_hidden hnl hnr) (dotRun_two a2 b2))))]
            simp [treePicture, List.flatMap_append, List.flatMap_cons]

theorem joinLoop_false (delim : Text) : ∀ (ws : List Text) (out : Text), joinLoop delim ws false out = out ++ ws.flatMap (delim ++ ·)
  | [], out => by simp [joinLoop]
  | w :: ws, out => by
    rw [joinLoop, joinLoop_false delim ws]
    simp [List.append_assoc]

theorem isWord_root (i : Nat) : IsWord ('n' :: 'o' :: 'd' :: 'e' :: Nat.toDigits 10 i) := by
  refine ⟨by simp, fun c hc => ?_⟩
  simp only [List.mem_cons] at hc
  rcases hc with rfl | rfl | rfl | rfl | hc
  · rfl
  · rfl
  · rfl
  · rfl
  · have := Nat.isDigit_of_mem_toDigits (by decide) (by decide) hc
    simp [wordChar, Char.isAlphanum, this]

theorem graph_picture (hp : PrintsPlainly nc fmt thr sc) {t : Tree D A} {depth i : Nat} {j : Json N} (hj : treeJson nc t = some j) (h1 : SplitTree t)
    (h2 : PlainNames t) (h3 : treeNesting t ≤ depth) :
    ∃ text, scriptGraph fmt depth j i = some text ∧
      dotRun .between text = (dotGraph (treePicture (scriptText thr sc) t ("node".toList ++ Nat.toDigits 10 i)), .between) := by
  obtain ⟨text, a, b⟩ := traverse_picture hp t _ depth j hj h1 h2 h3 (isWord_root i)
  refine ⟨_, by rw [scriptGraph, a, Option.map_some], ?_⟩
  have k1 : dotRun .between ['d', 'i', 'g', 'r', 'a', 'p', 'h', ' ', 't', 'r', 'e', 'e', ' ', '{', '\n'] =
    ([.word "digraph".toList, .word "tree".toList, .sign '{'], .between) := rfl
  have k2 : dotRun .between ['\n', '}'] = ([.sign '}'], .between) := rfl
  rw [dotRun_two k1 (dotRun_two b k2), dotGraph, List.append_assoc]
  rfl

theorem graphs_picture (hp : PrintsPlainly nc fmt thr sc) {depth : Nat} : ∀ (trees : List (Tree D A)) (i : Nat),
    (∀ t ∈ trees, SplitTree t ∧ PlainNames t ∧ treeNesting t ≤ depth) →
    ∃ texts, scriptGraphs fmt depth (trees.map (fun t => (treeJson nc t).getD (.obj .nil))) i = some texts ∧ texts.length = trees.length ∧
      ∀ (sep : Text), dotRun .between sep = ([], .between) → dotRun .between (texts.flatMap (sep ++ ·)) =
        (((trees.zipIdx i).map (fun p => dotGraph (treePicture (scriptText thr sc) p.1 ("node".toList ++ Nat.toDigits 10 p.2)))).flatten, .between)
  | [], i, _ => ⟨[], rfl, rfl, fun _ _ => rfl⟩
  | t :: trees, i, h => by
    obtain ⟨h1, h2, h3⟩ := h t (by simp)
    have hset : t ≠ .absent := by rintro rfl; exact h1
    obtain ⟨j, hj⟩ := Option.isSome_iff_exists.mp (show (treeJson nc t).isSome = true by
      rw [treeJson_isSome]; cases t <;> first | exact absurd rfl hset | rfl)
    obtain ⟨text, a, b⟩ := graph_picture hp (i := i) hj h1 h2 h3
    obtain ⟨texts, c, d, e⟩ := graphs_picture hp trees (i + 1) (fun x hx => h x (List.mem_cons_of_mem _ hx))
    refine ⟨text :: texts, ?_, by simp [d], fun sep hsep => ?_⟩
    · rw [List.map_cons, scriptGraphs, hj, Option.getD_some, a, Option.bind_some, c, Option.map_some]
    · rw [List.flatMap_cons, dotRun_two (dotRun_two hsep b) (e sep hsep)]
      simp [List.zipIdx_cons]

/-- **C190 (partial).** If features have only characters of ASCII, and no quotation marks and line feeds, and categories no quotation marks of either kind, then
the file is the pictures of the trees.  Missing: other names. -/
theorem C190_plain_partial [Zero D] (hp : PrintsPlainly nc fmt thr sc) {limit depth : Nat} (hdepth : limit ≤ depth) {f : ForestMsg D A} {j : Json N}
    (hj : forestToJson nc limit f = .ok j) (h : ∀ t ∈ f.trees, SplitTree t ∧ PlainNames t) :
    ∃ file, scriptFile fmt depth j = some file ∧ DrawsForest (scriptText thr sc) f.trees file := by
  have hn : ∀ t ∈ f.trees, treeNesting t ≤ limit := (C99_saving nc limit f).mp ⟨j, hj⟩
  obtain ⟨texts, a, b, c⟩ := graphs_picture (nc := nc) hp f.trees 0 (fun t ht => ⟨(h t ht).1, (h t ht).2, (hn t ht).trans hdepth⟩)
  refine ⟨join texts ['\n'] ++ ['\n'], ?_, ?_⟩
  · rw [scriptFile, forestJson_tree hj]
    simp only [toList_jsonList, a, Option.map_some]
  · have k1 : dotRun .between ['\n'] = ([], .between) := rfl
    have hc := c ['\n'] k1
    have hjoin : dotRun .between (join texts ['\n']) = dotRun .between (texts.flatMap (['\n'] ++ ·)) := by
      cases texts with
      | nil => rfl
      | cons w ws =>
        rw [join, joinLoop, joinLoop_false, List.flatMap_cons, List.append_assoc, List.append_assoc, dotRun_append ['\n'], k1]
        simp
    rw [DrawsForest, readDot, dotRun_two (hjoin.trans hc) k1]
    simp

end picture

/-! ## What a picture shows -/

section shows
variable {D A : Type}

/-- **C190 (what is drawn).** In the picture of a tree there is a node for every node of the tree, with its label and named by the way from the root, and no other. -/
theorem C190_nodes (label : Tree D A → Text) : ∀ (t : Tree D A), SplitTree t → ∀ (root name text : Text),
    DotStmt.node name text ∈ treePicture label t root ↔
      ∃ path sub, t.at? path = some sub ∧ name = root ++ path.map (fun right => if right then 'r' else 'l') ∧ text = label sub := by
  intro t
  induction t with
  | absent => intro h; exact h.elim
  | node score split left right ihl ihr =>
    intro h root name text
    cases left with
    | absent =>
      cases h
      simp only [treePicture, List.mem_singleton, DotStmt.node.injEq]
      constructor
      · rintro ⟨rfl, rfl⟩
        exact ⟨[], _, rfl, by simp, rfl⟩
      · rintro ⟨path, sub, h1, h2, h3⟩
        cases path with
        | nil => cases h1; exact ⟨by simpa using h2, h3⟩
        | cons b p => cases b <;> simp [Tree.at?] at h1
    | node la lb lc ld =>
      obtain ⟨_, hl, hr⟩ := h
      rw [treePicture.eq_3 _ _ _ _ _ _ (by simp)]
      simp only [List.cons_append, List.nil_append, List.mem_cons, List.mem_append, DotStmt.node.injEq, reduceCtorEq, false_or, ihl hl, ihr hr]
      constructor
      · rintro (⟨rfl, rfl⟩ | ⟨p, sub, h1, h2, h3⟩ | ⟨p, sub, h1, h2, h3⟩)
        · exact ⟨[], _, rfl, by simp, rfl⟩
        · exact ⟨false :: p, sub, by simpa [Tree.at?] using h1, by simpa using h2, h3⟩
        · exact ⟨true :: p, sub, by simpa [Tree.at?] using h1, by simpa using h2, h3⟩
      · rintro ⟨path, sub, h1, h2, h3⟩
        cases path with
        | nil => cases h1; exact Or.inl ⟨by simpa using h2, h3⟩
        | cons b p =>
          cases b with
          | false => exact Or.inr (Or.inl ⟨p, sub, by simpa [Tree.at?] using h1, by simpa using h2, h3⟩)
          | true => exact Or.inr (Or.inr ⟨p, sub, by simpa [Tree.at?] using h1, by simpa using h2, h3⟩)

/-- **C190 (edges).** There is an edge from every node to each of its children, and no other edge is drawn. -/
theorem C190_edges (label : Tree D A → Text) : ∀ (t : Tree D A), SplitTree t → ∀ (root a b : Text),
    DotStmt.edge a b ∈ treePicture label t root ↔
      ∃ path right sub, t.at? (path ++ [right]) = some sub ∧ a = root ++ path.map (fun right => if right then 'r' else 'l') ∧
        b = a ++ [if right then 'r' else 'l'] := by
  intro t
  induction t with
  | absent => intro h; exact h.elim
  | node score split left right ihl ihr =>
    intro h root a b
    cases left with
    | absent =>
      cases h
      simp only [treePicture, List.mem_singleton, reduceCtorEq, false_iff]
      rintro ⟨path, r, sub, h1, _⟩
      cases path with
      | nil => cases r <;> simp [Tree.at?] at h1
      | cons c p => cases c <;> simp [Tree.at?] at h1
    | node la lb lc ld =>
      obtain ⟨_, hl, hr⟩ := h
      cases right with
      | absent => exact hr.elim
      | node ra rb rc rd =>
        rw [treePicture.eq_3 _ _ _ _ _ _ (by simp)]
        simp only [List.cons_append, List.nil_append, List.mem_cons, List.mem_append, DotStmt.edge.injEq, reduceCtorEq, false_or, ihl hl, ihr hr]
        constructor
        · rintro (⟨rfl, rfl⟩ | ⟨rfl, rfl⟩ | ⟨p, r, sub, h1, h2, h3⟩ | ⟨p, r, sub, h1, h2, h3⟩)
          · exact ⟨[], false, .node la lb lc ld, by simp [Tree.at?], by simp, by simp⟩
          · exact ⟨[], true, .node ra rb rc rd, by simp [Tree.at?], by simp, by simp⟩
          · exact ⟨false :: p, r, sub, by simpa [Tree.at?] using h1, by simpa using h2, h3⟩
          · exact ⟨true :: p, r, sub, by simpa [Tree.at?] using h1, by simpa using h2, h3⟩
        · rintro ⟨path, r, sub, h1, h2, h3⟩
          cases path with
          | nil =>
            cases r with
            | false => exact Or.inl ⟨by simpa using h2, by rw [h3, h2]; simp⟩
            | true => exact Or.inr (Or.inl ⟨by simpa using h2, by rw [h3, h2]; simp⟩)
          | cons c p =>
            cases c with
            | false => exact Or.inr (Or.inr (Or.inl ⟨p, r, sub, by simpa [Tree.at?] using h1, by simpa using h2, h3⟩))
            | true => exact Or.inr (Or.inr (Or.inr ⟨p, r, sub, by simpa [Tree.at?] using h1, by simpa using h2, h3⟩))

end shows

/-! ## Names with quotation marks -/

section refuted

/-- **C190 in full.** For every forest that can be saved, whose trees are trees and whose numbers are finite, the file is the pictures of the trees. -/
def C190_full : Prop :=
  ∀ (D A N : Type) (nc : NumCodec D A N) (fmt : PyFormat N) (thr : Fl A → String) (sc : D → String), PrintsPlainly nc fmt thr sc →
    ∀ (limit depth : Nat), limit ≤ depth → ∀ (f : ForestMsg D A) (j : Json N), forestToJson nc limit f = .ok j → (∀ t ∈ f.trees, SplitTree t) →
      ∃ file, scriptFile fmt depth j = some file ∧ DrawsForest (scriptText thr sc) f.trees file

theorem starPrints : PrintsPlainly plainCodec starFormat (fun _ => "*") (fun _ => "*") :=
  ⟨fun _ => rfl, fun _ => rfl, fun _ => by decide, fun _ => by decide⟩

/-- A tree with one split. -/
def oneSplit (s : Split ℚ ℚ) : Tree ℚ ℚ := .node 0 (some s) (.node 1 none .absent .absent) (.node 2 none .absent .absent)

/-- A feature with a quotation mark in its name. -/
def quotedFeature : Tree ℚ ℚ := oneSplit { feature := "size \"L\"", floatSplit := some ⟨.num 7, true⟩, gain := 3 }

/-- A category with an apostrophe, which `repr` puts between double quotation marks. -/
def apostropheCategory : Tree ℚ ℚ := oneSplit { feature := "answer", catSplit := some ⟨["don't know"], []⟩, gain := 3 }

/-- A feature with a character outside ASCII. -/
def umlautFeature : Tree ℚ ℚ := oneSplit { feature := "Größe", floatSplit := some ⟨.num 7, true⟩, gain := 3 }

theorem oneSplit_split {s : Split ℚ ℚ} (h : s.floatSplit.isSome ∨ s.catSplit.isSome) : SplitTree (oneSplit s) := ⟨⟨s, rfl, h⟩, rfl, rfl⟩

/-- What the script does with a forest of one tree. -/
def scriptOutcome (t : Tree ℚ ℚ) : Option (Option (List DotToken)) :=
  match forestToJson plainCodec 64 ⟨[t], ""⟩ with
  | .ok j => (scriptFile starFormat 1000 j).map readDot
  | .error _ => none

/-- **C190 refuted.** With the feature `size "L"` the file is another: the label ends at the quotation mark. -/
theorem C190_refuted : ¬ C190_full := by
  intro h
  obtain ⟨file, h1, h2⟩ := h ℚ ℚ _ plainCodec starFormat _ _ starPrints 64 1000 (by decide) ⟨[quotedFeature], ""⟩ _ rfl
    (fun t ht => by rw [List.mem_singleton.mp ht]; exact oneSplit_split (Or.inl rfl))
  have h3 : scriptOutcome quotedFeature = some (readDot file) := by
    simp only [scriptOutcome]
    rw [show forestToJson plainCodec 64 (⟨[quotedFeature], ""⟩ : ForestMsg ℚ ℚ) = .ok _ from rfl]
    simp only [h1, Option.map_some]
  rw [h2] at h3
  revert h3
  decide +kernel

/-- **C190 refuted (categories).** The category `don't know` breaks the file as well, and a feature with a character outside ASCII makes the script fail. -/
theorem C190_refuted_others :
    scriptOutcome apostropheCategory ≠ some (some (dotGraph (treePicture (scriptText (fun _ => "*") (fun _ => "*")) apostropheCategory "node0".toList))) ∧
      scriptOutcome umlautFeature = none := by decide +kernel

/-- A case for the theorems: a file with two trees. -/
example : (∀ t ∈ [Tree.node 3 none .absent .absent, jsonTree], SplitTree t ∧ PlainNames t) ∧
    scriptOutcome jsonTree = some (some (dotGraph [
      .node "node0".toList "x <=* * \\n*".toList, .edge "node0".toList "node0l".toList, .edge "node0".toList "node0r".toList,
      .hidden "node0l".toList "node0r".toList,
      .node "node0l".toList "color in [u'a', u'b']".toList, .edge "node0l".toList "node0ll".toList, .edge "node0l".toList "node0lr".toList,
      .hidden "node0ll".toList "node0lr".toList, .node "node0ll".toList "*".toList, .node "node0lr".toList "*".toList,
      .node "node0r".toList "*".toList])) := by
  refine ⟨?_, by decide +kernel⟩
  intro t ht
  simp only [List.mem_cons, List.not_mem_nil, or_false] at ht
  rcases ht with rfl | rfl
  · exact ⟨rfl, by simp [PlainNames]⟩
  · refine ⟨⟨⟨_, rfl, Or.inl rfl⟩, ⟨⟨_, rfl, Or.inr rfl⟩, rfl, rfl⟩, rfl⟩, ?_⟩
    refine ⟨?_, ⟨?_, ⟨by simp, trivial, trivial⟩, ⟨by simp, trivial, trivial⟩⟩, ⟨by simp, trivial, trivial⟩⟩
    · rintro s ⟨⟩
      exact ⟨by decide, by simp⟩
    · rintro s ⟨⟩
      refine ⟨by decide, ?_⟩
      rintro k ⟨⟩
      decide

end refuted

end Gbdt
