import Verif.Model.Json
import Verif.Props.Json

/-!
# C118: which JSON is a forest, and which
-/

set_option autoImplicit false
set_option linter.unusedSectionVars false

namespace Gbdt

/-! ## Specification -/

section spec
variable {D A N : Type}

/-- The names of an object's entries. -/
def JsonFields.keys : JsonFields N → List String
  | .nil => []
  | .cons k _ l => k :: l.keys

/-- The elements of an array. -/
def JsonList.elements : JsonList N → List (Json N)
  | .nil => []
  | .cons x l => x :: l.elements

/-- The value given for a field that may be written with one of these names; `null` counts as not given. -/
def JsonFields.field (names : List String) : JsonFields N → Option (Json N)
  | .nil => none
  | .cons k x l =>
    if k ∈ names then match x with
      | .null => l.field names
      | x => some x
    else l.field names

/-- The fields of the messages, each with the names it may be written with. -/
def fieldNames : List (List String) :=
  [["threshold"], ["missingToRightChild", "missing_to_right_child"], ["category"],
    ["internalCategoricalIndex", "internal_categorical_index"], ["feature"], ["floatSplit", "float_split"], ["catSplit", "cat_split"],
    ["gain"], ["score"], ["split"], ["leftChild", "left_child"], ["rightChild", "right_child"], ["tree"], ["metaInfo", "meta_info"]]

mutual
/-- In every object no field is given twice. -/
def Json.Once : Json N → Prop
  | .arr l => l.Once
  | .obj l => l.Once
  | _ => True
/-- In every object in the array no field is given twice. -/
def JsonList.Once : JsonList N → Prop
  | .nil => True
  | .cons x l => x.Once ∧ l.Once
/-- In this object and those in it no field is given twice. -/
def JsonFields.Once : JsonFields N → Prop
  | .nil => True
  | .cons k x l => (∀ names ∈ fieldNames, k ∈ names → ∀ k' ∈ l.keys, k' ∉ names) ∧ x.Once ∧ l.Once
end

/-- The field is not given and has its default, or it is given with this meaning. -/
def Given {β : Type} (o : JsonFields N) (names : List String) (default : β) (means : Json N → β → Prop) (b : β) : Prop :=
  match o.field names with
  | none => b = default
  | some x => means x b

/-- The object has no other fields than these. -/
def Only (o : JsonFields N) (names : List String) : Prop := ∀ k ∈ o.keys, k ∈ names

/-- The object is this numerical split: without a threshold it splits at 0, and missing values go left unless it says otherwise. -/
structure MeansFloat (nc : NumCodec D A N) (zero : A) (o : JsonFields N) (s : FloatSplit A) : Prop where
  only : Only o ["threshold", "missingToRightChild", "missing_to_right_child"]
  threshold : Given o ["threshold"] (.num zero) (fun x v => nc.readSingle x = some v) s.threshold
  missing : Given o ["missingToRightChild", "missing_to_right_child"] false (fun x b => x = .bool b) s.missingToRight

/-- The object is this categorical split. -/
structure MeansCat (nc : NumCodec D A N) (o : JsonFields N) (s : CatSplit) : Prop where
  only : Only o ["category", "internalCategoricalIndex", "internal_categorical_index"]
  category : Given o ["category"] [] (fun x l => ∃ a, x = .arr a ∧ a.elements = l.map Json.str) s.category
  index : Given o ["internalCategoricalIndex", "internal_categorical_index"] []
    (fun x l => ∃ a, x = .arr a ∧ a.elements.map nc.readIndex = l.map some) s.index

/-- The object is this split. -/
structure MeansSplit [Zero D] (nc : NumCodec D A N) (zero : A) (o : JsonFields N) (s : Split D A) : Prop where
  only : Only o ["feature", "floatSplit", "float_split", "catSplit", "cat_split", "gain"]
  feature : Given o ["feature"] "" (fun x v => x = .str v) s.feature
  floatSplit : Given o ["floatSplit", "float_split"] none
    (fun x v => ∃ o' f, x = .obj o' ∧ v = some f ∧ MeansFloat nc zero o' f) s.floatSplit
  catSplit : Given o ["catSplit", "cat_split"] none (fun x v => ∃ o' c, x = .obj o' ∧ v = some c ∧ MeansCat nc o' c) s.catSplit
  gain : Given o ["gain"] 0 (fun x v => nc.readReal x = some v) s.gain

/-- The value is this tree. -/
def MeansTree [Zero D] (nc : NumCodec D A N) (zero : A) : Tree D A → Json N → Prop
  | .absent, _ => False
  | .node score split left right, j => ∃ o, j = .obj o ∧
    Only o ["score", "split", "leftChild", "left_child", "rightChild", "right_child"] ∧
    Given o ["score"] 0 (fun x v => nc.readReal x = some v) score ∧
    Given o ["split"] none (fun x v => ∃ o' s, x = .obj o' ∧ v = some s ∧ MeansSplit nc zero o' s) split ∧
    (match o.field ["leftChild", "left_child"] with
      | none => left = .absent
      | some x => MeansTree nc zero left x) ∧
    (match o.field ["rightChild", "right_child"] with
      | none => right = .absent
      | some x => MeansTree nc zero right x)

/-- The value is this forest. -/
def MeansForest [Zero D] (nc : NumCodec D A N) (zero : A) (j : Json N) (f : ForestMsg D A) : Prop :=
  ∃ o, j = .obj o ∧ Only o ["tree", "metaInfo", "meta_info"] ∧
    Given o ["tree"] [] (fun x ts => ∃ a, x = .arr a ∧ List.Forall₂ (MeansTree nc zero) ts a.elements) f.trees ∧
    Given o ["metaInfo", "meta_info"] "" (fun x v => x = .str v) f.metaInfo

end spec

/-! ## Proof -/

section proof
variable {D A N : Type}

theorem field_nil (names : List String) : (JsonFields.nil : JsonFields N).field names = none := rfl

theorem field_null (names : List String) (k : String) (l : JsonFields N) :
    (JsonFields.cons k .null l).field names = l.field names := by
  rw [JsonFields.field]
  split <;> rfl

theorem field_other {names : List String} {k : String} (h : k ∉ names) (x : Json N) (l : JsonFields N) :
    (JsonFields.cons k x l).field names = l.field names := by
  cases x <;> simp only [JsonFields.field, if_neg h]

theorem field_here {names : List String} {k : String} (h : k ∈ names) {x : Json N} (hx : x ≠ .null) (l : JsonFields N) :
    (JsonFields.cons k x l).field names = some x := by
  cases x <;> first | exact (hx rfl).elim | simp only [JsonFields.field, if_pos h]

theorem field_none {names : List String} : ∀ (l : JsonFields N), (∀ k' ∈ l.keys, k' ∉ names) → l.field names = none
  | .nil, _ => rfl
  | .cons k x l, h => by
    rw [field_other (h k (by simp [JsonFields.keys])), field_none l (fun k' hk => h k' (by simp [JsonFields.keys, hk]))]

/-- A field given in front is not given behind. -/
theorem once_field {names : List String} (hn : names ∈ fieldNames) {k : String} (hk : k ∈ names) {x : Json N} {l : JsonFields N}
    (h : (JsonFields.cons k x l).Once) : l.field names = none :=
  field_none l (h.1 names hn hk)

theorem once_tail {k : String} {x : Json N} {l : JsonFields N} (h : (JsonFields.cons k x l).Once) : l.Once := h.2.2

theorem once_head {k : String} {x : Json N} {l : JsonFields N} (h : (JsonFields.cons k x l).Once) : x.Once := h.2.1

theorem only_cons {k : String} {x : Json N} {l : JsonFields N} {names : List String} :
    Only (.cons k x l) names ↔ k ∈ names ∧ Only l names := by
  simp only [Only, JsonFields.keys, List.forall_mem_cons]

section given
variable {β : Type} {names : List String} {d b : β} {m : Json N → β → Prop} {k : String} {x : Json N} {l : JsonFields N}

theorem given_nil : Given (.nil : JsonFields N) names d m b ↔ b = d := Iff.rfl

theorem given_null : Given (.cons k .null l) names d m b ↔ Given l names d m b := by
  unfold Given
  rw [field_null]

theorem given_other (h : k ∉ names) : Given (.cons k x l) names d m b ↔ Given l names d m b := by
  unfold Given
  rw [field_other h]

theorem given_here (h : k ∈ names) (hx : x ≠ .null) : Given (.cons k x l) names d m b ↔ m x b := by
  unfold Given
  rw [field_here h hx]

theorem given_behind (hn : names ∈ fieldNames) (h : k ∈ names) (ho : (JsonFields.cons k x l).Once) :
    Given l names d m b ↔ b = d := by
  unfold Given
  rw [once_field hn h ho]

end given

theorem readFloatSplit_iff (nc : NumCodec D A N) : ∀ (o : JsonFields N), o.Once → ∀ (s r : FloatSplit A),
    readFloatSplit nc o s = some r ↔ Only o ["threshold", "missingToRightChild", "missing_to_right_child"] ∧
      Given o ["threshold"] s.threshold (fun x v => nc.readSingle x = some v) r.threshold ∧
      Given o ["missingToRightChild", "missing_to_right_child"] s.missingToRight (fun x b => x = .bool b) r.missingToRight
  | .nil, _, s, r => by
    rw [readFloatSplit, given_nil, given_nil]
    obtain ⟨a, b⟩ := s
    obtain ⟨a', b'⟩ := r
    simp [Only, JsonFields.keys, eq_comm]
  | .cons k x l, ho, s, r => by
    have ih := readFloatSplit_iff nc l (once_tail ho)
    rw [readFloatSplit.eq_def, only_cons]
    dsimp only
    by_cases h1 : k = "threshold"
    · subst h1
      have hk : "threshold" ∈ ["threshold"] := by simp
      rw [if_pos rfl, given_other (names := ["missingToRightChild", "missing_to_right_child"]) (by decide)]
      cases x
      case null => simp only [ih, given_null, List.mem_cons, true_or, true_and]
      all_goals
        rw [given_here (by simp) (by simp)]
        simp only [Option.bind_eq_some_iff, ih, given_behind (b := r.threshold) (by decide) hk ho, List.mem_cons, true_or,
          true_and]
        simp only [existsAndEq, true_and]
        tauto
    · rw [if_neg h1, given_other (names := ["threshold"]) (by simpa using h1)]
      by_cases h2 : k = "missingToRightChild" ∨ k = "missing_to_right_child"
      · rw [if_pos h2]
        have hk : k ∈ ["missingToRightChild", "missing_to_right_child"] := by simpa using h2
        have hk' : k ∈ ["threshold", "missingToRightChild", "missing_to_right_child"] := List.mem_cons_of_mem _ hk
        cases x
        case null => simp only [ih, given_null, hk', true_and]
        case bool b =>
          rw [given_here hk (by simp)]
          simp only [ih, given_behind (b := r.missingToRight) (by decide) hk ho, hk', true_and, Json.bool.injEq, eq_comm]
        all_goals
          rw [given_here hk (by simp)]
          simp
      · rw [if_neg h2]
        simp [h1, h2]

theorem readStrings_iff : ∀ (a : JsonList N) (l : List String), readStrings a = some l ↔ a.elements = l.map Json.str
  | .nil, l => by cases l <;> simp [readStrings, JsonList.elements]
  | .cons x a, l => by
    have ih := readStrings_iff a
    cases x <;> cases l <;> simp [readStrings, JsonList.elements, ih, and_comm]

theorem readIndices_iff (nc : NumCodec D A N) : ∀ (a : JsonList N) (l : List Nat),
    readIndices nc a = some l ↔ a.elements.map nc.readIndex = l.map some
  | .nil, l => by cases l <;> simp [readIndices, JsonList.elements]
  | .cons x a, l => by
    have ih := readIndices_iff nc a
    cases l with
    | nil => cases h : nc.readIndex x <;> simp [readIndices, JsonList.elements, h]
    | cons i l => cases h : nc.readIndex x <;> simp [readIndices, JsonList.elements, ih, h, and_comm]

theorem readCatSplit_iff (nc : NumCodec D A N) : ∀ (o : JsonFields N), o.Once → ∀ (s r : CatSplit),
    readCatSplit nc o s = some r ↔ Only o ["category", "internalCategoricalIndex", "internal_categorical_index"] ∧
      Given o ["category"] s.category (fun x l => ∃ a, x = .arr a ∧ a.elements = l.map Json.str) r.category ∧
      Given o ["internalCategoricalIndex", "internal_categorical_index"] s.index
        (fun x l => ∃ a, x = .arr a ∧ a.elements.map nc.readIndex = l.map some) r.index
  | .nil, _, s, r => by
    rw [readCatSplit, given_nil, given_nil]
    obtain ⟨a, b⟩ := s
    obtain ⟨a', b'⟩ := r
    simp [Only, JsonFields.keys, eq_comm]
  | .cons k x l, ho, s, r => by
    have ih := readCatSplit_iff nc l (once_tail ho)
    rw [readCatSplit.eq_def, only_cons]
    dsimp only
    by_cases h1 : k = "category"
    · subst h1
      have hk : "category" ∈ ["category"] := by simp
      rw [if_pos rfl, given_other (names := ["internalCategoricalIndex", "internal_categorical_index"]) (by decide)]
      cases x
      case null => simp only [ih, given_null, List.mem_cons, true_or, true_and]
      case arr a =>
        rw [given_here (by simp) (by simp)]
        simp only [Option.bind_eq_some_iff, ih, given_behind (b := r.category) (by decide) hk ho, List.mem_cons, true_or,
          true_and, readStrings_iff, Json.arr.injEq, exists_eq_left']
        simp only [existsAndEq, true_and]
        tauto
      all_goals
        rw [given_here (by simp) (by simp)]
        simp
    · rw [if_neg h1, given_other (names := ["category"]) (by simpa using h1)]
      by_cases h2 : k = "internalCategoricalIndex" ∨ k = "internal_categorical_index"
      · rw [if_pos h2]
        have hk : k ∈ ["internalCategoricalIndex", "internal_categorical_index"] := by simpa using h2
        have hk' : k ∈ ["category", "internalCategoricalIndex", "internal_categorical_index"] := List.mem_cons_of_mem _ hk
        cases x
        case null => simp only [ih, given_null, hk', true_and]
        case arr a =>
          rw [given_here hk (by simp)]
          simp only [Option.bind_eq_some_iff, ih, given_behind (b := r.index) (by decide) hk ho, hk', true_and, readIndices_iff,
            Json.arr.injEq, exists_eq_left']
          simp only [existsAndEq, and_true]
          tauto
        all_goals
          rw [given_here hk (by simp)]
          simp
      · rw [if_neg h2]
        simp [h1, h2]

theorem readSplit_iff [Zero D] (nc : NumCodec D A N) (zero : A) : ∀ (o : JsonFields N), o.Once → ∀ (s r : Split D A),
    readSplit nc zero o s = some r ↔ Only o ["feature", "floatSplit", "float_split", "catSplit", "cat_split", "gain"] ∧
      Given o ["feature"] s.feature (fun x v => x = .str v) r.feature ∧
      Given o ["floatSplit", "float_split"] s.floatSplit
        (fun x v => ∃ o' f, x = .obj o' ∧ v = some f ∧ MeansFloat nc zero o' f) r.floatSplit ∧
      Given o ["catSplit", "cat_split"] s.catSplit (fun x v => ∃ o' c, x = .obj o' ∧ v = some c ∧ MeansCat nc o' c) r.catSplit ∧
      Given o ["gain"] s.gain (fun x v => nc.readReal x = some v) r.gain
  | .nil, _, s, r => by
    rw [readSplit, given_nil, given_nil, given_nil, given_nil]
    obtain ⟨a, b, c, d⟩ := s
    obtain ⟨a', b', c', d'⟩ := r
    simp [Only, JsonFields.keys, eq_comm]
  | .cons k x l, ho, s, r => by
    have ih := readSplit_iff nc zero l (once_tail ho)
    have hx := once_head ho
    rw [readSplit.eq_def, only_cons]
    dsimp only
    by_cases h1 : k = "feature"
    · subst h1
      have hk : "feature" ∈ ["feature"] := by simp
      rw [if_pos rfl, given_other (names := ["floatSplit", "float_split"]) (by decide),
        given_other (names := ["catSplit", "cat_split"]) (by decide), given_other (names := ["gain"]) (by decide)]
      cases x
      case null => simp only [ih, given_null, List.mem_cons, true_or, true_and]
      case str v =>
        rw [given_here hk (by simp)]
        simp only [ih, given_behind (b := r.feature) (by decide) hk ho, List.mem_cons, true_or, true_and, Json.str.injEq, eq_comm]
      all_goals
        rw [given_here (by simp) (by simp)]
        simp
    · rw [if_neg h1, given_other (names := ["feature"]) (by simpa using h1)]
      by_cases h2 : k = "floatSplit" ∨ k = "float_split"
      · rw [if_pos h2]
        have hk : k ∈ ["floatSplit", "float_split"] := by simpa using h2
        have hk' : k ∈ ["feature", "floatSplit", "float_split", "catSplit", "cat_split", "gain"] := by
          rcases h2 with rfl | rfl <;> decide
        rw [given_other (names := ["catSplit", "cat_split"]) (by rcases h2 with rfl | rfl <;> decide),
          given_other (names := ["gain"]) (by rcases h2 with rfl | rfl <;> decide)]
        cases x
        case null => simp only [ih, given_null, hk', true_and]
        case obj o' =>
          have hf : ∀ f, readFloatSplit nc o' ⟨.num zero, false⟩ = some f ↔ MeansFloat nc zero o' f := by
            intro f
            rw [readFloatSplit_iff nc o' hx]
            exact ⟨fun ⟨a, b, c⟩ => ⟨a, b, c⟩, fun ⟨a, b, c⟩ => ⟨a, b, c⟩⟩
          rw [given_here hk (by simp)]
          simp only [Option.bind_eq_some_iff, ih, given_behind (b := r.floatSplit) (by decide) hk ho, hk', true_and, hf,
            Json.obj.injEq]
          constructor
          · rintro ⟨f, a, b, c, d, e⟩
            exact ⟨b, c, ⟨o', f, rfl, d, a⟩, e⟩
          · rintro ⟨b, c, ⟨_, f, rfl, d, a⟩, e⟩
            exact ⟨f, a, b, c, d, e⟩
        all_goals
          rw [given_here hk (by simp)]
          simp
      · rw [if_neg h2, given_other (names := ["floatSplit", "float_split"]) (by simpa using h2)]
        by_cases h3 : k = "catSplit" ∨ k = "cat_split"
        · rw [if_pos h3]
          have hk : k ∈ ["catSplit", "cat_split"] := by simpa using h3
          have hk' : k ∈ ["feature", "floatSplit", "float_split", "catSplit", "cat_split", "gain"] := by
            rcases h3 with rfl | rfl <;> decide
          rw [given_other (names := ["gain"]) (by rcases h3 with rfl | rfl <;> decide)]
          cases x
          case null => simp only [ih, given_null, hk', true_and]
          case obj o' =>
            have hf : ∀ f, readCatSplit nc o' {} = some f ↔ MeansCat nc o' f := by
              intro f
              rw [readCatSplit_iff nc o' hx]
              exact ⟨fun ⟨a, b, c⟩ => ⟨a, b, c⟩, fun ⟨a, b, c⟩ => ⟨a, b, c⟩⟩
            rw [given_here hk (by simp)]
            simp only [Option.bind_eq_some_iff, ih, given_behind (b := r.catSplit) (by decide) hk ho, hk', true_and, hf,
              Json.obj.injEq]
            constructor
            · rintro ⟨f, a, b, c, d, e, g⟩
              exact ⟨b, c, d, ⟨o', f, rfl, e, a⟩, g⟩
            · rintro ⟨b, c, d, ⟨_, f, rfl, e, a⟩, g⟩
              exact ⟨f, a, b, c, d, e, g⟩
          all_goals
            rw [given_here hk (by simp)]
            simp
        · rw [if_neg h3, given_other (names := ["catSplit", "cat_split"]) (by simpa using h3)]
          by_cases h4 : k = "gain"
          · subst h4
            have hk : "gain" ∈ ["gain"] := by simp
            rw [if_pos rfl]
            cases x
            case null => simp [ih, given_null]
            all_goals
              rw [given_here hk (by simp)]
              simp only [Option.bind_eq_some_iff, ih, given_behind (b := r.gain) (by decide) hk ho, existsAndEq, and_true]
              simp
              tauto
          · rw [if_neg h4]
            simp only [not_or] at h2 h3
            simp [h1, h2, h3, h4]

theorem readNode_iff [Zero D] {nc : NumCodec D A N} (hobj : ∀ o, nc.readReal (.obj o) = none) (zero : A) : ∀ (o : JsonFields N), o.Once → ∀ (s r : NodeFields D A),
    readNode nc zero o s = some r ↔ Only o ["score", "split", "leftChild", "left_child", "rightChild", "right_child"] ∧
      Given o ["score"] s.score (fun x v => nc.readReal x = some v) r.score ∧
      Given o ["split"] s.split (fun x v => ∃ o' s, x = .obj o' ∧ v = some s ∧ MeansSplit nc zero o' s) r.split ∧
      Given o ["leftChild", "left_child"] s.left
        (fun x v => ∃ o' n, x = .obj o' ∧ v = n.tree ∧ readNode nc zero o' { score := 0 } = some n) r.left ∧
      Given o ["rightChild", "right_child"] s.right
        (fun x v => ∃ o' n, x = .obj o' ∧ v = n.tree ∧ readNode nc zero o' { score := 0 } = some n) r.right
  | .nil, _, s, r => by
    rw [readNode, given_nil, given_nil, given_nil, given_nil]
    obtain ⟨a, b, c, d⟩ := s
    obtain ⟨a', b', c', d'⟩ := r
    simp [Only, JsonFields.keys, eq_comm]
  | .cons k x l, ho, s, r => by
    have ih := readNode_iff hobj zero l (once_tail ho)
    have hx := once_head ho
    rw [only_cons]
    have hmem : k ∈ ["score", "split", "leftChild", "left_child", "rightChild", "right_child"] ↔
        k = "score" ∨ k = "split" ∨ k = "leftChild" ∨ k = "left_child" ∨ k = "rightChild" ∨ k = "right_child" := by simp
    cases x
    case null =>
      rw [readNode, hmem]
      simp only [given_null]
      split
      · next h => rw [ih, and_iff_right h]
      · next h =>
        simp only [h, false_and, iff_false]
        exact fun h => nomatch h
    case obj o' =>
      rw [readNode, hmem]
      by_cases h2 : k = "split"
      · subst h2
        have hk : "split" ∈ ["split"] := by simp
        have hf : ∀ f, readSplit nc zero o' { gain := 0 } = some f ↔ MeansSplit nc zero o' f := by
          intro f
          rw [readSplit_iff nc zero o' hx]
          exact ⟨fun ⟨a, b, c, d, e⟩ => ⟨a, b, c, d, e⟩, fun ⟨a, b, c, d, e⟩ => ⟨a, b, c, d, e⟩⟩
        rw [if_pos rfl, given_other (names := ["score"]) (by decide),
          given_other (names := ["leftChild", "left_child"]) (by decide),
          given_other (names := ["rightChild", "right_child"]) (by decide), given_here hk (by simp)]
        simp only [Option.bind_eq_some_iff, ih, given_behind (b := r.split) (by decide) hk ho, hf, Json.obj.injEq, true_or, or_true,
          true_and]
        constructor
        · rintro ⟨f, a, b, c, d, e⟩
          exact ⟨b, c, ⟨o', f, rfl, d, a⟩, e⟩
        · rintro ⟨b, c, ⟨_, f, rfl, d, a⟩, e⟩
          exact ⟨f, a, b, c, d, e⟩
      rw [if_neg h2, given_other (names := ["split"]) (by simpa using h2)]
      by_cases h3 : k = "leftChild" ∨ k = "left_child"
      · have hk : k ∈ ["leftChild", "left_child"] := by simpa using h3
        rw [if_pos h3, given_other (names := ["score"]) (by rcases h3 with rfl | rfl <;> decide),
          given_other (names := ["rightChild", "right_child"]) (by rcases h3 with rfl | rfl <;> decide), given_here hk (by simp)]
        rw [and_assoc (c := _ ∧ _), and_iff_right (show k = "score" ∨ k = "split" ∨ k = "leftChild" ∨ k = "left_child" ∨
          k = "rightChild" ∨ k = "right_child" by tauto)]
        simp only [Option.bind_eq_some_iff, ih, given_behind (b := r.left) (by decide) hk ho, Json.obj.injEq]
        constructor
        · rintro ⟨f, a, b, c, d, e, g⟩
          exact ⟨b, c, d, ⟨o', f, rfl, e, a⟩, g⟩
        · rintro ⟨b, c, d, ⟨_, f, rfl, e, a⟩, g⟩
          exact ⟨f, a, b, c, d, e, g⟩
      rw [if_neg h3, given_other (names := ["leftChild", "left_child"]) (by simpa using h3)]
      by_cases h4 : k = "rightChild" ∨ k = "right_child"
      · have hk : k ∈ ["rightChild", "right_child"] := by simpa using h4
        rw [if_pos h4, given_other (names := ["score"]) (by rcases h4 with rfl | rfl <;> decide), given_here hk (by simp)]
        rw [and_assoc (c := _ ∧ _), and_iff_right (show k = "score" ∨ k = "split" ∨ k = "leftChild" ∨ k = "left_child" ∨
          k = "rightChild" ∨ k = "right_child" by tauto)]
        simp only [Option.bind_eq_some_iff, ih, given_behind (b := r.right) (by decide) hk ho, Json.obj.injEq]
        constructor
        · rintro ⟨f, a, b, c, d, e, g⟩
          exact ⟨b, c, d, e, ⟨o', f, rfl, g, a⟩⟩
        · rintro ⟨b, c, d, e, ⟨_, f, rfl, g, a⟩⟩
          exact ⟨f, a, b, c, d, e, g⟩
      rw [if_neg h4]
      constructor
      · intro h; cases h
      · rintro ⟨⟨h, _⟩, h5, _⟩
        have h1 : k = "score" := by tauto
        subst h1
        rw [given_here (by simp) (by simp), hobj] at h5
        cases h5
    all_goals
      rw [readNode, hmem]
      · by_cases h1 : k = "score"
        · subst h1
          have hk : "score" ∈ ["score"] := by simp
          rw [if_pos rfl, given_other (names := ["split"]) (by decide),
            given_other (names := ["leftChild", "left_child"]) (by decide),
            given_other (names := ["rightChild", "right_child"]) (by decide), given_here hk (by simp)]
          simp only [Option.bind_eq_some_iff, ih, given_behind (b := r.score) (by decide) hk ho, existsAndEq, true_or, true_and]
          tauto
        · rw [if_neg h1]
          constructor
          · intro h; cases h
          · rintro ⟨⟨h, _⟩, _, h2, h3, h4⟩
            exfalso
            rcases h with h | h | h | h | h | h <;> subst h
            · exact h1 rfl
            · rw [given_here (by simp) (by simp)] at h2
              obtain ⟨_, _, h, _⟩ := h2; cases h
            · rw [given_here (by simp) (by simp)] at h3
              obtain ⟨_, _, h, _⟩ := h3; cases h
            · rw [given_here (by simp) (by simp)] at h3
              obtain ⟨_, _, h, _⟩ := h3; cases h
            · rw [given_here (by simp) (by simp)] at h4
              obtain ⟨_, _, h, _⟩ := h4; cases h
            · rw [given_here (by simp) (by simp)] at h4
              obtain ⟨_, _, h, _⟩ := h4; cases h
      all_goals simp

/-- A field's value has no field twice either. -/
theorem once_of_field {names : List String} {x : Json N} : ∀ (o : JsonFields N), o.Once → o.field names = some x → x.Once
  | .nil, _, h => by cases h
  | .cons k y l, ho, h => by
    by_cases hk : k ∈ names
    · by_cases hy : y = .null
      · subst hy
        rw [field_null] at h
        exact once_of_field l (once_tail ho) h
      · rw [field_here hk hy, Option.some.injEq] at h
        rw [← h]
        exact once_head ho
    · rw [field_other hk] at h
      exact once_of_field l (once_tail ho) h

theorem readNode_means [Zero D] {nc : NumCodec D A N} (hobj : ∀ o, nc.readReal (.obj o) = none) (zero : A) (t : Tree D A) :
    ∀ (j : Json N), j.Once →
      ((∃ o n, j = .obj o ∧ t = n.tree ∧ readNode nc zero o { score := 0 } = some n) ↔ MeansTree nc zero t j) := by
  induction t with
  | absent =>
    intro j _
    rw [MeansTree, iff_false]
    rintro ⟨_, n, _, h, _⟩
    simp [NodeFields.tree] at h
  | node score split left right ihl ihr =>
    intro j hj
    rw [MeansTree]
    have hchild : ∀ (o : JsonFields N), o.Once → ∀ (names : List String) (t' : Tree D A),
        (∀ (j : Json N), j.Once →
          ((∃ o n, j = .obj o ∧ t' = n.tree ∧ readNode nc zero o { score := 0 } = some n) ↔ MeansTree nc zero t' j)) →
        (Given o names .absent (fun x v => ∃ o' n, x = .obj o' ∧ v = n.tree ∧ readNode nc zero o' { score := 0 } = some n) t' ↔
          match o.field names with
          | none => t' = .absent
          | some x => MeansTree nc zero t' x) := by
      intro o ho names t' ih
      unfold Given
      cases h : o.field names with
      | none => exact Iff.rfl
      | some x => exact ih x (once_of_field o ho h)
    constructor
    · rintro ⟨o, n, rfl, ht, h⟩
      rw [NodeFields.tree, Tree.node.injEq] at ht
      obtain ⟨rfl, rfl, rfl, rfl⟩ := ht
      obtain ⟨a, b, c, d, e⟩ := (readNode_iff hobj zero o hj _ _).mp h
      exact ⟨o, rfl, a, b, c, (hchild o hj _ _ ihl).mp d, (hchild o hj _ _ ihr).mp e⟩
    · rintro ⟨o, rfl, a, b, c, d, e⟩
      exact ⟨o, ⟨score, split, left, right⟩, rfl, rfl, (readNode_iff hobj zero o hj _ _).mpr
        ⟨a, b, c, (hchild o hj _ _ ihl).mpr d, (hchild o hj _ _ ihr).mpr e⟩⟩

theorem readTrees_iff [Zero D] {nc : NumCodec D A N} (hobj : ∀ o, nc.readReal (.obj o) = none) (zero : A) :
    ∀ (a : JsonList N), a.Once → ∀ (ts : List (Tree D A)),
      readTrees nc zero a = some ts ↔ List.Forall₂ (MeansTree nc zero) ts a.elements
  | .nil, _, ts => by
    rw [readTrees, JsonList.elements, List.forall₂_nil_right_iff, Option.some.injEq, eq_comm]
  | .cons x a, ha, ts => by
    have ih := readTrees_iff hobj zero a ha.2
    have hm := fun t => readNode_means hobj zero t x ha.1
    rw [JsonList.elements, List.forall₂_cons_right_iff]
    cases x
    case obj o =>
      simp only [readTrees, Option.bind_eq_some_iff, Option.map_eq_some_iff]
      constructor
      · rintro ⟨n, h1, l, h2, rfl⟩
        exact ⟨_, _, (hm _).mp ⟨o, n, rfl, rfl, h1⟩, (ih l).mp h2, rfl⟩
      · rintro ⟨t, l, h1, h2, rfl⟩
        obtain ⟨_, n, h3, rfl, h4⟩ := (hm _).mpr h1
        cases h3
        exact ⟨n, h4, l, (ih l).mpr h2, rfl⟩
    all_goals
      rw [readTrees]
      · constructor
        · intro h; cases h
        · rintro ⟨t, l, h1, _⟩
          obtain ⟨_, _, h3, _⟩ := (hm _).mpr h1
          cases h3
      · simp

theorem readForest_iff [Zero D] {nc : NumCodec D A N} (hobj : ∀ o, nc.readReal (.obj o) = none) (zero : A) :
    ∀ (o : JsonFields N), o.Once → ∀ (s r : ForestMsg D A),
      readForest nc zero o s = some r ↔ Only o ["tree", "metaInfo", "meta_info"] ∧
        Given o ["tree"] s.trees (fun x ts => ∃ a, x = .arr a ∧ List.Forall₂ (MeansTree nc zero) ts a.elements) r.trees ∧
        Given o ["metaInfo", "meta_info"] s.metaInfo (fun x v => x = .str v) r.metaInfo
  | .nil, _, s, r => by
    rw [readForest, given_nil, given_nil]
    obtain ⟨a, b⟩ := s
    obtain ⟨a', b'⟩ := r
    simp [Only, JsonFields.keys, eq_comm]
  | .cons k x l, ho, s, r => by
    have ih := readForest_iff hobj zero l (once_tail ho)
    have hx := once_head ho
    rw [readForest.eq_def, only_cons]
    dsimp only
    by_cases h1 : k = "tree"
    · subst h1
      have hk : "tree" ∈ ["tree"] := by simp
      rw [if_pos rfl, given_other (names := ["metaInfo", "meta_info"]) (by decide)]
      cases x
      case null => simp only [ih, given_null, List.mem_cons, true_or, true_and]
      case arr a =>
        rw [given_here (by simp) (by simp)]
        simp only [Option.bind_eq_some_iff, ih, given_behind (b := r.trees) (by decide) hk ho, List.mem_cons, true_or,
          true_and, readTrees_iff hobj zero a hx, Json.arr.injEq, exists_eq_left']
        simp only [existsAndEq, true_and]
        tauto
      all_goals
        rw [given_here (by simp) (by simp)]
        simp
    · rw [if_neg h1, given_other (names := ["tree"]) (by simpa using h1)]
      by_cases h2 : k = "metaInfo" ∨ k = "meta_info"
      · rw [if_pos h2]
        have hk : k ∈ ["metaInfo", "meta_info"] := by simpa using h2
        have hk' : k ∈ ["tree", "metaInfo", "meta_info"] := List.mem_cons_of_mem _ hk
        cases x
        case null => simp only [ih, given_null, hk', true_and]
        case str v =>
          rw [given_here hk (by simp)]
          simp only [ih, given_behind (b := r.metaInfo) (by decide) hk ho, hk', true_and, Json.str.injEq, eq_comm]
        all_goals
          rw [given_here hk (by simp)]
          simp
      · rw [if_neg h2]
        simp [h1, h2]

end proof

/-! ## C118 -/

section C118
variable {D A N : Type} [Zero D]

/-- **C118.** Reading JSON in which no field is given twice gives a forest if and only if the value is that forest, and it is not nested
too deeply. -/
theorem C118_reading {nc : NumCodec D A N} (hobj : ∀ o, nc.readReal (.obj o) = none) (zero : A) (limit : Nat) {j : Json N}
    (hj : j.Once) (f : ForestMsg D A) :
    forestFromJson nc zero limit j = .ok f ↔ MeansForest nc zero j f ∧ ∀ t ∈ f.trees, treeNesting t ≤ limit := by
  have hn : ∀ ts : List (Tree D A), forestNesting ts ≤ limit ↔ ∀ t ∈ ts, treeNesting t ≤ limit := by
    intro ts
    unfold forestNesting
    induction ts with
    | nil => simp
    | cons t ts ih => simp only [List.map_cons, List.foldr_cons, max_le_iff, ih, List.forall_mem_cons]
  unfold MeansForest
  rw [← hn]
  cases j
  case obj o =>
    rw [forestFromJson]
    have hr := readForest_iff hobj zero o hj { trees := [] } (D := D) (A := A)
    constructor
    · intro h
      split at h
      · next g hg =>
        split at h
        · next hl =>
          cases h
          exact ⟨⟨o, rfl, (hr f).mp hg⟩, hl⟩
        · cases h
      · cases h
    · rintro ⟨⟨_, h1, h2⟩, hl⟩
      cases h1
      rw [(hr f).mpr h2]
      simp only [if_pos hl]
  all_goals
    constructor
    · intro h; cases h
    · rintro ⟨⟨_, h, _⟩, _⟩; cases h

/-- The value is at most one forest. -/
theorem C118_unique {nc : NumCodec D A N} (hobj : ∀ o, nc.readReal (.obj o) = none) (zero : A) {j : Json N} (hj : j.Once)
    {f g : ForestMsg D A} (hf : MeansForest nc zero j f) (hg : MeansForest nc zero j g) : f = g := by
  have hb : ∀ (ts : List (Tree D A)), ∃ n, ∀ t ∈ ts, treeNesting t ≤ n := by
    intro ts
    induction ts with
    | nil => exact ⟨0, by simp⟩
    | cons t ts ih =>
      obtain ⟨n, hn⟩ := ih
      refine ⟨max n (treeNesting t), ?_⟩
      intro t' ht'
      rcases List.mem_cons.mp ht' with rfl | ht'
      · exact le_max_right _ _
      · exact (hn t' ht').trans (le_max_left _ _)
  obtain ⟨n, hn⟩ := hb (f.trees ++ g.trees)
  have h1 := (C118_reading hobj zero n hj f).mpr ⟨hf, fun t ht => hn t (List.mem_append_left _ ht)⟩
  have h2 := (C118_reading hobj zero n hj g).mpr ⟨hg, fun t ht => hn t (List.mem_append_right _ ht)⟩
  rw [h1, Except.ok.injEq] at h2
  exact h2

end C118

/-- A forest written by hand: entries in any order and spelling, some left out, some `null`. -/
def handWritten : Json (ℚ ⊕ Nat) :=
  .obj (.cons "meta_info" .null (.cons "tree" (.arr (.cons
    (.obj (.cons "right_child" (.obj (.cons "score" (.num (.inl 5)) .nil))
      (.cons "split" (.obj (.cons "float_split" (.obj (.cons "missing_to_right_child" (.bool true) .nil))
        (.cons "feature" (.str "x") .nil)))
        (.cons "leftChild" (.obj .nil) .nil)))) .nil)) .nil))

example : handWritten.Once := by
  simp [handWritten, Json.Once, JsonFields.Once, JsonList.Once, JsonFields.keys, fieldNames]

/-- It splits `x` at 0. -/
example : (match forestFromJson plainCodec 0 100 handWritten with
    | .ok f => decide (f.trees = [.node 0 (some { feature := "x", floatSplit := some ⟨.num 0, true⟩, gain := 0 })
        (.node 0 none .absent .absent) (.node 5 none .absent .absent)] ∧ f.metaInfo = "")
    | _ => false) = true := by decide +kernel

example : ∀ o, plainCodec.readReal (.obj o) = none := fun _ => rfl

/-- A category that is not a string is refused, as is a forest that is not an object. -/
example : (match forestFromJson plainCodec 0 100 (.obj (.cons "tree" (.arr (.cons (.obj (.cons "split" (.obj (.cons "catSplit"
      (.obj (.cons "category" (.arr (.cons (.str "red") (.cons (.bool true) .nil))) .nil)) .nil)) .nil)) .nil)) .nil)) with
    | .ok _ => false | _ => true) = true ∧
    (match forestFromJson plainCodec 0 100 (.arr .nil) with | .ok _ => false | _ => true) = true := by decide +kernel

end Gbdt
