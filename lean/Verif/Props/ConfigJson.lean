import Verif.Model.ConfigJson
import Verif.Props.JsonRead

/-!
# C122: what a configuration file means
-/

set_option autoImplicit false
set_option linter.unusedSectionVars false

namespace Gbdt

/-! ## Specification -/

section spec
variable {D N : Type}

/-- The fields of a configuration, each with the names it may be written with. -/
def configNames : List (List String) :=
  [["numTrees", "num_trees"], ["numLeaves", "num_leaves"], ["shrinkage"], ["minGain", "min_gain"], ["l2Lambda", "l2_lambda"],
    ["minHessian", "min_hessian"], ["exampleSamplingRate", "example_sampling_rate"], ["featureSamplingRate", "feature_sampling_rate"],
    ["evalInterval", "eval_interval"], ["lossFunc", "loss_func"], ["pairSamplingRate", "pair_sampling_rate"],
    ["pairWeightByDeltaTarget", "pair_weight_by_delta_target"], ["lambdamartDcgBase", "lambdamart_dcg_base"],
    ["equalGroupWeight", "equal_group_weight"], ["floatFeature", "float_feature"], ["categoricalFeature", "categorical_feature"],
    ["weightColumn", "weight_column"], ["targetColumn", "target_column"], ["binarizeTarget", "binarize_target"],
    ["groupColumn", "group_column"], ["additionalFloatColumn", "additional_float_column"],
    ["additionalStringColumn", "additional_string_column"]]

/-- No two entries of the object give the same of these fields. -/
def NoTwice (fields : List (List String)) : JsonFields N → Prop
  | .nil => True
  | .cons k _ l => (∀ names ∈ fields, k ∈ names → ∀ k' ∈ l.keys, k' ∉ names) ∧ NoTwice fields l

/-- The object is this configuration. -/
structure MeansConfig [Zero D] (cc : ConfigCodec D N) (o : JsonFields N) (c : CliConfig D) : Prop where
  only : Only o configNames.flatten
  numTrees : Given o ["numTrees", "num_trees"] 0 (fun x v => cc.readInt x = some v) c.train.numTrees
  numLeaves : Given o ["numLeaves", "num_leaves"] 0 (fun x v => cc.readInt x = some v) c.train.numLeaves
  shrinkage : Given o ["shrinkage"] 0 (fun x v => cc.readFloat x = some v) c.train.shrinkage
  minGain : Given o ["minGain", "min_gain"] 0 (fun x v => cc.readDouble x = some v) c.train.minGain
  l2Lambda : Given o ["l2Lambda", "l2_lambda"] 0 (fun x v => cc.readDouble x = some v) c.train.l2Lambda
  minHessian : Given o ["minHessian", "min_hessian"] 0 (fun x v => cc.readDouble x = some v) c.train.minHessian
  exampleRate : Given o ["exampleSamplingRate", "example_sampling_rate"] none (fun x v => ∃ d, cc.readFloat x = some d ∧ some d = v)
    c.train.exampleRate
  featureRate : Given o ["featureSamplingRate", "feature_sampling_rate"] none (fun x v => ∃ d, cc.readFloat x = some d ∧ some d = v)
    c.train.featureRate
  evalInterval : Given o ["evalInterval", "eval_interval"] 0 (fun x v => cc.readInt x = some v) c.evalInterval
  lossFunc : Given o ["lossFunc", "loss_func"] "" (fun x v => x = .str v) c.train.lossFunc
  pairRate : Given o ["pairSamplingRate", "pair_sampling_rate"] 0 (fun x v => cc.readFloat x = some v) c.train.pairRate
  byDelta : Given o ["pairWeightByDeltaTarget", "pair_weight_by_delta_target"] false (fun x v => cc.readBool x = some v) c.train.byDelta
  dcgBase : Given o ["lambdamartDcgBase", "lambdamart_dcg_base"] 0 (fun x v => cc.readFloat x = some v) c.train.dcgBase
  equalWeight : Given o ["equalGroupWeight", "equal_group_weight"] false (fun x v => cc.readBool x = some v) c.train.equalWeight
  floatFeature : Given o ["floatFeature", "float_feature"] [] (fun x l => ∃ a, x = .arr a ∧ a.elements = l.map Json.str) c.train.floatFeature
  catFeature : Given o ["categoricalFeature", "categorical_feature"] [] (fun x l => ∃ a, x = .arr a ∧ a.elements = l.map Json.str)
    c.train.catFeature
  weightColumn : Given o ["weightColumn", "weight_column"] "" (fun x v => x = .str v) c.train.weightColumn
  targetColumn : Given o ["targetColumn", "target_column"] "" (fun x v => x = .str v) c.train.targetColumn
  binarize : Given o ["binarizeTarget", "binarize_target"] false (fun x v => cc.readBool x = some v) c.train.binarize
  groupColumn : Given o ["groupColumn", "group_column"] "" (fun x v => x = .str v) c.train.groupColumn
  additionalFloat : Given o ["additionalFloatColumn", "additional_float_column"] [] (fun x l => ∃ a, x = .arr a ∧ a.elements = l.map Json.str)
    c.additionalFloat
  additionalString : Given o ["additionalStringColumn", "additional_string_column"] []
    (fun x l => ∃ a, x = .arr a ∧ a.elements = l.map Json.str) c.additionalString

end spec

/-! ## Messages in general -/

section message
variable {C N : Type}

/-- What makes a table of fields the table of a message: the fields are kept apart, have different names, and are all there is. -/
structure GoodFields (fields : List (MessageField C N)) : Prop where
  names : fields.Pairwise (fun f g => ∀ k ∈ f.names, k ∉ g.names)
  own : ∀ f ∈ fields, ∀ v c, f.get (f.set v c) = v
  apart : fields.Pairwise (fun f g => (∀ v c, f.get (g.set v c) = f.get c) ∧ ∀ v c, g.get (f.set v c) = g.get c)
  ext : ∀ c c', (∀ f ∈ fields, f.get c = f.get c') → c = c'

theorem noTwice_field {fields : List (List String)} {names : List String} (hn : names ∈ fields) {k : String} (hk : k ∈ names)
    {x : Json N} {l : JsonFields N} (h : NoTwice fields (.cons k x l)) : l.field names = none :=
  field_none l (h.1 names hn hk)

/-- Two fields of the table are the same position, or are kept apart. -/
theorem GoodFields.cases {fields : List (MessageField C N)} (hg : GoodFields fields) {f g : MessageField C N} (hf : f ∈ fields)
    (hgm : g ∈ fields) : f = g ∨ (∀ k ∈ f.names, k ∉ g.names) ∧ (∀ v c, g.get (f.set v c) = g.get c) := by
  by_cases e : f = g
  · exact Or.inl e
  · right
    have h1 := hg.names
    have h2 := hg.apart
    clear hg
    induction fields with
    | nil => cases hf
    | cons a l ih =>
      rw [List.pairwise_cons] at h1 h2
      rcases List.mem_cons.mp hf with hf' | hf' <;> rcases List.mem_cons.mp hgm with hg' | hg'
      · exact absurd (hf'.trans hg'.symm) e
      · subst hf'
        exact ⟨h1.1 g hg', (h2.1 g hg').2⟩
      · subst hg'
        exact ⟨fun k hk hk' => h1.1 f hf' k hk' hk, (h2.1 f hf').1⟩
      · exact ih hf' hg' h1.2 h2.2

/-- Reading a message: it has no other fields, and every field has the value before joined to what is given. -/
theorem readMessage_iff {fields : List (MessageField C N)} (hg : GoodFields fields) : ∀ (o : JsonFields N),
    NoTwice (fields.map (·.names)) o → ∀ c0 c : C,
    readMessage fields o c0 = some c ↔ Only o (fields.map (·.names)).flatten ∧
      ∀ f ∈ fields, Given o f.names (f.get c0) (fun x b => ∃ v, f.read x = some v ∧ b = f.join (f.get c0) v) (f.get c)
  | .nil, _, c0, c => by
    simp only [readMessage, given_nil, Option.some.injEq]
    constructor
    · rintro rfl
      exact ⟨fun k hk => absurd hk (by simp [JsonFields.keys]), fun f _ => rfl⟩
    · rintro ⟨_, h⟩
      exact hg.ext _ _ (fun f hf => (h f hf).symm)
  | .cons k x l, ho, c0, c => by
    have ih := readMessage_iff hg l ho.2
    rw [readMessage.eq_def]
    dsimp only
    rw [only_cons]
    split
    · next hnone =>
      rw [List.find?_eq_none] at hnone
      constructor
      · intro h; cases h
      · rintro ⟨⟨hk, _⟩, _⟩
        rw [List.mem_flatten] at hk
        obtain ⟨names, hn, hk⟩ := hk
        obtain ⟨f, hf, rfl⟩ := List.mem_map.mp hn
        exact absurd (by simpa using hk) (hnone f hf)
    · next f hfind =>
      have hf := List.mem_of_find?_eq_some hfind
      have hk : k ∈ f.names := by simpa using List.find?_some hfind
      have hmem : k ∈ (fields.map (·.names)).flatten := List.mem_flatten.mpr ⟨_, List.mem_map_of_mem hf, hk⟩
      have hfield : l.field f.names = none := noTwice_field (List.mem_map_of_mem hf) hk ho
      have main : x ≠ .null → (((f.read x).bind (fun v => readMessage fields l (f.set (f.join (f.get c0) v) c0)) = some c) ↔
          (k ∈ (fields.map (·.names)).flatten ∧ Only l (fields.map (·.names)).flatten) ∧
          ∀ g ∈ fields, Given (.cons k x l) g.names (g.get c0) (fun x b => ∃ v, g.read x = some v ∧ b = g.join (g.get c0) v) (g.get c)) := by
        intro hx
        have other : ∀ g ∈ fields, ∀ v, g = f ∨
            (Given (.cons k x l) g.names (g.get c0) (fun x b => ∃ v, g.read x = some v ∧ b = g.join (g.get c0) v) (g.get c) ↔
              Given l g.names (g.get (f.set (f.join (f.get c0) v) c0))
                (fun x b => ∃ v', g.read x = some v' ∧ b = g.join (g.get (f.set (f.join (f.get c0) v) c0)) v') (g.get c)) := by
          intro g hgm v
          rcases hg.cases hf hgm with e | ⟨h1, h2⟩
          · exact Or.inl e.symm
          · right
            rw [given_other (h1 k hk), h2]
        rw [Option.bind_eq_some_iff]
        constructor
        · rintro ⟨v, hv, h⟩
          obtain ⟨h1, h2⟩ := (ih _ _).mp h
          refine ⟨⟨hmem, h1⟩, fun g hgm => ?_⟩
          rcases other g hgm v with rfl | h3
          · rw [given_here hk hx]
            refine ⟨v, hv, ?_⟩
            have := h2 g hgm
            unfold Given at this
            rw [hfield, hg.own g hgm] at this
            exact this
          · exact h3.mpr (h2 g hgm)
        · rintro ⟨⟨_, h1⟩, h2⟩
          have hfg := h2 f hf
          rw [given_here hk hx] at hfg
          obtain ⟨v, hv, e⟩ := hfg
          refine ⟨v, hv, (ih _ _).mpr ⟨h1, fun g hgm => ?_⟩⟩
          rcases other g hgm v with rfl | h3
          · unfold Given
            rw [hfield, hg.own g hgm]
            exact e
          · exact h3.mp (h2 g hgm)
      cases x with
      | null =>
        dsimp only
        rw [ih]
        simp only [given_null, hmem, true_and]
      | bool b => exact main (by simp)
      | num b => exact main (by simp)
      | str b => exact main (by simp)
      | arr b => exact main (by simp)
      | obj b => exact main (by simp)

end message

/-! ## Configurations -/

section config
variable {D N : Type}

theorem configFields_names (cc : ConfigCodec D N) : (configFields cc).map (·.names) = configNames := rfl

theorem configFields_good (cc : ConfigCodec D N) : GoodFields (configFields cc) where
  names := by
    have h : (configNames.Pairwise (fun f g => ∀ k ∈ f, k ∉ g)) := by decide +kernel
    rw [← configFields_names cc, List.pairwise_map] at h
    exact h
  own := by
    simp only [configFields, List.forall_mem_cons, List.not_mem_nil, false_implies, implies_true, and_self]
  apart := by
    simp only [configFields, List.pairwise_cons, List.forall_mem_cons, List.not_mem_nil, false_implies, implies_true, and_self,
      List.Pairwise.nil]
  ext := by
    intro c c' h
    simp only [configFields, List.forall_mem_cons, List.not_mem_nil, false_implies, implies_true, and_true] at h
    obtain ⟨⟨⟩, _, _, _⟩ := c
    obtain ⟨⟨⟩, _, _, _⟩ := c'
    simp only at h
    simp only [h]

theorem readText_iff {x : Json N} {v : String} : readText x = some v ↔ x = .str v := by
  cases x <;> simp [readText]

theorem readTexts_iff {x : Json N} {l : List String} : readTexts x = some l ↔ ∃ a, x = .arr a ∧ a.elements = l.map Json.str := by
  cases x <;> simp [readTexts, readStrings_iff]

/-- **C122.** A configuration is read exactly from objects that have no other fields than those of a configuration with values of their types,
and it is what the fields say: names in camelCase or snake_case, `null` as not given, and 0, false or empty for what is not given. -/
theorem C122_reading [Zero D] (cc : ConfigCodec D N) {j : Json N} {c : CliConfig D} (ho : ∀ o, j = .obj o → NoTwice configNames o) :
    configFromJson cc j = some c ↔ ∃ o, j = .obj o ∧ MeansConfig cc o c := by
  cases j with
  | obj o =>
    have := readMessage_iff (configFields_good cc) o (ho o rfl) emptyConfig c
    rw [configFromJson, this, configFields_names]
    simp only [configFields, List.forall_mem_cons, List.not_mem_nil, false_implies, implies_true, and_true, exists_eq_right',
      Json.obj.injEq, exists_eq_left', emptyConfig, List.nil_append, Option.map_eq_some_iff, readText_iff, readTexts_iff]
    constructor
    · rintro ⟨h0, h1, h2, h3, h4, h5, h6, h7, h8, h9, h10, h11, h12, h13, h14, h15, h16, h17, h18, h19, h20, h21, h22⟩
      exact ⟨h0, h1, h2, h3, h4, h5, h6, h7, h8, h9, h10, h11, h12, h13, h14, h15, h16, h17, h18, h19, h20, h21, h22⟩
    · rintro ⟨h0, h1, h2, h3, h4, h5, h6, h7, h8, h9, h10, h11, h12, h13, h14, h15, h16, h17, h18, h19, h20, h21, h22⟩
      exact ⟨h0, h1, h2, h3, h4, h5, h6, h7, h8, h9, h10, h11, h12, h13, h14, h15, h16, h17, h18, h19, h20, h21, h22⟩
  | _ => simp [configFromJson]

end config

end Gbdt
