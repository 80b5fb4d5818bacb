import Verif.Props.ConfigJson
import Verif.Props.Pipeline

/-!
# C123, C124: the dictionary that `train` is given
-/

set_option autoImplicit false
set_option linter.unusedSectionVars false

namespace Gbdt

open Outcome

/-! ## Dictionaries -/

section dict
variable {N : Type}

theorem noTwice_iff (fields : List (List String)) : ∀ o : JsonFields N,
    NoTwice fields o ↔ o.keys.Pairwise (fun k k' => ∀ names ∈ fields, k ∈ names → k' ∉ names)
  | .nil => by simp [NoTwice, JsonFields.keys]
  | .cons k x l => by
    rw [NoTwice, JsonFields.keys, List.pairwise_cons, noTwice_iff fields l]
    refine and_congr_left fun _ => ?_
    constructor
    · intro h k' hk' names hn hk; exact h names hn hk k' hk'
    · intro h names hn hk k' hk'; exact h k' hk' names hn hk

theorem assign_keys (key : String) (x : Json N) : ∀ o : JsonFields N,
    (o.assign key x).keys = if key ∈ o.keys then o.keys else o.keys ++ [key]
  | .nil => by simp [JsonFields.assign, JsonFields.keys]
  | .cons k y l => by
    rw [JsonFields.assign]
    by_cases h : k = key
    · simp [h, JsonFields.keys]
    · rw [if_neg h, JsonFields.keys, assign_keys key x l, JsonFields.keys]
      have h' : ¬ key = k := fun e => h e.symm
      by_cases hm : key ∈ l.keys
      · rw [if_pos hm, if_pos (by simp [hm])]
      · rw [if_neg hm, if_neg (by simp [hm, h'])]; rfl

theorem has_iff (key : String) : ∀ o : JsonFields N, o.has key = true ↔ key ∈ o.keys
  | .nil => by simp [JsonFields.has, JsonFields.keys]
  | .cons k x l => by
    rw [JsonFields.has, JsonFields.keys, Bool.or_eq_true, beq_iff_eq, List.mem_cons, has_iff key l, eq_comm (a := k)]

theorem assign_field_other {names : List String} {key : String} (h : key ∉ names) (x : Json N) : ∀ o : JsonFields N,
    (o.assign key x).field names = o.field names
  | .nil => by rw [JsonFields.assign, field_other h]
  | .cons k y l => by
    rw [JsonFields.assign]
    by_cases e : k = key
    · rw [if_pos e, e, field_other h, field_other h]
    · rw [if_neg e]
      by_cases hk : k ∈ names
      · by_cases hy : y = .null
        · rw [hy, field_null, field_null, assign_field_other h x l]
        · rw [field_here hk hy, field_here hk hy]
      · rw [field_other hk, field_other hk, assign_field_other h x l]

theorem assign_field_here {names : List String} {key : String} (h : key ∈ names) {x : Json N} (hx : x ≠ .null) : ∀ o : JsonFields N,
    (∀ k ∈ o.keys, k ∈ names → k = key) → (o.assign key x).field names = some x
  | .nil, _ => by rw [JsonFields.assign, field_here h hx]
  | .cons k y l, ho => by
    rw [JsonFields.assign]
    by_cases e : k = key
    · rw [if_pos e, e, field_here h hx]
    · rw [if_neg e, field_other (fun hk => e (ho k (by simp [JsonFields.keys]) hk))]
      exact assign_field_here h hx l (fun k' hk' => ho k' (by simp [JsonFields.keys, hk']))

/-- The keys of dictionaries that `train` may write to: no key is one of the other spellings. -/
structure SnakeDict (o : JsonFields N) : Prop where
  once : NoTwice configNames o
  only : Only o configNames.flatten
  snake : ∀ k ∈ o.keys, k ∉ ["floatFeature", "categoricalFeature", "exampleSamplingRate", "featureSamplingRate"]

theorem SnakeDict.here {o : JsonFields N} (h : SnakeDict o) {camel key : String}
    (hc : camel ∈ ["floatFeature", "categoricalFeature", "exampleSamplingRate", "featureSamplingRate"]) :
    ∀ k ∈ o.keys, k ∈ [camel, key] → k = key := by
  intro k hk hm
  simp only [List.mem_cons, List.not_mem_nil, or_false] at hm
  rcases hm with rfl | rfl
  · exact absurd hc (h.snake k hk)
  · rfl

theorem SnakeDict.assign {o : JsonFields N} (h : SnakeDict o) {camel key : String}
    (hc : camel ∈ ["floatFeature", "categoricalFeature", "exampleSamplingRate", "featureSamplingRate"])
    (hk : key ∉ ["floatFeature", "categoricalFeature", "exampleSamplingRate", "featureSamplingRate"])
    (hn : [camel, key] ∈ configNames) (hown : ∀ names ∈ configNames, key ∈ names → names = [camel, key]) (x : Json N) :
    SnakeDict (o.assign key x) := by
  have hsub : ∀ k ∈ (o.assign key x).keys, k ∈ o.keys ∨ k = key := by
    intro k hk'
    rw [assign_keys] at hk'
    split at hk'
    · exact Or.inl hk'
    · simpa using hk'
  refine ⟨?_, ?_, ?_⟩
  · have := (noTwice_iff configNames o).mp h.once
    rw [noTwice_iff, assign_keys]
    split
    · exact this
    · next hnot =>
      refine List.pairwise_append.mpr ⟨this, by simp, ?_⟩
      intro k hko k' hk' names hnames hkn hk'n
      rw [List.mem_singleton.mp hk'] at hk'n
      rw [hown names hnames hk'n] at hkn
      exact hnot (h.here hc k hko hkn ▸ hko)
  · intro k hk'
    rcases hsub k hk' with h' | rfl
    · exact h.only k h'
    · exact List.mem_flatten.mpr ⟨_, hn, by simp⟩
  · intro k hk'
    rcases hsub k hk' with h' | rfl
    · exact h.snake k h'
    · exact hk

end dict

/-! ## C123 -/

section train
variable {D A N : Type} [Dbl D] [LinearOrder A] [ThrOps A]

theorem given_congr {β : Type} {o o' : JsonFields N} {names : List String} {d b : β} {m : Json N → β → Prop}
    (h : o'.field names = o.field names) (hg : Given o names d m b) : Given o' names d m b := by
  unfold Given at hg ⊢
  rw [h]
  exact hg

theorem given_some {β : Type} {o : JsonFields N} {names : List String} {d b : β} {m : Json N → β → Prop} {x : Json N}
    (h : o.field names = some x) (hm : m x b) : Given o names d m b := by
  unfold Given
  rw [h]
  exact hm

theorem elements_jsonList (l : List String) : (jsonList (Json.str (N := N)) l).elements = l.map Json.str := by
  induction l with
  | nil => rfl
  | cons s l ih => simp [jsonList, JsonList.elements, ih]

/-- The configuration that the written dictionary means. -/
def Config.filled (c : Config D) (one : D) (float cat : List String) : Config D :=
  { c with floatFeature := float, catFeature := cat, exampleRate := some (c.exampleRate.getD one),
           featureRate := some (c.featureRate.getD one) }

theorem pyConfigDict_means {cc : ConfigCodec D N} {one : Json N} {d : D} (hone : cc.readFloat one = some d) (hnull : one ≠ .null)
    {o : JsonFields N} (ho : SnakeDict o)
    (hrates : ∀ p ∈ [("exampleSamplingRate", "example_sampling_rate"), ("featureSamplingRate", "feature_sampling_rate")],
      p.2 ∈ o.keys → o.field [p.1, p.2] ≠ none)
    {c : CliConfig D} (hc : MeansConfig cc o c) (float cat : List String) :
    NoTwice configNames (pyConfigDict one float cat o) ∧
      MeansConfig cc (pyConfigDict one float cat o) { c with train := c.train.filled d float cat } := by
  unfold pyConfigDict
  generalize h1 : o.assign "float_feature" (.arr (jsonList .str float)) = o1
  have s1 : SnakeDict o1 := h1 ▸ ho.assign (camel := "floatFeature") (by simp) (by decide) (by decide) (by decide) _
  have f1 : ∀ names, "float_feature" ∉ names → o1.field names = o.field names := fun names hn => h1 ▸ assign_field_other hn _ o
  have g1 : o1.field ["floatFeature", "float_feature"] = some (.arr (jsonList .str float)) :=
    h1 ▸ assign_field_here (by simp) (by simp) o (ho.here (by simp))
  have k1 : ∀ k, k ≠ "float_feature" → (k ∈ o1.keys ↔ k ∈ o.keys) := by
    intro k hk
    rw [← h1, assign_keys]
    split <;> simp [hk]
  generalize h2 : o1.assign "categorical_feature" (.arr (jsonList .str cat)) = o2
  have s2 : SnakeDict o2 := h2 ▸ s1.assign (camel := "categoricalFeature") (by simp) (by decide) (by decide) (by decide) _
  have f2 : ∀ names, "categorical_feature" ∉ names → o2.field names = o1.field names := fun names hn => h2 ▸ assign_field_other hn _ o1
  have g2 : o2.field ["categoricalFeature", "categorical_feature"] = some (.arr (jsonList .str cat)) :=
    h2 ▸ assign_field_here (by simp) (by simp) o1 (s1.here (by simp))
  have k2 : ∀ k, k ≠ "categorical_feature" → (k ∈ o2.keys ↔ k ∈ o1.keys) := by
    intro k hk
    rw [← h2, assign_keys]
    split <;> simp [hk]
  -- a rate: kept if it is there, 1 otherwise
  have rate : ∀ (camel key : String) (o2 : JsonFields N), SnakeDict o2 →
      camel ∈ ["floatFeature", "categoricalFeature", "exampleSamplingRate", "featureSamplingRate"] →
      key ∉ ["floatFeature", "categoricalFeature", "exampleSamplingRate", "featureSamplingRate"] →
      [camel, key] ∈ configNames → (∀ names ∈ configNames, key ∈ names → names = [camel, key]) →
      (o2.field [camel, key] = o.field [camel, key]) → (key ∈ o2.keys ↔ key ∈ o.keys) → (key ∈ o.keys → o.field [camel, key] ≠ none) →
      SnakeDict (o2.setDefault key one) ∧ (∀ names, key ∉ names → (o2.setDefault key one).field names = o2.field names) ∧
      (∀ k, k ≠ key → (k ∈ (o2.setDefault key one).keys ↔ k ∈ o2.keys)) ∧
      ∀ v : Option D, Given o [camel, key] none (fun x v => ∃ d, cc.readFloat x = some d ∧ some d = v) v →
        Given (o2.setDefault key one) [camel, key] none (fun x v => ∃ d, cc.readFloat x = some d ∧ some d = v) (some (v.getD d)) := by
    intro camel key o2 hs a1 a2 a3 a4 hf hk hr
    unfold JsonFields.setDefault
    by_cases hm : key ∈ o2.keys
    · rw [if_pos ((has_iff key o2).mpr hm)]
      refine ⟨hs, fun _ _ => rfl, fun _ _ => Iff.rfl, ?_⟩
      intro v hv
      unfold Given at hv ⊢
      rw [hf]
      cases e : o.field [camel, key] with
      | none => exact absurd e (hr (hk.mp hm))
      | some x =>
        rw [e] at hv
        obtain ⟨d', h3, rfl⟩ := hv
        exact ⟨d', h3, rfl⟩
    · rw [if_neg (fun h => hm ((has_iff key o2).mp h))]
      refine ⟨hs.assign a1 a2 a3 a4 _, fun names hn => assign_field_other hn _ o2, ?_, ?_⟩
      · intro k hne
        rw [assign_keys]
        split <;> simp [hne]
      · intro v hv
        have hnone : o.field [camel, key] = none := by
          rw [← hf]
          refine field_none o2 ?_
          intro k' hk' hm'
          exact hm (hs.here a1 k' hk' hm' ▸ hk')
        refine given_some (assign_field_here (by simp) hnull o2 (hs.here a1)) ⟨d, hone, ?_⟩
        unfold Given at hv
        rw [hnone] at hv
        rw [hv]
        rfl
  obtain ⟨s3, f3, k3, r3⟩ := rate "exampleSamplingRate" "example_sampling_rate" o2 s2 (by simp) (by decide) (by decide) (by decide)
    (by rw [f2 _ (by decide), f1 _ (by decide)]) (by rw [k2 _ (by decide), k1 _ (by decide)])
    (hrates ("exampleSamplingRate", "example_sampling_rate") (by simp))
  generalize h3 : o2.setDefault "example_sampling_rate" one = o3 at s3 f3 k3 r3
  obtain ⟨s4, f4, k4, r4⟩ := rate "featureSamplingRate" "feature_sampling_rate" o3 s3 (by simp) (by decide) (by decide) (by decide)
    (by rw [f3 _ (by decide), f2 _ (by decide), f1 _ (by decide)]) (by rw [k3 _ (by decide), k2 _ (by decide), k1 _ (by decide)])
    (hrates ("featureSamplingRate", "feature_sampling_rate") (by simp))
  generalize h4 : o3.setDefault "feature_sampling_rate" one = o4 at s4 f4 k4 r4
  have same : ∀ names, "float_feature" ∉ names ∧ "categorical_feature" ∉ names ∧ "example_sampling_rate" ∉ names ∧
      "feature_sampling_rate" ∉ names → o4.field names = o.field names := by
    rintro names ⟨a, b, c, d⟩
    rw [f4 _ d, f3 _ c, f2 _ b, f1 _ a]
  have g1' : o4.field ["floatFeature", "float_feature"] = some (.arr (jsonList .str float)) := by
    rw [f4 _ (by decide), f3 _ (by decide), f2 _ (by decide), g1]
  have g2' : o4.field ["categoricalFeature", "categorical_feature"] = some (.arr (jsonList .str cat)) := by
    rw [f4 _ (by decide), f3 _ (by decide), g2]
  refine ⟨s4.once, ?_⟩
  exact {
    only := s4.only
    numTrees := given_congr (same _ (by decide)) hc.numTrees
    numLeaves := given_congr (same _ (by decide)) hc.numLeaves
    shrinkage := given_congr (same _ (by decide)) hc.shrinkage
    minGain := given_congr (same _ (by decide)) hc.minGain
    l2Lambda := given_congr (same _ (by decide)) hc.l2Lambda
    minHessian := given_congr (same _ (by decide)) hc.minHessian
    exampleRate := given_congr (f4 _ (by decide)) (r3 _ hc.exampleRate)
    featureRate := r4 _ hc.featureRate
    evalInterval := given_congr (same _ (by decide)) hc.evalInterval
    lossFunc := given_congr (same _ (by decide)) hc.lossFunc
    pairRate := given_congr (same _ (by decide)) hc.pairRate
    byDelta := given_congr (same _ (by decide)) hc.byDelta
    dcgBase := given_congr (same _ (by decide)) hc.dcgBase
    equalWeight := given_congr (same _ (by decide)) hc.equalWeight
    floatFeature := given_some g1' ⟨_, rfl, elements_jsonList _⟩
    catFeature := given_some g2' ⟨_, rfl, elements_jsonList _⟩
    weightColumn := given_congr (same _ (by decide)) hc.weightColumn
    targetColumn := given_congr (same _ (by decide)) hc.targetColumn
    binarize := given_congr (same _ (by decide)) hc.binarize
    groupColumn := given_congr (same _ (by decide)) hc.groupColumn
    additionalFloat := given_congr (same _ (by decide)) hc.additionalFloat
    additionalString := given_congr (same _ (by decide)) hc.additionalString }

theorem field_snake {camel k : String} (hcm : camel ∈ ["floatFeature", "categoricalFeature", "exampleSamplingRate", "featureSamplingRate"]) :
    ∀ o : JsonFields N, (∀ k ∈ o.keys, k ∉ ["floatFeature", "categoricalFeature", "exampleSamplingRate", "featureSamplingRate"]) →
      o.field [camel, k] = o.field [k]
  | .nil, _ => rfl
  | .cons k' x l, h => by
    have ih := field_snake hcm l (fun a ha => h a (by simp only [JsonFields.keys, List.mem_cons, ha, or_true])) (k := k)
    by_cases hk : k' = k
    · by_cases hx : x = .null
      · rw [hx, field_null, field_null, ih]
      · rw [field_here (by simp [hk]) hx, field_here (by simp [hk]) hx]
    · have : k' ≠ camel := by
        rintro rfl
        exact h k' (by simp [JsonFields.keys]) hcm
      rw [field_other (by simp [hk, this]), field_other (by simp [hk]), ih]

/-- **C123.** `train` with a dictionary does what `train` with the configuration that the dictionary means does (features and missing rates
aside, which `train` sets).  The dictionary gives no field twice, writes the fields that `train` sets as `train` does, and
gives no rate as `None`. -/
theorem C123_dict {mc : Machine D A} {cc : ConfigCodec D N} {one : Json N} (hone : cc.readFloat one = some (mc.ofNat 1)) (hnull : one ≠ .null)
    {s : Option (DataStore A)} (hs : ((s.getD []).map Prod.fst).Nodup) {o : JsonFields N} (htwice : NoTwice configNames o)
    (hsnake : ∀ k ∈ o.keys, k ∉ ["floatFeature", "categoricalFeature", "exampleSamplingRate", "featureSamplingRate"])
    (hrates : ∀ k ∈ ["example_sampling_rate", "feature_sampling_rate"], k ∈ o.keys → o.field [k] ≠ none)
    {c : CliConfig D} (hc : MeansConfig cc o c)
    (y : List (Fl A)) (features : List String) (w : List (Fl A)) (base : Option (List (Tree D A))) (seed nt : Int) :
    pyTrainDict mc cc one s o y features w base seed nt = pyTrain mc s c.train y features w base seed nt := by
  have ho : SnakeDict o := ⟨htwice, hc.only, hsnake⟩
  have hrates' : ∀ p ∈ [("exampleSamplingRate", "example_sampling_rate"), ("featureSamplingRate", "feature_sampling_rate")],
      p.2 ∈ o.keys → o.field [p.1, p.2] ≠ none := by
    have key := fun camel k hcm => field_snake (camel := camel) (k := k) (N := N) hcm o hsnake
    intro p hp hk
    simp only [List.mem_cons, List.not_mem_nil, or_false] at hp
    rcases hp with rfl | rfl
    · rw [key _ _ (by simp)]; exact hrates _ (by simp) hk
    · rw [key _ _ (by simp)]; exact hrates _ (by simp) hk
  unfold pyTrainDict pyTrain
  dsimp only
  split
  · rfl
  · obtain ⟨h1, h2⟩ := pyConfigDict_means hone hnull ho hrates' hc ((namesOfType s .bucketized).filter (fun n => features.contains n))
      ((namesOfType s .string).filter (fun n => features.contains n))
    rw [(C122_reading cc (fun o' e => by cases e; exact h1)).mpr ⟨_, rfl, h2⟩]
    dsimp only
    rw [List.Nodup.dedup]
    · rfl
    · have hn : ∀ ty, (namesOfType s ty).Nodup := by
        intro ty
        cases s with
        | none => exact List.nodup_nil
        | some t => exact hs.sublist (List.filter_sublist.map _)
      refine List.Nodup.append ((hn _).filter _) ((hn _).filter _) ?_
      intro name h3 h4
      obtain ⟨col, e1, e2⟩ := (mem_namesOfType hs _ _).mp (List.mem_filter.mp h3).1
      obtain ⟨col', e3, e4⟩ := (mem_namesOfType hs _ _).mp (List.mem_filter.mp h4).1
      rw [e1, Option.some.injEq] at e3
      rw [← e3, e2] at e4
      cases e4

/-- The entries of a dictionary. -/
def JsonFields.entries : JsonFields N → List (String × Json N)
  | .nil => []
  | .cons k x l => (k, x) :: l.entries

theorem assign_entries {key : String} (x : Json N) {p : String × Json N} (hp : p.1 ≠ key) : ∀ o : JsonFields N,
    p ∈ o.entries → p ∈ (o.assign key x).entries
  | .nil, h => by cases h
  | .cons k y l, h => by
    rw [JsonFields.assign]
    rcases List.mem_cons.mp h with rfl | h
    · rw [if_neg hp]
      exact List.mem_cons_self
    · split
      · exact List.mem_cons_of_mem _ h
      · exact List.mem_cons_of_mem _ (assign_entries x hp l h)

theorem entries_keys {p : String × Json N} : ∀ o : JsonFields N, p ∈ o.entries → p.1 ∈ o.keys
  | .nil, h => by cases h
  | .cons k y l, h => by
    rcases List.mem_cons.mp h with rfl | h
    · exact List.mem_cons_self
    · exact List.mem_cons_of_mem _ (entries_keys l h)

theorem setDefault_entries {key : String} (x : Json N) {p : String × Json N} {o : JsonFields N} (hm : p ∈ o.entries) :
    p ∈ (o.setDefault key x).entries := by
  unfold JsonFields.setDefault
  split
  · exact hm
  · next h =>
    refine assign_entries x ?_ o hm
    rintro rfl
    exact h ((has_iff _ o).mpr (entries_keys o hm))

theorem readMessage_entry {C : Type} (fields : List (MessageField C N)) {p : String × Json N} : ∀ (o : JsonFields N) (c c' : C),
    p ∈ o.entries → readMessage fields o c = some c' → ∀ c0, ∃ c1, readMessage fields (.cons p.1 p.2 .nil) c0 = some c1
  | .nil, _, _, hp, _ => by cases hp
  | .cons k x l, c, c', hp, h => by
    intro c0
    rw [readMessage] at h ⊢
    rcases List.mem_cons.mp hp with rfl | hp
    · cases hf : fields.find? (fun f => f.names.contains k) with
      | none => simp only [hf] at h; cases h
      | some f =>
        simp only [hf] at h ⊢
        cases x with
        | null => exact ⟨_, rfl⟩
        | _ =>
          simp only at h ⊢
          obtain ⟨v, hv, _⟩ := Option.bind_eq_some_iff.mp h
          rw [hv]
          exact ⟨_, rfl⟩
    · have : ∃ c2, readMessage fields l c2 = some c' := by
        cases hf : fields.find? (fun f => f.names.contains k) with
        | none => simp only [hf] at h; cases h
        | some f =>
          simp only [hf] at h
          cases x with
          | null => exact ⟨_, h⟩
          | _ =>
            simp only at h
            obtain ⟨v, _, hv⟩ := Option.bind_eq_some_iff.mp h
            exact ⟨_, hv⟩
      obtain ⟨c2, h2⟩ := this
      have := readMessage_entry fields l c2 c' hp h2 c0
      rw [readMessage] at this
      exact this

/-- **C123 (refusals).** `train` raises `ValueError` if an entry of the dictionary, other than the features, is by itself no configuration: its
name is not that of a field, or its value not of the field's type. -/
theorem C123_refused (mc : Machine D A) {cc : ConfigCodec D N} (one : Json N) (s : Option (DataStore A)) {o : JsonFields N}
    {k : String} {x : Json N} (hk : (k, x) ∈ o.entries) (hf : k ∉ ["float_feature", "categorical_feature"])
    (hno : ∀ c, ¬ MeansConfig cc (.cons k x .nil) c)
    (y : List (Fl A)) (features : List String) (w : List (Fl A)) (base : Option (List (Tree D A))) (seed nt : Int) :
    pyTrainDict mc cc one s o y features w base seed nt = .ok (.error .valueError) ∨
      pyTrainDict mc cc one s o y features w base seed nt = .ok (.error (.lib .invalidArgument)) := by
  unfold pyTrainDict
  dsimp only
  split
  · exact Or.inl rfl
  · right
    simp only [List.mem_cons, List.not_mem_nil, or_false, not_or] at hf
    cases hr : configFromJson cc (.obj (pyConfigDict one ((namesOfType s .bucketized).filter (fun n => features.contains n))
        ((namesOfType s .string).filter (fun n => features.contains n)) o)) with
    | none => rfl
    | some c =>
      exfalso
      have hm := setDefault_entries (key := "feature_sampling_rate") one (setDefault_entries (key := "example_sampling_rate") one
        (assign_entries (key := "categorical_feature") (.arr (jsonList .str ((namesOfType s .string).filter (fun n => features.contains n)))) hf.2 _
          (assign_entries (key := "float_feature") (.arr (jsonList .str ((namesOfType s .bucketized).filter (fun n => features.contains n)))) hf.1 o hk)))
      obtain ⟨c1, h1⟩ := readMessage_entry (configFields cc) _ emptyConfig c hm hr emptyConfig
      have h2 : configFromJson cc (.obj (.cons k x .nil)) = some c1 := h1
      rw [C122_reading cc (fun o e => by
        cases e
        exact ⟨fun _ _ _ k' hk' => (by cases hk'), trivial⟩)] at h2
      obtain ⟨o', e, h3⟩ := h2
      cases e
      exact hno c1 h3

end train

/-! ## C124 -/

/-- The snake_case name of a field of a configuration. -/
def snakeName (k : String) : String :=
  match configNames.find? (fun names => names.contains k) with
  | some names => names.getLast?.getD k
  | none => k

/-- The object with other names. -/
def JsonFields.renamed {N : Type} (f : String → String) : JsonFields N → JsonFields N
  | .nil => .nil
  | .cons k x l => .cons (f k) x (l.renamed f)

/-- A codec for examples: numbers are fractions or whole numbers. -/
def plainConfigCodec : ConfigCodec ℚ (ℚ ⊕ Nat) where
  readInt
    | .num (.inr n) => some n
    | _ => none
  readDouble
    | .num (.inl q) => some q
    | .num (.inr n) => some n
    | _ => none
  readFloat
    | .num (.inl q) => some q
    | .num (.inr n) => some n
    | _ => none
  readBool
    | .bool b => some b
    | _ => none

/-- C124 in full, for spelling: a field may be written in camelCase or snake_case. -/
def C124_full : Prop :=
  ∀ (t : DataStore ℚ) (o : JsonFields (ℚ ⊕ Nat)) (features : List String), (t.map Prod.fst).Nodup → NoTwice configNames o →
    pyTrainDict ratMachine plainConfigCodec (.num (.inr 1)) (some t) o [] features [] none 1 2 =
      pyTrainDict ratMachine plainConfigCodec (.num (.inr 1)) (some t) (o.renamed snakeName) [] features [] none 1 2

/-- C124 in full, for `None`: a field that is `None` counts as not given. -/
def C124_full_none : Prop :=
  ∀ (t : DataStore ℚ) (o : JsonFields (ℚ ⊕ Nat)) (key : String) (features : List String), (t.map Prod.fst).Nodup →
    NoTwice configNames (o.append (.cons key .null .nil)) → key ∈ configNames.flatten →
    pyTrainDict ratMachine plainConfigCodec (.num (.inr 1)) (some t) (o.append (.cons key .null .nil)) [] features [] none 1 2 =
      pyTrainDict ratMachine plainConfigCodec (.num (.inr 1)) (some t) o [] features [] none 1 2

/-- An entry with a wrong name and one with a wrong value; the first number is a rate, not a count. -/
example : (∀ c, ¬ MeansConfig plainConfigCodec (.cons "num_tree" (.num (.inr 2)) .nil) c) ∧
    ∀ c, ¬ MeansConfig plainConfigCodec (.cons "num_trees" (.num (.inl (1 / 2))) .nil) c := by
  constructor
  · intro c h
    exact absurd (h.only "num_tree" List.mem_cons_self) (by decide +kernel)
  · intro c h
    have := h.numTrees
    rw [Given, field_here (by decide) (by simp)] at this
    cases this

/-- A dictionary. -/
def sampleDict : JsonFields (ℚ ⊕ Nat) :=
  .cons "num_trees" (.num (.inr 2)) (.cons "num_leaves" (.num (.inr 3)) (.cons "shrinkage" (.num (.inl (1 / 2)))
    (.cons "loss_func" (.str "mse") (.cons "l2Lambda" (.num (.inr 1)) (.cons "target_column" (.str "y") .nil)))))

/-- What it means: it sets no rate, and `l2Lambda` is in camelCase. -/
theorem sampleDict_means : ∃ c, MeansConfig plainConfigCodec sampleDict c ∧ c.train.numTrees = 2 ∧ c.train.targetColumn = "y" ∧
    c.train.exampleRate = none := by
  have hn : NoTwice configNames sampleDict := by
    rw [noTwice_iff]
    decide +kernel
  have : (configFromJson plainConfigCodec (.obj sampleDict)).isSome = true := by decide +kernel
  obtain ⟨c, hc⟩ := Option.isSome_iff_exists.mp this
  refine ⟨c, ?_, ?_⟩
  · obtain ⟨o, e, h⟩ := (C122_reading plainConfigCodec (fun o e => by cases e; exact hn)).mp hc
    cases e
    exact h
  · have h2 : (match configFromJson plainConfigCodec (.obj sampleDict) with
      | some c => decide (c.train.numTrees = 2 ∧ c.train.targetColumn = "y" ∧ c.train.exampleRate = none)
      | none => false) = true := by decide +kernel
    rw [hc] at h2
    simpa using h2

/-- **C124 (refuted, spelling).** A sampling rate in camelCase is overridden by 1: the rate 2, which is refused in snake_case, is
ignored. -/
theorem C124_refuted : ¬ C124_full := by
  intro h
  have hb : (match pyDict id with
    | .ok (.ok (some t)) =>
      (match pyTrainDict ratMachine plainConfigCodec (.num (.inr 1)) (some t) (.cons "exampleSamplingRate" (.num (.inr 2)) sampleDict) [] ["size"] [] none 1 2,
          pyTrainDict ratMachine plainConfigCodec (.num (.inr 1)) (some t) ((JsonFields.cons "exampleSamplingRate" (.num (.inr 2)) sampleDict).renamed snakeName) [] ["size"] [] none 1 2 with
        | .ok (.ok _), .ok (.error _) => true
        | _, _ => false)
    | _ => false) = true := by decide +kernel
  split at hb
  · next t ht =>
    rw [h t (.cons "exampleSamplingRate" (.num (.inr 2)) sampleDict) ["size"] (pyDict_store ht).1.names (by rw [noTwice_iff]; decide +kernel)] at hb
    split at hb
    · next h1 h2 => rw [h1] at h2; cases h2
    · cases hb
  · cases hb

/-- **C124 (refuted, None).** A sampling rate of `None` is not 1, which a rate that is not given is, but 0, which is refused. -/
theorem C124_refuted_none : ¬ C124_full_none := by
  intro h
  have hb : (match pyDict id with
    | .ok (.ok (some t)) =>
      (match pyTrainDict ratMachine plainConfigCodec (.num (.inr 1)) (some t) (sampleDict.append (.cons "example_sampling_rate" .null .nil)) [] ["size"] [] none 1 2,
          pyTrainDict ratMachine plainConfigCodec (.num (.inr 1)) (some t) sampleDict [] ["size"] [] none 1 2 with
        | .ok (.error _), .ok (.ok _) => true
        | _, _ => false)
    | _ => false) = true := by decide +kernel
  split at hb
  · next t ht =>
    rw [h t sampleDict "example_sampling_rate" ["size"] (pyDict_store ht).1.names (by rw [noTwice_iff]; decide +kernel) (by decide +kernel)] at hb
    split at hb
    · next h1 h2 => rw [h1] at h2; cases h2
    · cases hb
  · cases hb

theorem snakeName_mem : ∀ names ∈ configNames, ∀ k ∈ configNames.flatten, snakeName k ∈ names ↔ k ∈ names := by decide +kernel

theorem renamed_keys {N : Type} (f : String → String) : ∀ o : JsonFields N, (o.renamed f).keys = o.keys.map f
  | .nil => rfl
  | .cons k x l => by rw [JsonFields.renamed, JsonFields.keys, JsonFields.keys, List.map_cons, renamed_keys f l]

theorem renamed_field {N : Type} {names : List String} : ∀ o : JsonFields N, (∀ k ∈ o.keys, snakeName k ∈ names ↔ k ∈ names) →
    (o.renamed snakeName).field names = o.field names
  | .nil, _ => rfl
  | .cons k x l, ho => by
    have hl : ∀ k ∈ l.keys, snakeName k ∈ names ↔ k ∈ names := fun k' h => ho k' (List.mem_cons_of_mem _ h)
    have hk0 := ho k List.mem_cons_self
    have ih := renamed_field l hl
    rw [JsonFields.renamed]
    by_cases hx : x = .null
    · rw [hx, field_null, field_null, ih]
    · by_cases hk : k ∈ names
      · rw [field_here hk hx, field_here (hk0.mpr hk) hx]
      · rw [field_other hk, field_other (fun h => hk (hk0.mp h)), ih]

/-- The same configuration in snake_case. -/
theorem renamed_means {D N : Type} [Zero D] {cc : ConfigCodec D N} {o : JsonFields N} {c : CliConfig D} (hc : MeansConfig cc o c) :
    MeansConfig cc (o.renamed snakeName) c := by
  have same : ∀ names ∈ configNames, (o.renamed snakeName).field names = o.field names := 
    fun names hn => renamed_field o fun k hk => snakeName_mem names hn k (hc.only k hk)
  exact {
    only := by
      intro k hk
      rw [renamed_keys, List.mem_map] at hk
      obtain ⟨k', hk', rfl⟩ := hk
      obtain ⟨names, hn, hm⟩ := List.mem_flatten.mp (hc.only k' hk')
      exact List.mem_flatten.mpr ⟨names, hn, (snakeName_mem names hn k' (hc.only k' hk')).mpr hm⟩
    numTrees := given_congr (same _ (by decide)) hc.numTrees
    numLeaves := given_congr (same _ (by decide)) hc.numLeaves
    shrinkage := given_congr (same _ (by decide)) hc.shrinkage
    minGain := given_congr (same _ (by decide)) hc.minGain
    l2Lambda := given_congr (same _ (by decide)) hc.l2Lambda
    minHessian := given_congr (same _ (by decide)) hc.minHessian
    exampleRate := given_congr (same _ (by decide)) hc.exampleRate
    featureRate := given_congr (same _ (by decide)) hc.featureRate
    evalInterval := given_congr (same _ (by decide)) hc.evalInterval
    lossFunc := given_congr (same _ (by decide)) hc.lossFunc
    pairRate := given_congr (same _ (by decide)) hc.pairRate
    byDelta := given_congr (same _ (by decide)) hc.byDelta
    dcgBase := given_congr (same _ (by decide)) hc.dcgBase
    equalWeight := given_congr (same _ (by decide)) hc.equalWeight
    floatFeature := given_congr (same _ (by decide)) hc.floatFeature
    catFeature := given_congr (same _ (by decide)) hc.catFeature
    weightColumn := given_congr (same _ (by decide)) hc.weightColumn
    targetColumn := given_congr (same _ (by decide)) hc.targetColumn
    binarize := given_congr (same _ (by decide)) hc.binarize
    groupColumn := given_congr (same _ (by decide)) hc.groupColumn
    additionalFloat := given_congr (same _ (by decide)) hc.additionalFloat
    additionalString := given_congr (same _ (by decide)) hc.additionalString }

/-- **C124 (partial).** Spelling does not matter for other fields than the four that `train` sets.  Missing: features and rates in camelCase,
and rates that are `None`. -/
theorem C124_partial {D A N : Type} [Dbl D] [LinearOrder A] [ThrOps A] {mc : Machine D A} {cc : ConfigCodec D N} {one : Json N}
    (hone : cc.readFloat one = some (mc.ofNat 1)) (hnull : one ≠ .null)
    {s : Option (DataStore A)} (hs : ((s.getD []).map Prod.fst).Nodup) {o : JsonFields N} (htwice : NoTwice configNames o)
    (hsnake : ∀ k ∈ o.keys, k ∉ ["floatFeature", "categoricalFeature", "exampleSamplingRate", "featureSamplingRate"])
    (hrates : ∀ k ∈ ["example_sampling_rate", "feature_sampling_rate"], k ∈ o.keys → o.field [k] ≠ none)
    {c : CliConfig D} (hc : MeansConfig cc o c)
    (y : List (Fl A)) (features : List String) (w : List (Fl A)) (base : Option (List (Tree D A))) (seed nt : Int) :
    pyTrainDict mc cc one s (o.renamed snakeName) y features w base seed nt = pyTrainDict mc cc one s o y features w base seed nt := by
  rw [C123_dict hone hnull hs htwice hsnake hrates hc]
  refine C123_dict hone hnull hs ?_ ?_ ?_ (renamed_means hc) y features w base seed nt
  · rw [noTwice_iff] at htwice ⊢
    rw [renamed_keys, List.pairwise_map]
    refine htwice.imp_of_mem ?_
    intro k k' hk hk' h names hn hm hm'
    exact h names hn ((snakeName_mem names hn k (hc.only k hk)).mp hm) ((snakeName_mem names hn k' (hc.only k' hk')).mp hm')
  · have : ∀ k ∈ configNames.flatten, snakeName k ∉ ["floatFeature", "categoricalFeature", "exampleSamplingRate", "featureSamplingRate"] := by
      decide +kernel
    intro k hk
    rw [renamed_keys, List.mem_map] at hk
    obtain ⟨k', hk', rfl⟩ := hk
    exact this k' (hc.only k' hk')
  · intro k hk hm
    have one : ∀ k' ∈ configNames.flatten, k' ∉ ["floatFeature", "categoricalFeature", "exampleSamplingRate", "featureSamplingRate"] →
        ∀ k ∈ ["example_sampling_rate", "feature_sampling_rate"], snakeName k' = k ↔ k' = k := by decide +kernel
    have same : ∀ k' ∈ o.keys, snakeName k' ∈ [k] ↔ k' ∈ [k] := fun k' h => by
      rw [List.mem_singleton, List.mem_singleton]
      exact one k' (hc.only k' h) (hsnake k' h) k hk
    rw [renamed_field o same]
    rw [renamed_keys, List.mem_map] at hm
    obtain ⟨k', hk', he⟩ := hm
    rw [one k' (hc.only k' hk') (hsnake k' hk') k hk] at he
    exact hrates k hk (he ▸ hk')

/-- The hypotheses hold for the dictionary. -/
example : NoTwice configNames sampleDict ∧
    (∀ k ∈ sampleDict.keys, k ∉ ["floatFeature", "categoricalFeature", "exampleSamplingRate", "featureSamplingRate"]) ∧
    (∀ k ∈ ["example_sampling_rate", "feature_sampling_rate"], k ∉ sampleDict.keys) ∧
    (sampleDict.renamed snakeName).keys = ["num_trees", "num_leaves", "shrinkage", "loss_func", "l2_lambda", "target_column"] :=
  ⟨by rw [noTwice_iff]; decide +kernel, by decide +kernel, by decide +kernel, by decide +kernel⟩

end Gbdt
