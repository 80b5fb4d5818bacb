import Verif.Lemmas.Scaled
import Verif.Props.RowOrder

/-!
# C115, C116, C117: scaling numeric features, renaming categories

Specification: `Verif/Spec/Alike.lean`.  `Dict.scaled φ ψ d` is the data `d` with the numbers of each bucketized column changed by `φ`
and the strings of each column changed by `ψ`; `Scales` says what `φ` must satisfy; `SplitAlike` what becomes of splits.
-/

set_option autoImplicit false
set_option linter.unusedSectionVars false

namespace Gbdt
open Outcome

/-! ## C115 -/

section scaling
variable {D A : Type} [Dbl D] [FpOrder D] [LinearOrder A] [ThrOps A]

/-- A renaming of strings: different strings stay different, and the marker for missing strings stays. -/
def Renames (f : String → String) : Prop := (∀ s s', f s = f s' → s = s') ∧ f "__missing__" = "__missing__"

/-- **C115.** Scaling the numeric features and renaming the categories of the data leaves the outcome of `train` as it is, up to
the thresholds and the category names in the forest: trees of the same shape, scores, features and gains, or the same exception.
Losses, targets, weights, sampling, groups, base forest, arithmetic: any. -/
theorem C115_forest (mc : Machine D A) {φ : String → A → A} {V : String → Set A} {ψ : String → String → String} {d : Dict A} {n : Nat}
    (hd : d.Rows n) (hn : n < 2 ^ 31) {fmax : A} {nb : Nat} (hnb : nb < 2 ^ 32) (hψ : ∀ name, Renames (ψ name))
    (hs : ∀ p ∈ d.bucketized, Scales fmax (φ p.1) (V p.1) p.2)
    {place place' : DataStore A → DataStore A} (hplace : ∀ l, (place l).Perm l) (hplace' : ∀ l, (place' l).Perm l)
    {t t' : DataStore A} (ht : d.store fmax nb place = ok (.ok (some t)))
    (ht' : (d.scaled φ ψ).store fmax nb place' = ok (.ok (some t'))) (hnames : t'.map Prod.fst = t.map Prod.fst)
    (c : Config D) (y w : List (Fl A)) (features : List String) {base base' : Option (List (Tree D A))}
    (hb : List.Forall₂ (AlikeTree (SplitAlike φ V ψ)) (base.getD []) (base'.getD [])) (seed nt : Int) :
    SameAnswer (List.Forall₂ (AlikeTree (SplitAlike φ V ψ))) (pyTrain mc (some t) c y features w base seed nt)
      (pyTrain mc (some t') c y features w base' seed nt) :=
  finding_train.pyTrain sameKind_train mc
    (scaled_train hd hn hnb (fun name => ⟨fun a b h => (hψ name).1 a b h, (hψ name).2⟩) hs hplace hplace' ht ht' hnames)
    c y w features hb seed nt

/-- Forests whose splits are alike give the same predictions for data and for the data scaled in the same way. -/
theorem C115_predict {φ : String → A → A} {V : String → Set A} {ψ : String → String → String} (hψ : ∀ name, Renames (ψ name))
    (hφ : ∀ name, ∀ a ∈ V name, ∀ b ∈ V name, a < b → φ name a < φ name b)
    {e : Dict A} {m : Nat} (he : e.Rows m) (hm : m < 2 ^ 31) {fmax : A} {nb : Nat} (hnb : nb < 2 ^ 32)
    (hv : ∀ p ∈ e.bucketized, ∀ v, Fl.num v ∈ p.2 → v ∈ V p.1 ∧ v < fmax ∧ φ p.1 v < fmax)
    {place place' : DataStore A → DataStore A} (hplace : ∀ l, (place l).Perm l) (hplace' : ∀ l, (place' l).Perm l)
    {s s' : DataStore A} (hs : e.store fmax nb place = ok (.ok (some s)))
    (hs' : (e.scaled φ ψ).store fmax nb place' = ok (.ok (some s'))) {f f' : List (Tree D A)}
    (hf : List.Forall₂ (AlikeTree (SplitAlike φ V ψ)) f f') (nt : Int) :
    pyPredict (some s) f nt = pyPredict (some s') f' nt := by
  obtain ⟨h1, h2, h3⟩ := scaled_score (V := V) he hm hnb (fun name => ⟨fun a b h => (hψ name).1 a b h, (hψ name).2⟩) hφ hv hplace hplace' hs hs'
  exact alike_pyPredict matching_score h3 (by rw [h1, h2]) hf nt

/-- Training on data and predicting for other data gives what training on scaled data and predicting for scaled other data gives. -/
theorem C115_predictions (mc : Machine D A) {φ : String → A → A} {V : String → Set A} {ψ : String → String → String}
    (hψ : ∀ name, Renames (ψ name)) (hφ : ∀ name, ∀ a ∈ V name, ∀ b ∈ V name, a < b → φ name a < φ name b)
    {fmax : A} {d e : Dict A} {n m : Nat} (hd : d.Rows n) (hn : n < 2 ^ 31) (he : e.Rows m) (hm : m < 2 ^ 31)
    {nb nb' : Nat} (hnb : nb < 2 ^ 32) (hnb' : nb' < 2 ^ 32) (hs : ∀ p ∈ d.bucketized, Scales fmax (φ p.1) (V p.1) p.2)
    (hv : ∀ p ∈ e.bucketized, ∀ v, Fl.num v ∈ p.2 → v ∈ V p.1 ∧ v < fmax ∧ φ p.1 v < fmax)
    {place1 place2 place3 place4 : DataStore A → DataStore A} (hp1 : ∀ l, (place1 l).Perm l) (hp2 : ∀ l, (place2 l).Perm l)
    (hp3 : ∀ l, (place3 l).Perm l) (hp4 : ∀ l, (place4 l).Perm l) {t t' s s' : DataStore A}
    (ht : d.store fmax nb place1 = ok (.ok (some t))) (ht' : (d.scaled φ ψ).store fmax nb place2 = ok (.ok (some t')))
    (hs1 : e.store fmax nb' place3 = ok (.ok (some s))) (hs2 : (e.scaled φ ψ).store fmax nb' place4 = ok (.ok (some s')))
    (hnames : t'.map Prod.fst = t.map Prod.fst) (c : Config D) (y w : List (Fl A)) (features : List String) (seed nt nt' : Int) :
    (pyTrain mc (some t) c y features w none seed nt).andThen (fun f => pyPredict (some s) f nt') =
      (pyTrain mc (some t') c y features w none seed nt).andThen (fun f => pyPredict (some s') f nt') := by
  have h := C115_forest mc (V := V) hd hn hnb hψ hs hp1 hp2 ht ht' hnames c y w features (base := none) (base' := none) .nil seed nt
  revert h
  generalize pyTrain mc (some t) c y features w none seed nt = a
  generalize pyTrain mc (some t') c y features w none seed nt = b
  intro h
  cases h with
  | ub => rfl
  | fatal => rfl
  | ok h =>
    cases h with
    | error => rfl
    | ok h => exact C115_predict hψ hφ he hm hnb' hv hp3 hp4 hs1 hs2 h nt'

/-- Renaming categories: nothing to require of the numbers, except that they are below `FLT_MAX`. -/
theorem C115_rename {fmax : A} {raw : List (Fl A)} (h : ∀ v, Fl.num v ∈ raw → v < fmax) : Scales fmax id Set.univ raw where
  incr _ _ _ _ h := h
  values v hv := ⟨trivial, h v hv, h v hv⟩
  mid _ _ _ _ _ _ _ := rfl
  low _ _ _ _ _ _ := rfl

/-- A strictly increasing function that commutes with the arithmetic of thresholds may be used (a multiplication by two in binary
floating point, where nothing overflows). -/
theorem C115_commutes {fmax : A} {φ : A → A} (hφ : ∀ a b, a < b → φ a < φ b) {raw : List (Fl A)}
    (hv : ∀ v, Fl.num v ∈ raw → v < fmax ∧ φ v < fmax)
    (hmid : ∀ a b, Fl.num a ∈ raw → Fl.num b ∈ raw → ThrOps.mid (φ a) (φ b) = (ThrOps.mid a b).map φ)
    (hlow : Fl.nan ∈ raw → ∀ a, Fl.num a ∈ raw → ThrOps.below (φ a) = (ThrOps.below a).map φ) : Scales fmax φ Set.univ raw where
  incr a _ b _ h := hφ a b h
  values v h := ⟨trivial, hv v h⟩
  mid a b ha hb _ v _ := by
    rw [hmid a b ha hb]
    cases ThrOps.mid a b with
    | nan => rfl
    | num t => exact decide_eq_decide.mpr (StrictMono.lt_iff_lt (fun _ _ h => hφ _ _ h)).symm
  low hn a ha _ v _ := by
    rw [hlow hn a ha]
    cases ThrOps.below a with
    | nan => rfl
    | num t => exact decide_eq_decide.mpr (StrictMono.lt_iff_lt (fun _ _ h => hφ _ _ h)).symm

end scaling

/-- The numbers at which a linear function may be used with the exact threshold arithmetic: all if no value is missing in training,
else those that are not below all values of training. -/
def LinearRange (raw : List (Fl ℚ)) : Set ℚ := {v | Fl.nan ∈ raw → ∃ a, Fl.num a ∈ raw ∧ a ≤ v}

/-- In exact arithmetic an increasing linear function may be used. -/
theorem C115_linear {α β : ℚ} (hα : 0 < α) {fmax : ℚ} {raw : List (Fl ℚ)} (hv : ∀ v, Fl.num v ∈ raw → v < fmax ∧ α * v + β < fmax) :
    Scales fmax (fun x => α * x + β) (LinearRange raw) raw where
  incr a _ b _ h := by
    have := mul_lt_mul_of_pos_left h hα
    linarith
  values v h := ⟨fun _ => ⟨v, h, le_refl _⟩, hv v h⟩
  mid a b _ _ _ v _ := by
    show decide (v < (a + b) / 2) = decide (α * v + β < (α * a + β + (α * b + β)) / 2)
    refine decide_eq_decide.mpr ?_
    rw [show (α * a + β + (α * b + β)) / 2 = α * ((a + b) / 2) + β by ring, add_lt_add_iff_right, mul_lt_mul_iff_right₀ hα]
  low hn a ha hmin v hv' := by
    show decide (v < a - 1 / 1000) = decide (α * v + β < α * a + β - 1 / 1000)
    obtain ⟨x, hx, hxv⟩ := hv' hn
    have h1 : a ≤ v := (hmin x hx).trans hxv
    have h2 := mul_le_mul_of_nonneg_left h1 hα.le
    rw [decide_eq_false (by linarith), decide_eq_false (by linarith)]

/-! ### Examples -/

/-- Adding 3 commutes with the exact threshold arithmetic, with missing values and all. -/
example : Scales 1000 (fun x : ℚ => x + 3) Set.univ [.nan, .num 1, .num 2] := by
  refine C115_commutes (fun a b h => by linarith) ?_ (fun a b _ _ => ?_) (fun _ a _ => ?_)
  · intro v hv
    simp only [List.mem_cons, List.not_mem_nil, or_false, Fl.num.injEq, reduceCtorEq, false_or] at hv
    rcases hv with rfl | rfl <;> norm_num
  · show Fl.num _ = Fl.num _
    congr 1
    ring
  · show Fl.num _ = Fl.num _
    congr 1
    ring

/-- Training data: numbers with one missing, and strings. -/
def farmDict : Dict ℚ where
  bucketized := [("size", [.num 5, .nan, .num 7, .num 9, .num 9])]
  strs := [("color", ["b", "a", "b", "c", "a"])]
  raw := [("y", [.num 1, .num 2, .num 6, .num 3, .num 8])]

/-- Other data, with a number and a string that training did not see. -/
def marketDict : Dict ℚ where
  bucketized := [("size", [.num 6, .nan, .num 11])]
  strs := [("color", ["c", "zz", "b"])]

/-- Sizes are doubled and moved. -/
def farmScale : String → ℚ → ℚ := fun _ x => 2 * x + 1

/-- `a` and `b` are exchanged, `zz` and `y` too. -/
def farmNames : String → String → String := fun _ s =>
  if s = "a" then "b" else if s = "b" then "a" else if s = "zz" then "y" else if s = "y" then "zz" else s

theorem farmNames_ok (name : String) : Renames (farmNames name) := by
  refine ⟨?_, by unfold farmNames; decide⟩
  have inv : ∀ s, farmNames name (farmNames name s) = s := by
    intro s
    unfold farmNames
    split_ifs <;> simp_all
  intro s s' h
  rw [← inv s, ← inv s', h]

/-- C115 applies: scaled sizes and renamed colours, for training and for other data, give the same predictions, which are not all
the same. -/
example : (pyTrain ratMachine (some farmDict.made) pyCfg [] ["size", "color"] [] none 1 2).andThen
        (fun f => pyPredict (some marketDict.made) f 1) =
      (pyTrain ratMachine (some (farmDict.scaled farmScale farmNames).made) pyCfg [] ["size", "color"] [] none 1 2).andThen
        (fun f => pyPredict (some (marketDict.scaled farmScale farmNames).made) f 1) ∧
    (match (pyTrain ratMachine (some farmDict.made) pyCfg [] ["size", "color"] [] none 1 2).andThen
        (fun f => pyPredict (some marketDict.made) f 1) with
    | .ok (.ok l) => decide (l.length = 3 ∧ l[0]? ≠ l[1]? ∧ l[0]? ≠ l[2]?)
    | _ => false) = true := by
  have hr : farmDict.Rows 5 := ⟨by decide, by decide, by decide, by decide⟩
  have hr' : marketDict.Rows 3 := ⟨by decide, by decide, by decide, by decide⟩
  refine ⟨C115_predictions ratMachine (V := fun _ => LinearRange [.num 5, .nan, .num 7, .num 9, .num 9]) farmNames_ok ?_
    (fmax := 1000) hr (by decide) hr' (by decide) (nb := 6) (nb' := 6) (by decide) (by decide) ?_ ?_ (place1 := id) (place2 := id)
    (place3 := id) (place4 := id) (fun _ => List.Perm.refl _) (fun _ => List.Perm.refl _) (fun _ => List.Perm.refl _)
    (fun _ => List.Perm.refl _) (Dict.made_eq (by decide +kernel)) (Dict.made_eq (by decide +kernel)) (Dict.made_eq (by decide +kernel))
    (Dict.made_eq (by decide +kernel)) (by decide +kernel) _ _ _ _ _ _ _, by decide +kernel⟩
  · intro name a _ b _ h
    show 2 * a + 1 < 2 * b + 1
    linarith
  · intro p hp
    rw [List.mem_singleton.mp hp]
    refine C115_linear (by norm_num) ?_
    intro v hv
    have : v ≤ 400 := by
      simp only [List.mem_cons, List.not_mem_nil, or_false, Fl.num.injEq, reduceCtorEq, false_or] at hv
      rcases hv with rfl | rfl | rfl | rfl <;> norm_num
    constructor <;> linarith
  · intro p hp
    rw [List.mem_singleton.mp hp]
    intro v hv
    have : 5 ≤ v ∧ v ≤ 400 := by
      simp only [List.mem_cons, List.not_mem_nil, or_false, Fl.num.injEq, reduceCtorEq, false_or] at hv
      rcases hv with rfl | rfl <;> norm_num
    refine ⟨fun _ => ⟨5, by simp, this.1⟩, by linarith, ?_⟩
    show 2 * v + 1 < 1000
    linarith

/-! ## C116 -/

/-- **C116 in full**: any strictly increasing function of a numeric feature leaves the predictions for the training rows as they are. -/
def C116_full : Prop :=
  ∀ (mc : Machine ℚ ℚ) (φ : String → ℚ → ℚ) (d : Dict ℚ) (n : Nat) (fmax : ℚ) (nb : Nat) (place place' : DataStore ℚ → DataStore ℚ)
    (t t' : DataStore ℚ) (c : Config ℚ) (y w : List (Fl ℚ)) (features : List String) (seed nt nt' : Int),
    (∀ name a b, a < b → φ name a < φ name b) → d.Rows n → n < 2 ^ 31 → nb < 2 ^ 32 →
    (∀ p ∈ d.bucketized, ∀ v, Fl.num v ∈ p.2 → v < fmax ∧ φ p.1 v < fmax) → (∀ l, (place l).Perm l) → (∀ l, (place' l).Perm l) →
    d.store fmax nb place = ok (.ok (some t)) → (d.scaled φ (fun _ => id)).store fmax nb place' = ok (.ok (some t')) →
    t'.map Prod.fst = t.map Prod.fst →
    (pyTrain mc (some t) c y features w none seed nt).andThen (fun f => pyPredict (some t) f nt') =
      (pyTrain mc (some t') c y features w none seed nt).andThen (fun f => pyPredict (some t') f nt')

/-- **C116 (partial).** A function that is strictly increasing on the values of each numeric feature leaves the predictions for the
training rows as they are, if the middle of any two values of a feature has the same values on either side as the middle of what
the function makes of the two.  Missing: functions that move a middle across a value, for which it is false. -/
theorem C116_partial {D A : Type} [Dbl D] [FpOrder D] [LinearOrder A] [ThrOps A] (mc : Machine D A) {φ : String → A → A} {d : Dict A}
    {n : Nat} (hd : d.Rows n) (hn : n < 2 ^ 31) {fmax : A} {nb : Nat} (hnb : nb < 2 ^ 32)
    (hφ : ∀ p ∈ d.bucketized, ∀ a b, Fl.num a ∈ p.2 → Fl.num b ∈ p.2 → a < b → φ p.1 a < φ p.1 b)
    (hv : ∀ p ∈ d.bucketized, ∀ v, Fl.num v ∈ p.2 → v < fmax ∧ φ p.1 v < fmax)
    (hmid : ∀ p ∈ d.bucketized, ∀ a b v, Fl.num a ∈ p.2 → Fl.num b ∈ p.2 → Fl.num v ∈ p.2 → a < b →
      Fl.lt (.num v) (ThrOps.mid a b) = Fl.lt (.num (φ p.1 v)) (ThrOps.mid (φ p.1 a) (φ p.1 b)))
    (hlow : ∀ a v : A, a ≤ v → Fl.lt (.num v) (ThrOps.below a) = false)
    {place place' : DataStore A → DataStore A} (hplace : ∀ l, (place l).Perm l) (hplace' : ∀ l, (place' l).Perm l)
    {t t' : DataStore A} (ht : d.store fmax nb place = ok (.ok (some t)))
    (ht' : (d.scaled φ (fun _ => id)).store fmax nb place' = ok (.ok (some t'))) (hnames : t'.map Prod.fst = t.map Prod.fst)
    (c : Config D) (y w : List (Fl A)) (features : List String) (seed nt nt' : Int) :
    (pyTrain mc (some t) c y features w none seed nt).andThen (fun f => pyPredict (some t) f nt') =
      (pyTrain mc (some t') c y features w none seed nt).andThen (fun f => pyPredict (some t') f nt') := by
  have hone : ∀ p ∈ d.bucketized, ∀ q ∈ d.bucketized, q.1 = p.1 → q = p := by
    have hnd : (d.bucketized.map Prod.fst).Nodup := (List.nodup_append.mp hd.names).1
    intro p hp q hq e
    exact List.inj_on_of_nodup_map hnd hq hp e
  have hin : ∀ p ∈ d.bucketized, ∀ v, (∃ q ∈ d.bucketized, q.1 = p.1 ∧ Fl.num v ∈ q.2) → Fl.num v ∈ p.2 := by
    rintro p hp v ⟨q, hq, e, hv⟩
    rw [← hone p hp q hq e]
    exact hv
  refine C115_predictions mc (V := fun name => {v | ∃ q ∈ d.bucketized, q.1 = name ∧ Fl.num v ∈ q.2}) (ψ := fun _ => id)
    (fun _ => ⟨fun _ _ h => h, rfl⟩) ?_ hd hn hd hn hnb hnb ?_ ?_ hplace hplace' hplace hplace' ht ht' ht ht' hnames c y w features seed nt nt'
  · rintro name a ⟨p, hp, rfl, ha⟩ b hb h
    exact hφ p hp a b ha (hin p hp b hb) h
  · intro p hp
    refine ⟨?_, ?_, ?_, ?_⟩
    · intro a ha b hb h
      exact hφ p hp a b (hin p hp a ha) (hin p hp b hb) h
    · intro v h
      exact ⟨⟨p, hp, rfl, h⟩, hv p hp v h⟩
    · intro a b ha hb hab v hv'
      exact hmid p hp a b v ha hb (hin p hp v hv') hab
    · intro _ a ha hmin v hv'
      have hv'' := hin p hp v hv'
      have hle := hmin v hv''
      rw [hlow a v hle, hlow (φ p.1 a) (φ p.1 v)]
      rcases hle.lt_or_eq with h | h
      · exact (hφ p hp a v ha hv'' h).le
      · rw [h]
  · intro p hp v h
    exact ⟨⟨p, hp, rfl, h⟩, hv p hp v h⟩

/-- Numbers to be squared. -/
def squareDict : Dict ℚ where
  bucketized := [("x", [.num 4, .nan, .num 1, .num 2])]
  raw := [("y", [.num 3, .num 0, .num 1, .num 9])]

/-- C116 applies to squaring 1, 2, 4: 2 is on the same side of 5 / 2 as 4 is of 17 / 2. -/
example : (pyTrain ratMachine (some squareDict.made) pyCfg [] ["x"] [] none 1 2).andThen (fun f => pyPredict (some squareDict.made) f 1) =
      (pyTrain ratMachine (some (squareDict.scaled (fun _ x => x * x) (fun _ => id)).made) pyCfg [] ["x"] [] none 1 2).andThen
        (fun f => pyPredict (some (squareDict.scaled (fun _ x => x * x) (fun _ => id)).made) f 1) ∧
    (match (pyTrain ratMachine (some squareDict.made) pyCfg [] ["x"] [] none 1 2).andThen
        (fun f => pyPredict (some squareDict.made) f 1) with
    | .ok (.ok l) => decide (l.length = 4 ∧ l[0]? ≠ l[2]? ∧ l[1]? ≠ l[3]?)
    | _ => false) = true := by
  have hmem : ∀ v, Fl.num v ∈ [Fl.num 4, .nan, .num 1, .num (2 : ℚ)] → v = 4 ∨ v = 1 ∨ v = 2 := by
    intro v hv
    simpa only [List.mem_cons, List.not_mem_nil, or_false, Fl.num.injEq, reduceCtorEq, false_or] using hv
  refine ⟨C116_partial ratMachine (n := 4) ⟨by decide, by decide, by decide, by decide⟩ (by decide) (fmax := 1000) (nb := 6) (by decide)
    ?_ ?_ ?_ ?_ (place := id) (place' := id) (fun _ => List.Perm.refl _) (fun _ => List.Perm.refl _) (Dict.made_eq (by decide +kernel))
    (Dict.made_eq (by decide +kernel)) (by decide +kernel) _ _ _ _ _ _ _, by decide +kernel⟩
  · intro p hp
    rw [List.mem_singleton.mp hp]
    intro a b ha hb
    rcases hmem a ha with rfl | rfl | rfl <;> rcases hmem b hb with rfl | rfl | rfl <;> norm_num
  · intro p hp
    rw [List.mem_singleton.mp hp]
    intro v hv
    rcases hmem v hv with rfl | rfl | rfl <;> norm_num
  · intro p hp
    rw [List.mem_singleton.mp hp]
    intro a b v ha hb hv
    rcases hmem a ha with rfl | rfl | rfl <;> rcases hmem b hb with rfl | rfl | rfl <;> rcases hmem v hv with rfl | rfl | rfl <;>
      decide +kernel
  · intro a v h
    exact decide_eq_false (by linarith)

/-- Three rows; the gradient of the second is zero. -/
def bentDict : Dict ℚ where
  bucketized := [("x", [.num 0, .num 1, .num 10])]
  raw := [("y", [.num (-1), .num 0, .num 1])]

/-- 0, 1, 10 become 0, 9, 10. -/
def bend : String → ℚ → ℚ := fun _ x => if x ≤ 0 then x else if x ≤ 1 then 9 * x else 9 + (x - 1) / 9

/-- One tree of two leaves. -/
def bentCfg : Config ℚ := { pyCfg with numTrees := 1, numLeaves := 2 }

/-- C116 is false: a value whose gradients add up to zero is left out of the search for a split; which side it ends up on depends on
the middle between its neighbours. -/
theorem C116_refuted : ¬ C116_full := by
  intro h
  have h1 : bentDict.store 1000 6 id = ok (.ok (some bentDict.made)) := Dict.made_eq (by decide +kernel)
  have h2 : (bentDict.scaled bend (fun _ => id)).store 1000 6 id = ok (.ok (some (bentDict.scaled bend (fun _ => id)).made)) :=
    Dict.made_eq (by decide +kernel)
  have hr : bentDict.Rows 3 := ⟨by decide, by decide, by decide, by decide⟩
  have := h ratMachine bend bentDict 3 1000 6 id id _ _ bentCfg [] [] ["x"] 1 1 1 (by
    intro name a b hab
    unfold bend
    split_ifs <;> linarith) hr (by decide) (by decide) (by
    intro p hp
    rw [List.mem_singleton.mp hp]
    intro v hv
    simp only [List.mem_cons, List.not_mem_nil, or_false, Fl.num.injEq] at hv
    unfold bend
    rcases hv with rfl | rfl | rfl <;> norm_num) (fun _ => List.Perm.refl _) (fun _ => List.Perm.refl _) h1 h2 (by decide +kernel)
  have := congrArg (fun r => match r with | .ok (.ok l) => decide (l = [-1 / 6, -1 / 6, 1 / 4]) | _ => false) this
  revert this
  decide +kernel

/-! ## C117 -/

/-- **C117 in full**: in exact arithmetic, multiplying numeric features by positive numbers, in training and in other data, leaves the
predictions for the other data as they are. -/
def C117_full : Prop :=
  ∀ (mc : Machine ℚ ℚ) (α : String → ℚ) (d e : Dict ℚ) (n m : Nat) (fmax : ℚ) (nb nb' : Nat)
    (place1 place2 place3 place4 : DataStore ℚ → DataStore ℚ) (t t' s s' : DataStore ℚ) (c : Config ℚ) (y w : List (Fl ℚ))
    (features : List String) (seed nt nt' : Int),
    (∀ name, 0 < α name) → d.Rows n → n < 2 ^ 31 → e.Rows m → m < 2 ^ 31 → nb < 2 ^ 32 → nb' < 2 ^ 32 →
    (∀ p ∈ d.bucketized ++ e.bucketized, ∀ v, Fl.num v ∈ p.2 → v < fmax ∧ α p.1 * v < fmax) →
    (∀ l, (place1 l).Perm l) → (∀ l, (place2 l).Perm l) → (∀ l, (place3 l).Perm l) → (∀ l, (place4 l).Perm l) →
    d.store fmax nb place1 = ok (.ok (some t)) →
    (d.scaled (fun name x => α name * x) (fun _ => id)).store fmax nb place2 = ok (.ok (some t')) →
    e.store fmax nb' place3 = ok (.ok (some s)) →
    (e.scaled (fun name x => α name * x) (fun _ => id)).store fmax nb' place4 = ok (.ok (some s')) →
    t'.map Prod.fst = t.map Prod.fst →
    (pyTrain mc (some t) c y features w none seed nt).andThen (fun f => pyPredict (some s) f nt') =
      (pyTrain mc (some t') c y features w none seed nt).andThen (fun f => pyPredict (some s') f nt')

/-- **C117 (partial).** It holds if, for each feature that has missing values in training, the other data have no values below
all values of training.  Missing: such values, for which it is false. -/
theorem C117_partial {D : Type} [Dbl D] [FpOrder D] (mc : Machine D ℚ) {α : String → ℚ} (hα : ∀ name, 0 < α name) {fmax : ℚ}
    {d e : Dict ℚ} {n m : Nat} (hd : d.Rows n) (hn : n < 2 ^ 31) (he : e.Rows m) (hm : m < 2 ^ 31) {nb nb' : Nat} (hnb : nb < 2 ^ 32)
    (hnb' : nb' < 2 ^ 32) (hv : ∀ p ∈ d.bucketized ++ e.bucketized, ∀ v, Fl.num v ∈ p.2 → v < fmax ∧ α p.1 * v < fmax)
    (hlow : ∀ p ∈ d.bucketized, Fl.nan ∈ p.2 → ∀ q ∈ e.bucketized, q.1 = p.1 → ∀ v, Fl.num v ∈ q.2 → ∃ a, Fl.num a ∈ p.2 ∧ a ≤ v)
    {place1 place2 place3 place4 : DataStore ℚ → DataStore ℚ} (hp1 : ∀ l, (place1 l).Perm l) (hp2 : ∀ l, (place2 l).Perm l)
    (hp3 : ∀ l, (place3 l).Perm l) (hp4 : ∀ l, (place4 l).Perm l) {t t' s s' : DataStore ℚ}
    (ht : d.store fmax nb place1 = ok (.ok (some t)))
    (ht' : (d.scaled (fun name x => α name * x) (fun _ => id)).store fmax nb place2 = ok (.ok (some t')))
    (hs1 : e.store fmax nb' place3 = ok (.ok (some s)))
    (hs2 : (e.scaled (fun name x => α name * x) (fun _ => id)).store fmax nb' place4 = ok (.ok (some s')))
    (hnames : t'.map Prod.fst = t.map Prod.fst) (c : Config D) (y w : List (Fl ℚ)) (features : List String) (seed nt nt' : Int) :
    (pyTrain mc (some t) c y features w none seed nt).andThen (fun f => pyPredict (some s) f nt') =
      (pyTrain mc (some t') c y features w none seed nt).andThen (fun f => pyPredict (some s') f nt') := by
  have hone : ∀ p ∈ d.bucketized, ∀ q ∈ d.bucketized, q.1 = p.1 → q = p := fun p hp q hq e =>
    List.inj_on_of_nodup_map (List.nodup_append.mp hd.names).1 hq hp e
  refine C115_predictions mc (V := fun name => {v | ∀ p ∈ d.bucketized, p.1 = name → v ∈ LinearRange p.2}) (ψ := fun _ => id)
    (fun _ => ⟨fun _ _ h => h, rfl⟩) ?_ hd hn he hm hnb hnb' ?_ ?_ hp1 hp2 hp3 hp4 ht ht' hs1 hs2 hnames c y w features seed nt nt'
  · intro name a _ b _ h
    exact mul_lt_mul_of_pos_left h (hα name)
  · intro p hp
    have h := C115_linear (β := 0) (hα p.1) (fmax := fmax) (raw := p.2) (fun v hm => by
      have := hv p (List.mem_append_left _ hp) v hm
      rwa [add_zero])
    simp only [add_zero] at h
    have hV : {v | ∀ q ∈ d.bucketized, q.1 = p.1 → v ∈ LinearRange q.2} = LinearRange p.2 := by
      refine Set.ext (fun v => ⟨fun h => h p hp rfl, fun h q hq e => ?_⟩)
      rw [hone p hp q hq e]
      exact h
    rw [hV]
    exact h
  · intro q hq v hm
    exact ⟨fun p hp e hn => hlow p hp hn q hq e.symm v hm, hv q (List.mem_append_right _ hq) v hm⟩

/-- C117 applies to sizes multiplied by 3; 5 is the smallest size in training. -/
example : (pyTrain ratMachine (some farmDict.made) pyCfg [] ["size", "color"] [] none 1 2).andThen
        (fun f => pyPredict (some marketDict.made) f 1) =
      (pyTrain ratMachine (some (farmDict.scaled (fun _ x => 3 * x) (fun _ => id)).made) pyCfg [] ["size", "color"] [] none 1 2).andThen
        (fun f => pyPredict (some (marketDict.scaled (fun _ x => 3 * x) (fun _ => id)).made) f 1) := by
  refine C117_partial ratMachine (α := fun _ => 3) (fun _ => by norm_num) (fmax := 1000) (n := 5) (m := 3)
    ⟨by decide, by decide, by decide, by decide⟩ (by decide) ⟨by decide, by decide, by decide, by decide⟩ (by decide)
    (nb := 6) (nb' := 6) (by decide) (by decide) ?_ ?_ (place1 := id) (place2 := id)
    (place3 := id) (place4 := id) (fun _ => List.Perm.refl _) (fun _ => List.Perm.refl _) (fun _ => List.Perm.refl _)
    (fun _ => List.Perm.refl _) (Dict.made_eq (by decide +kernel)) (Dict.made_eq (by decide +kernel)) (Dict.made_eq (by decide +kernel))
    (Dict.made_eq (by decide +kernel)) (by decide +kernel) _ _ _ _ _ _ _
  · intro p hp v hv
    have : v ≤ 300 := by
      simp only [farmDict, marketDict, List.cons_append, List.nil_append, List.mem_cons, List.not_mem_nil, or_false] at hp
      rcases hp with rfl | rfl
      · simp only [List.mem_cons, List.not_mem_nil, or_false, Fl.num.injEq, reduceCtorEq, false_or] at hv
        rcases hv with rfl | rfl | rfl | rfl <;> norm_num
      · simp only [List.mem_cons, List.not_mem_nil, or_false, Fl.num.injEq, reduceCtorEq, false_or] at hv
        rcases hv with rfl | rfl <;> norm_num
    constructor <;> linarith
  · intro p hp _ q hq _ v hv
    rw [List.mem_singleton.mp hp]
    rw [List.mem_singleton.mp hq] at hv
    refine ⟨5, by simp, ?_⟩
    simp only [List.mem_cons, List.not_mem_nil, or_false, Fl.num.injEq, reduceCtorEq, false_or] at hv
    rcases hv with rfl | rfl <;> norm_num

/-- One missing value in training. -/
def gapDict : Dict ℚ where
  bucketized := [("x", [.nan, .num 1])]
  raw := [("y", [.num 0, .num 6])]

/-- A value just below those of training. -/
def gapOther : Dict ℚ where
  bucketized := [("x", [.num (99 / 100), .num 1])]

/-- C117 is false: missing values are separated from the others by the threshold 0.001 below the smallest value, in any unit.  A value
0.01 below it counts as missing, and when divided by 100 as large. -/
theorem C117_refuted : ¬ C117_full := by
  intro h
  have hr : gapDict.Rows 2 := ⟨by decide, by decide, by decide, by decide⟩
  have hr' : gapOther.Rows 2 := ⟨by decide, by decide, by decide, by decide⟩
  have := h ratMachine (fun _ => 1 / 100) gapDict gapOther 2 2 1000 6 6 id id id id _ _ _ _ bentCfg [] [] ["x"] 1 1 1
    (fun _ => by norm_num) hr (by decide) hr' (by decide) (by decide) (by decide) (by
    intro p hp v hv
    have : v ≤ 1 := by
      simp only [gapDict, gapOther, List.cons_append, List.nil_append, List.mem_cons, List.not_mem_nil, or_false] at hp
      rcases hp with rfl | rfl
      · simp only [List.mem_cons, List.not_mem_nil, or_false, Fl.num.injEq, reduceCtorEq, false_or] at hv
        exact hv.le
      · simp only [List.mem_cons, List.not_mem_nil, or_false, Fl.num.injEq] at hv
        rcases hv with rfl | rfl <;> norm_num
    constructor <;> linarith)
    (fun _ => List.Perm.refl _) (fun _ => List.Perm.refl _) (fun _ => List.Perm.refl _) (fun _ => List.Perm.refl _)
    (Dict.made_eq (by decide +kernel)) (Dict.made_eq (by decide +kernel)) (Dict.made_eq (by decide +kernel))
    (Dict.made_eq (by decide +kernel)) (by decide +kernel)
  have := congrArg (fun r => match r with | .ok (.ok l) => decide (l[0]? = l[1]?) | _ => true) this
  revert this
  decide +kernel

end Gbdt
