import Verif.Model.PyForest
import Verif.Props.Json

/-!
# C185: a forest and its string in Python
-/

set_option autoImplicit false
set_option linter.unusedSectionVars false

namespace Gbdt

section strings
variable {D A N : Type} [Dbl D] [LinearOrder A]

/-- `Forest(str(forest))`. -/
def viaStr (v : PyVersion) (nc : NumCodec D A N) (zero : A) (printJson : Json N → Text) (parseJson : Text → Option (Json N)) (f : ForestMsg D A) :
    Except PyErr (ForestMsg D A) :=
  match strForest v nc printJson f with
  | .ok s => newForest nc zero parseJson (.string s)
  | .error e => .error e

/-- The forest can be saved, and protobuf reads the text that it wrote. -/
structure Writable (nc : NumCodec D A N) (printJson : Json N → Text) (parseJson : Text → Option (Json N)) (f : ForestMsg D A) : Prop where
  exact : nc.Exact
  set : ∀ t ∈ f.trees, t ≠ .absent
  depth : ∀ t ∈ f.trees, treeNesting t ≤ 64
  text : ∀ j, forestToJson nc 64 f = .ok j → parseJson (printJson j) = some j

theorem newForest_text {nc : NumCodec D A N} (zero : A) {printJson : Json N → Text} {parseJson : Text → Option (Json N)} {f : ForestMsg D A}
    (h : Writable nc printJson parseJson f) {j : Json N} (hj : forestToJson nc 64 f = .ok j) :
    newForest nc zero parseJson (.string (.text (printJson j))) = .ok f := by
  have := C99_roundtrip h.exact zero (limit' := 100) f h.set (fun t ht => le_trans (h.depth t ht) (by norm_num)) hj
  simp only [newForest, h.text j hj, this]

/-- **C185 (partial).** In Python 3 a forest can be made from its string.  Missing: Python 2.7, which the package is for. -/
theorem C185_three_partial {nc : NumCodec D A N} (zero : A) {printJson : Json N → Text} {parseJson : Text → Option (Json N)} {f : ForestMsg D A}
    (h : Writable nc printJson parseJson f) : viaStr .three nc zero printJson parseJson f = .ok f := by
  obtain ⟨j, hj⟩ := (C99_saving nc 64 f).mpr h.depth
  simp only [viaStr, strForest, asJson, hj, pyStr]
  exact newForest_text zero h hj

/-- **C185 (partial).** In Python 2.7 it can be made from `unicode(forest)`, whatever the names of features and categories. -/
theorem C185_unicode_partial {nc : NumCodec D A N} (zero : A) {printJson : Json N → Text} {parseJson : Text → Option (Json N)} {f : ForestMsg D A}
    (h : Writable nc printJson parseJson f) :
    ∃ t, asJson nc printJson f = .ok t ∧ newForest nc zero parseJson (.string (pyText t)) = .ok f := by
  obtain ⟨j, hj⟩ := (C99_saving nc 64 f).mpr h.depth
  refine ⟨printJson j, by simp only [asJson, hj], newForest_text zero h hj⟩

/-- **C185 refuted.** In Python 2.7 `Forest(str(forest))` raises an exception for every forest: `TypeError`, or already `UnicodeEncodeError` if a name
has a character outside ASCII. -/
theorem C185_refuted_always (nc : NumCodec D A N) (zero : A) (printJson : Json N → Text) (parseJson : Text → Option (Json N)) (f : ForestMsg D A) :
    ∃ e, viaStr .two nc zero printJson parseJson f = .error e := by
  unfold viaStr
  cases hs : strForest .two nc printJson f with
  | error e => exact ⟨e, rfl⟩
  | ok s =>
    unfold strForest at hs
    cases ht : asJson nc printJson f with
    | error e =>
      rw [ht] at hs
      cases hs
    | ok t =>
      rw [ht] at hs
      simp only [pyStr] at hs
      split at hs
      · cases hs
        exact ⟨.typeError, rfl⟩
      · cases hs

end strings

/-- **C185 in full.** `Forest(str(forest))` is the same forest. -/
def C185_full : Prop :=
  ∀ (v : PyVersion) (printJson : Json (ℚ ⊕ Nat) → Text) (parseJson : Text → Option (Json (ℚ ⊕ Nat))) (f : ForestMsg ℚ ℚ),
    Writable plainCodec printJson parseJson f → viaStr v plainCodec 0 printJson parseJson f = .ok f

/-- The JSON of `jsonTree`. -/
def jsonTreeValue : Json (ℚ ⊕ Nat) :=
  match forestToJson plainCodec 64 ⟨[jsonTree], ""⟩ with
  | .ok j => j
  | .error _ => .null

/-- It can be saved if the text of its JSON is read as this JSON. -/
theorem jsonTree_writable (t : Text) : Writable plainCodec (fun _ => t) (fun _ => some jsonTreeValue) ⟨[jsonTree], ""⟩ where
  exact := plainCodec_exact
  set := by decide
  depth := by decide
  text := by
    intro j hj
    unfold jsonTreeValue
    rw [hj]

/-- **C185 refuted.** -/
theorem C185_refuted : ¬ C185_full := by
  intro h
  have h1 := h .two _ _ _ (jsonTree_writable ['{', '}'])
  obtain ⟨e, he⟩ := C185_refuted_always plainCodec 0 (fun _ => ['{', '}']) (fun _ => some jsonTreeValue) (⟨[jsonTree], ""⟩ : ForestMsg ℚ ℚ)
  rw [he] at h1
  cases h1

example : viaStr .three plainCodec 0 (fun _ => ['{', '}']) (fun _ => some jsonTreeValue) ⟨[jsonTree], ""⟩ = .ok ⟨[jsonTree], ""⟩ :=
  C185_three_partial 0 (jsonTree_writable _)

/-- A name outside ASCII: already `str(forest)` raises. -/
example : strForest .two plainCodec (fun _ => ['é']) (⟨[jsonTree], ""⟩ : ForestMsg ℚ ℚ) = .error .valueError := by
  rfl

end Gbdt
