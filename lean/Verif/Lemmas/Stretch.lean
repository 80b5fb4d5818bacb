import Verif.Spec.Stretch
import Verif.Lemmas.Alike
import Verif.Props.PipelineCli

/-!
# Runs of training whose numbers correspond
-/

set_option autoImplicit false
set_option linter.unusedSectionVars false

namespace Gbdt
open Outcome

variable {D A : Type} [Dbl D] {m : Stretch D}

/-- The data with gradient and hessian replaced. -/
def Stretch.gd (m : Stretch D) (d : GD D) : GD D := ⟨m.grad d.g, m.hess d.h⟩

/-- A split with its gain replaced. -/
def Stretch.split (m : Stretch D) (s : Split D A) : Split D A := { s with gain := m.gain s.gain }

section gd

theorem Stretch.Ok.zero (hm : m.Ok) : m.gd GD.zero = GD.zero := by
  simp [Stretch.gd, GD.zero, hm.grad_zero, hm.hess_zero]

theorem Stretch.Ok.add (hm : m.Ok) (a b : GD D) : (m.gd a).add (m.gd b) = m.gd (a.add b) := by
  simp [Stretch.gd, GD.add, hm.grad_add, hm.hess_add]

theorem Stretch.Ok.sub (hm : m.Ok) (a b : GD D) : (m.gd a).sub (m.gd b) = m.gd (a.sub b) := by
  simp [Stretch.gd, GD.sub, hm.grad_sub, hm.hess_sub]

theorem Stretch.Ok.energy_eq (hm : m.Ok) (a : GD D) (l : D) : (m.gd a).energy (m.hess l) = m.gain (a.energy l) := by
  unfold GD.energy Stretch.gd
  simp only [← hm.hess_add, hm.hess_eq]
  split
  · rw [hm.gain_zero]
  · exact hm.energy _ _ (by simpa using ‹¬ Dbl.eqb (a.h + l) 0 = true›)

theorem Stretch.Ok.score_eq (hm : m.Ok) (a : GD D) (l : D) : (m.gd a).score (m.hess l) = m.score (a.score l) := by
  unfold GD.score Stretch.gd
  simp only [← hm.hess_add, hm.hess_eq]
  split
  · rw [hm.score_zero]
  · exact hm.newton _ _ (by simpa using ‹¬ Dbl.eqb (a.h + l) 0 = true›)

theorem Stretch.Ok.min (hm : m.Ok) (a b : D) : Dbl.min (m.hess a) (m.hess b) = m.hess (Dbl.min a b) := by
  unfold Dbl.min
  rw [hm.hess_lt]
  split <;> rfl

theorem Stretch.Ok.max (hm : m.Ok) (a b : D) : Dbl.max (m.gain a) (m.gain b) = m.gain (Dbl.max a b) := by
  unfold Dbl.max
  rw [hm.gain_lt]
  split <;> rfl

end gd

/-- The regularization and the limits of two runs. -/
structure StretchCfg (m : Stretch D) (c c' : SplitConfig D) : Prop where
  l2 : c'.l2Lambda = m.hess c.l2Lambda
  minHessian : c'.minHessian = m.hess c.minHessian
  least : Dbl.max c'.minGain c'.tol = m.gain (Dbl.max c.minGain c.tol)

section scan
variable {c c' : SplitConfig D}

theorem stretch_gainOr (hm : m.Ok) (hc : StretchCfg m c c') (total left right : GD D) (x : D) :
    gainOr c' (m.gd total) (m.gd left) (m.gd right) (m.gain x) = m.gain (gainOr c total left right x) := by
  unfold gainOr
  rw [hc.minHessian, hc.l2]
  have e : Dbl.min (m.gd left).h (m.gd right).h = m.hess (Dbl.min left.h right.h) := hm.min _ _
  rw [e, hm.hess_lt]
  split
  · rw [hm.energy_eq, hm.energy_eq, hm.energy_eq, hm.gain_sub, hm.gain_add]
  · rfl

theorem stretch_positionGain (hm : m.Ok) (hc : StretchCfg m c c') (total : GD D) (missing : Option (GD D)) (left : GD D) :
    positionGain c' (m.gd total) (missing.map m.gd) (m.gd left) =
      (m.gain (positionGain c total missing left).1, (positionGain c total missing left).2) := by
  have h0 := stretch_gainOr hm hc total left (total.sub left) 0
  rw [hm.gain_zero] at h0
  cases missing with
  | none =>
    simp only [positionGain, Option.map_none, hm.sub, h0]
  | some d =>
    simp only [positionGain, Option.map_some, hm.sub, hm.add, h0]
    have e : Dbl.min (m.gd (left.sub d)).h (m.gd ((total.sub left).add d)).h =
      m.hess (Dbl.min (left.sub d).h ((total.sub left).add d).h) := hm.min _ _
    rw [e, hc.minHessian, hm.hess_lt, hc.l2, hm.energy_eq, hm.energy_eq, hm.energy_eq, ← hm.gain_add, ← hm.gain_sub, hm.gain_lt]
    split
    · split <;> rfl
    · rfl

/-- A split point with its gain replaced. -/
def Stretch.point (m : Stretch D) (sp : SplitPoint D) : SplitPoint D := { sp with gain := m.gain sp.gain }

theorem stretch_keepBetter (hm : m.Ok) (hc : StretchCfg m c c') (i : Nat) (r : D × Bool) (sp : SplitPoint D) :
    keepBetter c' i (m.gain r.1, r.2) (m.point sp) = m.point (keepBetter c i r sp) := by
  unfold keepBetter Stretch.point
  simp only [hc.least, hm.max, hm.gain_lt]
  split <;> rfl

theorem stretch_scanPoints (hm : m.Ok) (hc : StretchCfg m c c') (total : GD D) (missing : Option (GD D)) : ∀ (ds : List (GD D)) (i : Nat)
    (left : GD D) (sp : SplitPoint D), scanPoints c' (m.gd total) (missing.map m.gd) i (m.gd left) (ds.map m.gd) (m.point sp) =
      m.point (scanPoints c total missing i left ds sp)
  | [], _, _, _ => rfl
  | d :: ds, i, left, sp => by
    rw [List.map_cons, scanPoints, scanPoints, hm.add]
    rw [stretch_positionGain hm hc, stretch_keepBetter hm hc, ← stretch_scanPoints hm hc total missing ds]
    congr 1
    split <;> rfl

theorem stretch_findPoint (hm : m.Ok) (hc : StretchCfg m c c') (total : GD D) (missing : Option (GD D)) (ds : List (GD D)) :
    findBestSplitPoint c' (m.gd total) (missing.map m.gd) (ds.map m.gd) = m.point (findBestSplitPoint c total missing ds) := by
  unfold findBestSplitPoint
  rw [← stretch_scanPoints hm hc, hm.zero]
  simp only [Stretch.point, hm.gain_zero]

end scan

/-! ## Histograms -/

/-- The weighted gradients and hessians of the rows correspond. -/
structure StretchData (m : Stretch D) (w w' : Nat → D) (grads grads' : List (GD D)) : Prop where
  length : grads'.length = grads.length
  data : ∀ i d d', grads[i]? = some d → grads'[i]? = some d' → w' i * d'.g = m.grad (w i * d.g) ∧ w' i * d'.h = m.hess (w i * d.h)

theorem vecGet_map {α β : Type} (f : α → β) (l : List α) (i : Nat) : OutRel (fun a b => b = f a) (vecGet l i) (vecGet (l.map f) i) := by
  unfold Outcome.vecGet
  rw [List.getElem?_map]
  cases l[i]? with
  | none => exact .ub
  | some a => exact .ok rfl

theorem mapM_outMap {α β γ : Type} {f : α → Outcome β} {f' : α → Outcome γ} {φ : β → γ} : ∀ {l : List α},
    (∀ a ∈ l, OutRel (fun b c => c = φ b) (f a) (f' a)) → OutRel (fun x y => y = x.map φ) (l.mapM f) (l.mapM f')
  | [], _ => .ok rfl
  | a :: l, h => by
    rw [List.mapM_cons, List.mapM_cons]
    refine OutRel.bind (h a (by simp)) ?_
    rintro b _ rfl
    refine OutRel.bind (mapM_outMap (fun a ha => h a (by simp [ha]))) ?_
    rintro x _ rfl
    exact .ok rfl

theorem foldlM_map {α β γ : Type} {f : β → α → Outcome β} {f' : γ → α → Outcome γ} {φ : β → γ}
    (h : ∀ b a, OutRel (fun x y => y = φ x) (f b a) (f' (φ b) a)) : ∀ (l : List α) (b : β),
    OutRel (fun x y => y = φ x) (l.foldlM f b) (l.foldlM f' (φ b))
  | [], _ => .ok rfl
  | a :: l, b => by
    rw [List.foldlM_cons, List.foldlM_cons]
    refine OutRel.bind (h b a) ?_
    rintro b' _ rfl
    exact foldlM_map h l b'

section hist
variable {w w' : Nat → D} {grads grads' : List (GD D)}

theorem StretchData.get (h : StretchData m w w' grads grads') (i : Nat) :
    OutRel (fun d d' => w' i * d'.g = m.grad (w i * d.g) ∧ w' i * d'.h = m.hess (w i * d.h)) (vecGet grads i) (vecGet grads' i) := by
  unfold Outcome.vecGet
  cases h1 : grads[i]? with
  | none =>
    have : grads'[i]? = none := by
      rw [List.getElem?_eq_none_iff] at h1 ⊢
      rw [h.length]; exact h1
    rw [this]
    exact .ub
  | some d =>
    cases h2 : grads'[i]? with
    | none =>
      rw [List.getElem?_eq_none_iff, h.length, ← List.getElem?_eq_none_iff, h1] at h2
      cases h2
    | some d' => exact .ok (h.data i d d' h1 h2)

theorem stretch_histogram (hm : m.Ok) (h : StretchData m w w' grads grads') (codes : List Nat) (maxInt : Nat) (S : List Nat) :
    OutRel (fun a b => b = a.map m.gd) (histogramOf codes maxInt w grads S) (histogramOf codes maxInt w' grads' S) := by
  unfold histogramOf
  have e : List.replicate maxInt (GD.zero : GD D) = (List.replicate maxInt (GD.zero : GD D)).map m.gd := by
    rw [List.map_replicate, hm.zero]
  conv => arg 3; rw [e]
  refine foldlM_map (φ := fun l : List (GD D) => l.map m.gd) ?_ S _
  intro b i
  unfold histStep
  refine OutRel.bind (OutRel.refl _) ?_
  rintro c _ rfl
  refine OutRel.bind (vecGet_map m.gd b c) ?_
  rintro x _ rfl
  refine OutRel.bind (h.get i) ?_
  rintro d d' ⟨h1, h2⟩
  refine .ok ?_
  rw [h1, h2, List.map_set]
  simp only [Stretch.gd, hm.grad_add, hm.hess_add]

theorem stretch_nonZero (hm : m.Ok) (h : List (GD D)) : nonZeroValues (h.map m.gd) = nonZeroValues h := by
  unfold nonZeroValues
  rw [List.length_map]
  refine List.filter_congr (fun i _ => ?_)
  rw [List.getElem?_map]
  cases h[i]? with
  | none => rfl
  | some d => simp only [Option.map_some, Stretch.gd, hm.grad_eq, hm.hess_eq]

theorem stretch_histData (h : List (GD D)) (values : List Nat) :
    OutRel (fun a b => b = a.map m.gd) (histData h values) (histData (h.map m.gd) values) :=
  mapM_outMap (fun v _ => vecGet_map m.gd h v)

theorem stretch_missing (hm : m.Ok) (h : List (GD D)) :
    OutRel (fun a b => b = a.map m.gd) (missingData h) (missingData (h.map m.gd)) := by
  unfold missingData
  refine OutRel.bind (vecGet_map m.gd h 0) ?_
  rintro d _ rfl
  refine .ok ?_
  simp only [Stretch.gd, hm.grad_eq, hm.hess_eq]
  split <;> rfl

end hist

section find
variable [LinearOrder A] [ThrOps A] {w w' : Nat → D} {grads grads' : List (GD D)} {c c' : SplitConfig D}

theorem stretch_findFloat (hm : m.Ok) (h : StretchData m w w' grads grads') (hc : StretchCfg m c c') (col : BktCol A) (S : List Nat) (total : GD D) :
    OutRel (fun a b => b = a.map m.split) (findBestFloatSplit col w grads S c total) (findBestFloatSplit col w' grads' S c' (m.gd total)) := by
  unfold findBestFloatSplit
  refine OutRel.bind (OutRel.refl _) ?_
  rintro codes _ rfl
  refine OutRel.bind (stretch_histogram hm h codes col.maxInt S) ?_
  rintro hist _ rfl
  simp only [stretch_nonZero hm]
  refine OutRel.bind (stretch_histData hist _) ?_
  rintro data _ rfl
  refine OutRel.bind (stretch_missing hm hist) ?_
  rintro missing _ rfl
  simp only [stretch_findPoint hm hc, Stretch.point]
  cases (findBestSplitPoint c total missing data).leftPoint with
  | none => exact .ok rfl
  | some p =>
    simp only
    refine OutRel.bind (OutRel.refl _) ?_
    rintro lc _ rfl
    refine OutRel.bind (OutRel.refl _) ?_
    rintro rc _ rfl
    refine OutRel.bind (OutRel.refl _) ?_
    rintro t _ rfl
    exact .ok rfl

theorem stretch_findString (hm : m.Ok) (h : StretchData m w w' grads grads') (hc : StretchCfg m c c') {sort : (Nat → D) → List Nat → List Nat}
    (hsort : ∀ key l, sort (fun v => m.score (key v)) l = sort key l) (col : StrCol) (S : List Nat) (total : GD D) :
    OutRel (fun a b => b = a.map m.split) (findBestStringSplit (A := A) sort col w grads S c total)
      (findBestStringSplit sort col w' grads' S c' (m.gd total)) := by
  unfold findBestStringSplit
  refine OutRel.bind (OutRel.refl _) ?_
  rintro codes _ rfl
  refine OutRel.bind (stretch_histogram hm h codes col.maxInt S) ?_
  rintro hist _ rfl
  have hval : sort (fun v => match (hist.map m.gd)[v]? with
      | some (d : GD D) => d.score c'.l2Lambda
      | none => (0 : D)) (nonZeroValues (hist.map m.gd)) = sort (fun v => match hist[v]? with
      | some (d : GD D) => d.score c.l2Lambda
      | none => (0 : D)) (nonZeroValues hist) := by
    rw [stretch_nonZero hm, ← hsort (fun v => match hist[v]? with
      | some (d : GD D) => d.score c.l2Lambda
      | none => (0 : D))]
    congr 1
    funext v
    rw [List.getElem?_map]
    cases hist[v]? with
    | none => simp only [Option.map_none, hm.score_zero]
    | some d => simp only [Option.map_some, hc.l2, hm.score_eq]
  extract_lets values values'
  have hv : values' = values := hval
  rw [hv]
  clear_value values
  refine OutRel.bind (stretch_histData hist _) ?_
  rintro data _ rfl
  have := stretch_findPoint hm hc total none data
  rw [Option.map_none] at this
  simp only [this, Stretch.point]
  cases (findBestSplitPoint c total none data).leftPoint with
  | none => exact .ok rfl
  | some p => exact .ok rfl

theorem stretch_find (hm : m.Ok) (h : StretchData m w w' grads grads') (hc : StretchCfg m c c') {sort : (Nat → D) → List Nat → List Nat}
    (col : Column A) (hsort : col.type = .string → ∀ key l, sort (fun v => m.score (key v)) l = sort key l) (S : List Nat) (total : GD D) :
    OutRel (fun a b => b = a.map m.split) (findBestSplit sort col w grads S c total) (findBestSplit sort col w' grads' S c' (m.gd total)) := by
  unfold findBestSplit
  cases col with
  | str col => exact stretch_findString hm h hc (hsort rfl) col S total
  | bkt col => exact stretch_findFloat hm h hc col S total
  | raw col => exact .ok rfl

end find

/-! ## Growing a tree -/

section fit
variable [LinearOrder A] [ThrOps A]

/-- What growing a tree is given in the two runs. -/
structure StretchFit (m : Stretch D) (e e' : FitEnv D A) : Prop where
  rest : e' = { e with w := e'.w, grads := e'.grads }
  data : StretchData m e.w e'.w e.grads e'.grads
  rnd : ∀ x, e.rnd32 (m.score x) = m.score (e.rnd32 x)
  top : ∀ n gains, e.top n (gains.map m.gain) = e.top n gains
  sort : (∃ f ∈ e.features, f.2.type = .string) → ∀ key l, e.sort (fun v => m.score (key v)) l = e.sort key l

/-- Configurations of two runs. -/
structure StretchFitCfg (m : Stretch D) (c c' : FitConfig D) : Prop where
  rest : c' = { c with toSplitConfig := c'.toSplitConfig }
  split : StretchCfg m c.toSplitConfig c'.toSplitConfig

theorem stretch_sliceSum (hm : m.Ok) {w w' : Nat → D} {grads grads' : List (GD D)} (h : StretchData m w w' grads grads') (S : List Nat) :
    OutRel (fun a b => b = m.gd a) (sliceSum w grads S) (sliceSum w' grads' S) := by
  unfold sliceSum
  have := foldlM_map (φ := m.gd) (f := fun total i => do
    let d ← Outcome.vecGet grads i
    pure (GD.add total (d.scale (w i)))) (f' := fun total i => do
    let d ← Outcome.vecGet grads' i
    pure (GD.add total (d.scale (w' i)))) (fun b i => by
      refine OutRel.bind (h.get i) ?_
      rintro d d' ⟨h1, h2⟩
      refine .ok ?_
      rw [← hm.add]
      congr 1
      simp only [GD.scale, Stretch.gd, h1, h2]) S GD.zero
  rw [hm.zero] at this
  exact this

theorem stretch_foldl (hm : m.Ok) : ∀ (l : List (GD D)) (a : GD D), (l.map m.gd).foldl GD.add (m.gd a) = m.gd (l.foldl GD.add a)
  | [], _ => rfl
  | d :: l, a => by rw [List.map_cons, List.foldl_cons, hm.add, stretch_foldl hm l, List.foldl_cons]

theorem stretch_weightedSum (hm : m.Ok) {w w' : Nat → D} {grads grads' : List (GD D)} (h : StretchData m w w' grads grads') (nt : Int) (S : List Nat) :
    OutRel (fun a b => b = m.gd a) (weightedSum nt w grads S) (weightedSum nt w' grads' S) := by
  unfold weightedSum
  refine OutRel.bind (OutRel.refl _) ?_
  rintro slices _ rfl
  refine OutRel.bind (mapM_outMap (fun s _ => stretch_sliceSum hm h s)) ?_
  rintro totals _ rfl
  refine .ok ?_
  conv => lhs; rw [← hm.zero]
  exact stretch_foldl hm _ _

theorem stretch_bestIndex (hm : m.Ok) (gains : List D) : ∀ (fuel i best : Nat),
    bestIndexFrom (gains.map m.gain) fuel i best = bestIndexFrom gains fuel i best
  | 0, _, _ => rfl
  | fuel + 1, i, best => by
    refine OutRel.eq ?_
    rw [bestIndexFrom, bestIndexFrom]
    refine OutRel.bind (r := fun b a => b = m.gain a) ?_ ?_
    · have := vecGet_map m.gain gains i
      generalize vecGet gains i = x at this
      generalize vecGet (gains.map m.gain) i = y at this
      cases this with
      | ok h => exact .ok h
      | ub => exact .ub
      | fatal => exact .fatal
    · rintro _ g rfl
      refine OutRel.bind (r := fun b a => b = m.gain a) ?_ ?_
      · have := vecGet_map m.gain gains best
        generalize vecGet gains best = x at this
        generalize vecGet (gains.map m.gain) best = y at this
        cases this with
        | ok h => exact .ok h
        | ub => exact .ub
        | fatal => exact .fatal
      · rintro _ b rfl
        rw [hm.gain_lt, stretch_bestIndex hm gains fuel]
        exact OutRel.refl _

theorem stretch_nameCategories (col : Column A) (s : Split D A) :
    OutRel (fun a b => b = m.split a) (nameCategories col s) (nameCategories col (m.split s)) := by
  unfold nameCategories Stretch.split
  simp only
  cases hs : s.catSplit with
  | none => exact .ok (by simp only [hs])
  | some cs =>
    cases col with
    | str col =>
      simp only
      refine OutRel.bind (OutRel.refl _) ?_
      rintro names _ rfl
      exact .ok rfl
    | bkt _ => exact .ub
    | raw _ => exact .ub

theorem stretch_bestFeature (hm : m.Ok) {e e' : FitEnv D A} (he : StretchFit m e e') {c c' : FitConfig D} (hc : StretchFitCfg m c c') (S : List Nat)
    (total : GD D) (p : Nat) : OutRel (fun a b => b = (a.1.map (fun x => (m.split x.1, x.2)), a.2)) (bestFeature e c S total p)
      (bestFeature e' c' S (m.gd total) p) := by
  have h1 : e'.toInt = e.toInt := by rw [he.rest]
  have h2 : e'.ofNat = e.ofNat := by rw [he.rest]
  have h3 : e'.draw = e.draw := by rw [he.rest]
  have h4 : e'.features = e.features := by rw [he.rest]
  have h5 : e'.sort = e.sort := by rw [he.rest]
  have h6 : c'.featureRate = c.featureRate := by rw [hc.rest]
  unfold bestFeature
  rw [h1, h2, h3, h4, h5, h6]
  refine OutRel.bind (OutRel.refl _) ?_
  rintro ⟨chosen, q⟩ _ rfl
  simp only
  refine OutRel.bind (mapM_outMap (φ := m.split) ?_) ?_
  · intro j _
    cases hj : vecGet e.features j with
    | ub => exact .ub
    | fatal => exact .fatal
    | ok f =>
      rw [vecGet_eq_ok] at hj
      simp only [ok_bind]
      refine OutRel.bind (stretch_find hm he.data hc.split f.2 (fun ht => he.sort ⟨f, List.mem_of_getElem? hj, ht⟩) S total) ?_
      rintro s _ rfl
      refine .ok ?_
      cases s with
      | none => simp only [Option.map_none, Option.getD_none, Stretch.split, hm.gain_zero]
      | some s => rfl
  · rintro splits _ rfl
    have hg : (splits.map m.split).map (·.gain) = (splits.map (·.gain)).map m.gain := by
      rw [List.map_map, List.map_map]; rfl
    rw [hg, stretch_bestIndex hm, List.length_map]
    refine OutRel.bind (OutRel.refl _) ?_
    rintro best _ rfl
    split
    · refine OutRel.bind (vecGet_map m.split splits best) ?_
      rintro s _ rfl
      have hpos : Dbl.ltb 0 (m.split s).gain = Dbl.ltb 0 s.gain := by
        have := hm.gain_lt 0 s.gain
        rw [hm.gain_zero] at this
        exact this
      rw [hpos]
      split
      · refine OutRel.bind (OutRel.refl _) ?_
        rintro j _ rfl
        refine OutRel.bind (OutRel.refl _) ?_
        rintro f _ rfl
        refine OutRel.bind (stretch_nameCategories (m := m) f.2 { s with feature := f.1 }) ?_
        rintro s1 _ rfl
        exact .ok rfl
      · exact .ok rfl
    · exact .ok rfl

theorem Stretch.tree_at (m : Stretch D) : ∀ (t : Tree D A) (p : List Bool), (m.tree t).at? p = (t.at? p).map m.tree
  | .absent, p => by cases p <;> rfl
  | .node s sp l r, [] => rfl
  | .node s sp l r, b :: p => by
    rw [Stretch.tree, Tree.at?, Tree.at?]
    split
    · exact m.tree_at r p
    · exact m.tree_at l p

theorem Stretch.tree_graft (m : Stretch D) : ∀ (t : Tree D A) (p : List Bool) (nl nr : Tree D A),
    (m.tree t).graft p (m.tree nl) (m.tree nr) = m.tree (t.graft p nl nr)
  | .absent, p, _, _ => by cases p <;> rfl
  | .node s sp l r, [], _, _ => rfl
  | .node s sp l r, b :: p, nl, nr => by
    rw [Stretch.tree, Tree.graft, Tree.graft]
    split
    · rw [m.tree_graft r p, Stretch.tree]
    · rw [m.tree_graft l p, Stretch.tree]

theorem Stretch.Ok.splitOf (hm : m.Ok) (t : Tree D A) : (m.tree t).splitOf = m.split t.splitOf := by
  cases t with
  | absent => simp only [Stretch.tree, Tree.splitOf, Stretch.split, hm.gain_zero]
  | node s sp l r =>
    cases sp with
    | none => simp only [Stretch.tree, Tree.splitOf, Stretch.split, hm.gain_zero, Option.map_none]
    | some sp => rfl

theorem stretch_partition (col : Column A) (s : Split D A) (S : List Nat) : partition col (m.split s) S = partition col s S := by
  unfold partition partitionColumn Stretch.split
  rfl

/-- A state of growing a tree with the numbers in the tree replaced. -/
def Stretch.state (m : Stretch D) (s : FitState D A) : FitState D A := { s with tree := m.tree s.tree }

theorem stretch_newNode (hm : m.Ok) {e e' : FitEnv D A} (he : StretchFit m e e') {c c' : FitConfig D} (hc : StretchFitCfg m c c') (total : GD D)
    (best : Option (Split D A × Column A)) :
    newNode e' c' (m.gd total) (best.map (fun x => (m.split x.1, x.2))) = m.tree (newNode e c total best) := by
  have hr : e'.rnd32 = e.rnd32 := by rw [he.rest]
  unfold newNode
  rw [hr, hc.split.l2, hm.score_eq, he.rnd, Stretch.tree]
  congr 1
  cases best with
  | none => rfl
  | some x =>
    simp only [Option.map_some]
    have hpos : Dbl.ltb 0 (m.split x.1).gain = Dbl.ltb 0 x.1.gain := by
      have := hm.gain_lt 0 x.1.gain
      rw [hm.gain_zero] at this
      exact this
    rw [hpos]
    split <;> rfl

theorem stretch_fitStart (hm : m.Ok) {e e' : FitEnv D A} (he : StretchFit m e e') {c c' : FitConfig D} (hc : StretchFitCfg m c c') (p : Nat) :
    OutRel (fun a b => b = m.state a) (fitStart e c p) (fitStart e' c' p) := by
  have h1 : e'.toInt = e.toInt := by rw [he.rest]
  have h2 : e'.ofNat = e.ofNat := by rw [he.rest]
  have h3 : e'.draw = e.draw := by rw [he.rest]
  have h4 : e'.numThreads = e.numThreads := by rw [he.rest]
  have h6 : c'.exampleRate = c.exampleRate := by rw [hc.rest]
  unfold fitStart
  rw [h1, h2, h3, h4, h6, he.data.length]
  refine OutRel.bind (OutRel.refl _) ?_
  rintro ⟨S, p1⟩ _ rfl
  refine OutRel.bind (stretch_weightedSum hm he.data _ S) ?_
  rintro total _ rfl
  refine OutRel.bind (stretch_bestFeature hm he hc S total p1) ?_
  rintro ⟨best, p2⟩ _ rfl
  refine .ok ?_
  simp only [stretch_newNode hm he hc, Stretch.state, Option.map_map]
  rfl

theorem stretch_fitStep (hm : m.Ok) {e e' : FitEnv D A} (he : StretchFit m e e') {c c' : FitConfig D} (hc : StretchFitCfg m c c')
    (s : FitState D A) (k : Nat) (d : NodeData A) (col : Column A) :
    OutRel (fun a b => b = m.state a) (fitStep e c s k d col) (fitStep e' c' (m.state s) k d col) := by
  have h4 : e'.numThreads = e.numThreads := by rw [he.rest]
  unfold fitStep
  rw [h4]
  simp only [Stretch.state]
  rw [m.tree_at]
  cases s.tree.at? d.path with
  | none => exact .ub
  | some t =>
    simp only [Option.map_some, ok_bind]
    rw [hm.splitOf, stretch_partition]
    refine OutRel.bind (OutRel.refl _) ?_
    rintro ⟨ls, rs⟩ _ rfl
    refine OutRel.bind (stretch_weightedSum hm he.data _ ls) ?_
    rintro lt _ rfl
    refine OutRel.bind (stretch_weightedSum hm he.data _ rs) ?_
    rintro rt _ rfl
    refine OutRel.bind (stretch_bestFeature hm he hc ls lt s.pos) ?_
    rintro ⟨lb, p1⟩ _ rfl
    refine OutRel.bind (stretch_bestFeature hm he hc rs rt p1) ?_
    rintro ⟨rb, p2⟩ _ rfl
    refine .ok ?_
    simp only [stretch_newNode hm he hc, m.tree_graft, Option.map_map]
    rfl

theorem stretch_gains (hm : m.Ok) (s : FitState D A) : queueGains (m.state s) = (queueGains s).map m.gain := by
  unfold queueGains Stretch.state
  simp only [List.map_map]
  refine List.map_congr_left (fun d _ => ?_)
  simp only [Function.comp, m.tree_at]
  cases s.tree.at? d.path with
  | none => simp only [Option.map_none, hm.gain_zero]
  | some t => simp only [Option.map_some, hm.splitOf]; rfl

theorem stretch_fitLoop (hm : m.Ok) {e e' : FitEnv D A} (he : StretchFit m e e') {c c' : FitConfig D} (hc : StretchFitCfg m c c') :
    ∀ (fuel : Nat) (s : FitState D A), OutRel (fun a b => b = m.state a) (fitLoop e c fuel s) (fitLoop e' c' fuel (m.state s))
  | 0, s => .ok rfl
  | fuel + 1, s => by
    have h1 : e'.top = e.top := by rw [he.rest]
    have h2 : c'.numLeaves = c.numLeaves := by rw [hc.rest]
    rw [fitLoop, fitLoop, stretch_gains hm, h1, he.top, h2]
    have hq : (m.state s).queue = s.queue := rfl
    have hs : (m.state s).step = s.step := rfl
    rw [hq, hs]
    split
    · simp only
      refine OutRel.bind (OutRel.refl _) ?_
      rintro d _ rfl
      cases d.feature with
      | none => exact .ok rfl
      | some col =>
        simp only
        refine OutRel.bind (stretch_fitStep hm he hc s _ d col) ?_
        rintro s1 _ rfl
        exact stretch_fitLoop hm he hc fuel s1
    · exact .ok rfl

/-- The tree of the second run is that of the first with its numbers replaced. -/
theorem stretch_fitTree (hm : m.Ok) {e e' : FitEnv D A} (he : StretchFit m e e') {c c' : FitConfig D} (hc : StretchFitCfg m c c') (p : Nat) :
    OutRel (fun a b => b = (m.tree a.1, a.2)) (fitTree e c p) (fitTree e' c' p) := by
  have h2 : c'.numLeaves = c.numLeaves := by rw [hc.rest]
  unfold fitTree
  rw [h2]
  refine OutRel.bind (stretch_fitStart hm he hc p) ?_
  rintro s _ rfl
  refine OutRel.bind (stretch_fitLoop hm he hc c.numLeaves s) ?_
  rintro s1 _ rfl
  exact .ok rfl

end fit

/-! ## Scores -/

section scores
variable [LinearOrder A] [ThrOps A]

theorem stretch_addToAll (hm : m.Ok) (x : D) (S : List Nat) (sc : List D) :
    OutRel (fun a b => b = a.map m.score) (addToAll x S sc) (addToAll (m.score x) S (sc.map m.score)) := by
  unfold addToAll
  refine foldlM_map (φ := fun l : List D => l.map m.score) ?_ S sc
  intro b i
  refine OutRel.bind (vecGet_map m.score b i) ?_
  rintro old _ rfl
  refine .ok ?_
  rw [← hm.score_add, List.map_set]

theorem Stretch.tree_isSet (m : Stretch D) (t : Tree D A) : (m.tree t).isSet = t.isSet := by
  cases t <;> rfl

theorem stretch_addSampleScores (hm : m.Ok) (cols : String → Option (Column A)) (c : D) : ∀ (t : Tree D A) (S : List Nat) (sc : List D),
    OutRel (fun a b => b = (a.1, a.2.map m.score)) (addSampleScores cols c t S sc)
      (addSampleScores cols (m.score c) (m.tree t) S (sc.map m.score))
  | .absent, S, sc => by
    rw [Stretch.tree, addSampleScores, addSampleScores]
    have : (0 : D) + m.score c = m.score (0 + c) := by rw [hm.score_add, hm.score_zero]
    rw [this]
    refine OutRel.bind (stretch_addToAll hm _ S sc) ?_
    rintro r _ rfl
    exact .ok rfl
  | .node score split left right, S, sc => by
    have hs := hm.splitOf (.node score split left right)
    rw [Stretch.tree] at hs ⊢
    rw [addSampleScores, addSampleScores, m.tree_isSet, hs]
    have hf : (m.split (Tree.node score split left right).splitOf).feature = (Tree.node score split left right).splitOf.feature := rfl
    rw [hf]
    split
    · cases cols (Tree.node score split left right).splitOf.feature with
      | none => exact .fatal
      | some col =>
        simp only
        rw [stretch_partition]
        refine OutRel.bind (OutRel.refl _) ?_
        rintro ⟨ls, rs⟩ _ rfl
        refine OutRel.bind (stretch_addSampleScores hm cols c left ls sc) ?_
        rintro ⟨ls1, sc1⟩ _ rfl
        refine OutRel.bind (stretch_addSampleScores hm cols c right rs sc1) ?_
        rintro ⟨rs1, sc2⟩ _ rfl
        exact .ok rfl
    · rw [← hm.score_add]
      refine OutRel.bind (stretch_addToAll hm _ S sc) ?_
      rintro r _ rfl
      exact .ok rfl

theorem stretch_addTreeScores (hm : m.Ok) (cols : String → Option (Column A)) (t : Tree D A) (c : D) : ∀ (slices : List (List Nat)) (sc : List D),
    OutRel (fun a b => b = (a.1, a.2.map m.score)) (addTreeScores cols t c slices sc)
      (addTreeScores cols (m.tree t) (m.score c) slices (sc.map m.score))
  | [], sc => .ok rfl
  | S :: slices, sc => by
    rw [addTreeScores, addTreeScores]
    refine OutRel.bind (stretch_addSampleScores hm cols c t S sc) ?_
    rintro ⟨s1, sc1⟩ _ rfl
    refine OutRel.bind (stretch_addTreeScores hm cols t c slices sc1) ?_
    rintro ⟨ss, sc2⟩ _ rfl
    exact .ok rfl

theorem stretch_addForestScores (hm : m.Ok) (cols : String → Option (Column A)) : ∀ (f : List (Tree D A)) (slices : List (List Nat)) (sc : List D),
    OutRel (fun a b => b = (a.1, a.2.map m.score)) (addForestScores cols f slices sc)
      (addForestScores cols (f.map m.tree) slices (sc.map m.score))
  | [], slices, sc => .ok rfl
  | t :: f, slices, sc => by
    rw [List.map_cons, addForestScores, addForestScores]
    have := stretch_addTreeScores hm cols t 0 slices sc
    rw [hm.score_zero] at this
    refine OutRel.bind this ?_
    rintro ⟨ss, sc1⟩ _ rfl
    exact stretch_addForestScores hm cols f ss sc1

theorem Stretch.tree_features (m : Stretch D) : ∀ t : Tree D A, treeFeatures (m.tree t) = treeFeatures t
  | .absent => rfl
  | .node score split left right => by
    simp only [Stretch.tree, treeFeatures, m.tree_features left, m.tree_features right]
    cases split <;> rfl

theorem Stretch.forest_features (m : Stretch D) (f : List (Tree D A)) : forestFeatures (f.map m.tree) = forestFeatures f := by
  unfold forestFeatures
  rw [List.flatMap_map]
  exact congrArg (fun g => List.flatMap g f) (funext m.tree_features)

theorem stretch_replicate (hm : m.Ok) (n : Nat) : (List.replicate n (0 : D)).map m.score = List.replicate n 0 := by
  rw [List.map_replicate, hm.score_zero]

theorem stretch_evaluateForest (hm : m.Ok) (cols : String → Option (Column A)) (n : Nat) (nt : Int) (f : List (Tree D A)) :
    OutRel (fun a b => b = (a.1, a.2.map (List.map m.score))) (evaluateForest cols n nt f) (evaluateForest cols n nt (f.map m.tree)) := by
  unfold evaluateForest
  rw [m.forest_features]
  cases loadFeatures cols (forestFeatures f) with
  | error e => exact .ok rfl
  | ok _ =>
    simp only
    refine OutRel.bind (OutRel.refl _) ?_
    rintro slices _ rfl
    have := stretch_addForestScores hm cols f slices (List.replicate n 0)
    rw [stretch_replicate hm] at this
    refine OutRel.bind this ?_
    rintro r _ rfl
    exact .ok rfl

theorem stretch_pyPredict (hm : m.Ok) (t : DataStore A) (f : List (Tree D A)) (nt : Int) :
    OutRel (AnswerRel (fun a b => b = a.map m.score)) (pyPredict (some t) f nt) (pyPredict (some t) (f.map m.tree) nt) := by
  unfold pyPredict
  simp only
  cases t.numRows with
  | ub => exact .ub
  | fatal => exact .fatal
  | ok n =>
    simp only
    have := stretch_evaluateForest hm t.getColumn n nt f
    generalize evaluateForest t.getColumn n nt f = x at this
    generalize evaluateForest t.getColumn n nt (f.map m.tree) = y at this
    cases this with
    | ub => exact .ub
    | fatal => exact .fatal
    | ok h =>
      subst h
      rename_i a
      obtain ⟨e, r⟩ := a
      have hr : (r.map (List.map m.score)).getD [] = (r.getD []).map m.score := by cases r <;> rfl
      simp only
      rw [hr]
      split
      · exact .ok (.ok rfl)
      · exact sameAnswer_raise _ (.ok (.ok rfl))

end scores

/-! ## Training -/

section train
variable [LinearOrder A] [ThrOps A]

theorem Stretch.Ok.shrink (hm : m.Ok) {rnd32 : D → D} (hr : ∀ x, rnd32 (m.score x) = m.score (rnd32 x)) (rate : D) : ∀ t : Tree D A,
    applyShrinkage rnd32 rate (m.tree t) = m.tree (applyShrinkage rnd32 rate t)
  | .absent => rfl
  | .node score split left right => by
    simp only [Stretch.tree, applyShrinkage, ← hm.score_mul, hr, hm.shrink hr rate left, hm.shrink hr rate right]

theorem Stretch.Ok.addRoot (hm : m.Ok) {rnd32 : D → D} (hr : ∀ x, rnd32 (m.score x) = m.score (rnd32 x)) (x : D) (t : Tree D A) :
    addRootScore rnd32 (m.score x) (m.tree t) = m.tree (addRootScore rnd32 x t) := by
  cases t with
  | absent => rfl
  | node s sp l r => simp only [Stretch.tree, addRootScore, ← hm.score_add, hr]

theorem Stretch.tree_clear (m : Stretch D) : ∀ t : Tree D A, clearInternal (m.tree t) = m.tree (clearInternal t)
  | .absent => rfl
  | .node score split left right => by
    simp only [Stretch.tree, clearInternal, m.tree_isSet, m.tree_clear left, m.tree_clear right]
    congr 1
    split
    · cases split <;> rfl
    · rfl

theorem Stretch.tree_single (m : Stretch D) (t : Tree D A) : isSingleNode (m.tree t) = isSingleNode t := by
  cases t with
  | absent => rfl
  | node s sp l r => simp only [Stretch.tree, isSingleNode, m.tree_isSet]

theorem Stretch.Ok.root (hm : m.Ok) (t : Tree D A) : rootScore (m.tree t) = m.score (rootScore t) := by
  cases t with
  | absent => exact hm.score_zero.symm
  | node s sp l r => rfl

theorem stretch_modify (hm : m.Ok) {rnd32 : D → D} (hr : ∀ x, rnd32 (m.score x) = m.score (rnd32 x)) (x : D) (f : List (Tree D A)) (q : Nat) :
    (f.map m.tree).modify q (addRootScore rnd32 (m.score x)) = (f.modify q (addRootScore rnd32 x)).map m.tree := by
  induction f generalizing q with
  | nil => simp
  | cons t f ih =>
    cases q with
    | zero => simp [hm.addRoot hr]
    | succ q => simp [ih]

/-- What training is given in the two runs. -/
structure StretchEnv (m : Stretch D) (features : List (String × Column A)) (e e' : TrainEnv D A) : Prop where
  rest : e' = { e with w := e'.w }
  rnd : ∀ x, e.rnd32 (m.score x) = m.score (e.rnd32 x)
  top : ∀ n gains, e.top n (gains.map m.gain) = e.top n gains
  diverged : ∀ x, e.diverged (m.score x) = e.diverged x
  sort : (∃ f ∈ features, f.2.type = .string) → ∀ key l, e.sort (fun v => m.score (key v)) l = e.sort key l

/-- Losses of the two runs. -/
structure StretchLoss {S : Type} (m : Stretch D) (n : Nat) (w w' : Nat → D) (loss loss' : LossFunc S D) : Prop where
  init : loss'.init n = loss.init n
  compute : ∀ s f, f.length = n → OutRel (fun a b => b.1 = a.1 ∧ b.2.1 = m.score a.2.1 ∧ StretchData m w w' a.2.2 b.2.2) (loss.compute s f)
    (loss'.compute s (f.map m.score))

/-- Configurations of the two runs. -/
structure StretchTrainCfg (m : Stretch D) (c c' : TrainConfig D) : Prop where
  rest : c' = { c with toSplitConfig := c'.toSplitConfig }
  split : StretchCfg m c.toSplitConfig c'.toSplitConfig

theorem stretch_initWithBase (hm : m.Ok) {features : List (String × Column A)} {e e' : TrainEnv D A} (he : StretchEnv m features e e') :
    ∀ (base forest : List (Tree D A)) (slices : List (List Nat)) (f : List D),
      OutRel (fun a b => b = (a.1.map m.tree, a.2.1, a.2.2.map m.score)) (initWithBase e base forest slices f)
        (initWithBase e' (base.map m.tree) (forest.map m.tree) slices (f.map m.score))
  | [], forest, slices, f => .ok rfl
  | t :: base, forest, slices, f => by
    have h1 : e'.columns = e.columns := by rw [he.rest]
    have h2 : e'.rnd32 = e.rnd32 := by rw [he.rest]
    rw [List.map_cons, initWithBase, initWithBase, h1, h2]
    have := stretch_addTreeScores hm e.columns t 0 slices f
    rw [hm.score_zero] at this
    refine OutRel.bind this ?_
    rintro ⟨ss, f1⟩ _ rfl
    simp only
    rw [m.tree_single, hm.root, stretch_modify hm he.rnd]
    have key : (if isSingleNode t = true then (forest.modify 0 (addRootScore e.rnd32 (rootScore t))).map m.tree
        else forest.map m.tree ++ [m.tree t]) =
        (if isSingleNode t = true then forest.modify 0 (addRootScore e.rnd32 (rootScore t)) else forest ++ [t]).map m.tree := by
      split
      · rfl
      · simp
    rw [key]
    exact stretch_initWithBase hm he base _ ss f1

variable {S : Type}

/-- A state of training with its numbers replaced. -/
def Stretch.train (m : Stretch D) (s : TrainState S D A) : TrainState S D A :=
  { s with forest := s.forest.map m.tree, f := s.f.map m.score }

theorem stretch_trainLoop (hm : m.Ok) {features : List (String × Column A)} {e e' : TrainEnv D A} (he : StretchEnv m features e e')
    {loss loss' : LossFunc S D} {N : Nat} (hl : StretchLoss m N e.w e'.w loss loss') {c c' : TrainConfig D} (hc : StretchTrainCfg m c c')
    (q : Nat) : ∀ (n : Nat) (s : TrainState S D A), s.f.length = N → OutRel (fun a b => b = (a.1, m.train a.2)) (trainLoop e loss features c q n s)
      (trainLoop e' loss' features c' q n (m.train s))
  | 0, s, _ => .ok rfl
  | n + 1, s, hf => by
    have h1 : e'.columns = e.columns := by rw [he.rest]
    have h2 : e'.rnd32 = e.rnd32 := by rw [he.rest]
    have h3 : e'.diverged = e.diverged := by rw [he.rest]
    have h4 : c'.shrinkage = c.shrinkage := by rw [hc.rest]
    rw [trainLoop, trainLoop, h1, h2, h3, h4]
    refine OutRel.bind (hl.compute s.loss s.f hf) ?_
    rintro ⟨ls, k, grads⟩ ⟨ls', k', grads'⟩ ⟨ha, hb, hd⟩
    simp only at ha hb hd
    subst ha hb
    simp only [he.diverged]
    split
    · exact .ok rfl
    · have hfit : StretchFit m (e.fit features grads) (e'.fit features grads') :=
        { rest := by unfold TrainEnv.fit; rw [he.rest]
          data := hd
          rnd := he.rnd
          top := he.top
          sort := he.sort }
      have hcfg : StretchFitCfg m c.fit c'.fit :=
        { rest := by unfold TrainConfig.fit; rw [hc.rest]
          split := hc.split }
      refine OutRel.bind (stretch_fitTree hm hfit hcfg s.pos) ?_
      rintro ⟨t, pos⟩ _ rfl
      simp only [hm.shrink he.rnd]
      refine OutRel.bind ((stretch_addTreeScores hm e.columns _ k s.slices s.f).and_left
        (q := fun r => r.2.length = s.f.length) (fun r hr => addTreeScores_length _ _ _ _ _ hr)) ?_
      rintro ⟨ss, f⟩ _ ⟨rfl, hlen⟩
      simp only
      have hforest : ((m.train s).forest ++ [m.tree (applyShrinkage e.rnd32 c.shrinkage t)]) =
          (s.forest ++ [applyShrinkage e.rnd32 c.shrinkage t]).map m.tree := by
        simp [Stretch.train]
      rw [hforest, stretch_modify hm he.rnd]
      exact stretch_trainLoop hm he hl hc q n _ (hlen.trans hf)

/-- The result of training with its numbers replaced. -/
def Stretch.result (m : Stretch D) (r : TrainResult D A) : TrainResult D A :=
  { r with forest := r.forest.map m.tree, f := r.f.map m.score }

theorem stretch_trainGBDT (hm : m.Ok) {e e' : TrainEnv D A} {names : List String}
    (he : ∀ features, loadFeatures e.columns names = .ok features → StretchEnv m features e e')
    (hcols : e' = { e with w := e'.w }) {loss loss' : LossFunc S D}
    (hl : StretchLoss m e.numRows e.w e'.w loss loss') {c c' : TrainConfig D} (hc : StretchTrainCfg m c c') (base : Option (List (Tree D A))) (p : Nat) :
    OutRel (fun a b => b = m.result a) (trainGBDT e loss names c base [] p)
      (trainGBDT e' loss' names c' (base.map (List.map m.tree)) [] p) := by
  have h1 : e'.columns = e.columns := by rw [hcols]
  have h2 : e'.ofNat = e.ofNat := by rw [hcols]
  have h3 : e'.numRows = e.numRows := by rw [hcols]
  have h4 : e'.numThreads = e.numThreads := by rw [hcols]
  have h5 : c'.groupColumn = c.groupColumn := by rw [hc.rest]
  have h6 : c'.numTrees = c.numTrees := by rw [hc.rest]
  have h7 : checkConfig (e.ofNat 1) c' = checkConfig (e.ofNat 1) c := by rw [hc.rest]; rfl
  unfold trainGBDT
  rw [h1, h2, h3, h4, h5, h6, h7, hl.init]
  split
  · exact .ok rfl
  · cases hload : loadFeatures e.columns names with
    | error x => exact .ok rfl
    | ok features =>
      have he := he features hload
      simp only
      refine OutRel.bind (OutRel.refl _) ?_
      rintro group _ rfl
      refine OutRel.bind (OutRel.refl _) ?_
      rintro init _ rfl
      cases init with
      | error x => exact .ok rfl
      | ok ls =>
        simp only
        refine OutRel.bind (OutRel.refl _) ?_
        rintro slices _ rfl
        have hbase : (base.map (List.map m.tree)).getD [] = (base.getD []).map m.tree := by cases base <;> rfl
        have hstart : ([] ++ [Tree.node 0 none .absent .absent] : List (Tree D A)) =
            ([] ++ [Tree.node 0 none .absent .absent] : List (Tree D A)).map m.tree := by
          simp [Stretch.tree, hm.score_zero]
        have := stretch_initWithBase hm he (base.getD []) ([] ++ [Tree.node 0 none .absent .absent]) slices (List.replicate e.numRows 0)
        rw [← hstart, stretch_replicate hm, ← hbase] at this
        refine OutRel.bind (this.and_left (q := fun r => r.2.2.length = e.numRows) (fun r hr => by
          rw [initWithBase_length _ _ _ _ _ hr, List.length_replicate])) ?_
        rintro ⟨forest, ss, f⟩ _ ⟨rfl, hlen⟩
        simp only
        refine OutRel.bind (stretch_trainLoop hm he hl hc _ c.numTrees.toNat ⟨forest, ss, f, ls, p⟩ hlen) ?_
        rintro ⟨stopped, s⟩ _ rfl
        simp only
        split
        · exact .ok rfl
        · refine .ok ?_
          simp only [Stretch.result, Stretch.train, List.map_map]
          congr 1
          exact List.map_congr_left (fun t _ => m.tree_clear t)

end train

/-! ## Pointwise losses -/

section point

/-- Pointwise losses of the two runs. -/
structure StretchPoint (m : Stretch D) (n : Nat) (e e' : PointLoss D) : Prop where
  init : pointInit e' n = pointInit e n
  row : ∀ i < n, ∀ f, e'.w i * (e'.lossFn (e'.y i) (m.score f)).2.1 = m.grad (e.w i * (e.lossFn (e.y i) f).2.1) ∧
    e'.w i * (e'.lossFn (e'.y i) (m.score f)).2.2 = m.hess (e.w i * (e.lossFn (e.y i) f).2.2)
  blank : ∀ i < n, e'.w i * 0 = m.grad (e.w i * 0) ∧ e'.w i * 0 = m.hess (e.w i * 0)
  converged : ∀ x, Dbl.ltb e'.threshold (e'.fabs (m.score x)) = Dbl.ltb e.threshold (e.fabs x)

theorem StretchData.set {w w' : Nat → D} {grads grads' : List (GD D)} (h : StretchData m w w' grads grads') (i : Nat) (d d' : GD D)
    (hd : w' i * d'.g = m.grad (w i * d.g) ∧ w' i * d'.h = m.hess (w i * d.h)) : StretchData m w w' (grads.set i d) (grads'.set i d') where
  length := by simp [h.length]
  data := by
    intro j x x' hx hx'
    rw [List.getElem?_set] at hx hx'
    split at hx
    · next hij =>
      subst hij
      split at hx
      · cases hx
        rw [if_pos rfl] at hx'
        split at hx'
        · cases hx'
          exact hd
        · cases hx'
      · cases hx
    · next hij =>
      rw [if_neg hij] at hx'
      exact h.data j x x' hx hx'

theorem stretch_pointSlice (hm : m.Ok) {e e' : PointLoss D} {n : Nat} (he : StretchPoint m n e e') {f : List D} (hf : f.length = n) (c : D) : ∀ (left i : Nat)
    (grads grads' : List (GD D)) (total : GD D), StretchData m e.w e'.w grads grads' →
    OutRel (fun a b => StretchData m e.w e'.w a.1 b.1 ∧ b.2 = m.gd a.2) (pointSlice e f c left i grads total)
      (pointSlice e' (f.map m.score) (m.score c) left i grads' (m.gd total))
  | 0, _, _, _, _, h => .ok ⟨h, rfl⟩
  | left + 1, i, grads, grads', total, h => by
    rw [pointSlice, pointSlice]
    refine OutRel.bind ((vecGet_map m.score f i).and_left (q := fun _ => i < n) (fun a ha => by
      rw [vecGet_eq_ok] at ha
      rw [← hf]
      exact (List.getElem?_eq_some_iff.mp ha).1)) ?_
    rintro fi _ ⟨rfl, hi⟩
    simp only [← hm.score_add, h.length]
    obtain ⟨h1, h2⟩ := he.row i hi (fi + c)
    split
    · have htot : (m.gd total).add (GD.scale (e'.w i) ⟨(e'.lossFn (e'.y i) (m.score (fi + c))).2.1, (e'.lossFn (e'.y i) (m.score (fi + c))).2.2⟩) =
          m.gd (total.add (GD.scale (e.w i) ⟨(e.lossFn (e.y i) (fi + c)).2.1, (e.lossFn (e.y i) (fi + c)).2.2⟩)) := by
        rw [← hm.add]
        congr 1
        simp only [GD.scale, Stretch.gd, h1, h2]
      rw [htot]
      exact stretch_pointSlice hm he hf c left (i + 1) _ _ _ (h.set i _ _ ⟨h1, h2⟩)
    · exact .ub

theorem stretch_pointSlices (hm : m.Ok) {e e' : PointLoss D} {n : Nat} (he : StretchPoint m n e e') {f : List D} (hf : f.length = n) (c : D) : ∀ (slices : List (Nat × Nat))
    (grads grads' : List (GD D)), StretchData m e.w e'.w grads grads' →
    OutRel (fun a b => StretchData m e.w e'.w a.1 b.1 ∧ b.2 = a.2.map m.gd) (pointSlices e f c slices grads)
      (pointSlices e' (f.map m.score) (m.score c) slices grads')
  | [], _, _, h => .ok ⟨h, rfl⟩
  | sl :: slices, grads, grads', h => by
    rw [pointSlices, pointSlices]
    have := stretch_pointSlice hm he hf c (sl.2 - sl.1) sl.1 grads grads' GD.zero h
    rw [hm.zero] at this
    refine OutRel.bind this ?_
    rintro ⟨g, t⟩ ⟨g', _⟩ ⟨h1, rfl⟩
    refine OutRel.bind (stretch_pointSlices hm he hf c slices g g' h1) ?_
    rintro ⟨g2, ts⟩ ⟨g2', _⟩ ⟨h2, rfl⟩
    exact .ok ⟨h2, rfl⟩

theorem stretch_pointLoop (hm : m.Ok) {e e' : PointLoss D} {n : Nat} (he : StretchPoint m n e e') (slices : List (Nat × Nat)) {f : List D} (hf : f.length = n) : ∀ (left : Nat) (c : D)
    (grads grads' : List (GD D)), StretchData m e.w e'.w grads grads' →
    OutRel (fun a b => b.1 = m.score a.1 ∧ StretchData m e.w e'.w a.2 b.2) (pointLoop e slices f left c grads)
      (pointLoop e' slices (f.map m.score) left (m.score c) grads')
  | 0, _, _, _, h => .ok ⟨rfl, h⟩
  | left + 1, c, grads, grads', h => by
    rw [pointLoop, pointLoop]
    refine OutRel.bind (stretch_pointSlices hm he hf c slices grads grads' h) ?_
    rintro ⟨g, ts⟩ ⟨g', _⟩ ⟨h1, rfl⟩
    simp only
    have hd : ((ts.map m.gd).foldl GD.add GD.zero).score 0 = m.score ((ts.foldl GD.add GD.zero).score 0) := by
      have := stretch_foldl hm ts GD.zero
      rw [hm.zero] at this
      rw [this]
      have := hm.score_eq (ts.foldl GD.add GD.zero) 0
      rw [hm.hess_zero] at this
      exact this
    rw [hd, he.converged, ← hm.score_add]
    split
    · exact stretch_pointLoop hm he slices hf left _ g g' h1
    · exact .ok ⟨rfl, h1⟩

theorem StretchPoint.loss (hm : m.Ok) {e e' : PointLoss D} {n : Nat} (he : StretchPoint m n e e') : StretchLoss m n e.w e'.w e.toLoss e'.toLoss where
  init := he.init
  compute := by
    intro s f hf
    show OutRel _ (pointCompute e s f) (pointCompute e' s (f.map m.score))
    unfold pointCompute
    have h0 : StretchData m e.w e'.w (List.replicate f.length ⟨0, 0⟩) (List.replicate (f.map m.score).length ⟨0, 0⟩) :=
      { length := by simp
        data := by
          intro i d d' hd hd'
          rw [List.getElem?_replicate] at hd hd'
          split at hd
          · cases hd
            split at hd'
            · cases hd'
              exact he.blank i (hf ▸ ‹i < f.length›)
            · cases hd'
          · cases hd }
    have := stretch_pointLoop hm he s hf 10 0 _ _ h0
    rw [hm.score_zero] at this
    refine OutRel.bind this ?_
    rintro ⟨c, g⟩ ⟨_, g'⟩ ⟨rfl, hg⟩
    exact .ok ⟨rfl, rfl, hg⟩

end point

/-! ## `train` -/

section py
variable [LinearOrder A] [ThrOps A]

omit [LinearOrder A] [ThrOps A] in
/-- The losses that look at one row at a time: whether targets must be 1 and -1, and the formula. -/
def pointFn (math : MathFns D) (name : String) : Option (Bool × (D → D → D × D × D)) :=
  if name = "mse" then some (false, mseLoss math)
  else if name = "logloss" then some (true, logLoss math)
  else if name = "huberized_hinge" then some (true, huberizedHinge math)
  else none

omit [ThrOps A] in
theorem withLoss_fn (mc : Machine D A) {c : Config D} (seed nt : Int) {b : Bool} {fn : D → D → D × D × D}
    (h : pointFn mc.math c.lossFunc = some (b, fn)) {R : Type} (k : ∀ S : Type, ((w y : Nat → D) → LossFunc S D) → Outcome R) :
    withLoss mc c seed nt k = some (k _ (fun w y => (mkPoint mc nt w y b fn).toLoss)) := by
  unfold pointFn at h
  split at h
  · next hn => cases h; simp [withLoss, hn]
  · split at h
    · next hn => cases h; simp [withLoss, hn]
    · split at h
      · next hn => cases h; simp [withLoss, hn]
      · cases h

/-- The machines of the two runs: they may differ in the two constants of the code. -/
structure StretchMachine (m : Stretch D) (mc mc' : Machine D A) : Prop where
  rest : mc' = { mc with threshold := mc'.threshold, tol := mc'.tol }
  rnd : ∀ x, mc.rnd32 (m.score x) = m.score (mc.rnd32 x)
  top : ∀ n gains, mc.top n (gains.map m.gain) = mc.top n gains
  diverged : ∀ x, mc.diverged (m.score x) = mc.diverged x
  listing : ∀ l x, x ∈ mc.listing l → x ∈ l

/-- The configurations of the two runs. -/
structure StretchConfig (m : Stretch D) (tol tol' : D) (c c' : Config D) : Prop where
  rest : c' = { c with l2Lambda := c'.l2Lambda, minHessian := c'.minHessian, minGain := c'.minGain }
  l2 : c'.l2Lambda = m.hess c.l2Lambda
  minHessian : c'.minHessian = m.hess c.minHessian
  least : Dbl.max c'.minGain tol' = m.gain (Dbl.max c.minGain tol)

omit [LinearOrder A] [ThrOps A] in
theorem StretchConfig.named {tol tol' : D} {c c' : Config D} (h : StretchConfig m tol tol' c c') (fl ct : List String) :
    StretchConfig m tol tol' { c with floatFeature := fl, catFeature := ct } { c' with floatFeature := fl, catFeature := ct } := by
  obtain ⟨h1, h2, h3, h4⟩ := h
  refine ⟨?_, h2, h3, h4⟩
  cases c
  cases c'
  simp only [Config.mk.injEq] at h1 ⊢
  simp only [h1, and_self]

omit [ThrOps A] in
theorem loadFeatures_found {cols : String → Option (Column A)} : ∀ {names : List String} {fs : List (String × Column A)},
    loadFeatures cols names = .ok fs → ∀ f ∈ fs, f.1 ∈ names ∧ cols f.1 = some f.2
  | [], fs, h, f, hf => by
    simp only [loadFeatures, Except.ok.injEq] at h
    rw [← h] at hf
    cases hf
  | name :: names, fs, h, f, hf => by
    rw [loadFeatures] at h
    split at h
    · cases h
    · next c hc =>
      split at h
      · cases h
      · next cs hcs =>
        cases h
        rcases List.mem_cons.mp hf with rfl | hf
        · exact ⟨by simp, hc⟩
        · obtain ⟨h1, h2⟩ := loadFeatures_found hcs f hf
          exact ⟨by simp [h1], h2⟩

theorem stretch_trainPyRun (hm : m.Ok) {mc mc' : Machine D A} (hmc : StretchMachine m mc mc') (t : DataStore A) {c c' : Config D}
    (hc : StretchConfig m mc.tol mc'.tol c c') {b : Bool} {fn : D → D → D × D × D} (hp : pointFn mc.math c.lossFunc = some (b, fn))
    {w w' y y' : Nat → D} (seed nt : Int)
    (hrows : ∀ n, t.numRows = ok n → StretchPoint m n (mkPoint mc nt w y b fn) (mkPoint mc' nt w' y' b fn)) (features : List String)
    (hsort : (∃ name ∈ features, ∃ col, t.getColumn name = some col ∧ col.type = .string) →
      ∀ key l, mc.sort (fun v => m.score (key v)) l = mc.sort key l) (base : Option (List (Tree D A))) :
    SameAnswer (fun f f' => f' = f.map m.tree) (trainPyRun mc t c w y base seed nt features)
      (trainPyRun mc' t c' w' y' (base.map (List.map m.tree)) seed nt features) := by
  unfold Gbdt.trainPyRun
  have hp' : pointFn mc'.math c'.lossFunc = some (b, fn) := by
    rw [hmc.rest, hc.rest]; exact hp
  rw [withLoss_fn mc seed nt hp, withLoss_fn mc' seed nt hp']
  simp only
  split
  · exact sameAnswer_raise _ .ub
  · have hl : mc'.listing = mc.listing := by rw [hmc.rest]
    rw [hl]
    cases hn : t.numRows with
    | ub => exact .ub
    | fatal => exact .fatal
    | ok n =>
      simp only [ok_bind]
      have hrest : mkEnv mc' t n w' seed nt = { mkEnv mc t n w seed nt with w := (mkEnv mc' t n w' seed nt).w } := by
        unfold mkEnv
        rw [hmc.rest]
      have hcfg : StretchTrainCfg m (c.train mc (mc.ofNat 1)) (c'.train mc' (mc'.ofNat 1)) :=
        { rest := by
            have h1 : mc'.ofNat = mc.ofNat := by rw [hmc.rest]
            unfold Config.train
            rw [hc.rest, h1]
          split := ⟨hc.l2, hc.minHessian, hc.least⟩ }
      refine OutRel.bind (stretch_trainGBDT hm (e := mkEnv mc t n w seed nt) (e' := mkEnv mc' t n w' seed nt) ?_ hrest
        ((hrows n hn).loss hm) hcfg base 0) ?_
      · intro fs hfs
        refine ⟨hrest, hmc.rnd, hmc.top, hmc.diverged, ?_⟩
        rintro ⟨f, hf, hty⟩
        obtain ⟨h1, h2⟩ := loadFeatures_found hfs f hf
        exact hsort ⟨f.1, hmc.listing _ _ h1, f.2, h2, hty⟩
      · rintro r _ rfl
        have hcode : (m.result r).code = r.code := rfl
        rw [hcode]
        split
        · exact .ok (.ok rfl)
        · exact sameAnswer_raise _ (.ok (.ok rfl))

omit [Dbl D] [LinearOrder A] [ThrOps A] in
theorem SameAnswer.andThen {α β α' β' : Type} {R : α → β → Prop} {r : α' → β' → Prop} {x : PyRes α} {y : PyRes β} {f : α → PyRes α'}
    {g : β → PyRes β'} (h : SameAnswer R x y) (hk : ∀ a b, R a b → SameAnswer r (f a) (g b)) : SameAnswer r (x.andThen f) (y.andThen g) := by
  cases h with
  | ub => exact .ub
  | fatal => exact .fatal
  | ok h =>
    cases h with
    | error => exact .ok .error
    | ok h => exact hk _ _ h

theorem stretch_pyTrain (hm : m.Ok) {mc mc' : Machine D A} (hmc : StretchMachine m mc mc') (t : DataStore A) {c c' : Config D}
    (hc : StretchConfig m mc.tol mc'.tol c c') {b : Bool} {fn : D → D → D × D × D} (hp : pointFn mc.math c.lossFunc = some (b, fn))
    {w w' y y' : List (Fl A)} (seed nt : Int) (hw : wrongLength (some t) w' = wrongLength (some t) w)
    (hy : wrongLength (some t) y' = wrongLength (some t) y) {R : (Nat → D) → (Nat → D) → Prop}
    (htar : SameAnswer R (trainPyTargets mc (some t) c y) (trainPyTargets mc' (some t) c' y'))
    (hrows : wrongLength (some t) w = ok false → wrongLength (some t) y = ok false → ∀ n, t.numRows = ok n → ∀ yf yf', R yf yf' →
      StretchPoint m n (mkPoint mc nt (if w = [] then fun _ => mc.ofNat 1 else vecFn mc w) yf b fn)
        (mkPoint mc' nt (if w' = [] then fun _ => mc'.ofNat 1 else vecFn mc' w') yf' b fn)) (features : List String)
    (hsort : (∃ name ∈ features, ∃ col, t.getColumn name = some col ∧ col.type = .string) →
      ∀ key l, mc.sort (fun v => m.score (key v)) l = mc.sort key l) (base : Option (List (Tree D A))) :
    SameAnswer (fun f f' => f' = f.map m.tree) (pyTrain mc (some t) c y features w base seed nt)
      (pyTrain mc' (some t) c' y' features w' (base.map (List.map m.tree)) seed nt) := by
  unfold Gbdt.pyTrain
  simp only
  split
  · exact .ok .error
  · unfold trainPyFull
    simp only [hw, hy]
    cases hwy : wrongLength (some t) y with
    | ub => exact .ub
    | fatal => exact .fatal
    | ok b1 =>
      simp only [ok_bind]
      cases b1 with
      | true =>
        simp only [if_true]
        exact sameAnswer_raise _ .ub
      | false =>
        simp only [Bool.false_eq_true, if_false]
        cases hww : wrongLength (some t) w with
        | ub => exact .ub
        | fatal => exact .fatal
        | ok b2 =>
          simp only [ok_bind]
          cases b2 with
          | true =>
            simp only [if_true]
            exact sameAnswer_raise _ .ub
          | false =>
            simp only [Bool.false_eq_true, if_false]
            refine SameAnswer.andThen htar (fun yf yf' h => ?_)
            refine stretch_trainPyRun hm hmc t (hc.named _ _) hp seed nt (fun n hn => hrows hww hwy n hn _ _ h) _ ?_ base
            · rintro ⟨name, hname, hcol⟩
              refine hsort ⟨name, ?_, hcol⟩
              simp only [List.mem_append, List.mem_filter, List.contains_iff_mem] at hname
              rcases hname with h | h
              · exact h.2
              · exact h.2

end py

end Gbdt
