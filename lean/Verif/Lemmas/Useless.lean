import Verif.Spec.Useless
import Verif.Lemmas.FitGain
import Verif.Lemmas.FitTotal
import Verif.Lemmas.Train
import Verif.Props.ZeroWeight

/-!
# Features that tell nothing: helper lemmas
-/

set_option autoImplicit false
set_option linter.unusedSectionVars false

namespace Gbdt

open Outcome

section column
variable {D A : Type} [Dbl D] [LinearOrder A] [ThrOps A]

theorem histogramOf_in {codes : List Nat} {m : Nat} {w : Nat → D} {grads : List (GD D)} {samples : List Nat} {h : List (GD D)}
    (hh : histogramOf codes m w grads samples = ok h) : ∀ i ∈ samples, i < codes.length ∧ i < grads.length := by
  unfold histogramOf at hh
  generalize List.replicate m (GD.zero : GD D) = h0 at hh
  induction samples generalizing h0 with
  | nil => intro i hi; cases hi
  | cons j samples ih =>
    rw [List.foldlM_cons, bind_eq_ok] at hh
    obtain ⟨h1, hs, hh⟩ := hh
    intro i hi
    rcases List.mem_cons.mp hi with rfl | hi
    · simp only [histStep, bind_eq_ok, vecGet_eq_ok] at hs
      obtain ⟨c, hc, _, _, d, hd, _⟩ := hs
      exact ⟨(List.getElem?_eq_some_iff.mp hc).1, (List.getElem?_eq_some_iff.mp hd).1⟩
    · exact ih h1 hh i hi

/-- A search for a split that is defined has looked at rows that are there only. -/
theorem findBestSplit_in {n : Nat} {c : Column A} (hc : TrainRows n c) (hr : ∀ r, c ≠ .raw r) {sort : (Nat → D) → List Nat → List Nat}
    {w : Nat → D} {grads : List (GD D)} {samples : List Nat} {cfg : SplitConfig D} {total : GD D} {o : Option (Split D A)}
    (h : findBestSplit sort c w grads samples cfg total = ok o) : ∀ i ∈ samples, i < n ∧ i < grads.length := by
  cases hc with
  | raw c _ => exact absurd rfl (hr c)
  | str blocks h1 h2 =>
    obtain ⟨codes, wf, hlen⟩ := strWF_build blocks (by omega)
    simp only [findBestSplit, findBestStringSplit, wf.data, ok_bind, bind_eq_ok] at h
    obtain ⟨hist, hh, _⟩ := h
    intro i hi
    have := histogramOf_in hh i hi
    exact ⟨by omega, this.2⟩
  | bkt fmax nb blocks c h1 h2 h3 h4 h5 =>
    obtain ⟨codes, wf, hlen⟩ := bktWF_build (by omega) h3 h4 h5
    simp only [findBestSplit, findBestFloatSplit, wf.data, ok_bind, bind_eq_ok] at h
    obtain ⟨hist, hh, _⟩ := h
    intro i hi
    have := histogramOf_in hh i hi
    exact ⟨by omega, this.2⟩

variable [FpOrder D]

theorem values_same {codes : List Nat} {m : Nat} {x : Nat → GD D} {samples : List Nat}
    (hsame : ∀ a ∈ codes, ∀ b ∈ codes, a = b) : (valuesOf codes m x samples).length ≤ 1 := by
  by_contra hlen
  have h0 : 0 < (valuesOf codes m x samples).length := by omega
  have h1 : 1 < (valuesOf codes m x samples).length := by omega
  have hn : (valuesOf codes m x samples).Nodup := List.Nodup.filter _ List.nodup_range
  have := hsame _ (values_occur (List.getElem_mem h0)).2 _ (values_occur (List.getElem_mem h1)).2
  rw [hn.getElem_inj_iff] at this
  cases this

/-- No split is found on a column in which all rows are the same. -/
theorem findBestSplit_constant {n : Nat} {c : Column A} (hc : ConstantColumn n c) {sort : (Nat → D) → List Nat → List Nat}
    (hsort : SortSpec sort) (w : Nat → D) {grads : List (GD D)} {samples : List Nat}
    (hin : ∀ i ∈ samples, i < n ∧ i < grads.length) (cfg : SplitConfig D) (total : GD D) :
    findBestSplit sort c w grads samples cfg total = ok none := by
  cases hc with
  | str blocks x h1 h2 =>
    have hl : blocks.flatten.length = n := by rw [h1, List.length_replicate]
    have d := StrCol.done_build blocks (by omega)
    obtain ⟨codes, wf, hlen⟩ := strWF_build blocks (by omega)
    obtain ⟨l, hdata, hm⟩ := d.codes
    rw [wf.data] at hdata
    cases hdata
    have hsame : ∀ a ∈ codes, ∀ b ∈ codes, a = b := by
      have key : ∀ a ∈ codes, (StrCol.build blocks).strings[a]? = some x := by
        intro a ha
        have : (StrCol.build blocks).strings[a]? ∈ blocks.flatten.map some := by
          rw [← hm]
          exact List.mem_map.mpr ⟨a, ha, rfl⟩
        rw [h1, List.map_replicate] at this
        exact List.eq_of_mem_replicate this
      intro a ha b hb
      obtain ⟨h3, h4⟩ := List.getElem?_eq_some_iff.mp (key a ha)
      obtain ⟨h5, h6⟩ := List.getElem?_eq_some_iff.mp (key b hb)
      exact (d.nodup.getElem_inj_iff).mp (h4.trans h6.symm)
    obtain ⟨values, hp, _, hr⟩ := findBestStringSplit_eq (A := A) hsort wf w grads samples cfg total
      (fun i hi => ⟨by have := hin i hi; omega, (hin i hi).2⟩)
    dsimp only at hr
    rcases hr with ⟨_, hr⟩ | ⟨p, _, hp2, _⟩
    · exact hr
    · have := values_same (m := (StrCol.build blocks).maxInt) (x := weighted w grads) (samples := samples) hsame
      rw [hp.length_eq] at hp2
      omega
  | bkt fmax nb blocks x c h1 h2 h3 h4 h5 =>
    have hl : blocks.flatten.length = n := by rw [h1, List.length_replicate]
    have hfin : ∀ v, Fl.num v ∈ blocks.flatten → v ≤ fmax := by
      intro v hv
      rw [h1] at hv
      exact h5 v (List.eq_of_mem_replicate hv).symm
    obtain ⟨codes, wf, hlen⟩ := bktWF_build (by omega) h3 h4 hfin
    obtain ⟨_, _, M, _, _, _, _, r⟩ := build_ok (by omega) h3 h4
    have hd := r.data
    rw [wf.data] at hd
    cases hd
    have hsame : ∀ a ∈ blocks.flatten.map (codeOf M), ∀ b ∈ blocks.flatten.map (codeOf M), a = b := by
      rw [h1, List.map_replicate]
      intro a ha b hb
      rw [List.eq_of_mem_replicate ha, List.eq_of_mem_replicate hb]
    have hr := findBestFloatSplit_eq wf w grads samples cfg total
      (fun i hi => ⟨by have := hin i hi; omega, (hin i hi).2⟩)
    dsimp only at hr
    rcases hr with ⟨_, hr⟩ | ⟨p, lc, rc, t, _, _, hp2, _⟩
    · exact hr
    · have := values_same (m := c.maxInt) (x := weighted w grads) (samples := samples) hsame
      have := (List.getElem?_eq_some_iff.mp hp2).1
      omega

end column

/-! ## The best of the splits -/

section pick
variable {D A : Type} [Dbl D] [LinearOrder A] [ThrOps A]

/-- A feature and the split found for it. -/
abbrev Offer (D A : Type) := (String × Column A) × Split D A

/-- The better of what is kept and an offer. -/
def pickStep (b : Option (Offer D A)) (x : Offer D A) : Option (Offer D A) :=
  match b with
  | none => if Dbl.ltb 0 x.2.gain then some x else none
  | some y => if Dbl.ltb y.2.gain x.2.gain then some x else some y

/-- The best offer, the first one of equals. -/
def pickBest (l : List (Offer D A)) : Option (Offer D A) := l.foldl pickStep none

/-- An offer, if it gains anything. -/
def worth (x : Offer D A) : Option (Offer D A) := if Dbl.ltb 0 x.2.gain then some x else none

variable [FpOrder D]

theorem pickStep_worth {b x : Offer D A} (hb : b.2.gain = 0 ∨ Dbl.ltb 0 b.2.gain = true) :
    pickStep (worth b) x = worth (if Dbl.ltb b.2.gain x.2.gain then x else b) := by
  unfold worth
  rcases hb with hb | hb
  · rw [hb, if_neg (by rw [StrictLt.irrefl]; decide)]
    unfold pickStep
    by_cases hx : Dbl.ltb 0 x.2.gain = true
    · simp [hx]
    · simp [hx, hb, StrictLt.irrefl]
  · rw [if_pos hb]
    unfold pickStep
    by_cases hx : Dbl.ltb b.2.gain x.2.gain = true
    · simp [hx, StrictLt.trans _ _ _ hb hx]
    · simp [hx, hb]

theorem bestIndexFrom_pick {l : List (Offer D A)} (hg : ∀ x ∈ l, x.2.gain = 0 ∨ Dbl.ltb 0 x.2.gain = true) :
    ∀ (fuel i best : Nat) (b : Offer D A), i + fuel = l.length → l[best]? = some b →
      ∃ k y, bestIndexFrom (l.map (·.2.gain)) fuel i best = ok k ∧ l[k]? = some y ∧ (l.drop i).foldl pickStep (worth b) = worth y
  | 0, i, best, b, hi, hb => by
    refine ⟨best, b, rfl, hb, ?_⟩
    rw [List.drop_eq_nil_of_le (by omega)]
    rfl
  | fuel + 1, i, best, b, hi, hb => by
    have hil : i < l.length := by omega
    have h1 : vecGet (l.map (·.2.gain)) i = ok l[i].2.gain := by
      rw [vecGet_eq_ok, List.getElem?_map, List.getElem?_eq_getElem hil]
      rfl
    have h2 : vecGet (l.map (·.2.gain)) best = ok b.2.gain := by
      rw [vecGet_eq_ok, List.getElem?_map, hb]
      rfl
    rw [bestIndexFrom, h1, ok_bind, h2, ok_bind, List.drop_eq_getElem_cons hil, List.foldl_cons,
      pickStep_worth (hg b (List.mem_of_getElem? hb))]
    by_cases hlt : Dbl.ltb b.2.gain l[i].2.gain = true
    · rw [if_pos hlt, if_pos hlt]
      exact bestIndexFrom_pick hg fuel (i + 1) i _ (by omega) (List.getElem?_eq_getElem hil)
    · rw [if_neg hlt, if_neg hlt]
      exact bestIndexFrom_pick hg fuel (i + 1) best _ (by omega) hb

/-- What is kept gains something, and no offer gains more. -/
theorem pickBest_max (l : List (Offer D A)) :
    match pickBest l with
    | none => ∀ x ∈ l, Dbl.ltb 0 x.2.gain = false
    | some y => Dbl.ltb 0 y.2.gain = true ∧ ∀ x ∈ l, Dbl.ltb y.2.gain x.2.gain = false := by
  induction l using List.reverseRecOn with
  | nil => intro x hx; cases hx
  | append_singleton l z ih =>
    unfold pickBest at ih ⊢
    rw [List.foldl_append, List.foldl_cons, List.foldl_nil]
    revert ih
    cases List.foldl pickStep none l with
    | none =>
      intro ih
      simp only at ih
      unfold pickStep
      by_cases hz : Dbl.ltb 0 z.2.gain = true
      · simp only [hz, if_true, true_and]
        intro x hx
        rcases List.mem_append.mp hx with hx | hx
        · cases h : Dbl.ltb z.2.gain x.2.gain with
          | false => rfl
          | true => rw [← ih x hx, StrictLt.trans _ _ _ hz h]
        · rw [List.mem_singleton.mp hx]
          exact StrictLt.irrefl _
      · simp only [hz]
        intro x hx
        rcases List.mem_append.mp hx with hx | hx
        · exact ih x hx
        · rw [List.mem_singleton.mp hx]
          simpa using hz
    | some y =>
      intro ih
      simp only at ih
      unfold pickStep
      by_cases hz : Dbl.ltb y.2.gain z.2.gain = true
      · simp only [hz, if_true]
        refine ⟨StrictLt.trans _ _ _ ih.1 hz, fun x hx => ?_⟩
        rcases List.mem_append.mp hx with hx | hx
        · cases h : Dbl.ltb z.2.gain x.2.gain with
          | false => rfl
          | true => rw [← ih.2 x hx, StrictLt.trans _ _ _ hz h]
        · rw [List.mem_singleton.mp hx]
          exact StrictLt.irrefl _
      · simp only [hz]
        refine ⟨ih.1, fun x hx => ?_⟩
        rcases List.mem_append.mp hx with hx | hx
        · exact ih.2 x hx
        · rw [List.mem_singleton.mp hx]
          simpa using hz

/-- An offer without gain, or one that is as good as an earlier one, changes nothing. -/
theorem pickBest_insert {l1 l2 : List (Offer D A)} {x : Offer D A} (hx : x.2.gain = 0 ∨ ∃ y ∈ l1, y.2.gain = x.2.gain) :
    pickBest (l1 ++ x :: l2) = pickBest (l1 ++ l2) := by
  have h := pickBest_max l1
  unfold pickBest at h ⊢
  rw [List.foldl_append, List.foldl_append, List.foldl_cons]
  congr 1
  revert h
  cases List.foldl pickStep none l1 with
  | none =>
    intro h
    simp only at h
    unfold pickStep
    have : Dbl.ltb 0 x.2.gain = false := by
      rcases hx with hx | ⟨y, hy, hx⟩
      · rw [hx, StrictLt.irrefl]
      · rw [← hx]
        exact h y hy
    simp [this]
  | some z =>
    intro h
    simp only at h
    unfold pickStep
    have : Dbl.ltb z.2.gain x.2.gain = false := by
      rcases hx with hx | ⟨y, hy, hx⟩
      · rw [hx]
        cases h' : Dbl.ltb z.2.gain 0 with
        | false => rfl
        | true => rw [← StrictLt.irrefl (0 : D), StrictLt.trans _ _ _ h.1 h']
      · rw [← hx]
        exact h.2 y hy
    simp [this]

end pick

/-! ## The best feature -/

section best
variable {D A : Type} [Dbl D] [LinearOrder A] [ThrOps A]

theorem mapM_range {β γ : Type} (g : β → Outcome γ) : ∀ (pre l : List β),
    (List.range' pre.length l.length).mapM (fun j => vecGet (pre ++ l) j >>= g) = l.mapM g
  | _, [] => rfl
  | pre, x :: l => by
    rw [List.length_cons, List.range'_succ, List.mapM_cons, List.mapM_cons]
    have h0 : vecGet (pre ++ x :: l) pre.length = ok x := by
      rw [vecGet_eq_ok]
      simp
    rw [h0, ok_bind]
    have := mapM_range g (pre ++ [x]) l
    rw [List.length_append, List.length_singleton, List.append_assoc, List.singleton_append] at this
    rw [this]

/-- What is made of the best offer. -/
def takeOffer (b : Option (Offer D A)) : Outcome (Option (Split D A × Column A)) :=
  match b with
  | none => ok none
  | some x => do
    let s1 ← nameCategories x.1.2 { x.2 with feature := x.1.1 }
    pure (some (s1, x.1.2))

/-- The split that is offered for a feature. -/
def offerOf (env : FitEnv D A) (cfg : FitConfig D) (samples : List Nat) (total : GD D) (f : String × Column A) : Outcome (Split D A) := do
  let s ← findBestSplit env.sort f.2 env.w env.grads samples cfg.toSplitConfig total
  pure (s.getD { gain := 0 })

theorem uniformSubsample_all {toInt : D → Option Int} {ofNat : Nat → D} {draw : Nat → D} {n : Nat} {rate : D}
    (hall : ∀ k, Dbl.ltb (draw k) rate = true) (hint : toInt (rate * ofNat n) ≠ none) (p : Nat) :
    uniformSubsample toInt ofNat draw n rate p = ok (List.range n, p + n) := by
  obtain ⟨samples, h, _⟩ := (C22_subsample toInt ofNat draw n rate p).2 hint
  rw [h, (C22_rate_one_zero toInt ofNat draw n rate p samples _ h).1 hall]

variable [FpOrder D]

theorem offerOf_gain {env : FitEnv D A} {cfg : FitConfig D} {samples : List Nat} {total : GD D} {f : String × Column A} {s : Split D A}
    (h : offerOf env cfg samples total f = ok s) : s.gain = 0 ∨ Dbl.ltb 0 s.gain = true := by
  unfold offerOf at h
  rw [bind_eq_ok] at h
  obtain ⟨o, ho, h⟩ := h
  cases h
  cases o with
  | none => exact Or.inl rfl
  | some s => exact Or.inr (findBestSplit_pos ho)

theorem zip_mem_offer {env : FitEnv D A} {cfg : FitConfig D} {samples : List Nat} {total : GD D} {fs : List (String × Column A)}
    {splits : List (Split D A)} (h : fs.mapM (offerOf env cfg samples total) = ok splits) :
    ∀ x ∈ fs.zip splits, offerOf env cfg samples total x.1 = ok x.2 := by
  intro x hx
  obtain ⟨i, hi⟩ := List.mem_iff_getElem?.mp hx
  rw [List.getElem?_zip_eq_some] at hi
  obtain ⟨b, hb, h2⟩ := (mapM_ok h).2 i _ hi.1
  rw [hi.2] at hb
  cases hb
  exact h2

/-- With all features looked at, the best offer is taken. -/
theorem bestFeature_all {env : FitEnv D A} {cfg : FitConfig D} (hall : ∀ k, Dbl.ltb (env.draw k) cfg.featureRate = true)
    (hint : env.toInt (cfg.featureRate * env.ofNat env.features.length) ≠ none) (samples : List Nat) (total : GD D) (p : Nat) :
    bestFeature env cfg samples total p = (do
      let splits ← env.features.mapM (offerOf env cfg samples total)
      let b ← takeOffer (pickBest (env.features.zip splits))
      pure (b, p + env.features.length)) := by
  unfold bestFeature
  rw [uniformSubsample_all hall hint, ok_bind]
  dsimp only
  have hm := mapM_range (offerOf env cfg samples total) [] env.features
  rw [List.length_nil, List.nil_append, ← List.range_eq_range'] at hm
  have hm' : (List.range env.features.length).mapM (fun j => do
      let f ← vecGet env.features j
      let s ← findBestSplit env.sort f.2 env.w env.grads samples cfg.toSplitConfig total
      pure (s.getD { gain := 0 })) = env.features.mapM (offerOf env cfg samples total) := hm
  rw [hm']
  refine bind_congr_ok (fun splits hs => ?_)
  have hlen := (mapM_ok hs).1
  rw [List.length_range]
  have hgains : splits.map (·.gain) = (env.features.zip splits).map (·.2.gain) := by
    rw [show (fun x : Offer D A => x.2.gain) = (fun s : Split D A => s.gain) ∘ Prod.snd from rfl, ← List.map_map,
      List.map_snd_zip (by omega)]
  rw [hgains]
  have hzl : (env.features.zip splits).length = env.features.length := by
    rw [List.length_zip]
    omega
  by_cases h0 : splits.length > 0
  · obtain ⟨x, hx⟩ : ∃ x, (env.features.zip splits)[0]? = some x := ⟨_, List.getElem?_eq_getElem (by omega)⟩
    obtain ⟨k, y, hk, hy, hf⟩ := bestIndexFrom_pick (l := env.features.zip splits)
      (fun x hx => offerOf_gain (zip_mem_offer hs x hx)) (env.features.length - 1) 1 0 x (by omega) hx
    have hpick : pickBest (env.features.zip splits) = worth y := by
      rw [← hf]
      cases hz : env.features.zip splits with
      | nil => rw [hz] at hx; cases hx
      | cons a l =>
        rw [hz] at hx
        cases hx
        rfl
    rw [hk, ok_bind, if_pos h0, hpick]
    rw [List.getElem?_zip_eq_some] at hy
    rw [vecGet_eq_ok.mpr hy.2, ok_bind]
    unfold worth
    by_cases hg : Dbl.ltb 0 y.2.gain = true
    · rw [if_pos hg, if_pos hg]
      have hkl := (List.getElem?_eq_some_iff.mp hy.1).1
      have hr : vecGet (List.range env.features.length) k = ok k := by
        rw [vecGet_eq_ok, List.getElem?_range hkl]
      rw [hr, ok_bind, vecGet_eq_ok.mpr hy.1, ok_bind]
      simp only [takeOffer]
      cases nameCategories y.1.2 { y.2 with feature := y.1.1 } <;> rfl
    · rw [if_neg hg, if_neg hg]
      rfl
  · have hf0 : env.features.length = 0 := by omega
    have : env.features.zip splits = [] := List.eq_nil_of_length_eq_zero (by omega)
    rw [this, hf0]
    simp only [h0, if_false]
    rfl

/-- A constant column, or a copy of one that comes before. -/
def UselessAfter (n : Nat) (before : List (String × Column A)) (c : Column A) : Prop :=
  ConstantColumn n c ∨ ∃ g ∈ before, g.2 = c

/-- The features are columns to be split on, of `n` rows. -/
def SplitColumns (n : Nat) (features : List (String × Column A)) : Prop :=
  features ≠ [] ∧ ∀ f ∈ features, TrainRows n f.2 ∧ ∀ r, f.2 ≠ .raw r

theorem bestFeature_useless {env : FitEnv D A} {cfg : FitConfig D} {n : Nat} {l1 l2 : List (String × Column A)} {f : String × Column A}
    (hfeat : env.features = l1 ++ l2) (hcols : SplitColumns n env.features) (hf : UselessAfter n l1 f.2) (hsort : SortSpec env.sort)
    (hall : ∀ k, Dbl.ltb (env.draw k) cfg.featureRate = true)
    (hint : env.toInt (cfg.featureRate * env.ofNat env.features.length) ≠ none)
    (hint' : env.toInt (cfg.featureRate * env.ofNat (env.features.length + 1)) ≠ none) {samples : List Nat} {total : GD D} {p p1 : Nat}
    {b : Option (Split D A × Column A)} (h : bestFeature env cfg samples total p = ok (b, p1)) (q : Nat) :
    ∃ q1, bestFeature { env with features := l1 ++ f :: l2 } cfg samples total q = ok (b, q1) := by
  have hl : (l1 ++ f :: l2).length = env.features.length + 1 := by
    rw [hfeat, List.length_append, List.length_append, List.length_cons]
    omega
  rw [bestFeature_all hall hint] at h
  rw [bestFeature_all (env := { env with features := l1 ++ f :: l2 }) hall (by rw [hl]; exact hint')]
  obtain ⟨splits, hs, h⟩ := bind_eq_ok.mp h
  obtain ⟨b', hb, h⟩ := bind_eq_ok.mp h
  cases h
  have hoffer : offerOf { env with features := l1 ++ f :: l2 } cfg samples total = offerOf env cfg samples total := rfl
  rw [hoffer]
  have hsplit : ∀ g ∈ env.features, ∃ s, offerOf env cfg samples total g = ok s := by
    intro g hg
    obtain ⟨i, hi⟩ := List.mem_iff_getElem?.mp hg
    obtain ⟨s, _, h⟩ := (mapM_ok hs).2 i g hi
    exact ⟨s, h⟩
  have hin : ∀ i ∈ samples, i < n ∧ i < env.grads.length := by
    obtain ⟨g, hg⟩ := List.exists_mem_of_ne_nil _ hcols.1
    obtain ⟨s, h⟩ := hsplit g hg
    unfold offerOf at h
    obtain ⟨o, ho, _⟩ := bind_eq_ok.mp h
    exact findBestSplit_in (hcols.2 g hg).1 (hcols.2 g hg).2 ho
  dsimp only
  rw [hfeat, List.mapM_append] at hs
  obtain ⟨s1, h1, hs⟩ := bind_eq_ok.mp hs
  obtain ⟨s2, h2, hs⟩ := bind_eq_ok.mp hs
  cases hs
  have hlen := (mapM_ok h1).1
  have hx : ∃ x, offerOf env cfg samples total f = ok x ∧ (x.gain = 0 ∨ ∃ y ∈ l1.zip s1, y.2.gain = x.gain) := by
    rcases hf with hf | ⟨g, hg, hgf⟩
    · refine ⟨{ gain := 0 }, ?_, Or.inl rfl⟩
      unfold offerOf
      rw [findBestSplit_constant hf hsort env.w hin, ok_bind]
      rfl
    · obtain ⟨i, hi⟩ := List.mem_iff_getElem?.mp hg
      obtain ⟨x, hx, ho⟩ := (mapM_ok h1).2 i g hi
      refine ⟨x, ?_, Or.inr ⟨(g, x), List.mem_iff_getElem?.mpr ⟨i, List.getElem?_zip_eq_some.mpr ⟨hi, hx⟩⟩, rfl⟩⟩
      unfold offerOf at ho ⊢
      rw [← hgf]
      exact ho
  obtain ⟨x, hx, hxx⟩ := hx
  rw [List.mapM_append, List.mapM_cons, h1, ok_bind, hx, ok_bind, h2, ok_bind, pure_eq, ok_bind, pure_eq, ok_bind]
  rw [hfeat, List.zip_append hlen.symm] at hb
  rw [List.zip_append hlen.symm, List.zip_cons_cons, pickBest_insert hxx, hb, ok_bind]
  exact ⟨_, rfl⟩

/-! ## The tree -/

/-- The states are the same but for the position of the generator. -/
def SameTree (s s' : FitState D A) : Prop := s'.tree = s.tree ∧ s'.queue = s.queue ∧ s'.step = s.step

variable {env : FitEnv D A} {cfg : FitConfig D} {n : Nat} {l1 l2 : List (String × Column A)} {f : String × Column A}

theorem fitStep_useless {env' : FitEnv D A} (henv : env' = { env with features := l1 ++ f :: l2 })
    (hb : ∀ {samples : List Nat} {total : GD D} {p p1 : Nat} {b : Option (Split D A × Column A)},
      bestFeature env cfg samples total p = ok (b, p1) → ∀ q, ∃ q1, bestFeature env' cfg samples total q = ok (b, q1))
    {s s' r : FitState D A} (hs : SameTree s s') {k : Nat} {e : NodeData A} {c : Column A} (h : fitStep env cfg s k e c = ok r) :
    ∃ r', fitStep env' cfg s' k e c = ok r' ∧ SameTree r r' := by
  obtain ⟨tree', queue', step', pos'⟩ := s'
  obtain ⟨h1, h2, h3⟩ := hs
  simp only at h1 h2 h3
  subst h1 h2 h3
  unfold fitStep at h ⊢
  dsimp only at h ⊢
  cases ht : s.tree.at? e.path with
  | none => rw [ht] at h; cases h
  | some t =>
  rw [ht] at h
  dsimp only at h ⊢
  rw [ok_bind] at h ⊢
  obtain ⟨⟨ls, rs⟩, hp, h⟩ := bind_eq_ok.mp h
  obtain ⟨lt, hlt, h⟩ := bind_eq_ok.mp h
  obtain ⟨rt, hrt, h⟩ := bind_eq_ok.mp h
  obtain ⟨⟨lb, p1⟩, hlb, h⟩ := bind_eq_ok.mp h
  obtain ⟨⟨rb, p2⟩, hrb, h⟩ := bind_eq_ok.mp h
  cases h
  obtain ⟨q1, hq1⟩ := hb hlb pos'
  obtain ⟨q2, hq2⟩ := hb hrb q1
  rw [hp, ok_bind]
  dsimp only
  have hw : ∀ S, weightedSum env'.numThreads env'.w env'.grads S = weightedSum env.numThreads env.w env.grads S := by
    intro S
    rw [henv]
  rw [hw, hw, hlt, ok_bind, hrt, ok_bind, hq1, ok_bind]
  dsimp only
  rw [hq2, ok_bind]
  refine ⟨_, rfl, ?_, rfl, rfl⟩
  rw [henv]
  rfl

theorem fitLoop_useless {env' : FitEnv D A} (henv : env' = { env with features := l1 ++ f :: l2 })
    (hb : ∀ {samples : List Nat} {total : GD D} {p p1 : Nat} {b : Option (Split D A × Column A)},
      bestFeature env cfg samples total p = ok (b, p1) → ∀ q, ∃ q1, bestFeature env' cfg samples total q = ok (b, q1)) :
    ∀ (fuel : Nat) {s s' r : FitState D A}, SameTree s s' → fitLoop env cfg fuel s = ok r →
      ∃ r', fitLoop env' cfg fuel s' = ok r' ∧ SameTree r r'
  | 0, s, s', r, hs, h => by
    rw [fitLoop, Outcome.ok.injEq] at h
    subst h
    exact ⟨s', rfl, hs⟩
  | fuel + 1, s, s', r, hs, h => by
    have hq := hs.2.1
    have hg : queueGains s' = queueGains s := by
      unfold queueGains
      rw [hs.1, hs.2.1]
    have ht : env'.top = env.top := by rw [henv]
    rw [fitLoop] at h ⊢
    rw [hq, hg, hs.2.2, ht]
    split
    · next hc =>
      rw [if_pos hc] at h
      dsimp only at h ⊢
      obtain ⟨e, he, h⟩ := bind_eq_ok.mp h
      rw [he, ok_bind]
      cases hf : e.feature with
      | none =>
        rw [hf] at h
        cases h
        exact ⟨s', rfl, hs⟩
      | some c =>
        rw [hf] at h
        dsimp only at h ⊢
        obtain ⟨s1, h1, h⟩ := bind_eq_ok.mp h
        obtain ⟨s1', h1', hs1⟩ := fitStep_useless henv hb hs h1
        rw [h1', ok_bind]
        exact fitLoop_useless henv hb fuel hs1 h
    · next hc =>
      rw [if_neg hc] at h
      cases h
      exact ⟨s', rfl, hs⟩

/-- A feature that tells nothing makes no difference to the tree. -/
theorem fitTree_useless (hfeat : env.features = l1 ++ l2) (hcols : SplitColumns n env.features) (hf : UselessAfter n l1 f.2)
    (hsort : SortSpec env.sort) (hall : ∀ k, Dbl.ltb (env.draw k) cfg.featureRate = true)
    (hint : env.toInt (cfg.featureRate * env.ofNat env.features.length) ≠ none)
    (hint' : env.toInt (cfg.featureRate * env.ofNat (env.features.length + 1)) ≠ none) {p p1 : Nat} {t : Tree D A}
    (h : fitTree env cfg p = ok (t, p1)) {q : Nat} (hpos : (∀ k, Dbl.ltb (env.draw k) cfg.exampleRate = true) ∨ q = p) : ∃ q1, fitTree { env with features := l1 ++ f :: l2 } cfg q = ok (t, q1) := by
  have hb : ∀ {samples : List Nat} {total : GD D} {p p1 : Nat} {b : Option (Split D A × Column A)},
      bestFeature env cfg samples total p = ok (b, p1) →
        ∀ q, ∃ q1, bestFeature { env with features := l1 ++ f :: l2 } cfg samples total q = ok (b, q1) :=
    fun h q => bestFeature_useless hfeat hcols hf hsort hall hint hint' h q
  generalize henv : ({ env with features := l1 ++ f :: l2 } : FitEnv D A) = env' at hb ⊢
  unfold fitTree at h ⊢
  obtain ⟨s, hs, h⟩ := bind_eq_ok.mp h
  obtain ⟨r, hr, h⟩ := bind_eq_ok.mp h
  cases h
  have hstart : ∃ s', fitStart env' cfg q = ok s' ∧ SameTree s s' := by
    unfold fitStart at hs ⊢
    obtain ⟨⟨samples, p1⟩, h1, hs⟩ := bind_eq_ok.mp hs
    obtain ⟨total, h2, hs⟩ := bind_eq_ok.mp hs
    obtain ⟨⟨best, p2⟩, h3, hs⟩ := bind_eq_ok.mp hs
    cases hs
    have hint2 : env.toInt (cfg.exampleRate * env.ofNat env.grads.length) ≠ none := by
      intro hn
      rw [(C22_subsample _ _ _ _ _ _).1 hn] at h1
      cases h1
    have h1' : ∃ q0, uniformSubsample env'.toInt env'.ofNat env'.draw env'.grads.length cfg.exampleRate q = ok (samples, q0) := by
      rw [← henv]
      rcases hpos with hall' | rfl
      · rw [uniformSubsample_all hall' hint2] at h1
        cases h1
        exact ⟨_, uniformSubsample_all hall' hint2 q⟩
      · exact ⟨_, h1⟩
    obtain ⟨q0, h1'⟩ := h1'
    rw [h1', ok_bind]
    dsimp only
    have hw : weightedSum env'.numThreads env'.w env'.grads samples = ok total := by
      rw [← henv]
      exact h2
    obtain ⟨q1, hq1⟩ := hb h3 q0
    rw [hw, ok_bind, hq1, ok_bind]
    refine ⟨_, rfl, ?_, rfl, rfl⟩
    rw [← henv]
    rfl
  obtain ⟨s', hs', hst⟩ := hstart
  obtain ⟨r', hr', hrt⟩ := fitLoop_useless henv.symm hb _ hst hr
  rw [hs', ok_bind, hr', ok_bind, ← hrt.1]
  exact ⟨_, rfl⟩

end best

/-! ## Training -/

section train
variable {S D A : Type} [Dbl D] [LinearOrder A] [ThrOps A] [FpOrder D]

/-- The states are the same but for the position of the generator. -/
def SameTraining (s s' : TrainState S D A) : Prop :=
  s'.forest = s.forest ∧ s'.slices = s.slices ∧ s'.f = s.f ∧ s'.loss = s.loss

variable {env : TrainEnv D A} {cfg : TrainConfig D} {n : Nat} {l1 l2 : List (String × Column A)} {f : String × Column A}

theorem trainLoop_useless (loss : LossFunc S D) (hcols : SplitColumns n (l1 ++ l2)) (hf : UselessAfter n l1 f.2)
    (hsort : SortSpec env.sort) (hall : ∀ k, Dbl.ltb (env.draw k) cfg.featureRate = true)
    (hint : env.toInt (cfg.featureRate * env.ofNat (l1 ++ l2).length) ≠ none)
    (hint' : env.toInt (cfg.featureRate * env.ofNat ((l1 ++ l2).length + 1)) ≠ none) (ct : Nat) :
    ∀ (k : Nat) {s s' r : TrainState S D A} {b : Bool}, SameTraining s s' →
      ((∀ k, Dbl.ltb (env.draw k) cfg.exampleRate = true) ∨ k ≤ 1 ∧ s'.pos = s.pos) → trainLoop env loss (l1 ++ l2) cfg ct k s = ok (b, r) →
      ∃ r', trainLoop env loss (l1 ++ f :: l2) cfg ct k s' = ok (b, r') ∧ SameTraining r r'
  | 0, s, s', r, b, hs, _, h => by
    rw [trainLoop] at h
    cases h
    exact ⟨s', rfl, hs⟩
  | k + 1, ⟨forest, slices, fs, ls, pos⟩, ⟨forest', slices', fs', ls', pos'⟩, r, b, hs, hpos, h => by
    obtain ⟨h1, h2, h3, h4⟩ := hs
    simp only at h1 h2 h3 h4
    subst h1 h2 h3 h4
    rw [trainLoop] at h ⊢
    obtain ⟨⟨ls, constant, grads⟩, hc, h⟩ := bind_eq_ok.mp h
    dsimp only at hc h ⊢
    rw [hc, ok_bind]
    dsimp only
    split
    · next hd =>
      rw [if_pos hd] at h
      cases h
      exact ⟨_, rfl, rfl, rfl, rfl, rfl⟩
    · next hd =>
      rw [if_neg hd] at h
      obtain ⟨⟨t, pos1⟩, ht, h⟩ := bind_eq_ok.mp h
      obtain ⟨q1, hq1⟩ := fitTree_useless (env := env.fit (l1 ++ l2) grads) (f := f) (cfg := cfg.fit) rfl hcols hf hsort hall hint
        hint' ht (q := pos') (hpos.imp id (·.2))
      have hq1' : fitTree (env.fit (l1 ++ f :: l2) grads) cfg.fit pos' = ok (t, q1) := hq1
      rw [hq1', ok_bind]
      dsimp only at h ⊢
      obtain ⟨⟨sl, f1⟩, ha, h⟩ := bind_eq_ok.mp h
      rw [ha, ok_bind]
      rcases hpos with hpos | ⟨hk, _⟩
      · exact trainLoop_useless loss hcols hf hsort hall hint hint' ct k (by exact ⟨rfl, rfl, rfl, rfl⟩) (Or.inl hpos) h
      · have hk : k = 0 := by omega
        subst hk
        rw [trainLoop] at h
        cases h
        exact ⟨_, rfl, rfl, rfl, rfl, rfl⟩

theorem loadFeatures_insert {columns : String → Option (Column A)} {name : String} {c : Column A} (hc : columns name = some c) :
    ∀ {names1 names2 : List String} {fs : List (String × Column A)}, loadFeatures columns (names1 ++ names2) = .ok fs →
      ∃ l1 l2, fs = l1 ++ l2 ∧ loadFeatures columns names1 = .ok l1 ∧
        loadFeatures columns (names1 ++ name :: names2) = .ok (l1 ++ (name, c) :: l2)
  | [], names2, fs, h => by
    refine ⟨[], fs, rfl, rfl, ?_⟩
    rw [List.nil_append] at h ⊢
    rw [loadFeatures, hc]
    simp only [h]
    rfl
  | a :: names1, names2, fs, h => by
    rw [List.cons_append, loadFeatures] at h
    cases ha : columns a with
    | none => simp only [ha] at h; cases h
    | some ca =>
      simp only [ha] at h
      cases hr : loadFeatures columns (names1 ++ names2) with
      | error e => simp only [hr] at h; cases h
      | ok rest =>
        simp only [hr, Except.ok.injEq] at h
        obtain ⟨l1, l2, h1, h2, h3⟩ := loadFeatures_insert hc hr
        refine ⟨(a, ca) :: l1, l2, by rw [← h, h1]; rfl, ?_, ?_⟩
        · rw [loadFeatures, ha]
          simp only [h2]
        · rw [List.cons_append, loadFeatures, ha]
          simp only [h3]
          rfl

theorem loadFeatures_insert_error {columns : String → Option (Column A)} {name : String} {c : Column A} (hc : columns name = some c) :
    ∀ {names1 names2 : List String} {e : Code}, loadFeatures columns (names1 ++ names2) = .error e →
      loadFeatures columns (names1 ++ name :: names2) = .error e
  | [], names2, e, h => by
    rw [List.nil_append] at h ⊢
    rw [loadFeatures, hc]
    simp only [h]
  | a :: names1, names2, e, h => by
    rw [List.cons_append, loadFeatures] at h ⊢
    cases ha : columns a with
    | none => simp only [ha] at h ⊢; exact h
    | some ca =>
      simp only [ha] at h ⊢
      cases hr : loadFeatures columns (names1 ++ names2) with
      | error e' =>
        simp only [hr, Except.error.injEq] at h
        rw [loadFeatures_insert_error hc hr, h]
      | ok rest => simp only [hr] at h; cases h

/-- A feature that tells nothing makes no difference to training. -/
theorem trainGBDT_useless (loss : LossFunc S D) {names1 names2 : List String} {name : String} {c : Column A}
    (hc : env.columns name = some c) (hne : names1 ++ names2 ≠ [])
    (hcols : ∀ a ∈ names1 ++ names2, ∀ col, env.columns a = some col → TrainRows n col ∧ ∀ r, col ≠ .raw r)
    (hf : ConstantColumn n c ∨ ∃ a ∈ names1, env.columns a = some c) (hsort : SortSpec env.sort)
    (hall : ∀ k, Dbl.ltb (env.draw k) cfg.featureRate = true) (hall' : (∀ k, Dbl.ltb (env.draw k) cfg.exampleRate = true) ∨ cfg.numTrees ≤ 1)
    (hint : ∀ m ≤ (names1 ++ names2).length + 1, env.toInt (cfg.featureRate * env.ofNat m) ≠ none)
    {base : Option (List (Tree D A))} {forest : List (Tree D A)} {p : Nat} {r : TrainResult D A}
    (h : trainGBDT env loss (names1 ++ names2) cfg base forest p = ok r) :
    ∃ q, trainGBDT env loss (names1 ++ name :: names2) cfg base forest p = ok { r with pos := q } := by
  unfold trainGBDT at h ⊢
  split
  · next hck =>
    rw [if_pos hck] at h
    cases h
    exact ⟨_, rfl⟩
  · next hck =>
    rw [if_neg hck] at h
    cases hl : loadFeatures env.columns (names1 ++ names2) with
    | error e =>
      rw [loadFeatures_insert_error hc hl]
      simp only [hl] at h ⊢
      cases h
      exact ⟨_, rfl⟩
    | ok fs =>
      obtain ⟨l1, l2, rfl, hl1, hl3⟩ := loadFeatures_insert hc hl
      rw [hl3]
      simp only [hl] at h ⊢
      obtain ⟨group, h1, h⟩ := bind_eq_ok.mp h
      obtain ⟨init, h2, h⟩ := bind_eq_ok.mp h
      rw [h1, ok_bind, h2, ok_bind]
      cases init with
      | error e =>
        cases h
        exact ⟨_, rfl⟩
      | ok ls =>
        simp only at h ⊢
        obtain ⟨slices, h3, h⟩ := bind_eq_ok.mp h
        obtain ⟨⟨forest1, slices1, f1⟩, h4, h⟩ := bind_eq_ok.mp h
        obtain ⟨⟨stopped, s⟩, h5, h⟩ := bind_eq_ok.mp h
        rw [h3, ok_bind, h4, ok_bind]
        dsimp only at h h5 ⊢
        obtain ⟨hnames, hmem⟩ := loadFeatures_mem hl
        have hlen : (l1 ++ l2).length = (names1 ++ names2).length := by rw [← hnames, List.length_map]
        have hin : ∀ g ∈ l1 ++ l2, g.1 ∈ names1 ++ names2 := by
          intro g hg
          rw [← hnames]
          exact List.mem_map.mpr ⟨g, hg, rfl⟩
        have hcols' : SplitColumns n (l1 ++ l2) := by
          refine ⟨?_, ?_⟩
          · intro h0
            rw [h0] at hlen
            exact hne (List.eq_nil_of_length_eq_zero hlen.symm)
          · intro g hg
            exact hcols g.1 (hin g hg) g.2 (hmem g.1 g.2 hg)
        have hf' : UselessAfter n l1 c := by
          refine hf.imp id ?_
          rintro ⟨a, ha, hac⟩
          obtain ⟨hn1, hm1⟩ := loadFeatures_mem hl1
          rw [← hn1] at ha
          obtain ⟨g, hg, rfl⟩ := List.mem_map.mp ha
          refine ⟨g, hg, ?_⟩
          have := hm1 g.1 g.2 hg
          rw [this] at hac
          cases hac
          rfl
        obtain ⟨s', h6, hs⟩ := trainLoop_useless (f := (name, c)) loss hcols' hf' hsort hall (hint _ (by omega)) (hint _ (by omega))
          forest.length _ ⟨rfl, rfl, rfl, rfl⟩ (hall'.imp id (fun h => ⟨by omega, rfl⟩)) h5
        rw [h6, ok_bind]
        dsimp only
        obtain ⟨g1, g2, g3, g4⟩ := hs
        cases stopped with
        | true =>
          simp only [if_true] at h ⊢
          cases h
          rw [g1, g3]
          exact ⟨_, rfl⟩
        | false =>
          simp only [Bool.false_eq_true, if_false] at h ⊢
          cases h
          rw [g1, g3]
          exact ⟨_, rfl⟩

end train

end Gbdt
