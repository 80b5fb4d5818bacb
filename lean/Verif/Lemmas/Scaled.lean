import Verif.Lemmas.Alike
import Mathlib.Order.Monotone.Defs

/-!
# Columns whose numbers are scaled and whose strings are renamed
-/

set_option autoImplicit false
set_option linter.unusedSectionVars false

namespace Gbdt
open Outcome

/-! ## Buckets -/

section buckets
variable {A : Type} [LinearOrder A]

/-- The keys of a map changed by `φ`. -/
def FMap.mapKeys (φ : A → A) (m : FMap A) : FMap A := m.map (fun p => (φ p.1, p.2))

theorem FMap.inc_map {φ : A → A} {V : Set A} (hφ : StrictMonoOn φ V) {v : A} (hv : v ∈ V) : ∀ {m : FMap A}, (∀ p ∈ m, p.1 ∈ V) →
    FMap.inc (φ v) (FMap.mapKeys φ m) = FMap.mapKeys φ (FMap.inc v m)
  | [], _ => rfl
  | (k, n) :: m, h => by
    have hk : k ∈ V := h (k, n) (by simp)
    have ih := FMap.inc_map hφ hv (m := m) (fun p hp => h p (List.mem_cons_of_mem _ hp))
    unfold FMap.mapKeys at ih ⊢
    rw [List.map_cons, FMap.inc, FMap.inc]
    simp only [hφ.lt_iff_lt hv hk, hφ.lt_iff_lt hk hv]
    split
    · rfl
    · split
      · rw [List.map_cons, ih]
      · rfl

theorem histogram_map {φ : A → A} {V : Set A} (hφ : StrictMonoOn φ V) {raw : List (Fl A)} (hv : ∀ v, Fl.num v ∈ raw → v ∈ V) :
    histogram (raw.map (Fl.map φ)) = FMap.mapKeys φ (histogram raw) := by
  have key : ∀ (l : List (Fl A)) (m : FMap A), (∀ v, Fl.num v ∈ l → v ∈ V) → (∀ p ∈ m, p.1 ∈ V) →
      (l.map (Fl.map φ)).foldl (fun h v => match v with | .nan => h | .num a => h.inc a) (FMap.mapKeys φ m) =
        FMap.mapKeys φ (l.foldl (fun h v => match v with | .nan => h | .num a => h.inc a) m) := by
    intro l
    induction l with
    | nil => intro m _ _; rfl
    | cons x l ih =>
      intro m hl hm
      have hl' : ∀ v, Fl.num v ∈ l → v ∈ V := fun v h => hl v (List.mem_cons_of_mem _ h)
      rw [List.map_cons, List.foldl_cons, List.foldl_cons]
      cases x with
      | nan => exact ih m hl' hm
      | num v =>
        have hv : v ∈ V := hl v (by simp)
        show List.foldl _ (FMap.inc (φ v) (FMap.mapKeys φ m)) _ = _
        rw [FMap.inc_map hφ hv hm]
        refine ih _ hl' (fun p hp => ?_)
        rcases FMap.keys_inc v p hp with h | ⟨q, hq, h⟩
        · rw [h]; exact hv
        · rw [← h]; exact hm q hq
  exact key raw [] hv (by simp)

theorem heavy_map (φ : A → A) (m : FMap A) (cap : Nat) : BktCol.heavy (FMap.mapKeys φ m) cap = FMap.mapKeys φ (BktCol.heavy m cap) := by
  unfold BktCol.heavy FMap.mapKeys
  rw [List.filter_map]
  rfl

theorem light_map (φ : A → A) (m : FMap A) (cap : Nat) : BktCol.light (FMap.mapKeys φ m) cap = FMap.mapKeys φ (BktCol.light m cap) := by
  unfold BktCol.light FMap.mapKeys
  rw [List.filter_map]
  rfl

theorem bins_map (φ : A → A) (cap : Nat) : ∀ (m : FMap A) (run : Nat) (u : Option A),
    bins cap (FMap.mapKeys φ m) run (u.map φ) = (bins cap m run u).map φ
  | [], run, u => by
    unfold FMap.mapKeys
    rw [List.map_nil, bins, bins]
    split
    · cases u <;> rfl
    · rfl
  | (k, n) :: m, run, u => by
    have h1 := bins_map φ cap m 0 (some k)
    have h2 := bins_map φ cap m (run + n) (some k)
    unfold FMap.mapKeys at h1 h2 ⊢
    rw [List.map_cons, bins, bins]
    split
    · rw [List.map_cons, ← h1]; rfl
    · rw [← h2]; rfl

theorem limitsOf_map {φ : A → A} {V : Set A} (hφ : StrictMonoOn φ V) {raw : List (Fl A)} (hv : ∀ v, Fl.num v ∈ raw → v ∈ V) (nb : Nat) :
    limitsOf nb (raw.map (Fl.map φ)) = (limitsOf nb raw).map φ := by
  have hcap : lcapOf nb (raw.map (Fl.map φ)) = lcapOf nb raw := by
    simp only [lcapOf, heavyCount, histogram_map hφ hv, heavy_map, List.length_map, BktCol.leftOver]
    simp only [FMap.mapKeys, List.length_map, List.map_map, Function.comp_def]
  refine strict_ext (limits_sorted (histogram_spec _).1 _ _) ?_ (fun a => ?_)
  · rw [List.pairwise_map]
    exact (limits_sorted (histogram_spec raw).1 _ _).imp_of_mem
      (fun ha hb hab => hφ (hv _ (limitsOf_mem (nb := nb) ha)) (hv _ (limitsOf_mem (nb := nb) hb)) hab)
  · unfold limitsOf
    rw [hcap, histogram_map hφ hv, List.length_map, (limits_perm _ _ _).mem_iff, ((limits_perm (histogram raw) _ _).map φ).mem_iff,
      List.map_append, heavy_map, light_map]
    have := bins_map φ (lcapOf nb raw) (BktCol.light (histogram raw) (capOf raw.length nb)) 0 none
    rw [Option.map_none] at this
    rw [this]
    simp only [FMap.mapKeys, List.map_map, Function.comp_def]

/-- The code of a number: the first limit that is not below it. -/
theorem Bkts.code_of {fmax : A} {S : List A} {M : FMap A} (b : Bkts fmax S M) (hmax : ∀ s ∈ S, s < fmax) {v s : A} {t : Nat}
    (ht : S[t]? = some s) (hv : v ≤ s) (hlow : ∀ (u : Nat) (x : A), u < t → S[u]? = some x → x < v) : codeOf M (.num v) = t + 1 := by
  have htl := (List.getElem?_eq_some_iff.mp ht).1
  have hinc : (S ++ [fmax]).Pairwise (· < ·) := by
    rw [List.pairwise_append]
    exact ⟨b.incr, by simp, by simpa using hmax⟩
  have hts : (S ++ [fmax])[t]? = some s := by rw [List.getElem?_append_left htl]; exact ht
  obtain ⟨k, hk, hcase⟩ := b.entry v
  obtain ⟨j, hj⟩ := b.has_key (a := s) (List.mem_of_getElem? hts)
  have ⟨i1, i2, i3⟩ := b.idx hk
  generalize codeOf M (.num v) = c at *
  have hks : v ≤ k ∧ k ≤ s := by
    rcases hcase with ⟨h1, h2⟩ | ⟨h1, _⟩
    · exact ⟨h1, h2 _ hj hv⟩
    · exact absurd (h1 _ hj) (not_lt.mpr hv)
  by_contra hne
  rcases lt_or_gt_of_ne (show c - 1 ≠ t by omega) with h | h
  · have : S[c - 1]? = some k := by rw [← i3, List.getElem?_append_left (by omega)]
    exact absurd (hlow _ _ h this) (not_lt.mpr hks.1)
  · have h1 := (List.getElem?_eq_some_iff.mp hts)
    have h2 := (List.getElem?_eq_some_iff.mp i3)
    have := List.pairwise_iff_getElem.mp hinc _ _ h1.1 h2.1 h
    rw [h1.2, h2.2] at this
    exact absurd this (not_lt.mpr hks.2)

theorem first_limit {S : List A} {v : A} (h : ∃ s ∈ S, v ≤ s) :
    ∃ (t : Nat) (s : A), S[t]? = some s ∧ v ≤ s ∧ ∀ (u : Nat) (x : A), u < t → S[u]? = some x → x < v := by
  induction S with
  | nil => obtain ⟨s, hs, _⟩ := h; simp at hs
  | cons a S ih =>
    by_cases ha : v ≤ a
    · exact ⟨0, a, rfl, ha, fun u x hu => absurd hu (Nat.not_lt_zero _)⟩
    · obtain ⟨s, hs, hvs⟩ := h
      rcases List.mem_cons.mp hs with rfl | hs
      · exact absurd hvs ha
      · obtain ⟨t, s, h1, h2, h3⟩ := ih ⟨s, hs, hvs⟩
        refine ⟨t + 1, s, by simpa using h1, h2, ?_⟩
        intro u x hu hx
        cases u with
        | zero => simp only [List.getElem?_cons_zero, Option.some.injEq] at hx; subst hx; exact not_le.mp ha
        | succ u => exact h3 u x (by omega) (by simpa using hx)

theorem mem_map_num {φ : A → A} {raw : List (Fl A)} {x : A} : Fl.num x ∈ raw.map (Fl.map φ) ↔ ∃ v, Fl.num v ∈ raw ∧ φ v = x := by
  rw [List.mem_map]
  constructor
  · rintro ⟨y, hy, e⟩
    cases y with
    | nan => cases e
    | num v => exact ⟨v, hy, by simpa [Fl.map] using e⟩
  · rintro ⟨v, hv, rfl⟩
    exact ⟨_, hv, rfl⟩

/-- Two columns of the same codes; the maximum of a bucket in use is a value out of `V`, and `φ` makes the other one of it. -/
structure BktLike (φ : A → A) (V : Set A) (c c' : BktCol A) : Prop where
  codes : ∃ codes, c.ints.data = ok codes ∧ c'.ints.data = ok codes ∧
    ∀ k ∈ codes, k ≠ 0 → ∃ a ∈ V, c.maxs[k]? = some (.num a) ∧ c'.maxs[k]? = some (.num (φ a))
  maxInt : c'.maxInt = c.maxInt

/-- The bucket of a value, before and after scaling. -/
theorem Ready.scaled_code {φ : A → A} {V : Set A} {fmax : A} {raw : List (Fl A)} {nb : Nat} (hφ : StrictMonoOn φ V)
    (hv : ∀ v, Fl.num v ∈ raw → v ∈ V ∧ v < fmax ∧ φ v < fmax) {c c' : BktCol A} {M M' : FMap A}
    (h : Ready fmax c raw (limitsOf nb raw) M) (h' : Ready fmax c' (raw.map (Fl.map φ)) ((limitsOf nb raw).map φ) M')
    {v : A} (hm : Fl.num v ∈ raw) : ∃ (t : Nat) (s : A), (limitsOf nb raw)[t]? = some s ∧ v ≤ s ∧
      (∀ (u : Nat) (x : A), u < t → (limitsOf nb raw)[u]? = some x → x < v) ∧
      codeOf M (.num v) = t + 1 ∧ codeOf M' (.num (φ v)) = t + 1 := by
  obtain ⟨t, s, h1, h2, h3⟩ := first_limit (limitsOf_cover (nb := nb) hm)
  have hS : ∀ s ∈ limitsOf nb raw, s ∈ V ∧ s < fmax ∧ φ s < fmax := fun s hs => hv s (limitsOf_mem hs)
  have hvV := (hv v hm).1
  refine ⟨t, s, h1, h2, h3, h.bkts.code_of (fun s hs => (hS s hs).2.1) h1 h2 h3, ?_⟩
  refine h'.bkts.code_of (s := φ s) ?_ (by rw [List.getElem?_map, h1]; rfl) ?_ ?_
  · intro s hs
    obtain ⟨x, hx, rfl⟩ := List.mem_map.mp hs
    exact (hS x hx).2.2
  · exact (hφ.le_iff_le hvV (hS s (List.mem_of_getElem? h1)).1).mpr h2
  · intro u x hu hx
    rw [List.getElem?_map] at hx
    cases hy : (limitsOf nb raw)[u]? with
    | none => rw [hy] at hx; cases hx
    | some y =>
      rw [hy, Option.map_some, Option.some.injEq] at hx
      subst hx
      exact hφ (hS y (List.mem_of_getElem? hy)).1 hvV (h3 u y hu hy)

theorem Ready.scaled_codes {φ : A → A} {V : Set A} {fmax : A} {raw : List (Fl A)} {nb : Nat} (hφ : StrictMonoOn φ V)
    (hv : ∀ v, Fl.num v ∈ raw → v ∈ V ∧ v < fmax ∧ φ v < fmax) {c c' : BktCol A} {M M' : FMap A}
    (h : Ready fmax c raw (limitsOf nb raw) M) (h' : Ready fmax c' (raw.map (Fl.map φ)) ((limitsOf nb raw).map φ) M') :
    (raw.map (Fl.map φ)).map (codeOf M') = raw.map (codeOf M) := by
  rw [List.map_map]
  refine List.map_congr_left (fun x hx => ?_)
  cases x with
  | nan => rfl
  | num v =>
    obtain ⟨t, s, _, _, _, h1, h2⟩ := h.scaled_code hφ hv h' hx
    exact h2.trans h1.symm

theorem Ready.maxs_at {fmax : A} {c : BktCol A} {raw : List (Fl A)} {S : List A} {M : FMap A} (h : Ready fmax c raw S M) {t : Nat} {s : A}
    (ht : S[t]? = some s) : c.maxs[t + 1]? = some (.num s) := by
  rw [h.maxs, List.getElem?_cons_succ, List.getElem?_map, List.getElem?_append_left (List.getElem?_eq_some_iff.mp ht).1, ht]
  rfl

/-- Bucketized columns of scaled values. -/
theorem Ready.like {φ : A → A} {V : Set A} {fmax : A} {raw : List (Fl A)} {nb : Nat} (hφ : StrictMonoOn φ V)
    (hv : ∀ v, Fl.num v ∈ raw → v ∈ V ∧ v < fmax ∧ φ v < fmax) {c c' : BktCol A} {M M' : FMap A}
    (h : Ready fmax c raw (limitsOf nb raw) M) (h' : Ready fmax c' (raw.map (Fl.map φ)) ((limitsOf nb raw).map φ) M') :
    BktLike φ V c c' := by
  refine ⟨⟨_, h.data, by rw [h'.data, h.scaled_codes hφ hv h'], ?_⟩, by rw [h.maxInt, h'.maxInt, List.length_map]⟩
  intro k hk h0
  obtain ⟨x, hx, rfl⟩ := List.mem_map.mp hk
  cases x with
  | nan => exact absurd rfl h0
  | num v =>
    obtain ⟨t, s, h1, _, _, h4, _⟩ := h.scaled_code hφ hv h' hx
    refine ⟨s, (hv s (limitsOf_mem (List.mem_of_getElem? h1))).1, ?_, ?_⟩
    · rw [h4]; exact h.maxs_at h1
    · rw [h4]; exact h'.maxs_at (by rw [List.getElem?_map, h1]; rfl)

/-- The minimum of a bucket in use is one of its values. -/
theorem Ready.min_at {fmax : A} {c : BktCol A} {raw : List (Fl A)} {nb : Nat} {M : FMap A} (h : Ready fmax c raw (limitsOf nb raw) M)
    (hmax : ∀ v, Fl.num v ∈ raw → v < fmax) {t : Nat} {s : A} (ht : (limitsOf nb raw)[t]? = some s) :
    ∃ m, c.mins[t + 1]? = some (.num m) ∧ Fl.num m ∈ raw ∧ codeOf M (.num m) = t + 1 ∧ m ≤ s ∧
      ∀ v, Fl.num v ∈ raw → codeOf M (.num v) = t + 1 → m ≤ v := by
  obtain ⟨m, h1, h2, h3, h4⟩ := h.placed.mn t s (by rw [List.getElem?_append_left (List.getElem?_eq_some_iff.mp ht).1, ht])
  have hs := List.mem_of_getElem? ht
  have hcs : codeOf M (.num s) = t + 1 := by
    refine h.bkts.code_of (fun x hx => hmax x (limitsOf_mem hx)) ht (le_refl _) ?_
    intro u x hu hx
    have e1 := List.getElem?_eq_some_iff.mp ht
    have e2 := List.getElem?_eq_some_iff.mp hx
    have := List.pairwise_iff_getElem.mp h.bkts.incr _ _ e2.1 e1.1 hu
    rwa [e1.2, e2.2] at this
  rcases h4 with rfl | ⟨h4, h5⟩
  · exact ⟨m, h1, limitsOf_mem hs, hcs, h2, h3⟩
  · exact ⟨m, h1, h4, h5, h2, h3⟩

theorem Ready.scaled_min {φ : A → A} {V : Set A} {fmax : A} {raw : List (Fl A)} {nb : Nat} (hφ : StrictMonoOn φ V)
    (hv : ∀ v, Fl.num v ∈ raw → v ∈ V ∧ v < fmax ∧ φ v < fmax) {c c' : BktCol A} {M M' : FMap A}
    (h : Ready fmax c raw (limitsOf nb raw) M) (h' : Ready fmax c' (raw.map (Fl.map φ)) ((limitsOf nb raw).map φ) M')
    {t : Nat} {s : A} (ht : (limitsOf nb raw)[t]? = some s) :
    ∃ m, c.mins[t + 1]? = some (.num m) ∧ c'.mins[t + 1]? = some (.num (φ m)) ∧ Fl.num m ∈ raw ∧ codeOf M (.num m) = t + 1 ∧ m ≤ s ∧
      ∀ v, Fl.num v ∈ raw → codeOf M (.num v) = t + 1 → m ≤ v := by
  obtain ⟨m, h1, h2, h3, h4, h5⟩ := h.min_at (fun v h => (hv v h).2.1) ht
  have hlim := limitsOf_map hφ (fun v h => (hv v h).1) nb
  obtain ⟨m', k1, k2, k3, k4, k5⟩ := Ready.min_at (nb := nb) (raw := raw.map (Fl.map φ)) (by rw [hlim]; exact h') (by
    intro x hx
    obtain ⟨v, hv1, rfl⟩ := mem_map_num.mp hx
    exact (hv v hv1).2.2) (t := t) (s := φ s) (by rw [hlim, List.getElem?_map, ht]; rfl)
  refine ⟨m, h1, ?_, h2, h3, h4, h5⟩
  rw [k1]
  obtain ⟨x, hx, rfl⟩ := mem_map_num.mp k2
  have same : ∀ v, Fl.num v ∈ raw → codeOf M' (.num (φ v)) = codeOf M (.num v) := by
    intro v hm
    obtain ⟨_, _, _, _, _, e1, e2⟩ := h.scaled_code hφ hv h' hm
    rw [e1, e2]
  have a1 := h5 x hx (by rw [← same x hx]; exact k3)
  have a2 := k5 (φ m) (mem_map_num.mpr ⟨m, h2, rfl⟩) (by rw [same m h2]; exact h3)
  have a3 := (hφ.le_iff_le (hv m h2).1 (hv x hx).1).mpr a1
  rw [le_antisymm a2 a3]

end buckets

/-! ## The values with data in a histogram -/

section hist
variable {D : Type} [Dbl D] [FpOrder D]

/-- Only codes of rows have data. -/
theorem nonZero_mem {codes : List Nat} {m : Nat} {w : Nat → D} {grads : List (GD D)} {S : List Nat} {h : List (GD D)}
    (hh : histogramOf codes m w grads S = ok h) {k : Nat} (hk : k ∈ nonZeroValues h) : k ∈ codes := by
  have key : ∀ (S : List Nat) (h0 h1 : List (GD D)), (∀ (k : Nat) (d : GD D), h0[k]? = some d → k ∈ codes ∨ d = GD.zero) →
      S.foldlM (histStep codes w grads) h0 = ok h1 → ∀ (k : Nat) (d : GD D), h1[k]? = some d → k ∈ codes ∨ d = GD.zero := by
    intro S
    induction S with
    | nil =>
      intro h0 h1 hinv e
      rw [List.foldlM_nil, pure_eq, Outcome.ok.injEq] at e
      subst e
      exact hinv
    | cons i S ih =>
      intro h0 h1 hinv e
      rw [List.foldlM_cons] at e
      obtain ⟨h2, e1, e2⟩ := bind_eq_ok.mp e
      refine ih h2 h1 ?_ e2
      unfold histStep at e1
      obtain ⟨c, c1, e1⟩ := bind_eq_ok.mp e1
      obtain ⟨b, b1, e1⟩ := bind_eq_ok.mp e1
      obtain ⟨d, d1, e1⟩ := bind_eq_ok.mp e1
      rw [pure_eq, Outcome.ok.injEq] at e1
      subst e1
      intro k x hx
      by_cases hkc : c = k
      · exact Or.inl (hkc ▸ List.mem_of_getElem? (vecGet_eq_ok.mp c1))
      · rw [List.getElem?_set_ne hkc] at hx
        exact hinv k x hx
  unfold nonZeroValues at hk
  obtain ⟨hk1, hk2⟩ := List.mem_filter.mp hk
  have hkl : k < h.length := List.mem_range.mp hk1
  rw [List.getElem?_eq_getElem hkl] at hk2
  rcases key S _ h (by
    intro k d hd
    right
    exact List.eq_of_mem_replicate (List.mem_of_getElem? hd)) hh k _ (List.getElem?_eq_getElem hkl) with h1 | h1
  · exact h1
  · rw [h1] at hk2
    simp [GD.zero, FpOrder.zero_not_nan] at hk2

theorem nonZero_incr (h : List (GD D)) : (nonZeroValues h).Pairwise (· < ·) :=
  List.Pairwise.sublist List.filter_sublist List.pairwise_lt_range

end hist

/-! ## Columns -/

section cols
variable {D A : Type} [Dbl D] [FpOrder D] [LinearOrder A] [ThrOps A]

/-- Thresholds between buckets in use have the same values on either side. -/
def ThrLike (φ : A → A) (V : Set A) (c c' : BktCol A) : Prop :=
  ∀ codes, c.ints.data = ok codes → ∀ lc ∈ codes, ∀ rc ∈ codes, lc < rc → OutRel (SameSide φ V) (thresholdOf c lc rc) (thresholdOf c' lc rc)

theorem Scales.strict {fmax : A} {φ : A → A} {V : Set A} {raw : List (Fl A)} (h : Scales fmax φ V raw) : StrictMonoOn φ V :=
  fun a ha b hb hab => h.incr a ha b hb hab

theorem Ready.thr {φ : A → A} {V : Set A} {fmax : A} {raw : List (Fl A)} {nb : Nat} (hs : Scales fmax φ V raw) {c c' : BktCol A}
    {M M' : FMap A} (h : Ready fmax c raw (limitsOf nb raw) M)
    (h' : Ready fmax c' (raw.map (Fl.map φ)) ((limitsOf nb raw).map φ) M') : ThrLike φ V c c' := by
  have hφ := hs.strict
  have hv := hs.values
  intro codes hcodes lc hlc rc hrc hlt
  rw [h.data, Outcome.ok.injEq] at hcodes
  subst hcodes
  obtain ⟨xr, hxr, er⟩ := List.mem_map.mp hrc
  cases xr with
  | nan => rw [show codeOf M Fl.nan = 0 from rfl] at er; omega
  | num vr =>
    obtain ⟨t, s, a1, a2, a3, a4, _⟩ := h.scaled_code hφ hv h' hxr
    obtain ⟨m, m1, m2, m3, m4, m5, m6⟩ := h.scaled_min hφ hv h' a1
    have hrt : rc = t + 1 := by rw [← er, a4]
    subst hrt
    have r1 : c.bucketMin (t + 1) = ok (.num m) := vecGet_eq_ok.mpr m1
    have r2 : c'.bucketMin (t + 1) = ok (.num (φ m)) := vecGet_eq_ok.mpr m2
    obtain ⟨xl, hxl, el⟩ := List.mem_map.mp hlc
    unfold thresholdOf
    cases xl with
    | nan =>
      have hl0 : lc = 0 := el.symm
      subst hl0
      have l1 : c.bucketMax 0 = ok .nan := vecGet_eq_ok.mpr (by rw [h.maxs]; rfl)
      have l2 : c'.bucketMax 0 = ok .nan := vecGet_eq_ok.mpr (by rw [h'.maxs]; rfl)
      have hlen : 0 < (limitsOf nb raw).length := by
        have := (List.getElem?_eq_some_iff.mp a1).1
        omega
      obtain ⟨m0, n1, n2, n3, n4, n5, n6⟩ := h.scaled_min hφ hv h' (t := 0) (List.getElem?_eq_getElem hlen)
      have b1 : c.bucketMin 1 = ok (.num m0) := vecGet_eq_ok.mpr n1
      have b2 : c'.bucketMin 1 = ok (.num (φ m0)) := vecGet_eq_ok.mpr n2
      rw [l1, l2, r1, r2]
      simp only [ok_bind, b1, b2]
      refine .ok (hs.low hxl m0 n3 ?_)
      intro v hm
      obtain ⟨u, su, c1, c2, c3, c4, _⟩ := h.scaled_code hφ hv h' hm
      cases u with
      | zero => exact n6 v hm c4
      | succ u => exact n5.trans (c3 0 _ (Nat.succ_pos _) (List.getElem?_eq_getElem hlen)).le
    | num vl =>
      obtain ⟨u, su, c1, c2, c3, c4, _⟩ := h.scaled_code hφ hv h' hxl
      have hlu : lc = u + 1 := by rw [← el, c4]
      subst hlu
      have l1 : c.bucketMax (u + 1) = ok (.num su) := vecGet_eq_ok.mpr (h.maxs_at c1)
      have l2 : c'.bucketMax (u + 1) = ok (.num (φ su)) := vecGet_eq_ok.mpr (h'.maxs_at (by rw [List.getElem?_map, c1]; rfl))
      rw [l1, l2, r1, r2]
      refine .ok (hs.mid su m (limitsOf_mem (List.mem_of_getElem? c1)) m3 ?_)
      obtain ⟨t', s', d1, d2, d3, d4, _⟩ := h.scaled_code hφ hv h' m3
      have : t' = t := by omega
      subst this
      exact d3 u su (by omega) c1

/-- String columns of the same codes, with the categories renamed. -/
structure StrLike (ψ : String → String) (c c' : StrCol) : Prop where
  data : c'.ints.data = c.ints.data
  strings : c'.strings = c.strings.map ψ
  index : ∀ s, c'.catIndex (ψ s) = c.catIndex s

/-- Columns that related splits divide alike. -/
inductive ScoreCol (φ : String → A → A) (V : String → Set A) (ψ : String → String → String) (name : String) :
    Column A → Column A → Prop where
  | str {c c'} : StrLike (ψ name) c c' → ScoreCol φ V ψ name (.str c) (.str c')
  | bkt {c c'} : BktLike (φ name) (V name) c c' → ScoreCol φ V ψ name (.bkt c) (.bkt c')
  | raw {c} : ScoreCol φ V ψ name (.raw c) (.raw c)

/-- Columns in which related splits are found. -/
inductive TrainCol (φ : String → A → A) (V : String → Set A) (ψ : String → String → String) (name : String) :
    Column A → Column A → Prop where
  | str {c c'} : StrLike (ψ name) c c' → TrainCol φ V ψ name (.str c) (.str c')
  | bkt {c c'} : BktLike (φ name) (V name) c c' → ThrLike (φ name) (V name) c c' → TrainCol φ V ψ name (.bkt c) (.bkt c')
  | raw {c} : TrainCol φ V ψ name (.raw c) (.raw c)

variable {φ : String → A → A} {V : String → Set A} {ψ : String → String → String}

theorem TrainCol.score {name : String} {c c' : Column A} (h : TrainCol φ V ψ name c c') : ScoreCol φ V ψ name c c' := by
  cases h with
  | str h => exact .str h
  | bkt h _ => exact .bkt h
  | raw => exact .raw

theorem StrLike.maxInt {ψ : String → String} {c c' : StrCol} (h : StrLike ψ c c') : c'.maxInt = c.maxInt := by
  simp only [StrCol.maxInt, h.strings, List.length_map]

theorem StrLike.goesLeft {ψ : String → String} {c c' : StrCol} (h : StrLike ψ c c') (cs : CatSplit) :
    stringGoesLeft c' { cs with category := cs.category.map ψ } = stringGoesLeft c cs := by
  have hset : categorySet c' { cs with category := cs.category.map ψ } = categorySet c cs := by
    unfold categorySet
    dsimp only
    rw [List.filterMap_map]
    have : c'.catIndex ∘ ψ = c.catIndex := funext h.index
    rw [this]
  funext row
  unfold stringGoesLeft IntCol.code
  rw [h.data, hset]

theorem BktLike.goesLeft {φ : A → A} {V : Set A} {c c' : BktCol A} (h : BktLike φ V c c') {f f' : FloatSplit A}
    (hm : f'.missingToRight = f.missingToRight) (ht : SameSide φ V f.threshold f'.threshold) :
    floatGoesLeft c' f' = floatGoesLeft c f := by
  obtain ⟨codes, h1, h2, h3⟩ := h.codes
  funext row
  unfold floatGoesLeft IntCol.missing BktCol.rowMax IntCol.code
  rw [h1, h2, hm]
  simp only [ok_bind]
  cases hk : vecGet codes row with
  | ub => rfl
  | fatal => rfl
  | ok k =>
    simp only [ok_bind]
    by_cases h0 : k = 0
    · subst h0
      rfl
    · obtain ⟨a, ha, e1, e2⟩ := h3 k (List.mem_of_getElem? (vecGet_eq_ok.mp hk)) h0
      have l1 : c.bucketMax k = ok (.num a) := vecGet_eq_ok.mpr e1
      have l2 : c'.bucketMax k = ok (.num (φ a)) := vecGet_eq_ok.mpr e2
      rw [l1, l2]
      simp only [ok_bind, ht a ha]

theorem matching_score : Matching (ScoreCol φ V ψ) (SplitAlike (D := D) φ V ψ) where
  feature h := h.feature
  gain h := h.gain
  part := by
    intro s s' c c' hc hs S
    unfold partition
    congr 1
    cases hc with
    | raw => rfl
    | @str c c' hc =>
      unfold partitionColumn
      simp only [hs.cat]
      cases s.catSplit with
      | none => rfl
      | some cs => simp only [Option.map_some, hc.goesLeft cs]
    | @bkt c c' hc =>
      unfold partitionColumn
      have := hs.float
      generalize s.floatSplit = a at this
      generalize s'.floatSplit = b at this
      cases this with
      | none => rfl
      | some h => simp only [hc.goesLeft h.1 h.2]
  deflt name := ⟨rfl, rfl, .none, rfl⟩
  clear := by
    intro s s' h
    refine ⟨h.feature, h.gain, h.float, ?_⟩
    unfold clearIndex
    simp only [h.cat]
    cases s.catSplit <;> rfl

theorem matching_train : Matching (TrainCol φ V ψ) (SplitAlike (D := D) φ V ψ) where
  feature h := h.feature
  gain h := h.gain
  part hc hs S := matching_score.part hc.score hs S
  deflt := matching_score.deflt
  clear h := matching_score.clear h

theorem sameKind_train : SameKind (TrainCol (A := A) φ V ψ) where
  ty h := by cases h <;> rfl
  codes h := by
    cases h with
    | str h => exact ⟨h.data, h.maxInt⟩

theorem mapM_catString {ψ : String → String} {c c' : StrCol} (h : c'.strings = c.strings.map ψ) : ∀ l : List Nat,
    OutRel (fun a b => b = a.map ψ) (l.mapM c.catString) (l.mapM c'.catString)
  | [] => .ok rfl
  | k :: l => by
    rw [List.mapM_cons, List.mapM_cons]
    refine OutRel.bind (r := fun a b => b = ψ a) ?_ ?_
    · unfold StrCol.catString Outcome.vecGet
      rw [h, List.getElem?_map]
      cases c.strings[k]? with
      | none => exact .ub
      | some s => exact .ok rfl
    · rintro a _ rfl
      refine OutRel.bind (mapM_catString h l) ?_
      rintro as _ rfl
      exact .ok rfl

theorem finding_train : Finding (TrainCol φ V ψ) (SplitAlike (D := D) φ V ψ) where
  toMatching := matching_train
  find := by
    intro name c c' hc sort w grads S cfg total
    cases hc with
    | raw => exact .ok .none
    | @str c c' hc =>
      unfold findBestSplit findBestStringSplit
      dsimp only
      rw [hc.data, hc.maxInt]
      refine OutRel.bind (OutRel.refl _) ?_
      rintro codes _ rfl
      refine OutRel.bind (OutRel.refl _) ?_
      rintro h _ rfl
      refine OutRel.bind (OutRel.refl _) ?_
      rintro data _ rfl
      split
      · exact .ok .none
      · refine .ok (.some ⟨rfl, ?_⟩)
        unfold nameCategories
        dsimp only
        refine OutRel.bind (mapM_catString hc.strings _) ?_
        rintro names _ rfl
        refine .ok ⟨⟨rfl, rfl, .none, ?_⟩, rfl⟩
        simp
    | @bkt c c' hc ht =>
      unfold findBestSplit findBestFloatSplit
      dsimp only
      obtain ⟨codes, h1, h2, _⟩ := hc.codes
      rw [h1, h2, hc.maxInt, ok_bind, ok_bind]
      cases hh : histogramOf codes c.maxInt w grads S with
      | ub => exact .ub
      | fatal => exact .fatal
      | ok h =>
        rw [ok_bind, ok_bind]
        refine OutRel.bind (OutRel.refl _) ?_
        rintro data _ rfl
        refine OutRel.bind (OutRel.refl _) ?_
        rintro missing _ rfl
        split
        · exact .ok .none
        · rename_i p _
          cases hl : vecGet (nonZeroValues h) p with
          | ub => exact .ub
          | fatal => exact .fatal
          | ok lc =>
            cases hr : vecGet (nonZeroValues h) (p + 1) with
            | ub => exact .ub
            | fatal => exact .fatal
            | ok rc =>
              simp only [ok_bind]
              have e1 := vecGet_eq_ok.mp hl
              have e2 := vecGet_eq_ok.mp hr
              have i1 := List.getElem?_eq_some_iff.mp e1
              have i2 := List.getElem?_eq_some_iff.mp e2
              have hlt := List.pairwise_iff_getElem.mp (nonZero_incr h) _ _ i1.1 i2.1 (Nat.lt_succ_self p)
              rw [i1.2, i2.2] at hlt
              refine OutRel.bind (ht codes h1 lc (nonZero_mem hh (List.mem_of_getElem? e1)) rc
                (nonZero_mem hh (List.mem_of_getElem? e2)) hlt) ?_
              intro a b hab
              exact .ok (.some ⟨rfl, .ok ⟨⟨rfl, rfl, .some ⟨rfl, hab⟩, rfl⟩, rfl⟩⟩)

/-! ## Stores -/

theorem firstSeen_map {f : String → String} (hf : Function.Injective f) (l : List String) : firstSeen (l.map f) = (firstSeen l).map f := by
  have key : ∀ (l acc : List String), (l.map f).foldl (fun acc s => if s ∈ acc then acc else acc ++ [s]) (acc.map f) =
      (l.foldl (fun acc s => if s ∈ acc then acc else acc ++ [s]) acc).map f := by
    intro l
    induction l with
    | nil => intro acc; rfl
    | cons s l ih =>
      intro acc
      rw [List.map_cons, List.foldl_cons, List.foldl_cons, ← ih]
      congr 1
      simp only [List.mem_map, hf.eq_iff, exists_eq_right]
      split
      · rfl
      · simp
  exact key l []

/-- String columns of renamed strings. -/
theorem strLike_build {f : String → String} (hf : Function.Injective f) (hm : f "__missing__" = "__missing__") {vals : List String}
    (hn : vals.length + 1 < 4294967296) : StrLike f (StrCol.build [vals]) (StrCol.build [vals.map f]) := by
  have d1 := StrCol.done_build [vals] (by simpa using hn)
  have d2 := StrCol.done_build [vals.map f] (by simpa using hn)
  rw [List.flatten_singleton] at d1 d2
  have hs : (StrCol.build [vals.map f]).strings = (StrCol.build [vals]).strings.map f := by
    rw [StrCol.strings_build vals hn, StrCol.strings_build _ (by simpa using hn), firstSeen_map hf, List.map_cons, hm, List.filter_map]
    congr 2
    refine List.filter_congr (fun s _ => ?_)
    simp only [Function.comp]
    rw [Bool.eq_iff_iff, decide_eq_true_iff, decide_eq_true_iff]
    constructor
    · intro h e; exact h (by rw [e, hm])
    · intro h e; exact h (hf (by rw [e, hm]))
  refine ⟨?_, hs, ?_⟩
  · obtain ⟨l1, a1, a2⟩ := d1.codes
    obtain ⟨l2, b1, b2⟩ := d2.codes
    rw [a1, b1]
    congr 1
    rw [hs] at b2
    have hl1 : l1.length = vals.length := by simpa using congrArg List.length a2
    have hl2 : l2.length = vals.length := by simpa using congrArg List.length b2
    refine List.ext_getElem (by omega) (fun j h2 h1 => ?_)
    have e1 := congrArg (fun l : List (Option String) => l[j]?) a2
    have e2 := congrArg (fun l : List (Option String) => l[j]?) b2
    simp only [List.getElem?_map, List.getElem?_eq_getElem h1, List.getElem?_eq_getElem h2, Option.map_some,
      List.getElem?_eq_getElem (show j < vals.length by omega), Option.some.injEq] at e1 e2
    cases hx : (StrCol.build [vals]).strings[l2[j]]? with
    | none => rw [hx] at e2; cases e2
    | some x =>
      rw [hx, Option.map_some, Option.some.injEq] at e2
      have e3 := hf e2
      subst e3
      have i1 := List.getElem?_eq_some_iff.mp e1
      have i2 := List.getElem?_eq_some_iff.mp hx
      exact (List.Nodup.getElem_inj_iff d1.nodup).mp (i2.2.trans i1.2.symm)
  · intro s
    refine Option.ext (fun k => ?_)
    unfold StrCol.catIndex
    rw [d1.find, d2.find, hs, List.getElem?_map]
    cases (StrCol.build [vals]).strings[k]? with
    | none => simp
    | some x => simp [hf.eq_iff]

theorem Dict.Rows.scaled {d : Dict A} {n : Nat} (h : d.Rows n) (φ : String → A → A) (ψ : String → String → String) :
    (d.scaled φ ψ).Rows n where
  names := by
    have := h.names
    simpa [Dict.scaled, Function.comp_def] using this
  bucketized p hp := by
    obtain ⟨q, hq, rfl⟩ := List.mem_map.mp hp
    simpa using h.bucketized q hq
  strs p hp := by
    obtain ⟨q, hq, rfl⟩ := List.mem_map.mp hp
    simpa using h.strs q hq
  raw := h.raw

theorem forall₂_maps {α β : Type} {q : β → β → Prop} {f g : α → β} : ∀ {l : List α}, (∀ a ∈ l, q (f a) (g a)) →
    List.Forall₂ q (l.map f) (l.map g)
  | [], _ => .nil
  | a :: l, h => .cons (h a (by simp)) (forall₂_maps (fun b hb => h b (List.mem_cons_of_mem _ hb)))

/-- The columns of the stores made from data and from scaled data are related, if they are column by column. -/
theorem scaled_stores {CR : String → Column A → Column A → Prop} {d : Dict A} {n : Nat} (hd : d.Rows n) (hn : n < 2 ^ 31) {fmax : A}
    {nb : Nat} (hnb : nb < 2 ^ 32)
    (hstr : ∀ p ∈ d.strs, CR p.1 (.str (StrCol.build [p.2])) (.str (StrCol.build [p.2.map (ψ p.1)])))
    (hbkt : ∀ p ∈ d.bucketized, ∀ c c', BktCol.build fmax nb [p.2] = ok c →
      BktCol.build fmax nb [p.2.map (Fl.map (φ p.1))] = ok c' → CR p.1 (.bkt c) (.bkt c'))
    (hraw : ∀ name c, CR name (.raw c) (.raw c))
    {place place' : DataStore A → DataStore A} (hplace : ∀ l, (place l).Perm l) (hplace' : ∀ l, (place' l).Perm l)
    {t t' : DataStore A} (ht : d.store fmax nb place = ok (.ok (some t)))
    (ht' : (d.scaled φ ψ).store fmax nb place' = ok (.ok (some t'))) :
    t.numRows = ok n ∧ t'.numRows = ok n ∧ (t.map Prod.fst).Nodup ∧ AlikeCols CR t.getColumn t'.getColumn := by
  have hd' := hd.scaled φ ψ
  obtain ⟨a1, a2, _, a3, a4⟩ := addAll_created (fmax := fmax) hnb hplace hn hd.cols.1 hd.cols.2 ht
  obtain ⟨b1, b2, _, b3, b4⟩ := addAll_created (fmax := fmax) hnb hplace' hn hd'.cols.1 hd'.cols.2 ht'
  refine ⟨a1, b1, a2, ?_⟩
  have hc : List.Forall₂ (fun l l' => l'.1 = l.1 ∧ ∀ c c', PyStore.createCol fmax nb l.2.1 l.2.2 = ok c →
      PyStore.createCol fmax nb l'.2.1 l'.2.2 = ok c' → CR l.1 c c') d.cols (d.scaled φ ψ).cols := by
    unfold Dict.cols Dict.scaled
    simp only [List.map_map]
    refine forall₂_append' (forall₂_maps ?_) (forall₂_append' (forall₂_maps ?_) (forall₂_maps ?_))
    · intro p hp
      refine ⟨rfl, ?_⟩
      intro c c' hc hc'
      simp only [Function.comp, PyStore.createCol, PyStore.numbers_num, Column.createBucketized] at hc hc'
      obtain ⟨b, hb, hc⟩ := bind_eq_ok.mp hc
      obtain ⟨b', hb', hc'⟩ := bind_eq_ok.mp hc'
      rw [pure_eq, Outcome.ok.injEq] at hc hc'
      subst hc hc'
      exact hbkt p hp _ _ hb hb'
    · intro p hp
      refine ⟨rfl, ?_⟩
      intro c c' hc hc'
      simp only [Function.comp, PyStore.createCol, PyStore.strings_str, Column.createString, Outcome.ok.injEq] at hc hc'
      subst hc hc'
      exact hstr p hp
    · intro p hp
      refine ⟨rfl, ?_⟩
      intro c c' hc hc'
      simp only [PyStore.createCol, PyStore.numbers_num, Column.createRaw, Outcome.ok.injEq] at hc hc'
      subst hc hc'
      exact hraw _ _
  intro name
  cases h1 : t.getColumn name with
  | some c =>
    obtain ⟨l, hl, rfl, hl2⟩ := a3 name c h1
    obtain ⟨l', hl', e1, e3⟩ := forall₂_left hc l hl
    obtain ⟨c', k1, _, k3⟩ := b4 l' hl'
    rw [e1] at k1
    rw [k1]
    exact .some (e3 c c' hl2 k3)
  | none =>
    cases h2 : t'.getColumn name with
    | none => exact .none
    | some c' =>
      obtain ⟨l', hl', rfl, hl2⟩ := b3 name c' h2
      obtain ⟨l, hl, e1, e3⟩ := forall₂_right hc l' hl'
      obtain ⟨c, k1, _, k3⟩ := a4 l hl
      rw [← e1, h1] at k1
      cases k1

/-- Stores for prediction. -/
theorem scaled_score {d : Dict A} {n : Nat} (hd : d.Rows n) (hn : n < 2 ^ 31) {fmax : A} {nb : Nat} (hnb : nb < 2 ^ 32)
    (hψ : ∀ name, Function.Injective (ψ name) ∧ ψ name "__missing__" = "__missing__")
    (hφ : ∀ name, ∀ a ∈ V name, ∀ b ∈ V name, a < b → φ name a < φ name b)
    (hv : ∀ p ∈ d.bucketized, ∀ v, Fl.num v ∈ p.2 → v ∈ V p.1 ∧ v < fmax ∧ φ p.1 v < fmax)
    {place place' : DataStore A → DataStore A} (hplace : ∀ l, (place l).Perm l) (hplace' : ∀ l, (place' l).Perm l)
    {t t' : DataStore A} (ht : d.store fmax nb place = ok (.ok (some t)))
    (ht' : (d.scaled φ ψ).store fmax nb place' = ok (.ok (some t'))) :
    t.numRows = ok n ∧ t'.numRows = ok n ∧ AlikeCols (ScoreCol φ V ψ) t.getColumn t'.getColumn := by
  obtain ⟨h1, h2, _, h3⟩ := scaled_stores (CR := ScoreCol φ V ψ) hd hn hnb
    (fun p hp => .str (strLike_build (hψ p.1).1 (hψ p.1).2 (by have := hd.strs p hp; omega)))
    (fun p hp c c' hc hc' => by
      have hl := hd.bucketized p hp
      obtain ⟨M, r⟩ := build_single (by omega) (by omega) hc
      obtain ⟨M', r'⟩ := build_single (by rw [List.length_map]; omega) (by omega) hc'
      have hs : StrictMonoOn (φ p.1) (V p.1) := fun a ha b hb hab => hφ p.1 a ha b hb hab
      rw [limitsOf_map hs (fun v h => (hv p hp v h).1)] at r'
      exact .bkt (r.like hs (hv p hp) r'))
    (fun _ _ => .raw) hplace hplace' ht ht'
  exact ⟨h1, h2, h3⟩

/-- Stores for training. -/
theorem scaled_train {d : Dict A} {n : Nat} (hd : d.Rows n) (hn : n < 2 ^ 31) {fmax : A} {nb : Nat} (hnb : nb < 2 ^ 32)
    (hψ : ∀ name, Function.Injective (ψ name) ∧ ψ name "__missing__" = "__missing__")
    (hs : ∀ p ∈ d.bucketized, Scales fmax (φ p.1) (V p.1) p.2)
    {place place' : DataStore A → DataStore A} (hplace : ∀ l, (place l).Perm l) (hplace' : ∀ l, (place' l).Perm l)
    {t t' : DataStore A} (ht : d.store fmax nb place = ok (.ok (some t)))
    (ht' : (d.scaled φ ψ).store fmax nb place' = ok (.ok (some t'))) (hnames : t'.map Prod.fst = t.map Prod.fst) :
    AlikeStore (TrainCol φ V ψ) t t' := by
  obtain ⟨h1, h2, h3, h4⟩ := scaled_stores (CR := TrainCol φ V ψ) hd hn hnb
    (fun p hp => .str (strLike_build (hψ p.1).1 (hψ p.1).2 (by have := hd.strs p hp; omega)))
    (fun p hp c c' hc hc' => by
      have hl := hd.bucketized p hp
      obtain ⟨M, r⟩ := build_single (by omega) (by omega) hc
      obtain ⟨M', r'⟩ := build_single (by rw [List.length_map]; omega) (by omega) hc'
      have h := hs p hp
      rw [limitsOf_map h.strict (fun v hv => (h.values v hv).1)] at r'
      exact .bkt (r.like h.strict h.values r') (r.thr h r'))
    (fun _ _ => .raw) hplace hplace' ht ht'
  refine ⟨hnames, h3, by rw [h1, h2], h4, ?_⟩
  intro name
  unfold DataStore.getRaw
  have := h4 name
  generalize t.getColumn name = a at this
  generalize t'.getColumn name = b at this
  cases this with
  | none => rfl
  | some h => cases h <;> rfl

end cols

end Gbdt
