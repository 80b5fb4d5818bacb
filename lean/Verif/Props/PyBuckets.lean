import Verif.Props.PyIndex
import Verif.Lemmas.Scaled
import Verif.Lemmas.FitTotal

/-!
# C160: the buckets of a column
-/

set_option autoImplicit false
set_option linter.unusedSectionVars false

namespace Gbdt

open Outcome

variable {A : Type} [LinearOrder A]

section buckets
variable {fmax : A} {c : BktCol A} {raw : List (Fl A)} {S : List A} {M : FMap A}

theorem limits_incr (r : Ready fmax c raw S M) (hS : ∀ s ∈ S, s < fmax) : (S ++ [fmax]).Pairwise (· < ·) := by
  rw [List.pairwise_append]
  exact ⟨r.bkts.incr, by simp, by simpa using hS⟩

/-- A value is above the limits before its bucket. -/
theorem Ready.above (r : Ready fmax c raw S M) (hS : ∀ s ∈ S, s < fmax) {v a : A} {t : Nat} (hv : v ≤ fmax)
    (hc : codeOf M (.num v) = t + 1) {u : Nat} (hu : u < t) (ha : (S ++ [fmax])[u]? = some a) : a < v := by
  obtain ⟨k, h1, h2, h3, h4⟩ := r.bkts.entry_le hv
  obtain ⟨_, _, h5⟩ := r.bkts.idx h1
  rw [hc, Nat.add_sub_cancel] at h5
  by_contra hno
  obtain ⟨j, hj⟩ := r.bkts.has_key (List.mem_of_getElem? ha)
  have hk := h4 _ hj (not_lt.mp hno)
  obtain ⟨hu', rfl⟩ := List.getElem?_eq_some_iff.mp ha
  obtain ⟨ht', rfl⟩ := List.getElem?_eq_some_iff.mp h5
  exact absurd (List.pairwise_iff_getElem.mp (limits_incr r hS) u t hu' ht' hu) (not_lt.mpr hk)

/-- The minimum of a bucket. -/
def Ready.lo (c : BktCol A) (fmax : A) (t : Nat) : A := match c.mins[t + 1]? with
  | some (.num m) => m
  | _ => fmax

theorem Ready.lo_spec (r : Ready fmax c raw S M) {t : Nat} {a : A} (h : (S ++ [fmax])[t]? = some a) :
    c.mins[t + 1]? = some (.num (Ready.lo c fmax t)) ∧ Ready.lo c fmax t ≤ a ∧
      (Ready.lo c fmax t = a ∨ (Fl.num (Ready.lo c fmax t) ∈ raw ∧ codeOf M (.num (Ready.lo c fmax t)) = t + 1)) := by
  obtain ⟨m, h1, h2, _, h4⟩ := r.placed.mn t a h
  have e : Ready.lo c fmax t = m := by rw [Ready.lo, h1]
  rw [e]
  exact ⟨h1, h2, h4⟩

theorem Ready.buckets_eq (r : Ready fmax c raw S M) :
    PyStore.buckets c = ok ((Fl.nan, Fl.nan) :: (List.range (S.length + 1)).map (fun t =>
      (Fl.num (Ready.lo c fmax t), Fl.num ((S ++ [fmax]).getD t fmax)))) := by
  rw [PyStore.buckets, r.maxInt, mapM_map (g := fun k => match k with
    | 0 => (Fl.nan, Fl.nan)
    | t + 1 => (Fl.num (Ready.lo c fmax t), Fl.num ((S ++ [fmax]).getD t fmax)))]
  · rw [List.range_succ_eq_map, List.map_cons, List.map_map]
    rfl
  · intro k hk
    rw [List.mem_range] at hk
    cases k with
    | zero =>
      have h1 : c.bucketMin 0 = ok .nan := by rw [BktCol.bucketMin, vecGet_eq_ok]; exact r.placed.zero
      have h2 : c.bucketMax 0 = ok .nan := by rw [BktCol.bucketMax, vecGet_eq_ok, r.maxs]; rfl
      rw [h1, h2]
      rfl
    | succ t =>
      have ht : t < (S ++ [fmax]).length := by simp; omega
      have hg := List.getElem?_eq_getElem ht
      have h1 : c.bucketMin (t + 1) = ok (.num (Ready.lo c fmax t)) := by rw [BktCol.bucketMin, vecGet_eq_ok]; exact (r.lo_spec hg).1
      have h2 : (S ++ [fmax]).getD t fmax = (S ++ [fmax])[t] := by rw [List.getD_eq_getElem?_getD, hg]; rfl
      rw [h1, (r.bucket hg).1]
      simp only [h2]
      rfl

end buckets

/-- **C160.** The list that `buckets()` gives for a column of numbers below the largest `float`: first the bucket of missing values, then intervals in
rising order without common points, whose ends are numbers of the column, and at last one up to the largest `float` (with no number in it, unless there are more than `100 * nb`
rows).  Every number of the column lies in one of them, whose ends are those reported for the row. -/
theorem C160_buckets {fmax : A} {nb : Nat} {blocks : List (List (Fl A))} {c : BktCol A} (hf : Fits nb blocks) (hok : BktCol.build fmax nb blocks = ok c)
    (hv : ∀ v, Fl.num v ∈ blocks.flatten → v < fmax) :
    ∃ (bs : List (A × A)) (x : A), PyStore.buckets c = ok ((Fl.nan, Fl.nan) :: (bs ++ [(x, fmax)]).map (fun p => (Fl.num p.1, Fl.num p.2))) ∧
      (∀ p ∈ bs ++ [(x, fmax)], p.1 ≤ p.2) ∧ (bs ++ [(x, fmax)]).Pairwise (fun p q => p.2 < q.1) ∧
      (∀ p ∈ bs, Fl.num p.1 ∈ blocks.flatten ∧ Fl.num p.2 ∈ blocks.flatten) ∧
      (x = fmax ∨ Fl.num x ∈ blocks.flatten) ∧ (blocks.flatten.length ≤ 100 * nb → x = fmax) ∧
      ∀ (i : Nat) (v : A), blocks.flatten[i]? = some (.num v) →
        ∃ p ∈ bs ++ [(x, fmax)], p.1 ≤ v ∧ v ≤ p.2 ∧ c.rowMin i = ok (.num p.1) ∧ c.rowMax i = ok (.num p.2) := by
  obtain ⟨buf, rest, M, e, hr, _, _, r⟩ := build_ok hf.1 hf.2 hok
  have hmem : ∀ s ∈ limitsOf nb buf, Fl.num s ∈ blocks.flatten := fun s hs => by
    rw [e]
    exact List.mem_append_left _ (limitsOf_mem hs)
  have hS : ∀ s ∈ limitsOf nb buf, s < fmax := fun s hs => hv s (hmem s hs)
  generalize hSe : limitsOf nb buf = S at *
  have hinc := limits_incr r hS
  have hget : ∀ {t : Nat}, t < S.length + 1 → (S ++ [fmax])[t]? = some ((S ++ [fmax]).getD t fmax) := by
    intro t ht
    rw [List.getD_eq_getElem?_getD, List.getElem?_eq_getElem (by simp; omega)]
    rfl
  let g : Nat → A × A := fun t => (Ready.lo c fmax t, (S ++ [fmax]).getD t fmax)
  have hg : ∀ t, g t = (Ready.lo c fmax t, (S ++ [fmax]).getD t fmax) := fun _ => rfl
  have hlast : (S ++ [fmax]).getD S.length fmax = fmax := by simp
  have hall : (List.range S.length).map g ++ [(Ready.lo c fmax S.length, fmax)] = (List.range (S.length + 1)).map g := by
    rw [List.range_succ, List.map_append, List.map_singleton, hg, hlast]
  have hlt : ∀ {t u : Nat}, t < u → u < S.length + 1 → (S ++ [fmax]).getD t fmax < (S ++ [fmax]).getD u fmax := by
    intro t u htu hu
    have := List.pairwise_iff_getElem.mp hinc t u (by simp; omega) (by simp; omega) htu
    rw [List.getD_eq_getElem?_getD, List.getD_eq_getElem?_getD, List.getElem?_eq_getElem (by simp; omega), List.getElem?_eq_getElem (by simp; omega)]
    exact this
  refine ⟨(List.range S.length).map g, Ready.lo c fmax S.length, ?_, ?_, ?_, ?_, ?_, ?_, ?_⟩
  · rw [hall, List.map_map]
    exact r.buckets_eq
  · rw [hall]
    intro p hp
    obtain ⟨t, ht, rfl⟩ := List.mem_map.mp hp
    exact (r.lo_spec (hget (List.mem_range.mp ht))).2.1
  · rw [hall, List.pairwise_map]
    refine List.Pairwise.imp_of_mem ?_ List.pairwise_lt_range
    intro t u _ hu htu
    rw [List.mem_range] at hu
    rcases (r.lo_spec (hget hu)).2.2 with h | ⟨h, h'⟩
    · simp only [hg]
      rw [h]
      exact hlt htu hu
    · exact r.above hS (le_of_lt (hv _ h)) h' htu (hget (by omega))
  · intro p hp
    obtain ⟨t, ht, rfl⟩ := List.mem_map.mp hp
    rw [List.mem_range] at ht
    have h2 : Fl.num ((S ++ [fmax]).getD t fmax) ∈ blocks.flatten := by
      apply hmem
      have := hget (t := t) (by omega)
      rw [List.getElem?_append_left ht] at this
      exact List.mem_of_getElem? this
    refine ⟨?_, h2⟩
    rcases (r.lo_spec (hget (by omega : t < S.length + 1))).2.2 with h | h
    · rw [hg, h]; exact h2
    · exact h.1
  · rcases (r.lo_spec (hget (by omega : S.length < S.length + 1))).2.2 with h | h
    · exact Or.inl (h.trans hlast)
    · exact Or.inr h.1
  · intro hfew
    rcases (r.lo_spec (hget (by omega : S.length < S.length + 1))).2.2 with h | ⟨h, h'⟩
    · exact h.trans hlast
    · exfalso
      rw [hr hfew, List.append_nil] at e
      obtain ⟨s, hs, hle⟩ := limitsOf_cover (nb := nb) (raw := buf) (by rw [← e]; exact h)
      rw [hSe] at hs
      obtain ⟨u, hu⟩ := List.mem_iff_getElem?.mp hs
      have hul := (List.getElem?_eq_some_iff.mp hu).1
      exact absurd (r.above hS (le_of_lt (hv _ h)) h' hul (by rw [List.getElem?_append_left hul]; exact hu)) (not_lt.mpr hle)
  · intro i v hi
    obtain ⟨k, m, h1, h2, h3, h4, h5, h6, _⟩ := r.row hi
    obtain ⟨h7, _⟩ := h6 (le_of_lt (hv v (List.mem_of_getElem? hi)))
    obtain ⟨i1, i2, i3⟩ := r.bkts.idx h1
    obtain ⟨t, ht⟩ : ∃ t, codeOf M (.num v) = t + 1 := ⟨codeOf M (.num v) - 1, by omega⟩
    rw [ht] at i2 i3
    rw [Nat.add_sub_cancel] at i3
    have htl : t < S.length + 1 := by omega
    have ek : (S ++ [fmax]).getD t fmax = k := by
      have := hget htl
      rw [i3] at this
      exact (Option.some.inj this).symm
    have em : Ready.lo c fmax t = m := by
      rw [BktCol.rowMin, r.code hi, ok_bind, ht, BktCol.bucketMin, vecGet_eq_ok, (r.lo_spec (hget htl)).1] at h3
      cases h3
      rfl
    refine ⟨g t, ?_, ?_⟩
    · rw [hall]
      exact List.mem_map.mpr ⟨t, List.mem_range.mpr htl, rfl⟩
    · rw [hg, ek, em]
      exact ⟨h5, h7, h3, h2⟩

/-- The sample of C03 meets the hypotheses; its buckets. -/
example : Fits 3 sampleFloats ∧ (∀ v, Fl.num v ∈ sampleFloats.flatten → v < 1000) ∧
    (BktCol.build (1000 : Int) 3 sampleFloats >>= PyStore.buckets) =
      ok [(.nan, .nan), (.num 1, .num 5), (.num 7, .num 9), (.num 1000, .num 1000)] := by
  refine ⟨by unfold Fits; decide, ?_, by decide +kernel⟩
  intro v hv
  simp [sampleFloats] at hv
  omega

/-- With the largest number itself in the column the last bucket comes twice. -/
example : (BktCol.build (1000 : Int) 5 [[.num 5, .num 1000, .num 1000]] >>= PyStore.buckets) =
    ok [(.nan, .nan), (.num 5, .num 5), (.num 1000, .num 1000), (.num 1000, .num 1000)] := by
  decide +kernel

end Gbdt
