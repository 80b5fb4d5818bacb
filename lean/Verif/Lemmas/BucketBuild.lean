import Verif.Lemmas.BucketColumn
import Mathlib.Data.Finset.Card
import Mathlib.Data.Finset.Dedup
import Mathlib.Tactic.Ring

/-! From a history of `Add`s to the finished bucketized column. -/

set_option linter.unusedSectionVars false

set_option autoImplicit false

namespace Gbdt

open Outcome

variable {A : Type} [LinearOrder A]

/-- What holds of a finalized column. -/
structure Ready (fmax : A) (c : BktCol A) (raw : List (Fl A)) (S : List A) (M : FMap A) : Prop where
  status : c.status = .ok
  fin : c.ints.finalized = true
  small : S.length + 2 < 4294967296
  maxs : c.maxs = Fl.nan :: (S ++ [fmax]).map Fl.num
  bkts : Bkts fmax S M
  placed : Placed fmax S M raw (raw.map (codeOf M)) c.mins
  data : c.ints.data = ok (raw.map (codeOf M))

theorem Stored.data {ints : IntCol} {n : Nat} {codes : List Nat} (h : Stored ints n codes) :
    ints.finalize.data = ok codes ∧ ints.finalize.finalized = true := by
  unfold Stored at h
  refine ⟨?_, rfl⟩
  unfold IntCol.finalize IntCol.data
  split at h
  · simp only [h.2.1, h.2.2.1, h.2.2.2]
    by_cases hc : codes = []
    · simp [hc]
    · simp [List.length_pos_iff.mpr hc]
  · split at h
    · simp only [h.2.1, h.2.2.1, h.2.2.2]
      by_cases hc : codes = []
      · simp [hc]
      · simp [List.length_pos_iff.mpr hc]
    · simp [h.2.1, h.2.2.1, h.2.2.2]

/-- The two states an unfinalized column can be in. -/
def Feeding (fmax : A) (nb : Nat) (c : BktCol A) (raw : List (Fl A)) : Prop :=
  c.nb = nb ∧ ((Buffering c raw ∧ raw.length ≤ 100 * nb) ∨
    ∃ buf rest, raw = buf ++ rest ∧ 100 * nb < buf.length ∧ nb ≠ 0 ∧ heavyCount nb buf + 1 ≠ nb ∧
      Built fmax c raw (limitsOf nb buf))

theorem Feeding.add {fmax : A} {nb : Nat} {c : BktCol A} {raw : List (Fl A)} (h : Feeding fmax nb c raw)
    (vs : List (Fl A)) (hn : (raw ++ vs).length + 2 < 4294967296) (hnb : nb < 4294967296) {c' : BktCol A}
    (hok : c.add fmax vs = ok c') : Feeding fmax nb c' (raw ++ vs) := by
  obtain ⟨hcnb, h⟩ := h
  subst hcnb
  unfold BktCol.add at hok
  rcases h with ⟨hb, hlen⟩ | ⟨buf, rest, hr, hlen, h0, h1, hbuilt⟩
  · have s1 : ¬ (c.status ≠ .ok) := by simp [hb.status]
    have s2 : ¬ (c.ints.finalized = true) := by simp [hb.ints]
    have s3 : c.maxs.length = 0 := by simp [hb.maxs]
    rw [if_neg s1, if_neg s2, if_pos s3] at hok
    have hb' : Buffering { c with buffer := c.buffer ++ vs } (raw ++ vs) :=
      ⟨hb.status, hb.ints, by simp [hb.buffer], hb.maxs⟩
    simp only at hok
    split at hok
    · rename_i hgt
      rw [hb.buffer] at hgt
      obtain ⟨hub, hcase⟩ := buildBuckets_cases fmax _ _ hb' hn hnb
      have hb'' : ¬ (c.nb = 0 ∨ heavyCount c.nb (raw ++ vs) + 1 = c.nb) := by
        intro hbad
        rw [hub.mpr hbad] at hok
        cases hok
      rw [not_or] at hb''
      obtain ⟨c2, h2, h3, h4⟩ := hcase hb''.1 hb''.2
      rw [h2] at hok
      cases hok
      exact ⟨h4, Or.inr ⟨raw ++ vs, [], by simp, hgt, hb''.1, hb''.2, h3⟩⟩
    · rename_i hgt
      cases hok
      rw [hb.buffer] at hgt
      exact ⟨rfl, Or.inl ⟨hb', by omega⟩⟩
  · obtain ⟨codes, hp, hst⟩ := hbuilt.placed
    have hne : c.maxs.length ≠ 0 := by rw [hbuilt.maxs]; simp
    rw [if_neg (by simp [hbuilt.status]), if_neg (by simp [hst.1]), if_neg hne] at hok
    obtain ⟨c2, h2, h3, h4⟩ := addBucketizedVec_ok hbuilt vs
    rw [h2] at hok
    cases hok
    exact ⟨h4, Or.inr ⟨buf, rest ++ vs, by simp [hr], hlen, h0, h1, h3⟩⟩

theorem Feeding.adds {fmax : A} {nb : Nat} (bs : List (List (Fl A))) {c : BktCol A} {raw : List (Fl A)}
    (h : Feeding fmax nb c raw) (hn : (raw ++ bs.flatten).length + 2 < 4294967296) (hnb : nb < 4294967296)
    {c' : BktCol A} (hok : BktCol.adds fmax c bs = ok c') : Feeding fmax nb c' (raw ++ bs.flatten) := by
  induction bs generalizing c raw with
  | nil => simp only [BktCol.adds, Outcome.ok.injEq] at hok; subst hok; simpa using h
  | cons b bs ih =>
    unfold BktCol.adds at hok
    obtain ⟨c1, h1, h2⟩ := bind_eq_ok.mp hok
    simp only [List.flatten_cons, List.length_append] at hn
    have := h.add b (by simp only [List.length_append]; omega) hnb h1
    have := ih this (by simp only [List.length_append]; omega) h2
    simpa using this

theorem feeding_new (fmax : A) (nb : Nat) : Feeding fmax nb (BktCol.new nb) [] :=
  ⟨rfl, Or.inl ⟨⟨rfl, rfl, rfl, rfl⟩, by simp⟩⟩

theorem Built.finalize {fmax : A} {c : BktCol A} {raw : List (Fl A)} {S : List A} (h : Built fmax c raw S) :
    Ready fmax { c with bucketMap := [], ints := c.ints.finalize } raw S c.bucketMap := by
  obtain ⟨codes, hp, hst⟩ := h.placed
  have hc := hp.codes
  subst hc
  exact ⟨h.status, hst.data.2, h.small, h.maxs, h.bkts, hp, hst.data.1⟩

/-- The finished column: built from some prefix `buf` of the values (all of them unless there are more than
`100 * nb`). -/
theorem build_ok {fmax : A} {nb : Nat} {blocks : List (List (Fl A))} {c : BktCol A}
    (hn : blocks.flatten.length + 2 < 4294967296) (hnb : nb < 4294967296)
    (hok : BktCol.build fmax nb blocks = ok c) :
    ∃ buf rest M, blocks.flatten = buf ++ rest ∧ (blocks.flatten.length ≤ 100 * nb → rest = []) ∧ nb ≠ 0 ∧
      heavyCount nb buf + 1 ≠ nb ∧ Ready fmax c blocks.flatten (limitsOf nb buf) M := by
  unfold BktCol.build at hok
  obtain ⟨c1, h1, h2⟩ := bind_eq_ok.mp hok
  have hf := (feeding_new fmax nb).adds blocks (by simpa only [List.nil_append] using hn) hnb h1
  simp only [List.nil_append] at hf
  obtain ⟨hcnb, hf⟩ := hf
  unfold BktCol.finalize at h2
  rcases hf with ⟨hb, hlen⟩ | ⟨buf, rest, hr, hlen, h0, hh, hbuilt⟩
  · rw [if_neg (by simp [hb.status]), if_neg (by simp [hb.ints]), if_pos (by simp [hb.maxs])] at h2
    obtain ⟨hub, hcase⟩ := buildBuckets_cases fmax c1 _ hb hn (by simpa [hcnb] using hnb)
    rw [hcnb] at hub hcase
    have hb'' : ¬ (nb = 0 ∨ heavyCount nb blocks.flatten + 1 = nb) := by
      intro hbad
      rw [hub.mpr hbad] at h2
      cases h2
    rw [not_or] at hb''
    obtain ⟨c2, h3, h4, h5⟩ := hcase hb''.1 hb''.2
    rw [h3] at h2
    simp only [ok_bind, pure_eq, Outcome.ok.injEq] at h2
    subst h2
    exact ⟨blocks.flatten, [], c2.bucketMap, by simp, fun _ => rfl, hb''.1, hb''.2, h4.finalize⟩
  · obtain ⟨codes, hp, hst⟩ := hbuilt.placed
    have hne : c1.maxs.length ≠ 0 := by rw [hbuilt.maxs]; simp
    rw [if_neg (by simp [hbuilt.status]), if_neg (by simp [hst.1]), if_neg hne] at h2
    simp only [pure_eq, ok_bind, Outcome.ok.injEq] at h2
    subst h2
    refine ⟨buf, rest, c1.bucketMap, hr, ?_, h0, hh, hbuilt.finalize⟩
    intro hle
    have : (buf ++ rest).length ≤ 100 * nb := by rw [← hr]; exact hle
    simp only [List.length_append] at this
    omega

/-- One block, of any length: exactly when feeding it is undefined behaviour, and that it succeeds otherwise. -/
theorem build_one_block (fmax : A) (nb : Nat) (vals : List (Fl A)) (hn : vals.length + 2 < 4294967296)
    (hnb : nb < 4294967296) :
    (BktCol.build fmax nb [vals] = ub ↔ nb = 0 ∨ heavyCount nb vals + 1 = nb) ∧
    (¬ (nb = 0 ∨ heavyCount nb vals + 1 = nb) → ∃ c, BktCol.build fmax nb [vals] = ok c) := by
  have hb : Buffering ({ nb := nb, buffer := vals } : BktCol A) vals := ⟨rfl, rfl, rfl, rfl⟩
  obtain ⟨hub, hcase⟩ := buildBuckets_cases fmax _ _ hb hn hnb
  have e : BktCol.build fmax nb [vals] =
      (if vals.length > 100 * nb then ({ nb := nb, buffer := vals } : BktCol A).buildBuckets fmax
        else ok ({ nb := nb, buffer := vals } : BktCol A)) >>= fun c => c.finalize fmax := by
    unfold BktCol.build BktCol.adds BktCol.add
    simp only [BktCol.new, ne_eq, not_true_eq_false, if_false, Bool.false_eq_true, List.length_nil, if_true,
      List.nil_append]
    by_cases hg : vals.length > 100 * nb
    · simp only [hg, if_true]
      cases BktCol.buildBuckets fmax (({ nb := nb, buffer := vals } : BktCol A)) <;> rfl
    · simp only [hg, if_false]
      rfl
  have hfin : (({ nb := nb, buffer := vals } : BktCol A).finalize fmax) =
      (({ nb := nb, buffer := vals } : BktCol A).buildBuckets fmax >>= fun c1 =>
        ok { c1 with bucketMap := [], ints := c1.ints.finalize }) := by
    unfold BktCol.finalize
    simp
  have hbase : ({ nb := nb, buffer := vals } : BktCol A).nb = nb := rfl
  rw [hbase] at hub hcase
  by_cases hbad : nb = 0 ∨ heavyCount nb vals + 1 = nb
  · have h1 := hub.mpr hbad
    refine ⟨⟨fun _ => hbad, fun _ => ?_⟩, fun h => absurd hbad h⟩
    rw [e]
    split
    · rw [h1]; rfl
    · rw [ok_bind, hfin, h1]; rfl
  · rw [not_or] at hbad
    obtain ⟨c', h1, h2, h3⟩ := hcase hbad.1 hbad.2
    have hokk : ∃ c, BktCol.build fmax nb [vals] = ok c := by
      rw [e]
      split
      · rw [h1, ok_bind]
        obtain ⟨codes, hp, hst⟩ := h2.placed
        have hne : c'.maxs.length ≠ 0 := by rw [h2.maxs]; simp
        unfold BktCol.finalize
        simp [h2.status, hst.1, hne]
      · rw [ok_bind, hfin, h1]
        exact ⟨_, rfl⟩
    refine ⟨⟨fun hu => ?_, fun hu => absurd hu (by rw [not_or]; exact hbad)⟩, fun _ => hokk⟩
    obtain ⟨c, hc⟩ := hokk
    rw [hc] at hu
    cases hu

/-! ## Facts about the limits -/

theorem mem_hist_keys (raw : List (Fl A)) (a : A) : a ∈ (histogram raw).map Prod.fst ↔ Fl.num a ∈ raw := by
  rw [List.mem_map]
  constructor
  · rintro ⟨⟨b, n⟩, hp, rfl⟩
    obtain ⟨h1, h2⟩ := (mem_histogram raw b n).mp hp
    rw [← h1] at h2
    exact List.count_pos_iff.mp h2
  · intro h
    exact ⟨(a, raw.count (.num a)), (mem_histogram raw a _).mpr ⟨rfl, List.count_pos_iff.mpr h⟩, rfl⟩

theorem limitsOf_mem {nb : Nat} {raw : List (Fl A)} {a : A} (h : a ∈ limitsOf nb raw) : Fl.num a ∈ raw :=
  (mem_hist_keys raw a).mp (limits_mem h)

theorem limitsOf_cover {nb : Nat} {raw : List (Fl A)} {a : A} (h : Fl.num a ∈ raw) : ∃ s ∈ limitsOf nb raw, a ≤ s := by
  obtain ⟨h1, h2, _, _⟩ := histogram_spec raw
  exact limits_cover h1 h2 _ _ ((mem_hist_keys raw a).mpr h)

/-- When there are fewer than `2 * nb` values every distinct value is a limit. -/
theorem limitsOf_all {nb : Nat} {raw : List (Fl A)} (hn : raw.length < 2 * nb) {a : A} (h : Fl.num a ∈ raw) :
    a ∈ limitsOf nb raw := by
  have hcap : capOf raw.length nb = 1 := by
    unfold capOf
    have : raw.length / nb < 2 := by
      rw [Nat.div_lt_iff_lt_mul (by omega)]
      omega
    omega
  unfold limitsOf
  rw [hcap]
  refine (limits_perm _ _ _).mem_iff.mpr (List.mem_append_left _ ?_)
  obtain ⟨p, hp, rfl⟩ := List.mem_map.mp ((mem_hist_keys raw a).mpr h)
  refine List.mem_map_of_mem (List.mem_filter.mpr ⟨hp, ?_⟩)
  have := (histogram_spec raw).2.1 p hp
  simp only [ge_iff_le, decide_eq_true_eq]
  omega

/-- Number of limits: at most `2 * nb - 1`. -/
theorem limitsOf_length {nb : Nat} {raw : List (Fl A)} (hnb : nb ≠ 0) (hh : heavyCount nb raw + 1 ≠ nb)
    (hn : raw.length < 4294967296) (hnb' : nb < 4294967296) : (limitsOf nb raw).length + 1 ≤ 2 * nb := by
  obtain ⟨hs, hp, _, htot⟩ := histogram_spec raw
  have htn : FMap.total (histogram raw) ≤ raw.length := by rw [htot]; exact List.countP_le_length
  have hsplit := FMap.total_filter (histogram raw) (fun p => decide (p.2 ≥ capOf raw.length nb))
  have hheavy : capOf raw.length nb * heavyCount nb raw ≤
      FMap.total (BktCol.heavy (histogram raw) (capOf raw.length nb)) := by
    apply mul_length_le_total
    intro p hp'
    simpa using (List.mem_filter.mp hp').2
  have hbins := bins_length (lcapOf nb raw) (Nat.le_max_left _ _)
    (BktCol.light (histogram raw) (capOf raw.length nb)) 0 none
  have hlen := limits_length (histogram raw) (capOf raw.length nb) (lcapOf nb raw)
  change (limitsOf nb raw).length = heavyCount nb raw + _ at hlen
  have hHn : heavyCount nb raw ≤ raw.length := by
    unfold heavyCount
    exact (List.length_filter_le _ _).trans (hist_length_le raw)
  have hl1 : lcapOf nb raw = max 1 (u64 (BktCol.leftOver raw.length
      (BktCol.heavy (histogram raw) (capOf raw.length nb))) /
      u64 ((nb : Int) - ((heavyCount nb raw + 1 : Nat) : Int))) := rfl
  have hlo : BktCol.leftOver raw.length (BktCol.heavy (histogram raw) (capOf raw.length nb)) =
      (raw.length : Int) - (FMap.total (BktCol.heavy (histogram raw) (capOf raw.length nb)) : Nat) := rfl
  change FMap.total (BktCol.heavy (histogram raw) (capOf raw.length nb)) +
    FMap.total (BktCol.light (histogram raw) (capOf raw.length nb)) = _ at hsplit
  change _ ≤ 0 + FMap.total (BktCol.light (histogram raw) (capOf raw.length nb)) + _ at hbins
  generalize FMap.total (BktCol.heavy (histogram raw) (capOf raw.length nb)) = TH at *
  generalize FMap.total (BktCol.light (histogram raw) (capOf raw.length nb)) = TL at *
  generalize (bins (lcapOf nb raw) (BktCol.light (histogram raw) (capOf raw.length nb)) 0 none).length = B at *
  generalize lcapOf nb raw = L at *
  generalize heavyCount nb raw = H at *
  have hLo : u64 (BktCol.leftOver raw.length (BktCol.heavy (histogram raw) (capOf raw.length nb))) =
      raw.length - TH := by
    rw [hlo]; unfold u64; omega
  rw [hLo] at hl1
  have hcapdef : capOf raw.length nb = max 1 (raw.length / nb) := rfl
  generalize capOf raw.length nb = C at *
  generalize raw.length = n at *
  rw [hlen]
  by_cases hcase : H + 1 < nb
  · -- divisor positive
    have hd : u64 ((nb : Int) - ((H + 1 : Nat) : Int)) = nb - 1 - H := by unfold u64; omega
    rw [hd] at hl1
    obtain ⟨d, hd'⟩ : ∃ d, nb - 1 - H = d := ⟨_, rfl⟩
    rw [hd'] at hl1
    have hdpos : 0 < d := by omega
    have hL1 : 1 ≤ L := by omega
    have hlt : n - TH < (L + 1) * d := by
      have : (n - TH) / d < L + 1 := by omega
      exact (Nat.div_lt_iff_lt_mul hdpos).mp this
    have hB : B ≤ 2 * d := by
      by_contra hgt
      have h1 : 2 * d + 1 ≤ B := by omega
      have h2 : L * (2 * d + 1) ≤ L * B := Nat.mul_le_mul_left _ h1
      have h3 : d ≤ L * d := Nat.le_mul_of_pos_left d (by omega)
      have h4 : (L + 1) * d = L * d + d := by ring
      have h5 : L * (2 * d + 1) = 2 * (L * d) + L := by ring
      omega
    omega
  · have hge : nb ≤ H := by omega
    have hd : n < u64 ((nb : Int) - ((H + 1 : Nat) : Int)) := by unfold u64; omega
    have hL : L = 1 := by
      have : (n - TH) / u64 ((nb : Int) - ((H + 1 : Nat) : Int)) = 0 := Nat.div_eq_of_lt (by omega)
      omega
    subst hL
    have hn2 : n < (C + 1) * nb := by
      have : n / nb < C + 1 := by omega
      exact (Nat.div_lt_iff_lt_mul (by omega)).mp this
    have hC : 1 ≤ C := by omega
    obtain ⟨C', rfl⟩ : ∃ C', C = C' + 1 := ⟨C - 1, by omega⟩
    have h1 : C' * nb ≤ C' * H := Nat.mul_le_mul_left _ hge
    have h2 : (C' + 1) * H = C' * H + H := by ring
    have h3 : (C' + 1 + 1) * nb = C' * nb + 2 * nb := by ring
    omega

/-- The number of single-value buckets, without reference to the model. -/
theorem heavyCount_eq (nb : Nat) (raw : List (Fl A)) :
    heavyCount nb raw =
      (raw.toFinset.filter (fun v => v ≠ Fl.nan ∧ max 1 (raw.length / nb) ≤ raw.count v)).card := by
  obtain ⟨hs, hp, _, _⟩ := histogram_spec raw
  have hnd : ((BktCol.heavy (histogram raw) (capOf raw.length nb)).map (fun p => Fl.num p.1)).Nodup := by
    have h1 : ((histogram raw).map Prod.fst).Nodup := List.Pairwise.imp (fun h => ne_of_lt h) (FMap.Sorted.keys_lt hs)
    have h2 : ((BktCol.heavy (histogram raw) (capOf raw.length nb)).map Prod.fst).Nodup :=
      h1.sublist (List.Sublist.map _ List.filter_sublist)
    have h3 : (BktCol.heavy (histogram raw) (capOf raw.length nb)).map (fun p => Fl.num p.1) =
        ((BktCol.heavy (histogram raw) (capOf raw.length nb)).map Prod.fst).map Fl.num := by simp
    rw [h3]
    exact h2.map (fun a b h => by simpa using h)
  have e : heavyCount nb raw =
      ((BktCol.heavy (histogram raw) (capOf raw.length nb)).map (fun p => Fl.num p.1)).toFinset.card := by
    rw [List.toFinset_card_of_nodup hnd, List.length_map]
    rfl
  rw [e]
  congr 1
  ext v
  simp only [List.mem_toFinset, List.mem_map, Finset.mem_filter]
  constructor
  · rintro ⟨⟨a, n⟩, hm, rfl⟩
    obtain ⟨h1, h2⟩ := List.mem_filter.mp hm
    obtain ⟨h3, h4⟩ := (mem_histogram raw a n).mp h1
    rw [← h3] at h4
    refine ⟨List.count_pos_iff.mp h4, by simp, ?_⟩
    rw [h3]
    simpa [capOf] using h2
  · rintro ⟨hm, hne, hc⟩
    cases v with
    | nan => exact absurd rfl hne
    | num a =>
      refine ⟨(a, raw.count (.num a)), List.mem_filter.mpr ⟨(mem_histogram raw a _).mpr ⟨rfl, ?_⟩, ?_⟩, rfl⟩
      · exact List.count_pos_iff.mpr hm
      · simpa [capOf] using hc

end Gbdt
