import Verif.Lemmas.BucketRows

/-! Exactly when feeding a bucketized column is undefined behaviour. -/

set_option linter.unusedSectionVars false

set_option autoImplicit false

namespace Gbdt

open Outcome

variable {A : Type} [LinearOrder A]

/-- The values the buckets are made from: the shortest run of leading blocks with more than `100 * nb` values in
total, or everything if there is none.  (Specification only.) -/
def sampleOf (nb : Nat) : List (Fl A) → List (List (Fl A)) → List (Fl A)
  | acc, [] => acc
  | acc, b :: bs => if (acc ++ b).length > 100 * nb then acc ++ b else sampleOf nb (acc ++ b) bs

theorem Built.rest {fmax : A} {S : List A} (bs : List (List (Fl A))) {c : BktCol A} {raw : List (Fl A)}
    (h : Built fmax c raw S) : ∃ c', (BktCol.adds fmax c bs >>= fun d => d.finalize fmax) = ok c' := by
  induction bs generalizing c raw with
  | nil =>
    obtain ⟨codes, hp, hst⟩ := h.placed
    have hne : c.maxs.length ≠ 0 := by rw [h.maxs]; simp
    unfold BktCol.adds
    rw [ok_bind]
    unfold BktCol.finalize
    rw [if_neg (by simp [h.status]), if_neg (by simp [hst.1]), if_neg hne]
    exact ⟨_, rfl⟩
  | cons b bs ih =>
    obtain ⟨codes, hp, hst⟩ := h.placed
    have hne : c.maxs.length ≠ 0 := by rw [h.maxs]; simp
    obtain ⟨c2, h2, h3, h4⟩ := addBucketizedVec_ok h b
    obtain ⟨c', hc'⟩ := ih h3
    refine ⟨c', ?_⟩
    unfold BktCol.adds BktCol.add
    rw [if_neg (by simp [h.status]), if_neg (by simp [hst.1]), if_neg hne, h2, ok_bind]
    exact hc'

theorem Buffering.rest {fmax : A} (bs : List (List (Fl A))) {c : BktCol A} {raw : List (Fl A)}
    (h : Buffering c raw) (hn : (raw ++ bs.flatten).length + 2 < 4294967296) (hnb : c.nb < 4294967296) :
    ((BktCol.adds fmax c bs >>= fun d => d.finalize fmax) = ub ↔
      c.nb = 0 ∨ heavyCount c.nb (sampleOf c.nb raw bs) + 1 = c.nb) ∧
    (¬ (c.nb = 0 ∨ heavyCount c.nb (sampleOf c.nb raw bs) + 1 = c.nb) →
      ∃ c', (BktCol.adds fmax c bs >>= fun d => d.finalize fmax) = ok c') := by
  induction bs generalizing c raw with
  | nil =>
    have hn' : raw.length + 2 < 4294967296 := by simpa using hn
    obtain ⟨hub, hcase⟩ := buildBuckets_cases fmax c raw h hn' hnb
    unfold BktCol.adds sampleOf
    rw [ok_bind]
    unfold BktCol.finalize
    rw [if_neg (by simp [h.status]), if_neg (by simp [h.ints]), if_pos (by simp [h.maxs])]
    by_cases hbad : c.nb = 0 ∨ heavyCount c.nb raw + 1 = c.nb
    · rw [hub.mpr hbad]
      exact ⟨by simp [hbad], fun hh => absurd hbad hh⟩
    · rw [not_or] at hbad
      obtain ⟨c2, h3, _⟩ := hcase hbad.1 hbad.2
      rw [h3]
      exact ⟨by simp [hbad], fun _ => ⟨_, rfl⟩⟩
  | cons b bs ih =>
    have hb' : Buffering { c with buffer := c.buffer ++ b } (raw ++ b) :=
      ⟨h.status, h.ints, by simp [h.buffer], h.maxs⟩
    have e : BktCol.adds fmax c (b :: bs) =
        (if (raw ++ b).length > 100 * c.nb then ({ c with buffer := c.buffer ++ b } : BktCol A).buildBuckets fmax
          else ok { c with buffer := c.buffer ++ b }) >>= fun c1 => BktCol.adds fmax c1 bs := by
      conv_lhs => unfold BktCol.adds
      unfold BktCol.add
      rw [if_neg (by simp [h.status]), if_neg (by simp [h.ints]), if_pos (by simp [h.maxs])]
      simp only [h.buffer]
    have hlen : (raw ++ b).length + 2 < 4294967296 := by
      simp only [List.flatten_cons, List.length_append] at hn ⊢
      omega
    rw [e]
    unfold sampleOf
    by_cases hgt : (raw ++ b).length > 100 * c.nb
    · simp only [if_pos hgt]
      obtain ⟨hub, hcase⟩ := buildBuckets_cases fmax { c with buffer := c.buffer ++ b } _ hb' hlen hnb
      by_cases hbad : c.nb = 0 ∨ heavyCount c.nb (raw ++ b) + 1 = c.nb
      · rw [hub.mpr hbad]
        exact ⟨by simp [hbad], fun hh => absurd hbad hh⟩
      · have hbad' := hbad
        rw [not_or] at hbad
        obtain ⟨c2, h3, h4, _⟩ := hcase hbad.1 hbad.2
        rw [h3, ok_bind]
        obtain ⟨c', hc'⟩ := h4.rest bs
        rw [hc']
        exact ⟨by simp [hbad], fun _ => ⟨_, rfl⟩⟩
    · simp only [if_neg hgt, ok_bind]
      exact ih hb' (by simpa using hn) hnb

/-- Feeding any blocks. -/
theorem build_blocks (fmax : A) (nb : Nat) (blocks : List (List (Fl A)))
    (hn : blocks.flatten.length + 2 < 4294967296) (hnb : nb < 4294967296) :
    (BktCol.build fmax nb blocks = ub ↔ nb = 0 ∨ heavyCount nb (sampleOf nb [] blocks) + 1 = nb) ∧
    (¬ (nb = 0 ∨ heavyCount nb (sampleOf nb [] blocks) + 1 = nb) → ∃ c, BktCol.build fmax nb blocks = ok c) :=
  Buffering.rest (fmax := fmax) blocks (c := BktCol.new nb) (raw := []) ⟨rfl, rfl, rfl, rfl⟩
    (by simpa only [List.nil_append] using hn) hnb

end Gbdt
