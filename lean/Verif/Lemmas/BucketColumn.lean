import Verif.Lemmas.Buckets

/-! The invariant of a bucketized column. -/

set_option linter.unusedSectionVars false

set_option autoImplicit false

namespace Gbdt

open Outcome

variable {A : Type} [LinearOrder A]

/-- `M` is the bucket map of the limits `S` followed by `fmax`. -/
structure Bkts (fmax : A) (S : List A) (M : FMap A) : Prop where
  incr : S.Pairwise (· < ·)
  sorted : FMap.Sorted M
  mem : ∀ a j, (a, j) ∈ M ↔ ∃ t, (S ++ [fmax])[t]? = some a ∧ j = 1 + t ∧ ∀ u, t < u → (S ++ [fmax])[u]? ≠ some a

/-- The code of a value. -/
def codeOf (M : FMap A) : Fl A → Nat
  | .nan => 0
  | .num v => match M.lowerBound v with
    | some p => p.2
    | none => match M.getLast? with
      | some p => p.2
      | none => 0

namespace Bkts

variable {fmax : A} {S : List A} {M : FMap A}

theorem has_key (b : Bkts fmax S M) {a : A} (ha : a ∈ S ++ [fmax]) : ∃ j, (a, j) ∈ M := by
  -- the last position holding `a`
  have : ∃ t : Nat, (S ++ [fmax])[t]? = some a ∧ ∀ u : Nat, t < u → (S ++ [fmax])[u]? ≠ some a := by
    generalize S ++ [fmax] = l at ha
    induction l with
    | nil => simp at ha
    | cons x l ih =>
      by_cases h : a ∈ l
      · obtain ⟨t, h1, h2⟩ := ih h
        refine ⟨t + 1, by simpa using h1, ?_⟩
        intro u hu
        cases u with
        | zero => omega
        | succ u => simpa using h2 u (by omega)
      · have hx : a = x := by
          rcases List.mem_cons.mp ha with h' | h'
          · exact h'
          · exact absurd h' h
        subst hx
        refine ⟨0, by simp, ?_⟩
        intro u hu
        cases u with
        | zero => omega
        | succ u =>
          simp only [List.getElem?_cons_succ]
          intro h'
          exact h (List.mem_of_getElem? h')
  obtain ⟨t, h1, h2⟩ := this
  exact ⟨1 + t, (b.mem a (1 + t)).mpr ⟨t, h1, rfl, h2⟩⟩

theorem key_mem (b : Bkts fmax S M) {a : A} {j : Nat} (h : (a, j) ∈ M) : a ∈ S ++ [fmax] := by
  obtain ⟨t, h1, _⟩ := (b.mem a j).mp h
  exact List.mem_of_getElem? h1

theorem idx (b : Bkts fmax S M) {a : A} {j : Nat} (h : (a, j) ∈ M) :
    1 ≤ j ∧ j ≤ S.length + 1 ∧ (S ++ [fmax])[j - 1]? = some a := by
  obtain ⟨t, h1, h2, _⟩ := (b.mem a j).mp h
  have := (List.getElem?_eq_some_iff.mp h1).1
  simp only [List.length_append, List.length_singleton] at this
  subst h2
  refine ⟨by omega, by omega, ?_⟩
  simpa using h1

theorem last (b : Bkts fmax S M) : ∃ p, M.getLast? = some p := by
  obtain ⟨j, hj⟩ := b.has_key (a := fmax) (by simp)
  cases h : M.getLast? with
  | some p => exact ⟨p, rfl⟩
  | none => rw [List.getLast?_eq_none_iff] at h; rw [h] at hj; simp at hj

theorem bucketId (b : Bkts fmax S M) (v : A) : BktCol.bucketId M v = ok (codeOf M (.num v)) := by
  obtain ⟨p, hp⟩ := b.last
  unfold BktCol.bucketId codeOf
  rw [hp]
  cases h : M.lowerBound v <;> simp [h]

/-- The entry of the map a number is sent to. -/
theorem entry (b : Bkts fmax S M) (v : A) :
    ∃ k, (k, codeOf M (.num v)) ∈ M ∧
      ((v ≤ k ∧ ∀ q ∈ M, v ≤ q.1 → k ≤ q.1) ∨ (∀ q ∈ M, q.1 < v) ∧ (∀ q ∈ M, q.1 ≤ k)) := by
  unfold codeOf
  cases h : M.lowerBound v with
  | some p =>
    obtain ⟨h1, h2, h3⟩ := FMap.lowerBound_some b.sorted h
    exact ⟨p.1, by simpa only [h] using h1, Or.inl ⟨h2, h3⟩⟩
  | none =>
    obtain ⟨p, hp⟩ := b.last
    obtain ⟨h1, h2⟩ := FMap.getLast_max b.sorted hp
    exact ⟨p.1, by simpa only [h, hp] using h1, Or.inr ⟨FMap.lowerBound_none h, h2⟩⟩

theorem code_bounds (b : Bkts fmax S M) (v : A) :
    1 ≤ codeOf M (.num v) ∧ codeOf M (.num v) ≤ S.length + 1 := by
  obtain ⟨k, h1, _⟩ := b.entry v
  have := b.idx h1
  exact ⟨this.1, this.2.1⟩

theorem code_lt (b : Bkts fmax S M) (v : Fl A) : codeOf M v < S.length + 2 := by
  cases v with
  | nan => simp [codeOf]
  | num v => have := b.code_bounds v; omega

theorem code_eq_zero (b : Bkts fmax S M) (v : Fl A) : codeOf M v = 0 ↔ v = .nan := by
  cases v with
  | nan => simp [codeOf]
  | num v => have := b.code_bounds v; simp; omega

end Bkts

/-- What placing the values `raw` into the buckets leaves behind. -/
structure Placed (fmax : A) (S : List A) (M : FMap A) (raw : List (Fl A)) (codes : List Nat) (mins : List (Fl A)) :
    Prop where
  codes : codes = raw.map (codeOf M)
  len : mins.length = S.length + 2
  zero : mins[0]? = some .nan
  mn : ∀ t a, (S ++ [fmax])[t]? = some a → ∃ m, mins[t + 1]? = some (.num m) ∧ m ≤ a ∧
    (∀ v, Fl.num v ∈ raw → codeOf M (.num v) = t + 1 → m ≤ v) ∧
    (m = a ∨ (Fl.num m ∈ raw ∧ codeOf M (.num m) = t + 1))

theorem Placed.init {fmax : A} {S : List A} {M : FMap A} :
    Placed fmax S M [] [] (Fl.nan :: (S ++ [fmax]).map Fl.num) where
  codes := rfl
  len := by simp
  zero := rfl
  mn := by
    intro t a h
    refine ⟨a, ?_, le_refl a, by simp, Or.inl rfl⟩
    rw [List.getElem?_cons_succ, List.getElem?_map, h]
    rfl

theorem Placed.step {fmax : A} {S : List A} {M : FMap A} (b : Bkts fmax S M) {raw : List (Fl A)} {codes : List Nat}
    {mins : List (Fl A)} (p : Placed fmax S M raw codes mins) (v : Fl A) :
    ∃ mins', BktCol.placeOne M mins v = ok (codeOf M v, mins') ∧
      Placed fmax S M (raw ++ [v]) (codes ++ [codeOf M v]) mins' := by
  cases v with
  | nan =>
    refine ⟨mins, rfl, ?_, p.len, p.zero, ?_⟩
    · simp [p.codes]
    · intro t a h
      obtain ⟨m, h1, h2, h3, h4⟩ := p.mn t a h
      refine ⟨m, h1, h2, ?_, ?_⟩
      · intro v hv
        simp only [List.mem_append, List.mem_singleton, reduceCtorEq, or_false] at hv
        exact h3 v hv
      · rcases h4 with h4 | ⟨h4, h5⟩
        · exact Or.inl h4
        · exact Or.inr ⟨List.mem_append_left _ h4, h5⟩
  | num v =>
    obtain ⟨hlo, hhi⟩ := b.code_bounds v
    obtain ⟨k, hk, _⟩ := b.entry v
    obtain ⟨_, _, hidx⟩ := b.idx hk
    obtain ⟨m, hm1, hm2, hm3, hm4⟩ := p.mn (codeOf M (.num v) - 1) k hidx
    have hc : codeOf M (.num v) - 1 + 1 = codeOf M (.num v) := by omega
    rw [hc] at hm1
    have hmin : Fl.min (.num m) (.num v) = Fl.num (min m v) := by
      simp only [Fl.min, Fl.lt_num, decide_eq_true_eq]
      split
      · rw [min_eq_right (le_of_lt ‹_›)]
      · rw [min_eq_left (not_lt.mp ‹_›)]
    refine ⟨mins.set (codeOf M (.num v)) (.num (min m v)), ?_, ?_, ?_, ?_, ?_⟩
    · unfold BktCol.placeOne
      simp only [b.bucketId v, ok_bind, vecGet_eq_ok.mpr hm1, hmin, pure_eq]
    · simp [p.codes]
    · simp [p.len]
    · rw [List.getElem?_set_ne (by omega)]; exact p.zero
    · intro t a h
      have hlen := p.len
      by_cases ht : codeOf M (.num v) = t + 1
      · have hta : k = a := by
          have : codeOf M (.num v) - 1 = t := by omega
          rw [this, h] at hidx
          simpa using hidx.symm
        subst hta
        refine ⟨min m v, ?_, le_trans (min_le_left _ _) hm2, ?_, ?_⟩
        · rw [← ht]
          rw [List.getElem?_set_self (by omega)]
        · intro w hw hcw
          rcases List.mem_append.mp hw with hw | hw
          · exact le_trans (min_le_left _ _) (hm3 w hw (by omega))
          · simp only [List.mem_singleton, Fl.num.injEq] at hw
            rw [hw]; exact min_le_right _ _
        · rcases le_total m v with hmv | hmv
          · rw [min_eq_left hmv]
            rcases hm4 with h4 | ⟨h4, h5⟩
            · exact Or.inl h4
            · exact Or.inr ⟨List.mem_append_left _ h4, by omega⟩
          · rw [min_eq_right hmv]
            exact Or.inr ⟨by simp, ht⟩
      · obtain ⟨m', h1, h2, h3, h4⟩ := p.mn t a h
        refine ⟨m', ?_, h2, ?_, ?_⟩
        · rw [List.getElem?_set_ne ht]; exact h1
        · intro w hw hcw
          rcases List.mem_append.mp hw with hw | hw
          · exact h3 w hw hcw
          · simp only [List.mem_singleton, Fl.num.injEq] at hw
            subst hw
            exact absurd hcw ht
        · rcases h4 with h4 | ⟨h4, h5⟩
          · exact Or.inl h4
          · exact Or.inr ⟨List.mem_append_left _ h4, h5⟩

theorem Placed.all {fmax : A} {S : List A} {M : FMap A} (b : Bkts fmax S M) (narrow : Nat → Nat)
    (hn : ∀ k, k < S.length + 2 → narrow k = k) (vs : List (Fl A)) {raw : List (Fl A)} {codes : List Nat}
    {mins : List (Fl A)} (p : Placed fmax S M raw codes mins) :
    ∃ codes' mins', BktCol.addHelper M narrow vs codes mins = ok (codes', mins') ∧
      Placed fmax S M (raw ++ vs) codes' mins' := by
  obtain ⟨lst, hl⟩ := b.last
  unfold BktCol.addHelper
  rw [hl]
  simp only
  clear hl
  induction vs generalizing raw codes mins with
  | nil => exact ⟨codes, mins, rfl, by simpa using p⟩
  | cons v vs ih =>
    obtain ⟨mins1, h1, h2⟩ := p.step b v
    obtain ⟨codes', mins', h3, h4⟩ := ih h2
    refine ⟨codes', mins', ?_, by simpa using h4⟩
    unfold BktCol.placeAll
    rw [h1]
    simp only [ok_bind, hn _ (b.code_lt v)]
    exact h3

/-- Which vector holds the codes of an unfinalized column with `n` buckets. -/
def Stored (ints : IntCol) (n : Nat) (codes : List Nat) : Prop :=
  ints.finalized = false ∧
  if n ≤ 256 then ints.col8 = codes ∧ ints.col16 = [] ∧ ints.col32 = []
  else if n ≤ 65536 then ints.col8 = [] ∧ ints.col16 = codes ∧ ints.col32 = []
  else ints.col8 = [] ∧ ints.col16 = [] ∧ ints.col32 = codes

/-- What holds of an unfinalized column whose buckets have been built, after the values `raw` were fed. -/
structure Built (fmax : A) (c : BktCol A) (raw : List (Fl A)) (S : List A) : Prop where
  status : c.status = .ok
  small : S.length + 2 < 4294967296
  maxs : c.maxs = Fl.nan :: (S ++ [fmax]).map Fl.num
  bkts : Bkts fmax S c.bucketMap
  placed : ∃ codes, Placed fmax S c.bucketMap raw codes c.mins ∧ Stored c.ints (S.length + 2) codes
  buffer : c.buffer = []

theorem Built.maxInt {fmax : A} {c : BktCol A} {raw : List (Fl A)} {S : List A} (h : Built fmax c raw S) :
    c.maxInt = S.length + 2 := by
  unfold BktCol.maxInt
  rw [h.maxs]
  simp only [List.length_cons, List.length_map, List.length_append, List.length_nil]
  rw [u32_of_lt (by have := h.small; omega)]

theorem addBucketizedVec_ok {fmax : A} {c : BktCol A} {raw : List (Fl A)} {S : List A} (h : Built fmax c raw S)
    (vs : List (Fl A)) :
    ∃ c', c.addBucketizedVec vs = ok c' ∧ Built fmax c' (raw ++ vs) S ∧ c'.nb = c.nb := by
  obtain ⟨codes, hp, hst⟩ := h.placed
  have hmi := h.maxInt
  unfold BktCol.addBucketizedVec
  rw [hmi]
  unfold Stored at hst
  split
  · rename_i h8
    simp only [h8, if_true] at hst
    obtain ⟨codes', mins', h1, h2⟩ := hp.all h.bkts (· % 256) (by intro k hk; exact Nat.mod_eq_of_lt (by omega)) vs
    rw [hst.2.1, h1]
    simp only [ok_bind, pure_eq]
    refine ⟨_, rfl, ⟨h.status, h.small, h.maxs, h.bkts, ⟨codes', h2, ?_⟩, h.buffer⟩, rfl⟩
    unfold Stored
    simp only [h8, if_true]
    exact ⟨hst.1, trivial, hst.2.2.1, hst.2.2.2⟩
  · rename_i h8
    simp only [h8, if_false] at hst
    split
    · rename_i h16
      simp only [h16, if_true] at hst
      obtain ⟨codes', mins', h1, h2⟩ := hp.all h.bkts (· % 65536) (by intro k hk; exact Nat.mod_eq_of_lt (by omega)) vs
      rw [hst.2.2.1, h1]
      simp only [ok_bind, pure_eq]
      refine ⟨_, rfl, ⟨h.status, h.small, h.maxs, h.bkts, ⟨codes', h2, ?_⟩, h.buffer⟩, rfl⟩
      unfold Stored
      simp only [h8, h16, if_true, if_false]
      exact ⟨hst.1, hst.2.1, trivial, hst.2.2.2⟩
    · rename_i h16
      simp only [h16, if_false] at hst
      obtain ⟨codes', mins', h1, h2⟩ := hp.all h.bkts u32 (by intro k hk; exact u32_of_lt (by have := h.small; omega)) vs
      rw [hst.2.2.2, h1]
      simp only [ok_bind, pure_eq]
      refine ⟨_, rfl, ⟨h.status, h.small, h.maxs, h.bkts, ⟨codes', h2, ?_⟩, h.buffer⟩, rfl⟩
      unfold Stored
      simp only [h8, h16, if_false]
      exact ⟨hst.1, hst.2.1, hst.2.2.1, trivial⟩

/-- An unfinalized column still buffering. -/
structure Buffering (c : BktCol A) (raw : List (Fl A)) : Prop where
  status : c.status = .ok
  ints : c.ints = {}
  buffer : c.buffer = raw
  maxs : c.maxs = []

/-- The capacity used for single values. -/
def capOf (n nb : Nat) : Nat := max 1 (n / nb)

/-- The number of values that get a bucket of their own. -/
def heavyCount (nb : Nat) (raw : List (Fl A)) : Nat :=
  (BktCol.heavy (histogram raw) (capOf raw.length nb)).length

/-- The capacity used for the other values. -/
def lcapOf (nb : Nat) (raw : List (Fl A)) : Nat :=
  max 1 (u64 (BktCol.leftOver raw.length (BktCol.heavy (histogram raw) (capOf raw.length nb))) /
    u64 ((nb : Int) - ((heavyCount nb raw + 1 : Nat) : Int)))

/-- The bucket limits made from the buffered values `raw`. -/
def limitsOf (nb : Nat) (raw : List (Fl A)) : List A :=
  limits (histogram raw) (capOf raw.length nb) (lcapOf nb raw)

theorem hist_length_le (raw : List (Fl A)) : (histogram raw).length ≤ raw.length := by
  obtain ⟨_, h2, _, h4⟩ := histogram_spec raw
  have := length_le_total h2
  rw [h4] at this
  exact this.trans List.countP_le_length

theorem u64_zero_iff {nb k : Nat} (hn : nb < 4294967296) (hk : k < 4294967296) :
    u64 ((nb : Int) - (k : Int)) = 0 ↔ nb = k := by
  unfold u64
  omega

theorem buildBuckets_cases (fmax : A) (c : BktCol A) (raw : List (Fl A)) (h : Buffering c raw)
    (hn : raw.length + 2 < 4294967296) (hnb : c.nb < 4294967296) :
    (c.buildBuckets fmax = ub ↔ c.nb = 0 ∨ heavyCount c.nb raw + 1 = c.nb) ∧
    (c.nb ≠ 0 → heavyCount c.nb raw + 1 ≠ c.nb →
      ∃ c', c.buildBuckets fmax = ok c' ∧ Built fmax c' raw (limitsOf c.nb raw) ∧ c'.nb = c.nb) := by
  have hH : heavyCount c.nb raw ≤ raw.length := by
    unfold heavyCount
    exact (List.length_filter_le _ _).trans (hist_length_le raw)
  have hS : (limitsOf c.nb raw).length ≤ raw.length := (limits_length_le _ _).trans (hist_length_le raw)
  have hz : u64 ((c.nb : Int) - ((heavyCount c.nb raw + 1 : Nat) : Int)) = 0 ↔ heavyCount c.nb raw + 1 = c.nb := by
    rw [u64_zero_iff hnb (by omega)]
    exact eq_comm
  have e0 : max 1 (raw.length / c.nb) = capOf raw.length c.nb := rfl
  have eH : (BktCol.heavy (histogram raw) (capOf raw.length c.nb)).length = heavyCount c.nb raw := rfl
  have eq : c.nb ≠ 0 → c.buildBuckets fmax =
      (if u64 ((c.nb : Int) - ((heavyCount c.nb raw + 1 : Nat) : Int)) = 0 then ub else ok (lcapOf c.nb raw)) >>= fun lcap =>
        buildMap ((limits (histogram raw) (capOf raw.length c.nb) lcap ++ [fmax]).map Fl.num) 1 [] >>= fun m =>
          (({ c with maxs := Fl.nan :: (limits (histogram raw) (capOf raw.length c.nb) lcap ++ [fmax]).map Fl.num,
                     mins := Fl.nan :: (limits (histogram raw) (capOf raw.length c.nb) lcap ++ [fmax]).map Fl.num,
                     bucketMap := m } : BktCol A).addBucketizedVec raw) >>= fun c2 => pure { c2 with buffer := [] } := by
    intro h0
    unfold BktCol.buildBuckets BktCol.capacity
    rw [if_neg h0, h.buffer]
    simp only [ok_bind, e0, List.length_cons, List.length_map, BktCol.leftOverCapacity, eH]
    congr 1
    funext lcap
    rw [sortTail_eq]
    simp only [ok_bind, List.cons_append, List.tail_cons, List.map_append, List.map_cons, List.map_nil]
  by_cases h0 : c.nb = 0
  · have : c.buildBuckets fmax = ub := by
      unfold BktCol.buildBuckets BktCol.capacity
      simp [h0]
    simp [this, h0]
  · by_cases h1 : heavyCount c.nb raw + 1 = c.nb
    · have : c.buildBuckets fmax = ub := by
        rw [eq h0, if_pos (hz.mpr h1)]
        rfl
      simp [this, h1]
    · have hok : ∃ c', c.buildBuckets fmax = ok c' ∧ Built fmax c' raw (limitsOf c.nb raw) ∧ c'.nb = c.nb := by
        obtain ⟨M, hM1, hM2, hM3⟩ := buildMap_spec (limitsOf c.nb raw ++ [fmax]) 1 [] List.Pairwise.nil
        have hbk : Bkts fmax (limitsOf c.nb raw) M := by
          refine ⟨limits_sorted (histogram_spec raw).1 _ _, hM2, ?_⟩
          intro a j
          rw [hM3]
          simp
        let c1 : BktCol A := { c with maxs := Fl.nan :: (limitsOf c.nb raw ++ [fmax]).map Fl.num,
                                      mins := Fl.nan :: (limitsOf c.nb raw ++ [fmax]).map Fl.num,
                                      bucketMap := M }
        have hb1 : Built fmax { c1 with buffer := [] } [] (limitsOf c.nb raw) := by
          refine ⟨h.status, by omega, rfl, hbk, ⟨[], Placed.init, ?_⟩, rfl⟩
          unfold Stored
          simp only [c1, h.ints]
          split
          · simp
          · split <;> simp
        obtain ⟨c2, h2, h3, h4⟩ := addBucketizedVec_ok hb1 raw
        have hstep : (({ c1 with buffer := [] } : BktCol A).addBucketizedVec raw) =
            (c1.addBucketizedVec raw >>= fun d => ok { d with buffer := [] }) := by
          unfold BktCol.addBucketizedVec BktCol.maxInt
          simp only
          split
          · cases BktCol.addHelper c1.bucketMap (· % 256) raw c1.ints.col8 c1.mins <;> rfl
          · split
            · cases BktCol.addHelper c1.bucketMap (· % 65536) raw c1.ints.col16 c1.mins <;> rfl
            · cases BktCol.addHelper c1.bucketMap u32 raw c1.ints.col32 c1.mins <;> rfl
        refine ⟨c2, ?_, by simpa using h3, h4⟩
        rw [eq h0, if_neg (fun e => h1 (hz.mp e))]
        simp only [ok_bind]
        have eL : limits (histogram raw) (capOf raw.length c.nb) (lcapOf c.nb raw) = limitsOf c.nb raw := rfl
        rw [eL, hM1]
        simp only [ok_bind, pure_eq]
        rw [← h2, hstep]
      refine ⟨?_, fun _ _ => hok⟩
      obtain ⟨c', hc', _⟩ := hok
      rw [hc']
      simp [h0, h1]

end Gbdt
