import Verif.Props.Subsampling
import Verif.Props.PairSchedule
import Verif.Props.PairCounts
import Mathlib.Data.Fintype.BigOperators
import Mathlib.Algebra.BigOperators.Expect
import Mathlib.Algebra.BigOperators.Fin
import Mathlib.Tactic.FinCases

/-!
# C166 and C167: what sampling gives on average

Chance is expressed by counting: the generator gives one of finitely many values, all equally likely and independent of one another.
-/

set_option autoImplicit false
set_option linter.unusedSectionVars false

namespace Gbdt

open Outcome
open scoped BigOperators

/-! ## C166: rows and features -/

section rows
variable {D : Type} [Dbl D] {Ω : Type} [Fintype Ω]

/-- The draws from position `p` on are the values of `ω`. -/
def DrawsAre (value : Ω → D) {n : Nat} (ω : Fin n → Ω) (p : Nat) (draw : Nat → D) : Prop := ∀ i : Fin n, draw (p + i) = value (ω i)

open Classical in
/-- **C166.** Every sample is drawn as often as independent choices would: among all sequences of `n` values of the generator, those that give the sample
`T` are as many as there are ways to take a value below the rate for every row in `T` and another one for every other row. -/
theorem C166_independent (toInt : D → Option Int) (ofNat : Nat → D) (n : Nat) (rate : D) (hint : toInt (rate * ofNat n) ≠ none) (value : Ω → D)
    (draw : (Fin n → Ω) → Nat → D) (p : Nat) (hdraw : ∀ ω, DrawsAre value ω p (draw ω)) (T : Finset (Fin n)) :
    (Finset.univ.filter (fun ω : Fin n → Ω => ∃ samples q, uniformSubsample toInt ofNat (draw ω) n rate p = ok (samples, q) ∧
        ∀ i : Fin n, (i : Nat) ∈ samples ↔ i ∈ T)).card =
      (Finset.univ.filter (fun x => Dbl.ltb (value x) rate = true)).card ^ T.card *
        (Finset.univ.filter (fun x => Dbl.ltb (value x) rate = false)).card ^ (n - T.card) := by
  have hset : (Finset.univ.filter (fun ω : Fin n → Ω => ∃ samples q, uniformSubsample toInt ofNat (draw ω) n rate p = ok (samples, q) ∧
      ∀ i : Fin n, (i : Nat) ∈ samples ↔ i ∈ T)) =
      Fintype.piFinset (fun i => if i ∈ T then Finset.univ.filter (fun x => Dbl.ltb (value x) rate = true)
        else Finset.univ.filter (fun x => Dbl.ltb (value x) rate = false)) := by
    ext ω
    simp only [Finset.mem_filter, Finset.mem_univ, true_and, Fintype.mem_piFinset]
    obtain ⟨samples, h1, _, h3⟩ := (C22_subsample toInt ofNat (draw ω) n rate p).2 hint
    constructor
    · rintro ⟨samples', q, h1', h⟩ i
      rw [h1] at h1'
      cases h1'
      have := h3 i
      rw [hdraw ω i, h i] at this
      split
      · next hi => simpa using (this.mp hi).2
      · next hi => simpa [i.2, hi] using this
    · intro h
      refine ⟨samples, _, h1, fun i => ?_⟩
      have := h i
      rw [h3 i, hdraw ω i]
      split at this
      · next hi => simpa [hi, i.2] using this
      · next hi => simpa [hi, i.2] using this
  rw [hset, Fintype.card_piFinset]
  have hprod : ∀ i : Fin n, (if i ∈ T then Finset.univ.filter (fun x => Dbl.ltb (value x) rate = true)
        else Finset.univ.filter (fun x => Dbl.ltb (value x) rate = false)).card =
      if i ∈ T then (Finset.univ.filter (fun x => Dbl.ltb (value x) rate = true)).card
        else (Finset.univ.filter (fun x => Dbl.ltb (value x) rate = false)).card := by
    intro i
    split <;> rfl
  simp only [hprod]
  rw [Finset.prod_ite, Finset.prod_const, Finset.prod_const]
  congr 2
  · congr 1
    ext i
    simp
  · rw [show (Finset.univ.filter (fun i => i ∉ T)) = Tᶜ by ext i; simp, Finset.card_compl, Fintype.card_fin]

open Classical in
/-- **C166 (rate).** Every row is in the sample with the probability that a value of the generator is below the rate. -/
theorem C166_rate (toInt : D → Option Int) (ofNat : Nat → D) (n : Nat) (rate : D) (hint : toInt (rate * ofNat n) ≠ none) (value : Ω → D)
    (draw : (Fin n → Ω) → Nat → D) (p : Nat) (hdraw : ∀ ω, DrawsAre value ω p (draw ω)) (i : Fin n) :
    (Finset.univ.filter (fun ω : Fin n → Ω => ∃ samples q, uniformSubsample toInt ofNat (draw ω) n rate p = ok (samples, q) ∧
        (i : Nat) ∈ samples)).card * Fintype.card Ω =
      (Finset.univ.filter (fun x => Dbl.ltb (value x) rate = true)).card * Fintype.card (Fin n → Ω) := by
  have hset : (Finset.univ.filter (fun ω : Fin n → Ω => ∃ samples q, uniformSubsample toInt ofNat (draw ω) n rate p = ok (samples, q) ∧
      (i : Nat) ∈ samples)) =
      Fintype.piFinset (fun j => if j = i then Finset.univ.filter (fun x => Dbl.ltb (value x) rate = true) else Finset.univ) := by
    ext ω
    simp only [Finset.mem_filter, Finset.mem_univ, true_and, Fintype.mem_piFinset]
    obtain ⟨samples, h1, _, h3⟩ := (C22_subsample toInt ofNat (draw ω) n rate p).2 hint
    have hi := h3 i
    rw [hdraw ω i] at hi
    constructor
    · rintro ⟨samples', q, h1', h⟩ j
      rw [h1] at h1'
      cases h1'
      split
      · next hj => subst hj; simpa using (hi.mp h).2
      · simp
    · intro h
      refine ⟨samples, _, h1, hi.mpr ⟨i.2, ?_⟩⟩
      have := h i
      rw [if_pos rfl] at this
      simpa using this
  rw [hset, Fintype.card_piFinset, Fintype.card_fun, Fintype.card_fin]
  have hprod : ∀ j : Fin n, (if j = i then Finset.univ.filter (fun x => Dbl.ltb (value x) rate = true) else Finset.univ).card =
      if j = i then (Finset.univ.filter (fun x => Dbl.ltb (value x) rate = true)).card else Fintype.card Ω := by
    intro j
    split <;> rfl
  simp only [hprod]
  rw [Finset.prod_ite, Finset.prod_const, Finset.prod_const, Finset.filter_eq' Finset.univ i, if_pos (Finset.mem_univ i), Finset.card_singleton,
    pow_one, Finset.filter_ne' Finset.univ i, Finset.card_erase_of_mem (Finset.mem_univ i), Finset.card_univ, Fintype.card_fin, mul_assoc,
    ← pow_succ, Nat.sub_add_cancel (Nat.one_le_of_lt i.2)]

end rows

open Classical in
/-- Hypotheses of C166 met: values 0, 1/4, 1/2, 3/4 and a rate of 1/2 for three rows.  The sample of the first and last row is drawn in 8 of the 64
cases. -/
example : (Finset.univ.filter (fun ω : Fin 3 → Fin 4 => ∃ samples q, uniformSubsample (D := ℚ) (fun x => some x.floor) (fun n => n)
      (fun k => if h : k < 3 then ((ω ⟨k, h⟩ : Nat) : ℚ) / 4 else 0) 3 (1 / 2) 0 = ok (samples, q) ∧
        ∀ i : Fin 3, (i : Nat) ∈ samples ↔ i ∈ ({0, 2} : Finset (Fin 3)))).card = 8 := by
  classical
  have := C166_independent (D := ℚ) (Ω := Fin 4) (fun x => some x.floor) (fun n => n) 3 (1 / 2) (by simp) (fun x => ((x : Nat) : ℚ) / 4)
    (fun ω k => if h : k < 3 then ((ω ⟨k, h⟩ : Nat) : ℚ) / 4 else 0) 0 (fun ω i => by simp) {0, 2}
  refine this.trans ?_
  rw [show (Finset.univ.filter (fun x : Fin 4 => Dbl.ltb (((x : Nat) : ℚ) / 4) (1 / 2) = true)) = {0, 1} by
      ext x; fin_cases x <;> simp <;> decide +kernel,
    show (Finset.univ.filter (fun x : Fin 4 => Dbl.ltb (((x : Nat) : ℚ) / 4) (1 / 2) = false)) = {2, 3} by
      ext x; fin_cases x <;> simp <;> decide +kernel]
  decide

/-! ## C167: pairs -/

section pairs
variable {K : Type} [Field K] [LinearOrder K] [CharZero K]

theorem expect_coordinate {ι : Type} [Fintype ι] [DecidableEq ι] {β : ι → Type} [∀ i, Fintype (β i)] (hne : ∀ i, Nonempty (β i)) (i : ι)
    (h : β i → K) : (𝔼 ω : (∀ i, β i), h (ω i)) = 𝔼 x, h x := by
  rw [Fintype.expect_equiv (Equiv.piSplitAt i β) (fun ω => h (ω i)) (fun p => h p.1) (fun _ => rfl)]
  rw [← Finset.univ_product_univ, Finset.expect_product]
  refine Finset.expect_congr rfl (fun x _ => ?_)
  exact Finset.expect_const (s := (Finset.univ : Finset ((j : { j // j ≠ i }) → β j))) Finset.univ_nonempty (h x)

/-- Where a round draws: group number `index`, and how many were drawn of that group before. -/
abbrev DrawPos (s : PairState K) (n : Fin s.groups.length → Nat) : Type := Σ index : Fin s.groups.length, Fin (n index)

/-- All that a round can draw: for every draw one of the pairs of its group. -/
abbrev RoundOutcome (s : PairState K) (n : Fin s.groups.length → Nat) : Type := (p : DrawPos s n) → Fin (s.groups[p.1]).numPairs

/-- The loss with the draws of the next round given by `ω`. -/
def withOutcome (e : PairLoss K) (s : PairState K) (n : Fin s.groups.length → Nat) (ω : RoundOutcome s n) : PairLoss K :=
  withDraws e s.round (fun index i _ => if h : ∃ h1 : index < s.groups.length, i < n ⟨index, h1⟩ then
    (ω ⟨⟨index, h.1⟩, ⟨i, h.2⟩⟩ : Nat) else 0)

/-- The group as it is when its pairs are drawn: LambdaMART ranks it by the function values first. -/
def rankedGroup (e : PairLoss K) (f : List K) (g : Group) : Group :=
  if e.rerank then (match Gbdt.rerank e.sort f g with | .ok g' => g' | _ => g) else g

/-- The rank of a row in its group. -/
def rankOf (g : Group) (row : Nat) : Nat := g.ranks.getD (g.rows.idxOf row) 0

/-- What the pair of the better row `pos` and the worse row `neg` of group `g` counts for. -/
def pairOf (e : PairLoss K) (s : PairState K) (f : List K) (g : Group) (pos neg : Nat) : Draw K where
  pos := pos
  neg := neg
  weight := e.rnd32 (e.w pos * e.w neg) * weightOf e pos neg (rankOf (rankedGroup e f g) pos) (rankOf (rankedGroup e f g) neg) *
    (if e.equalWeight then e.ofNat s.minNumPairs / e.ofNat g.numPairs else e.ofNat 1)
  dg := (e.lossFn (e.rnd32 (e.y pos - e.y neg)) (f.getD pos 0 - f.getD neg 0)).2.1
  dh := (e.lossFn (e.rnd32 (e.y pos - e.y neg)) (f.getD pos 0 - f.getD neg 0)).2.2

/-- All pairs of rows of a group of which the first has the larger target. -/
def allPairs (y : Nat → K) (rows : List Nat) : List (Nat × Nat) :=
  (rows.flatMap (fun a => rows.map (fun b => (a, b)))).filter (fun p => y p.2 < y p.1)

/-- The rows of the pair that an index stands for, if it stands for one. -/
def drawnPair (g : Group) (j : Nat) : Nat × Nat := match drawnRows g j with | .ok p => p | _ => (0, 0)

theorem rankOf_eq {g : Group} (hnd : g.rows.Nodup) {a row k : Nat} (h1 : g.rows[a]? = some row) (h2 : g.ranks[a]? = some k) :
    rankOf g row = k := by
  obtain ⟨ha, rfl⟩ := List.getElem?_eq_some_iff.mp h1
  rw [rankOf, hnd.idxOf_getElem a ha, List.getD_eq_getElem?_getD, h2]
  rfl

theorem KeptGroup.rows_nodup {e : PairLoss K} (hsort : DescSortSpec e.sort) {g : Group} (h : KeptGroup e g) : g.rows.Nodup := by
  obtain ⟨l, g0, hnd, hmk, hgg, _⟩ := h
  rw [hgg]
  exact ((mkGroup_ranks hsort hmk).2).nodup_iff.mpr hnd

theorem rankedGroup_of {e : PairLoss K} {f : List K} {g0 g : Group}
    (h : (if e.rerank then Gbdt.rerank e.sort f g0 else ok g0) = ok g) : rankedGroup e f g0 = g := by
  unfold rankedGroup
  split
  · next hr => rw [if_pos hr] at h; rw [h]
  · next hr => rw [if_neg hr, Outcome.ok.injEq] at h; exact h

theorem validDraw_pairOf {e : PairLoss K} (hsort : DescSortSpec e.sort) {s : PairState K} {f : List K} {g0 g : Group} (hk : KeptGroup e g0)
    (h : (if e.rerank then Gbdt.rerank e.sort f g0 else ok g0) = ok g) {j : Nat} {d : Draw K}
    (hd : ValidDraw e f g (if e.equalWeight then e.ofNat s.minNumPairs / e.ofNat g0.numPairs else e.ofNat 1) j d) :
    d = pairOf e s f g0 (drawnPair g0 j).1 (drawnPair g0 j).2 := by
  have hg : KeptGroup e g ∧ g = { g0 with ranks := g.ranks } := by
    by_cases hr : e.rerank = true
    · rw [if_pos hr] at h
      obtain ⟨a, b, _⟩ := rerank_kept hsort hk h
      exact ⟨a, b⟩
    · rw [if_neg hr, Outcome.ok.injEq] at h
      subst h
      exact ⟨hk, rfl⟩
  have hrg := rankedGroup_of h
  obtain ⟨h1, _, ⟨fp, fn, l, h3, h4, h5⟩, a, b, ra, rb, h6, h7, h8, h9, h10⟩ := hd
  have hdraw : drawnPair g0 j = (d.pos, d.neg) := by
    have : drawnRows g0 j = drawnRows g j := by rw [hg.2]; rfl
    rw [drawnPair, this, h1]
  have r1 := rankOf_eq (hg.1.rows_nodup hsort) h6 h8
  have r2 := rankOf_eq (hg.1.rows_nodup hsort) h7 h9
  rw [hdraw]
  cases d with
  | mk pos neg weight dg dh =>
    simp only at h3 h4 h5 h10 r1 r2
    simp only [pairOf, hrg, r1, r2, h10, List.getD_eq_getElem?_getD, h3, h4, Option.getD_some, h5]

theorem outcome_sum {e : PairLoss K} (hsort : DescSortSpec e.sort) {numRows : Nat} {col : Option StrCol} {s s' : PairState K} {f : List K}
    {c : K} {grads : List (GD K)} (hr : PairReach e numRows col s) (n : Fin s.groups.length → Nat)
    (hn : ∀ index, e.toU64 (e.ofNat (s.groups[index]).numPairs * s.prob) = some (n index)) (ω : RoundOutcome s n)
    (h : pairCompute (withOutcome e s n ω) s f = ok (s', c, grads)) (r : Nat) :
    gOf grads r = ∑ p : DrawPos s n, pull r (pairOf e s f s.groups[p.1] (drawnPair s.groups[p.1] (ω p)).1 (drawnPair s.groups[p.1] (ω p)).2) ∧
    hOf grads r = ∑ p : DrawPos s n, push (e.ofNat 2) r
      (pairOf e s f s.groups[p.1] (drawnPair s.groups[p.1] (ω p)).1 (drawnPair s.groups[p.1] (ω p)).2) := by
  have hr' : PairReach (withOutcome e s n ω) numRows col s := hr.draw _ (fun t ht => Function.update_of_ne (by omega) _ _)
  obtain ⟨_, _, draws, h1, h2, h3⟩ := C75_gradients (e := withOutcome e s n ω) hsort hr' h
  have hdraws : draws = List.ofFn (fun index : Fin s.groups.length => List.ofFn (fun i : Fin (n index) =>
      pairOf e s f s.groups[index] (drawnPair s.groups[index] (ω ⟨index, i⟩)).1 (drawnPair s.groups[index] (ω ⟨index, i⟩)).2)) := by
    apply List.ext_getElem
    · rw [h1, List.length_ofFn]
    · intro index hi hi'
      rw [List.getElem_ofFn]
      have hig : index < s.groups.length := by rwa [h1] at hi
      obtain ⟨g0, g, k1, k2, k3, k4⟩ := h2 index _ (List.getElem?_eq_getElem hi)
      rw [List.getElem?_eq_getElem hig, Option.some.injEq] at k1
      subst k1
      have hlen : draws[index].length = n ⟨index, hig⟩ := by
        have := hn ⟨index, hig⟩
        exact Option.some.inj (k3.symm.trans this)
      apply List.ext_getElem
      · rw [hlen, List.length_ofFn]
      · intro i hii hii'
        rw [List.getElem_ofFn]
        have hin : i < n ⟨index, hig⟩ := by rwa [hlen] at hii
        have hv := k4 i _ (List.getElem?_eq_getElem hii)
        have hval : (withOutcome e s n ω).draw s.round index i s.groups[index].numPairs = (ω ⟨⟨index, hig⟩, ⟨i, hin⟩⟩ : Nat) := by
          show Function.update e.draw s.round _ s.round index i _ = _
          rw [Function.update_self, dif_pos ⟨hig, hin⟩]
        rw [hval] at hv
        exact validDraw_pairOf (e := withOutcome e s n ω) (s := s) hsort ((PairReach.inv (e := withOutcome e s n ω) hsort hr').kept.groups _ (List.getElem_mem hig)) k2 hv
  have key : ∀ φ : Draw K → K, (draws.flatten.map φ).sum = ∑ p : DrawPos s n,
      φ (pairOf e s f s.groups[p.1] (drawnPair s.groups[p.1] (ω p)).1 (drawnPair s.groups[p.1] (ω p)).2) := by
    intro φ
    rw [hdraws, Fintype.sum_sigma, List.map_flatten, List.sum_flatten, List.map_map, List.map_ofFn, List.sum_ofFn]
    refine Finset.sum_congr rfl (fun index _ => ?_)
    simp only [Function.comp, List.map_ofFn, List.sum_ofFn]
  exact ⟨(h3 r).1.trans (key _), (h3 r).2.trans (key _)⟩

theorem drawnPair_perm {e : PairLoss K} (hsort : DescSortSpec e.sort) {g : Group} (hk : KeptGroup e g) :
    ((List.range g.numPairs).map (drawnPair g)).Perm (allPairs e.y g.rows) := by
  have hnd := hk.rows_nodup hsort
  obtain ⟨l, g0, hl, hmk, hgg, _⟩ := hk
  obtain ⟨F, hF, hbij⟩ := C49_pair_bijection hsort hl hmk
  have hP : g.numPairs = g0.numPairs := by rw [hgg]
  have hrows : g.rows.Perm l := by rw [hgg]; exact (mkGroup_ranks hsort hmk).2
  have hFd : ∀ j < g.numPairs, drawnPair g j = F j := by
    intro j hj
    have : drawnRows g j = drawnRows g0 j := by rw [hgg]; rfl
    rw [drawnPair, this, hF j (by omega)]
  have hpr : (g.rows.flatMap (fun r => g.rows.map (fun s => (r, s)))).Nodup := by
    rw [List.nodup_flatMap]
    refine ⟨fun r _ => hnd.map (fun a b hab => (Prod.mk.inj hab).2), ?_⟩
    refine hnd.imp ?_
    intro a b hab p hp1 hp2
    simp only [List.mem_map] at hp1 hp2
    obtain ⟨s, _, rfl⟩ := hp1
    obtain ⟨t, _, ht⟩ := hp2
    exact hab (Prod.mk.inj ht).1.symm
  have hperm : ((List.range g.numPairs).map F).Perm (allPairs e.y g.rows) := by
    refine (List.perm_ext_iff_of_nodup ?_ (hpr.filter _)).mpr ?_
    rotate_left
    · rintro ⟨r, s⟩
      simp only [List.mem_map, List.mem_range, List.mem_filter, List.mem_flatMap, Prod.mk.injEq, hrows.mem_iff]
      constructor
      · rintro ⟨i, hi, he⟩
        have := hbij.mapsTo (show i ∈ {i | i < g0.numPairs} by rw [← hP]; exact hi)
        rw [he] at this
        exact ⟨⟨r, this.1, s, this.2.1, rfl, rfl⟩, this.2.2⟩
      · rintro ⟨⟨_, h1, _, h2, rfl, rfl⟩, h3⟩
        obtain ⟨i, hi, he⟩ := hbij.surjOn (show (_, _) ∈ _ from ⟨h1, h2, h3⟩)
        exact ⟨i, by rw [hP]; exact hi, he⟩
    · refine List.Nodup.map_on ?_ List.nodup_range
      intro i hi j hj hij
      rw [hP] at hi hj
      exact hbij.injOn (List.mem_range.mp hi) (List.mem_range.mp hj) hij
  rwa [List.map_congr_left (fun j hj => hFd j (List.mem_range.mp hj))]

theorem allPairs_length {e : PairLoss K} (hsort : DescSortSpec e.sort) {g : Group} (hk : KeptGroup e g) :
    (allPairs e.y g.rows).length = g.numPairs := by
  rw [← (drawnPair_perm hsort hk).length_eq, List.length_map, List.length_range]

/-- Averaging over the indices of a group is averaging over its pairs. -/
theorem expect_drawnPair {e : PairLoss K} (hsort : DescSortSpec e.sort) {g : Group} (hk : KeptGroup e g) (φ : Nat × Nat → K) :
    (𝔼 j : Fin g.numPairs, φ (drawnPair g j)) = ((allPairs e.y g.rows).map φ).sum / g.numPairs := by
  rw [Finset.expect_eq_sum_div_card, Finset.card_univ, Fintype.card_fin, ← ((drawnPair_perm hsort hk).map φ).sum_eq, List.map_map]
  congr 1
  rw [← Finset.sum_range (fun j => φ (drawnPair g j))]
  rfl

/-- **C167.** Sampling pairs is fair, in exact arithmetic: averaged over all that a round can draw, the gradient of a row is what all pairs of every
group together would give, times the share of pairs drawn of that group; and so is its hessian. -/
theorem C167_unbiased {e : PairLoss K} (hsort : DescSortSpec e.sort) {numRows : Nat} {col : Option StrCol} {s : PairState K} {f : List K}
    (hr : PairReach e numRows col s) (n : Fin s.groups.length → Nat)
    (hn : ∀ index, e.toU64 (e.ofNat (s.groups[index]).numPairs * s.prob) = some (n index))
    (h0 : ∀ index, (s.groups[index]).numPairs = 0 → n index = 0) (grads : RoundOutcome s n → List (GD K))
    (h : ∀ ω, ∃ s' c, pairCompute (withOutcome e s n ω) s f = ok (s', c, grads ω)) (r : Nat) :
    (𝔼 ω, gOf (grads ω) r) = ∑ index : Fin s.groups.length, (n index / (s.groups[index]).numPairs : K) *
      ((allPairs e.y (s.groups[index]).rows).map (fun p => pull r (pairOf e s f s.groups[index] p.1 p.2))).sum ∧
    (𝔼 ω, hOf (grads ω) r) = ∑ index : Fin s.groups.length, (n index / (s.groups[index]).numPairs : K) *
      ((allPairs e.y (s.groups[index]).rows).map (fun p => push (e.ofNat 2) r (pairOf e s f s.groups[index] p.1 p.2))).sum := by
  have hne : ∀ p : DrawPos s n, Nonempty (Fin (s.groups[p.1]).numPairs) := by
    rintro ⟨index, i⟩
    refine ⟨⟨0, Nat.pos_of_ne_zero (fun hz => ?_)⟩⟩
    have := h0 index hz
    have hi := i.2
    omega
  have key : ∀ φ : Draw K → K, (𝔼 ω : RoundOutcome s n, ∑ p : DrawPos s n,
      φ (pairOf e s f s.groups[p.1] (drawnPair s.groups[p.1] (ω p)).1 (drawnPair s.groups[p.1] (ω p)).2)) =
      ∑ index : Fin s.groups.length, (n index / (s.groups[index]).numPairs : K) *
        ((allPairs e.y (s.groups[index]).rows).map (fun p => φ (pairOf e s f s.groups[index] p.1 p.2))).sum := by
    intro φ
    rw [Finset.expect_sum_comm, Fintype.sum_sigma]
    refine Finset.sum_congr rfl (fun index _ => ?_)
    have : ∀ i : Fin (n index), (𝔼 ω : RoundOutcome s n,
        φ (pairOf e s f s.groups[index] (drawnPair s.groups[index] (ω ⟨index, i⟩)).1 (drawnPair s.groups[index] (ω ⟨index, i⟩)).2)) =
        ((allPairs e.y (s.groups[index]).rows).map (fun p => φ (pairOf e s f s.groups[index] p.1 p.2))).sum / (s.groups[index]).numPairs := by
      intro i
      rw [expect_coordinate (β := fun p : DrawPos s n => Fin (s.groups[p.1]).numPairs) hne ⟨index, i⟩ (fun j =>
        φ (pairOf e s f s.groups[index] (drawnPair s.groups[index] j).1 (drawnPair s.groups[index] j).2))]
      exact expect_drawnPair hsort ((hr.inv hsort).kept.groups _ (List.getElem_mem index.2)) (fun p => φ (pairOf e s f s.groups[index] p.1 p.2))
    rw [Finset.sum_congr rfl (fun i _ => this i), Finset.sum_const, Finset.card_univ, Fintype.card_fin, nsmul_eq_mul]
    ring
  have e1 : ∀ ω, gOf (grads ω) r = _ := fun ω => by
    obtain ⟨s', c, hc⟩ := h ω
    exact (outcome_sum hsort hr n hn ω hc r).1
  have e2 : ∀ ω, hOf (grads ω) r = _ := fun ω => by
    obtain ⟨s', c, hc⟩ := h ω
    exact (outcome_sum hsort hr n hn ω hc r).2
  exact ⟨(Finset.expect_congr rfl (fun ω _ => e1 ω)).trans (key _), (Finset.expect_congr rfl (fun ω _ => e2 ω)).trans (key _)⟩

/-- **C167 (exact share).** If nothing is lost by rounding down the number of pairs, the average is the sampling probability times the gradient that
all pairs of all groups give. -/
theorem C167_share {e : PairLoss K} (hsort : DescSortSpec e.sort) {numRows : Nat} {col : Option StrCol} {s : PairState K} {f : List K}
    (hr : PairReach e numRows col s) (n : Fin s.groups.length → Nat)
    (hn : ∀ index, e.toU64 (e.ofNat (s.groups[index]).numPairs * s.prob) = some (n index))
    (hexact : ∀ index, (n index : K) = (s.groups[index]).numPairs * s.prob) (grads : RoundOutcome s n → List (GD K))
    (h : ∀ ω, ∃ s' c, pairCompute (withOutcome e s n ω) s f = ok (s', c, grads ω)) (r : Nat) :
    (𝔼 ω, gOf (grads ω) r) = s.prob * ∑ index : Fin s.groups.length,
      ((allPairs e.y (s.groups[index]).rows).map (fun p => pull r (pairOf e s f s.groups[index] p.1 p.2))).sum ∧
    (𝔼 ω, hOf (grads ω) r) = s.prob * ∑ index : Fin s.groups.length,
      ((allPairs e.y (s.groups[index]).rows).map (fun p => push (e.ofNat 2) r (pairOf e s f s.groups[index] p.1 p.2))).sum := by
  have h0 : ∀ index, (s.groups[index]).numPairs = 0 → n index = 0 := by
    intro index hz
    have := hexact index
    rw [hz, Nat.cast_zero, zero_mul] at this
    exact_mod_cast this
  obtain ⟨h1, h2⟩ := C167_unbiased hsort hr n hn h0 grads h r
  have key : ∀ (index : Fin s.groups.length) (φ : Nat × Nat → K), (n index / (s.groups[index]).numPairs : K) *
      ((allPairs e.y (s.groups[index]).rows).map φ).sum = s.prob * ((allPairs e.y (s.groups[index]).rows).map φ).sum := by
    intro index φ
    by_cases hz : (s.groups[index]).numPairs = 0
    · have := allPairs_length hsort ((hr.inv hsort).kept.groups _ (List.getElem_mem index.2))
      have hnil : allPairs e.y (s.groups[index]).rows = [] := List.eq_nil_of_length_eq_zero (this.trans hz)
      rw [hnil, List.map_nil, List.sum_nil, mul_zero, mul_zero]
    · rw [hexact index, mul_div_cancel_left₀ _ (Nat.cast_ne_zero.mpr hz)]
  rw [h1, h2, Finset.mul_sum, Finset.mul_sum]
  exact ⟨Finset.sum_congr rfl (fun index _ => key index _), Finset.sum_congr rfl (fun index _ => key index _)⟩

end pairs

/-- A loss that draws one pair of a group of one pair, and three of a group of three. -/
def evenLoss : PairLoss ℚ := fewLoss (8 / 5) (fun i => [1, 2, 1, 2, 3].getD i 0)

/-- Its state. -/
def evenState : PairState ℚ := madeState evenLoss 5 (some unevenGroups)

/-- How many pairs it draws. -/
def evenDraws (index : Fin evenState.groups.length) : Nat := (evenState.groups[index]).numPairs

theorem even_runs : ∀ ω : RoundOutcome evenState evenDraws,
    (match pairCompute (withOutcome evenLoss evenState evenDraws ω) evenState [0, 0, 0, 0, 0] with | .ok _ => true | _ => false) = true := by
  decide +kernel

/-- Hypotheses of C167 met, of both parts; the average gradient of the best row of the second group is 2: it is the better row of two of the three
pairs, and three are drawn. -/
example : ∃ grads : RoundOutcome evenState evenDraws → List (GD ℚ), (∀ ω, ∃ s' c,
      pairCompute (withOutcome evenLoss evenState evenDraws ω) evenState [0, 0, 0, 0, 0] = ok (s', c, grads ω)) ∧
    (∀ index, evenLoss.toU64 (evenLoss.ofNat (evenState.groups[index]).numPairs * evenState.prob) = some (evenDraws index)) ∧
    (∀ index, (evenDraws index : ℚ) = (evenState.groups[index]).numPairs * evenState.prob) ∧
    (𝔼 ω, gOf (grads ω) 4) = 2 := by
  have hd : ∀ ω, ∃ x, pairCompute (withOutcome evenLoss evenState evenDraws ω) evenState [0, 0, 0, 0, 0] = ok x := by
    intro ω
    have h := even_runs ω
    generalize pairCompute (withOutcome evenLoss evenState evenDraws ω) evenState [0, 0, 0, 0, 0] = r at h ⊢
    match r, h with
    | .ok x, _ => exact ⟨x, rfl⟩
  choose x hx using hd
  have h1 : ∀ index, evenLoss.toU64 (evenLoss.ofNat (evenState.groups[index]).numPairs * evenState.prob) = some (evenDraws index) := by
    decide +kernel
  have h2 : ∀ index, (evenDraws index : ℚ) = (evenState.groups[index]).numPairs * evenState.prob := by decide +kernel
  have hr : PairReach evenLoss 5 (some unevenGroups) evenState := PairReach.init (madeState_eq (by decide +kernel))
  refine ⟨fun ω => (x ω).2.2, fun ω => ⟨_, _, hx ω⟩, h1, h2, ?_⟩
  rw [(C167_share ratDescSort_spec hr evenDraws h1 h2 _ (fun ω => ⟨_, _, hx ω⟩) 4).1]
  decide +kernel

end Gbdt
