import Verif.Lemmas.Pairwise
import Verif.Props.StringColumn
import Mathlib.Algebra.BigOperators.Group.List.Basic
import Mathlib.Algebra.Order.BigOperators.Group.List

/-!
# C51, C75: gradients of pairwise losses

Specification: `Draw` is a sampled pair with its weight and the derivatives of the loss; `ValidDraw` says which draws a
random index allows.
-/

set_option autoImplicit false
set_option linter.unusedSectionVars false

namespace Gbdt

open Outcome

/-- A sampled pair: the row with the larger target, the other row, the weight, and what the loss gave. -/
structure Draw (D : Type) where
  pos : Nat
  neg : Nat
  weight : D
  dg : D
  dh : D

section spec
variable {D : Type} [Dbl D]

/-- The weight of a pair beside row weights and group factor: 1, the difference of the targets, or for LambdaMART that
times the difference of the discounts of the ranks. -/
def weightOf (e : PairLoss D) (pos neg rankPos rankNeg : Nat) : D :=
  match e.discount with
  | some d => e.rnd32 (e.y pos - e.y neg) * e.fabs (d rankPos - d rankNeg)
  | none => if e.byDelta then e.rnd32 (e.y pos - e.y neg) else e.ofNat 1

/-- `d` is the pair that a random index stands for, weighted by the weights of the rows, by `weightOf`, and by a factor. -/
def ValidDraw (e : PairLoss D) (f : List D) (g : Group) (factor : D) (index : Nat) (d : Draw D) : Prop :=
  drawnRows g index = ok (d.pos, d.neg) ∧ Dbl.ltb (e.y d.neg) (e.y d.pos) = true ∧
  (∃ fp fn l, f[d.pos]? = some fp ∧ f[d.neg]? = some fn ∧
    e.lossFn (e.rnd32 (e.y d.pos - e.y d.neg)) (fp - fn) = (l, d.dg, d.dh)) ∧
  ∃ a b ra rb : Nat, g.rows[a]? = some d.pos ∧ g.rows[b]? = some d.neg ∧ g.ranks[a]? = some ra ∧ g.ranks[b]? = some rb ∧
    d.weight = e.rnd32 (e.w d.pos * e.w d.neg) * weightOf e d.pos d.neg ra rb * factor

/-- The gradient of a row. -/
def gOf (grads : List (GD D)) (r : Nat) : D := match grads[r]? with | some x => x.g | none => 0

/-- The hessian of a row. -/
def hOf (grads : List (GD D)) (r : Nat) : D := match grads[r]? with | some x => x.h | none => 0

end spec

section steps
variable {D : Type} [Dbl D] [FpOrder D] [EqOrder D]

theorem pairAt_lt {e : PairLoss D} (hsort : DescSortSpec e.sort) {g : Group} (hg : KeptGroup e g) {i : Nat} {p : Nat × Nat}
    (h : pairAt g i = ok p) : i < g.numPairs := by
  obtain ⟨l, g0, hnd, hmk, hgg, _⟩ := hg
  obtain ⟨_, _, _, _, last, hb, _⟩ := mkGroup_spec hsort hmk
  rw [pairAt_eq_pairIn, pairIn] at h
  have hm : g.pairMap = g0.pairMap := by rw [hgg]
  have hn : g.numPairs = g0.numPairs := by rw [hgg]
  cases hf : g.pairMap.find? (fun e => decide (i + 1 ≤ e.1)) with
  | none => rw [hf] at h; cases h
  | some x =>
    have h1 := List.find?_some hf
    have h2 := hb.keys x (hm ▸ List.mem_of_find?_eq_some hf)
    rw [hn]
    simp only [decide_eq_true_eq] at h1
    omega

theorem drawnRows_larger {e : PairLoss D} (hsort : DescSortSpec e.sort) {g : Group} (hg : KeptGroup e g) {i pos neg : Nat}
    (h : drawnRows g i = ok (pos, neg)) : Dbl.ltb (e.y neg) (e.y pos) = true ∧ pos ∈ g.rows ∧ neg ∈ g.rows := by
  have hi : i < g.numPairs := by
    rw [drawnRows, bind_eq_ok] at h
    obtain ⟨p, h1, _⟩ := h
    exact pairAt_lt hsort hg h1
  obtain ⟨l, g0, hnd, hmk, hgg, _⟩ := hg
  have hd : drawnRows g i = drawnRows g0 i := by rw [hgg]; rfl
  have hn : g.numPairs = g0.numPairs := by rw [hgg]
  have hr : g.rows = g0.rows := by rw [hgg]
  obtain ⟨f, hf1, hf2⟩ := C49_pair_bijection hsort hnd hmk
  have := hf2.mapsTo (show i ∈ {i | i < g0.numPairs} from hn ▸ hi)
  have he := hf1 i (hn ▸ hi)
  rw [← hd, h, Outcome.ok.injEq] at he
  rw [← he] at this
  obtain ⟨_, hp, _⟩ := mkGroup_spec hsort hmk
  rw [hr]
  exact ⟨this.2.2, hp.mem_iff.mpr this.1, hp.mem_iff.mpr this.2.1⟩

/-- A step adds the contribution of a valid draw. -/
theorem pairStep_valid {e : PairLoss D} (hsort : DescSortSpec e.sort) {f : List D} {g : Group} (hg : KeptGroup e g)
    {factor : D} {index : Nat} {grads out : List (GD D)} (h : pairStep e f g factor index grads = ok out) :
    ∃ (d : Draw D) (old old2 : GD D), ValidDraw e f g factor index d ∧ grads[d.pos]? = some old ∧
      (grads.set d.pos ⟨old.g + d.weight * d.dg, old.h + e.ofNat 2 * d.weight * d.dh⟩)[d.neg]? = some old2 ∧
      out = (grads.set d.pos ⟨old.g + d.weight * d.dg, old.h + e.ofNat 2 * d.weight * d.dh⟩).set d.neg
        ⟨old2.g - d.weight * d.dg, old2.h + e.ofNat 2 * d.weight * d.dh⟩ := by
  obtain ⟨a, b, pos, neg, pw, fp, fn, l, dg, dh, old, old2, h1, h2, h3, h4, h5, h6, h7, h8, h9, h10⟩ := pairStep_ok h
  have hdr : drawnRows g index = ok (pos, neg) := by
    rw [drawnRows, h1]
    simp only [ok_bind, vecGet_eq_ok.mpr h2, vecGet_eq_ok.mpr h3, pure_eq]
  obtain ⟨hlt, _, _⟩ := drawnRows_larger hsort hg hdr
  have hlen : g.ranks.length = g.rows.length := by
    obtain ⟨_, _, _, _, _, hp⟩ := hg
    rw [hp.length_eq, List.length_range]
  have ha := (List.getElem?_eq_some_iff.mp h2).1
  have hb := (List.getElem?_eq_some_iff.mp h3).1
  have hra : g.ranks[a]? = some (g.ranks[a]'(by omega)) := List.getElem?_eq_getElem (by omega)
  have hrb : g.ranks[b]? = some (g.ranks[b]'(by omega)) := List.getElem?_eq_getElem (by omega)
  have hpw : pw = weightOf e pos neg (g.ranks[a]'(by omega)) (g.ranks[b]'(by omega)) := by
    rw [pairWeight] at h4
    rw [weightOf]
    split at h4
    · next hd =>
      simp only [hd]
      split at h4
      · next hbd =>
        simp only [vecGet_eq_ok.mpr h2, vecGet_eq_ok.mpr h3, ok_bind, pure_eq, Outcome.ok.injEq] at h4
        rw [if_pos hbd, h4]
      · next hbd =>
        rw [pure_eq, Outcome.ok.injEq] at h4
        rw [if_neg hbd, h4]
    · next d hd =>
      simp only [vecGet_eq_ok.mpr h2, vecGet_eq_ok.mpr h3, vecGet_eq_ok.mpr hra, vecGet_eq_ok.mpr hrb, ok_bind, pure_eq,
        Outcome.ok.injEq] at h4
      simp only [hd, h4]
  exact ⟨⟨pos, neg, e.rnd32 (e.w pos * e.w neg) * pw * factor, dg, dh⟩, old, old2,
    ⟨hdr, hlt, ⟨fp, fn, l, h5, h6, h7⟩, a, b, _, _, h2, h3, hra, hrb, by simp only [hpw]⟩, h8, h9, h10⟩

/-- Working on a group changes the gradients of its rows only. -/
theorem pairLoop_frame {e : PairLoss D} (hsort : DescSortSpec e.sort) {f : List D} {g : Group} (hg : KeptGroup e g)
    {factor : D} {draw : Nat → Nat} : ∀ (n i : Nat) {grads out : List (GD D)},
    pairLoop e f g factor draw n i grads = ok out →
    out.length = grads.length ∧ ∀ r, r ∉ g.rows → out[r]? = grads[r]?
  | 0, i, grads, out, h => by
    rw [pairLoop, Outcome.ok.injEq] at h
    subst h
    exact ⟨rfl, fun _ _ => rfl⟩
  | n + 1, i, grads, out, h => by
    rw [pairLoop, bind_eq_ok] at h
    obtain ⟨g1, h1, h2⟩ := h
    obtain ⟨d, old, old2, hv, _, _, rfl⟩ := pairStep_valid hsort hg h1
    obtain ⟨e1, e2⟩ := pairLoop_frame hsort hg n (i + 1) h2
    obtain ⟨_, m1, m2⟩ := drawnRows_larger hsort hg hv.1
    refine ⟨by rw [e1]; simp, fun r hr => ?_⟩
    rw [e2 r hr, List.getElem?_set_ne (by rintro rfl; exact hr m2), List.getElem?_set_ne (by rintro rfl; exact hr m1)]

/-- A group is kept when it is worked on; only its ranks may change. -/
theorem pairGroup_spec {e : PairLoss D} (hsort : DescSortSpec e.sort) {s : PairState D} (hs : KeptState e s) {f : List D}
    {index : Nat} {grads out : List (GD D)} {g' : Group} (h : pairGroup e s f index grads = ok (g', out)) :
    ∃ g n, s.groups[index]? = some g ∧ KeptGroup e g' ∧ g' = { g with ranks := g'.ranks } ∧ samplePairs e s.prob g = ok n ∧
      pairLoop e f g' (groupFactor e s.minNumPairs g) (fun i => e.draw s.round index i g.numPairs) n 0 grads = ok out := by
  rw [pairGroup, bind_eq_ok] at h
  obtain ⟨g, h1, h2⟩ := h
  rw [vecGet_eq_ok] at h1
  have hk := hs.groups g (List.mem_of_getElem? h1)
  have hsplit : ∃ g1, (if e.rerank then Gbdt.rerank e.sort f g else pure g) = ok g1 ∧ (do
      let n ← samplePairs e s.prob g1
      let grads1 ← pairLoop e f g1 (groupFactor e s.minNumPairs g1) (fun i => e.draw s.round index i g1.numPairs) n 0 grads
      pure (g1, grads1)) = ok (g', out) := by
    by_cases hr : e.rerank = true
    · rw [if_pos hr, bind_eq_ok] at h2
      rw [if_pos hr]
      exact h2
    · rw [if_neg hr] at h2 ⊢
      exact ⟨g, rfl, h2⟩
  obtain ⟨g1, h3, h2⟩ := hsplit
  simp only [bind_eq_ok, pure_eq, Outcome.ok.injEq, Prod.mk.injEq] at h2
  obtain ⟨n, h4, grads1, h5, rfl, rfl⟩ := h2
  have : KeptGroup e g1 ∧ g1 = { g with ranks := g1.ranks } := by
    by_cases hr : e.rerank = true
    · rw [if_pos hr] at h3
      obtain ⟨a, b, _⟩ := rerank_kept hsort hk h3
      exact ⟨a, b⟩
    · rw [if_neg hr, pure_eq, Outcome.ok.injEq] at h3
      subst h3
      exact ⟨hk, rfl⟩
  obtain ⟨k1, k2⟩ := this
  have hnp : g1.numPairs = g.numPairs := by rw [k2]
  refine ⟨g, n, h1, k1, k2, ?_, ?_⟩
  · rw [samplePairs, hnp] at h4; exact h4
  · rw [groupFactor, hnp] at h5; exact h5

theorem set_map_rows {groups : List Group} {index : Nat} {g g' : Group} (h : groups[index]? = some g)
    (hr : g'.rows = g.rows) : (groups.set index g').map (·.rows) = groups.map (·.rows) := by
  rw [List.map_set, hr]
  apply List.ext_getElem?
  intro k
  by_cases hk : index = k
  · subst hk
    rw [List.getElem?_set_self (by simpa using (List.getElem?_eq_some_iff.mp h).1), List.getElem?_map, h]
    rfl
  · rw [List.getElem?_set_ne hk]

theorem flatMap_rows {l l' : List Group} (h : l.map (·.rows) = l'.map (·.rows)) :
    l.flatMap (·.rows) = l'.flatMap (·.rows) := by
  rw [List.flatMap_def, List.flatMap_def, h]

/-- The rows of the groups, the number of pairs and so on never change; only ranks do. -/
theorem pairGroups_kept {e : PairLoss D} (hsort : DescSortSpec e.sort) {f : List D} : ∀ (order : List Nat) {s s' : PairState D}
    {grads out : List (GD D)}, KeptState e s → pairGroups e f order s grads = ok (s', out) →
    KeptState e s' ∧ List.Forall₂ (fun a b : Group => b = { a with ranks := b.ranks }) s.groups s'.groups ∧
      s' = { s with groups := s'.groups } ∧ out.length = grads.length
  | [], s, s', grads, out, hs, h => by
    rw [pairGroups, Outcome.ok.injEq, Prod.mk.injEq] at h
    obtain ⟨rfl, rfl⟩ := h
    exact ⟨hs, List.forall₂_same.mpr (fun _ _ => rfl), rfl, rfl⟩
  | index :: rest, s, s', grads, out, hs, h => by
    rw [pairGroups, bind_eq_ok] at h
    obtain ⟨⟨g', grads1⟩, h1, h2⟩ := h
    obtain ⟨g, n, e1, e2, e3, e4, e5⟩ := pairGroup_spec hsort hs h1
    have hr : g'.rows = g.rows := by rw [e3]
    have hs1 : KeptState e { s with groups := s.groups.set index g' } := by
      constructor
      · intro x hx
        rcases List.mem_or_eq_of_mem_set hx with hx | rfl
        · exact hs.groups x hx
        · exact e2
      · simp only
        rw [flatMap_rows (set_map_rows e1 hr)]
        exact hs.nodup
    obtain ⟨k1, k2, k3, k4⟩ := pairGroups_kept hsort rest hs1 h2
    refine ⟨k1, ?_, by rw [k3], by rw [k4, (pairLoop_frame hsort e2 _ _ e5).1]⟩
    rw [List.forall₂_iff_get] at k2 ⊢
    obtain ⟨l1, l2⟩ := k2
    simp only [List.length_set] at l1
    refine ⟨l1, fun i hi hi' => ?_⟩
    have := l2 i (by simpa using hi) hi'
    simp only [List.get_eq_getElem, List.getElem_set] at this ⊢
    by_cases hx : index = i
    · subst hx
      rw [if_pos rfl, e3] at this
      rw [List.getElem?_eq_getElem hi, Option.some.injEq] at e1
      rw [e1, this]
    · rw [if_neg hx] at this
      exact this

theorem consecutive_order : ∀ (l : List (Nat × Nat)) (a b : Nat), Consecutive a b l →
    a ≤ b ∧ l.flatMap (fun sl => List.range' sl.1 (sl.2 - sl.1)) = List.range' a (b - a)
  | [], a, b, h => by
    rw [Consecutive] at h
    subst h
    simp
  | (x, y) :: l, a, b, h => by
    obtain ⟨rfl, hxy, hl⟩ := h
    obtain ⟨h1, h2⟩ := consecutive_order l y b hl
    refine ⟨by omega, ?_⟩
    rw [List.flatMap_cons, h2]
    simp only
    have : y = x + 1 * (y - x) := by omega
    rw (occs := .pos [2]) [this]
    rw [List.range'_append]
    congr 1
    omega

/-- The states a pairwise loss can be in: after `Init`, or after computing gradients in such a state. -/
inductive PairReach (e : PairLoss D) (numRows : Nat) (col : Option StrCol) : PairState D → Prop
  | init {s : PairState D} : pairInit e numRows col = ok (.ok s) → PairReach e numRows col s
  | compute {s s' : PairState D} {f : List D} {c : D} {grads : List (GD D)} : PairReach e numRows col s →
      pairCompute e s f = ok (s', c, grads) → PairReach e numRows col s'

/-- What holds in those states. -/
structure PairInv (e : PairLoss D) (numRows : Nat) (col : Option StrCol) (s : PairState D) : Prop where
  kept : KeptState e s
  order : s.slices.flatMap (fun sl => List.range' sl.1 (sl.2 - sl.1)) = List.range s.groups.length
  start : ∃ groups starts, rowGroups numRows col = ok groups ∧
    List.Forall₂ (fun l g => mkGroup e.sort e.y l = ok g) groups starts ∧
    List.Forall₂ (fun a b : Group => b = { a with ranks := b.ranks }) starts s.groups ∧
    s.minNumPairs = starts.foldl (fun m g => max m g.numPairs) 1 ∧
    s.prob = e.rate * e.ofNat numRows / e.ofNat ((starts.map (·.numPairs)).foldl (· + ·) 0) / e.ofNat 2

theorem PairReach.inv {e : PairLoss D} (hsort : DescSortSpec e.sort) {numRows : Nat} {col : Option StrCol}
    {s : PairState D} (h : PairReach e numRows col s) : PairInv e numRows col s := by
  induction h with
  | init h =>
    obtain ⟨h1, _, groups, h2, h3, h4, h5, h6⟩ := pairInit_kept hsort h
    refine ⟨h1, ?_, groups, _, h2, h3, List.forall₂_same.mpr (fun _ _ => rfl), h4, h5⟩
    have hpos : 0 < e.numThreads * 5 := by
      by_contra hc
      rw [(C21_no_groups ([] : List Nat) _ _ (by omega)).2] at h6
      cases h6
    obtain ⟨k, hk⟩ : ∃ k : Nat, e.numThreads * 5 = k := ⟨_, (Int.toNat_of_nonneg hpos.le).symm⟩
    rw [hk] at h6 hpos
    obtain ⟨slices, e1, _, e3, _⟩ := C21_divide_range _ k (by omega)
    rw [h6, Outcome.ok.injEq] at e1
    subst e1
    rw [(consecutive_order _ _ _ e3).2, List.range_eq_range', Nat.sub_zero]
  | @compute s s' f c grads hr h ih =>
    rw [pairCompute, bind_eq_ok] at h
    obtain ⟨⟨s1, g1⟩, h1, h2⟩ := h
    simp only [pure_eq, Outcome.ok.injEq, Prod.mk.injEq] at h2
    obtain ⟨rfl, _⟩ := h2
    obtain ⟨k1, k2, k3, _⟩ := pairGroups_kept hsort _ ih.kept h1
    obtain ⟨groups, starts, e1, e2, e3, e4, e5⟩ := ih.start
    refine ⟨⟨k1.groups, k1.nodup⟩, ?_, groups, starts, e1, e2, ?_, ?_, ?_⟩
    · rw [k3]
      simp only
      rw [ih.order, k2.length_eq]
    · simp only
      rw [List.forall₂_iff_get] at e3 k2 ⊢
      refine ⟨by omega, fun i hi hi' => ?_⟩
      have x1 := e3.2 i hi (by omega)
      have x2 := k2.2 i (by omega) hi'
      rw [x2, x1]
    · rw [k3]; exact e4
    · rw [k3]; exact e5

theorem PairInv.rows {e : PairLoss D} (hsort : DescSortSpec e.sort) {numRows : Nat} {col : Option StrCol} {s : PairState D}
    (h : PairInv e numRows col s) {groups : List (List Nat)} (hg : rowGroups numRows col = ok groups) :
    List.Forall₂ (fun l g => g.rows.Perm l) groups s.groups := by
  obtain ⟨groups', starts, e1, e2, e3, _⟩ := h.start
  rw [hg, Outcome.ok.injEq] at e1
  subst e1
  rw [List.forall₂_iff_get] at e2 e3 ⊢
  refine ⟨by omega, fun i hi hi' => ?_⟩
  have x1 := e2.2 i hi (by omega)
  have x2 := e3.2 i (by omega) hi'
  rw [x2]
  exact (mkGroup_ranks hsort x1).2

end steps

/-! ## C75 and C51 in exact arithmetic -/

section exact
variable {K : Type} [Field K] [LinearOrder K]

/-- What a draw adds to the gradient of row `r`. -/
def pull (r : Nat) (d : Draw K) : K :=
  (if r = d.pos then d.weight * d.dg else 0) - (if r = d.neg then d.weight * d.dg else 0)

/-- What a draw adds to the hessian of row `r`, if `two` is the number 2. -/
def push (two : K) (r : Nat) (d : Draw K) : K :=
  (if r = d.pos then two * d.weight * d.dh else 0) + (if r = d.neg then two * d.weight * d.dh else 0)

theorem gOf_set (grads : List (GD K)) (p : Nat) (x : GD K) (hp : p < grads.length) (r : Nat) :
    gOf (grads.set p x) r = if r = p then x.g else gOf grads r := by
  unfold gOf
  by_cases h : r = p
  · subst h; rw [List.getElem?_set_self hp, if_pos rfl]
  · rw [List.getElem?_set_ne (fun h' => h h'.symm), if_neg h]

theorem hOf_set (grads : List (GD K)) (p : Nat) (x : GD K) (hp : p < grads.length) (r : Nat) :
    hOf (grads.set p x) r = if r = p then x.h else hOf grads r := by
  unfold hOf
  by_cases h : r = p
  · subst h; rw [List.getElem?_set_self hp, if_pos rfl]
  · rw [List.getElem?_set_ne (fun h' => h h'.symm), if_neg h]

theorem gOf_of {grads : List (GD K)} {p : Nat} {x : GD K} (h : grads[p]? = some x) : gOf grads p = x.g := by
  rw [gOf, h]

theorem hOf_of {grads : List (GD K)} {p : Nat} {x : GD K} (h : grads[p]? = some x) : hOf grads p = x.h := by
  rw [hOf, h]

theorem pairStep_value {e : PairLoss K} (hsort : DescSortSpec e.sort) {f : List K} {g : Group} (hg : KeptGroup e g)
    {factor : K} {index : Nat} {grads out : List (GD K)} (h : pairStep e f g factor index grads = ok out) :
    ∃ d : Draw K, ValidDraw e f g factor index d ∧ ∀ r, gOf out r = gOf grads r + pull r d ∧
      hOf out r = hOf grads r + push (e.ofNat 2) r d := by
  obtain ⟨d, old, old2, hv, h1, h2, rfl⟩ := pairStep_valid hsort hg h
  have l1 := (List.getElem?_eq_some_iff.mp h1).1
  have l2 := (List.getElem?_eq_some_iff.mp h2).1
  have g1 := gOf_of h1
  have g2 := gOf_of h2
  have e1 := hOf_of h1
  have e2 := hOf_of h2
  rw [gOf_set _ _ _ l1] at g2
  rw [hOf_set _ _ _ l1] at e2
  refine ⟨d, hv, fun r => ⟨?_, ?_⟩⟩
  · rw [gOf_set _ _ _ l2, gOf_set _ _ _ l1, pull]
    by_cases hn : r = d.neg
    · subst hn
      rw [if_pos rfl, if_pos rfl, ← g2]
      by_cases hp : d.neg = d.pos
      · rw [if_pos hp, if_pos hp, hp, g1]; ring
      · rw [if_neg hp, if_neg hp]; ring
    · rw [if_neg hn, if_neg hn]
      by_cases hp : r = d.pos
      · rw [if_pos hp, if_pos hp, hp, g1]; ring
      · rw [if_neg hp, if_neg hp]; ring
  · rw [hOf_set _ _ _ l2, hOf_set _ _ _ l1, push]
    by_cases hn : r = d.neg
    · subst hn
      rw [if_pos rfl, if_pos rfl, ← e2]
      by_cases hp : d.neg = d.pos
      · rw [if_pos hp, if_pos hp, hp, e1]; ring
      · rw [if_neg hp, if_neg hp]; ring
    · rw [if_neg hn, if_neg hn]
      by_cases hp : r = d.pos
      · rw [if_pos hp, if_pos hp, hp, e1]; ring
      · rw [if_neg hp, if_neg hp]; ring

theorem pairLoop_value {e : PairLoss K} (hsort : DescSortSpec e.sort) {f : List K} {g : Group} (hg : KeptGroup e g)
    {factor : K} {draw : Nat → Nat} : ∀ (n i : Nat) {grads out : List (GD K)},
    pairLoop e f g factor draw n i grads = ok out →
    ∃ ds : List (Draw K), ds.length = n ∧ (∀ (k : Nat) (d : Draw K), ds[k]? = some d → ValidDraw e f g factor (draw (i + k)) d) ∧
      ∀ r, gOf out r = gOf grads r + (ds.map (pull r)).sum ∧ hOf out r = hOf grads r + (ds.map (push (e.ofNat 2) r)).sum
  | 0, i, grads, out, h => by
    rw [pairLoop, Outcome.ok.injEq] at h
    subst h
    exact ⟨[], rfl, fun k d hk => by simp at hk, fun r => by simp⟩
  | n + 1, i, grads, out, h => by
    rw [pairLoop, bind_eq_ok] at h
    obtain ⟨g1, h1, h2⟩ := h
    obtain ⟨d, hv, hd⟩ := pairStep_value hsort hg h1
    obtain ⟨ds, e1, e2, e3⟩ := pairLoop_value hsort hg n (i + 1) h2
    refine ⟨d :: ds, by simp [e1], ?_, fun r => ?_⟩
    · intro k x hk
      cases k with
      | zero =>
        rw [List.getElem?_cons_zero, Option.some.injEq] at hk
        subst hk
        exact hv
      | succ k =>
        rw [List.getElem?_cons_succ] at hk
        have := e2 k x hk
        rwa [show i + 1 + k = i + (k + 1) by omega] at this
    · rw [(e3 r).1, (e3 r).2, (hd r).1, (hd r).2, List.map_cons, List.map_cons, List.sum_cons, List.sum_cons]
      constructor <;> ring

/-- The draws made from group number `index`. -/
def DrawsOf (e : PairLoss K) (s : PairState K) (f : List K) (index : Nat) (ds : List (Draw K)) : Prop :=
  ∃ g0 g, s.groups[index]? = some g0 ∧ (if e.rerank then Gbdt.rerank e.sort f g0 else ok g0) = ok g ∧
    e.toU64 (e.ofNat g0.numPairs * s.prob) = some ds.length ∧
    ∀ (i : Nat) (d : Draw K), ds[i]? = some d → ValidDraw e f g
      (if e.equalWeight then e.ofNat s.minNumPairs / e.ofNat g0.numPairs else e.ofNat 1)
      (e.draw s.round index i g0.numPairs) d

theorem pairGroup_value {e : PairLoss K} (hsort : DescSortSpec e.sort) {s : PairState K} (hs : KeptState e s) {f : List K}
    {index : Nat} {grads out : List (GD K)} {g' : Group} (h : pairGroup e s f index grads = ok (g', out)) :
    ∃ ds, DrawsOf e s f index ds ∧ ∀ r, gOf out r = gOf grads r + (ds.map (pull r)).sum ∧
      hOf out r = hOf grads r + (ds.map (push (e.ofNat 2) r)).sum := by
  obtain ⟨g, n, e1, e2, e3, e4, e5⟩ := pairGroup_spec hsort hs h
  obtain ⟨ds, d1, d2, d3⟩ := pairLoop_value hsort e2 n 0 e5
  refine ⟨ds, ⟨g, g', e1, ?_, ?_, ?_⟩, d3⟩
  · rw [pairGroup, vecGet_eq_ok.mpr e1, ok_bind] at h
    by_cases hr : e.rerank = true
    · rw [if_pos hr] at h ⊢
      rw [bind_eq_ok] at h
      obtain ⟨g1, h1, h2⟩ := h
      simp only [bind_eq_ok, pure_eq, Outcome.ok.injEq, Prod.mk.injEq] at h2
      obtain ⟨_, _, _, _, rfl, _⟩ := h2
      exact h1
    · rw [if_neg hr] at h ⊢
      simp only [ok_bind, bind_eq_ok, pure_eq, Outcome.ok.injEq, Prod.mk.injEq] at h
      obtain ⟨_, _, _, _, rfl, _⟩ := h
      rfl
  · rw [d1]
    rw [samplePairs] at e4
    split at e4
    · cases e4
    · next m hm =>
      split at e4
      · rw [Outcome.ok.injEq] at e4
        rw [hm, e4]
      · cases e4
  · intro i d hd
    have := d2 i d hd
    rwa [Nat.zero_add] at this

theorem pairGroups_value {e : PairLoss K} (hsort : DescSortSpec e.sort) {f : List K} : ∀ (order : List Nat) {s s' : PairState K}
    {grads out : List (GD K)}, order.Nodup → KeptState e s → pairGroups e f order s grads = ok (s', out) →
    ∃ draws : List (List (Draw K)), List.Forall₂ (DrawsOf e s f) order draws ∧
      ∀ r, gOf out r = gOf grads r + (draws.flatten.map (pull r)).sum ∧
        hOf out r = hOf grads r + (draws.flatten.map (push (e.ofNat 2) r)).sum
  | [], s, s', grads, out, _, hs, h => by
    rw [pairGroups, Outcome.ok.injEq, Prod.mk.injEq] at h
    obtain ⟨rfl, rfl⟩ := h
    exact ⟨[], .nil, fun r => by simp⟩
  | index :: rest, s, s', grads, out, hnd, hs, h => by
    have hall := h
    rw [pairGroups, bind_eq_ok] at h
    obtain ⟨⟨g', grads1⟩, h1, h2⟩ := h
    obtain ⟨hni, hnr⟩ := List.nodup_cons.mp hnd
    obtain ⟨ds, d1, d2⟩ := pairGroup_value hsort hs h1
    have hs1 : KeptState e { s with groups := s.groups.set index g' } := by
      have : pairGroups e f [index] s grads = ok ({ s with groups := s.groups.set index g' }, grads1) := by
        rw [pairGroups, h1]
        rfl
      exact (pairGroups_kept hsort _ hs this).1
    obtain ⟨draws, k1, k2⟩ := pairGroups_value hsort rest hnr hs1 h2
    refine ⟨ds :: draws, .cons d1 ?_, fun r => ?_⟩
    · rw [List.forall₂_iff_get] at k1 ⊢
      refine ⟨k1.1, fun i hi hi' => ?_⟩
      obtain ⟨g0, g, x1, x2, x3, x4⟩ := k1.2 i hi hi'
      refine ⟨g0, g, ?_, x2, x3, x4⟩
      simp only at x1
      rwa [List.getElem?_set_ne (fun hx => hni (by rw [hx]; exact List.get_mem rest ⟨i, hi⟩))] at x1
    · rw [(k2 r).1, (k2 r).2, (d2 r).1, (d2 r).2, List.flatten_cons, List.map_append, List.map_append, List.sum_append,
        List.sum_append]
      constructor <;> ring

/-- **C75.** What computing gradients gives, in exact arithmetic and for every outcome of the random draws: the constant
is 0; of every group (ranked by the function values, for LambdaMART) as many pairs are drawn as its number of pairs times
the sampling probability; the gradient of a row is the sum of weight times derivative over the drawn pairs in which it is
the better row, less those in which it is the worse one, and its hessian is the sum of twice weight times second derivative
over the pairs it is in. -/
theorem C75_gradients {e : PairLoss K} (hsort : DescSortSpec e.sort) {numRows : Nat} {col : Option StrCol}
    {s s' : PairState K} {f : List K} {c : K} {grads : List (GD K)} (hr : PairReach e numRows col s)
    (h : pairCompute e s f = ok (s', c, grads)) :
    c = 0 ∧ grads.length = f.length ∧ ∃ draws : List (List (Draw K)), draws.length = s.groups.length ∧
      (∀ (index : Nat) (ds : List (Draw K)), draws[index]? = some ds → DrawsOf e s f index ds) ∧
      ∀ r, gOf grads r = (draws.flatten.map (pull r)).sum ∧ hOf grads r = (draws.flatten.map (push (e.ofNat 2) r)).sum := by
  have hinv := hr.inv hsort
  rw [pairCompute, bind_eq_ok] at h
  obtain ⟨⟨s1, g1⟩, h1, h2⟩ := h
  simp only [pure_eq, Outcome.ok.injEq, Prod.mk.injEq] at h2
  obtain ⟨rfl, rfl, rfl⟩ := h2
  rw [hinv.order] at h1
  obtain ⟨_, _, _, hl⟩ := pairGroups_kept hsort _ hinv.kept h1
  obtain ⟨draws, d1, d2⟩ := pairGroups_value hsort _ List.nodup_range hinv.kept h1
  have hlen := d1.length_eq
  rw [List.length_range] at hlen
  refine ⟨rfl, by rw [hl, List.length_replicate], draws, hlen.symm, ?_, ?_⟩
  · intro index ds hds
    obtain ⟨hi, rfl⟩ := List.getElem?_eq_some_iff.mp hds
    have := (List.forall₂_iff_get.mp d1).2 index (by simpa [hlen] using hi) hi
    simpa using this
  · intro r
    have z1 : gOf (List.replicate f.length (⟨0, 0⟩ : GD K)) r = 0 := by
      by_cases hr : r < f.length <;> simp [gOf, hr]
    have z2 : hOf (List.replicate f.length (⟨0, 0⟩ : GD K)) r = 0 := by
      by_cases hr : r < f.length <;> simp [hOf, hr]
    have := d2 r
    rw [z1, z2, zero_add, zero_add] at this
    exact this

theorem DrawsOf.rows {e : PairLoss K} (hsort : DescSortSpec e.sort) {s : PairState K} (hs : KeptState e s) {f : List K}
    {index : Nat} {ds : List (Draw K)} (h : DrawsOf e s f index ds) :
    ∃ g0, s.groups[index]? = some g0 ∧ ∀ d ∈ ds, d.pos ∈ g0.rows ∧ d.neg ∈ g0.rows ∧ e.y d.neg < e.y d.pos := by
  obtain ⟨g0, g, h1, h2, _, h4⟩ := h
  have hk := hs.groups g0 (List.mem_of_getElem? h1)
  have : KeptGroup e g ∧ g.rows = g0.rows := by
    by_cases hr : e.rerank = true
    · rw [if_pos hr] at h2
      obtain ⟨a, b, _⟩ := rerank_kept hsort hk h2
      exact ⟨a, by rw [b]⟩
    · rw [if_neg hr, Outcome.ok.injEq] at h2
      subst h2
      exact ⟨hk, rfl⟩
  refine ⟨g0, h1, fun d hd => ?_⟩
  obtain ⟨i, hi⟩ := List.getElem?_of_mem hd
  have hv := h4 i d hi
  obtain ⟨hlt, m1, m2⟩ := drawnRows_larger hsort this.1 hv.1
  rw [this.2] at m1 m2
  exact ⟨m1, m2, by simpa using hlt⟩

theorem sum_pick (x : K) (p : Nat) : ∀ (l : List Nat), l.Nodup →
    (l.map (fun r => if r = p then x else 0)).sum = if p ∈ l then x else 0
  | [], _ => by simp
  | a :: l, h => by
    obtain ⟨h1, h2⟩ := List.nodup_cons.mp h
    rw [List.map_cons, List.sum_cons, sum_pick x p l h2]
    by_cases ha : a = p
    · subst ha
      simp [h1]
    · simp [ha, Ne.symm ha]

theorem pull_cancel {l : List Nat} (hl : l.Nodup) : ∀ (D : List (Draw K)), (∀ d ∈ D, (d.pos ∈ l ↔ d.neg ∈ l)) →
    (l.map (fun r => (D.map (pull r)).sum)).sum = 0
  | [], _ => by simp
  | d :: D, h => by
    have ih := pull_cancel hl D (fun x hx => h x (List.mem_cons_of_mem d hx))
    simp only [List.map_cons, List.sum_cons]
    rw [List.sum_map_add, ih, add_zero]
    have : (l.map (fun r => pull r d)).sum = 0 := by
      simp only [pull, sub_eq_add_neg]
      rw [List.sum_map_add, sum_pick _ _ _ hl]
      have hn : (l.map (fun r => -(if r = d.neg then d.weight * d.dg else 0))).sum =
          (l.map (fun r => if r = d.neg then -(d.weight * d.dg) else 0)).sum := by
        congr 1
        apply List.map_congr_left
        intro r _
        split <;> simp
      rw [hn, sum_pick _ _ _ hl]
      have := h d (by simp)
      by_cases hp : d.pos ∈ l
      · rw [if_pos hp, if_pos (this.mp hp)]; ring
      · rw [if_neg hp, if_neg (fun h' => hp (this.mpr h'))]; ring
    exact this

/-- **C51.** The gradients of the rows of every group sum to zero, whatever was drawn. -/
theorem C51_cancel {e : PairLoss K} (hsort : DescSortSpec e.sort) {numRows : Nat} {col : Option StrCol}
    {s s' : PairState K} {f : List K} {c : K} {grads : List (GD K)} (hr : PairReach e numRows col s)
    (h : pairCompute e s f = ok (s', c, grads)) {groups : List (List Nat)} (hg : rowGroups numRows col = ok groups)
    (rows : List Nat) (hrows : rows ∈ groups) : (rows.map (gOf grads)).sum = 0 := by
  have hinv := hr.inv hsort
  obtain ⟨_, _, draws, _, hd, hv⟩ := C75_gradients hsort hr h
  have hperm := List.forall₂_iff_get.mp (hinv.rows hsort hg)
  have hnd := List.nodup_flatten.mp (rowGroups_nodup hg)
  have : rows.map (gOf grads) = rows.map (fun r => (draws.flatten.map (pull r)).sum) :=
    List.map_congr_left (fun r _ => (hv r).1)
  rw [this]
  refine pull_cancel (hnd.1 rows hrows) _ ?_
  intro d hdm
  obtain ⟨ds, hds, hdd⟩ := List.mem_flatten.mp hdm
  obtain ⟨index, hi⟩ := List.getElem?_of_mem hds
  obtain ⟨g0, hg0, hm⟩ := (hd index ds hi).rows hsort hinv.kept
  obtain ⟨m1, m2, _⟩ := hm d hdd
  obtain ⟨hlt, rfl⟩ := List.getElem?_eq_some_iff.mp hg0
  have hp := hperm.2 index (by omega) hlt
  simp only [List.get_eq_getElem] at hp
  rw [hp.mem_iff] at m1 m2
  obtain ⟨j, hj, rfl⟩ := List.mem_iff_getElem.mp hrows
  by_cases hij : j = index
  · subst hij
    exact ⟨fun _ => m2, fun _ => m1⟩
  · have hdis : List.Disjoint groups[j] (groups[index]'(by omega)) := by
      rcases Nat.lt_or_ge j index with hlt' | hge
      · exact (List.pairwise_iff_getElem.mp hnd.2) j index hj (by omega) hlt'
      · exact ((List.pairwise_iff_getElem.mp hnd.2) index j (by omega) hj (by omega)).symm
    exact ⟨fun x => absurd m1 (hdis x), fun x => absurd m2 (hdis x)⟩

/-- **C51.** Hessians are non-negative, if the second derivative of the loss and the row weights are (and rounding to a
float keeps the sign). -/
theorem C51_hessians [IsStrictOrderedRing K] {e : PairLoss K} (hsort : DescSortSpec e.sort) {numRows : Nat}
    {col : Option StrCol} {s s' : PairState K} {f : List K} {c : K} {grads : List (GD K)}
    (hof : ∀ n, 0 ≤ e.ofNat n) (hrnd : ∀ x, 0 ≤ x → 0 ≤ e.rnd32 x) (habs : ∀ x, 0 ≤ e.fabs x) (hw : ∀ r, 0 ≤ e.w r)
    (hloss : ∀ a b, 0 ≤ (e.lossFn a b).2.2) (hr : PairReach e numRows col s)
    (h : pairCompute e s f = ok (s', c, grads)) : ∀ x ∈ grads, 0 ≤ x.h := by
  have hinv := hr.inv hsort
  obtain ⟨_, _, draws, _, hd, hv⟩ := C75_gradients hsort hr h
  intro x hx
  obtain ⟨r, hrx⟩ := List.getElem?_of_mem hx
  have := (hv r).2
  rw [hOf_of hrx] at this
  rw [this]
  apply List.sum_nonneg
  intro y hy
  obtain ⟨d, hdm, rfl⟩ := List.mem_map.mp hy
  obtain ⟨ds, hds, hdd⟩ := List.mem_flatten.mp hdm
  obtain ⟨index, hi⟩ := List.getElem?_of_mem hds
  obtain ⟨g0, g, _, _, _, h4⟩ := hd index ds hi
  obtain ⟨i, hii⟩ := List.getElem?_of_mem hdd
  obtain ⟨_, hlt, ⟨fp, fn, l, _, _, hl⟩, a, b, ra, rb, _, _, _, _, hwt⟩ := h4 i d hii
  have hdh : 0 ≤ d.dh := by
    have := hloss (e.rnd32 (e.y d.pos - e.y d.neg)) (fp - fn)
    rwa [hl] at this
  have hlt' : e.y d.neg < e.y d.pos := by simpa using hlt
  have hwo : 0 ≤ weightOf e d.pos d.neg ra rb := by
    unfold weightOf
    have h0 : 0 ≤ e.rnd32 (e.y d.pos - e.y d.neg) := hrnd _ (sub_nonneg.mpr hlt'.le)
    split
    · exact mul_nonneg h0 (habs _)
    · split
      · exact h0
      · exact hof 1
  have hfac : 0 ≤ (if e.equalWeight then e.ofNat s.minNumPairs / e.ofNat g0.numPairs else e.ofNat 1) := by
    split
    · exact div_nonneg (hof _) (hof _)
    · exact hof 1
  have hwd : 0 ≤ d.weight := by
    rw [hwt]
    exact mul_nonneg (mul_nonneg (hrnd _ (mul_nonneg (hw _) (hw _))) hwo) hfac
  have h2 := mul_nonneg (mul_nonneg (hof 2) hwd) hdh
  unfold push
  split <;> split <;> simp [h2]

end exact

section frame
variable {D : Type} [Dbl D] [FpOrder D] [EqOrder D]

/-- **C51.** Working on one group leaves the gradients of all rows outside the group as they were, bit for bit. -/
theorem C51_other_groups {e : PairLoss D} (hsort : DescSortSpec e.sort) {numRows : Nat} {col : Option StrCol}
    {s : PairState D} {f : List D} {index : Nat} {grads out : List (GD D)} {g' : Group} (hr : PairReach e numRows col s)
    (h : pairGroup e s f index grads = ok (g', out)) {groups : List (List Nat)} (hg : rowGroups numRows col = ok groups) :
    ∃ rows, groups[index]? = some rows ∧ out.length = grads.length ∧ ∀ r, r ∉ rows → out[r]? = grads[r]? := by
  have hinv := hr.inv hsort
  obtain ⟨g, n, e1, e2, e3, _, e5⟩ := pairGroup_spec hsort hinv.kept h
  obtain ⟨l1, l2⟩ := pairLoop_frame hsort e2 _ _ e5
  have hperm := List.forall₂_iff_get.mp (hinv.rows hsort hg)
  obtain ⟨hlt, hgg⟩ := List.getElem?_eq_some_iff.mp e1
  have hp := hperm.2 index (by omega) hlt
  simp only [List.get_eq_getElem] at hp
  refine ⟨_, List.getElem?_eq_getElem (by omega), l1, fun r hr' => l2 r ?_⟩
  rw [e3]
  simp only
  rw [← hgg, hp.mem_iff]
  exact hr'

end frame

end Gbdt
