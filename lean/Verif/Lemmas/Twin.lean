import Verif.Props.ZeroWeight

/-!
# Two data sets that are the same up to the order and the repetition of rows: growing a tree

Row `j` of the second data set is row `σ j` of the first, and the weights of the rows of the second add up to those of the
first.
-/

set_option autoImplicit false
set_option linter.unusedSectionVars false

namespace Gbdt
open Outcome

/-! ## Columns -/

section columns
variable {A : Type}

/-- The codes of two columns: those of the second are those of the first at the rows given by `σ`. -/
structure TwinInts (σ : Nat → Nat) (n1 n2 bound : Nat) (a b : IntCol) : Prop where
  ex : ∃ l1 l2, a.data = ok l1 ∧ b.data = ok l2 ∧ l1.length = n1 ∧ l2.length = n2 ∧ (∀ j < n2, l2[j]? = l1[σ j]?) ∧
    (∀ k ∈ l1, k < bound) ∧ (∀ k ∈ l2, k < bound)

/-- Two columns with the same dictionary whose rows correspond. -/
inductive TwinCol (σ : Nat → Nat) (n1 n2 : Nat) : Column A → Column A → Prop where
  | str (c1 c2 : StrCol) (hs : c2.strings = c1.strings) (hi : c2.catIndex = c1.catIndex)
      (hc : TwinInts σ n1 n2 c1.maxInt c1.ints c2.ints) : TwinCol σ n1 n2 (.str c1) (.str c2)
  | bkt (c1 c2 : BktCol A) (hx : c2.maxs = c1.maxs) (hn : c2.mins = c1.mins)
      (hc : TwinInts σ n1 n2 c1.maxInt c1.ints c2.ints) : TwinCol σ n1 n2 (.bkt c1) (.bkt c2)
  | raw (c1 c2 : RawCol A) : TwinCol σ n1 n2 (.raw c1) (.raw c2)

theorem TwinInts.code {σ : Nat → Nat} {n1 n2 bound : Nat} {a b : IntCol} (h : TwinInts σ n1 n2 bound a b) {j : Nat} (hj : j < n2) :
    b.code j = a.code (σ j) ∧ ∃ k, b.code j = ok k ∧ k < bound := by
  obtain ⟨l1, l2, h1, h2, _, h4, h5, _, h7⟩ := h.ex
  have e : l2[j]? = some l2[j] := List.getElem?_eq_getElem (by omega)
  have h2' : vecGet l2 j = ok l2[j] := vecGet_eq_ok.mpr e
  have h1' : vecGet l1 (σ j) = ok l2[j] := vecGet_eq_ok.mpr (by rw [← h5 j hj, e])
  refine ⟨?_, l2[j], ?_, h7 _ (List.getElem_mem _)⟩
  · rw [IntCol.code, IntCol.code, h1, h2, ok_bind, ok_bind, h1', h2']
  · rw [IntCol.code, h2, ok_bind, h2']

theorem TwinInts.code1 {σ : Nat → Nat} {n1 n2 bound : Nat} {a b : IntCol} (h : TwinInts σ n1 n2 bound a b) {i : Nat} (hi : i < n1) :
    ∃ k, a.code i = ok k ∧ k < bound := by
  obtain ⟨l1, l2, h1, _, h3, _, _, h6, _⟩ := h.ex
  refine ⟨l1[i], ?_, h6 _ (List.getElem_mem _)⟩
  rw [IntCol.code, h1, ok_bind, vecGet_lt (by omega)]

end columns

/-! ## Sums -/

section sums
variable {K : Type} [Field K] [LinearOrder K]

/-- The samples of the two data sets carry the same weights. -/
def Bal (σ : Nat → Nat) (w1 w2 : Nat → K) (S1 S2 : List Nat) : Prop :=
  ∀ F : Nat → K, (S1.map (fun i => w1 i * F i)).sum = (S2.map (fun j => w2 j * F (σ j))).sum

theorem sum_map_filter_ite (p : Nat → Bool) (x : Nat → K) : ∀ l : List Nat,
    ((l.filter p).map x).sum = (l.map (fun i => if p i then x i else 0)).sum
  | [] => rfl
  | i :: l => by
    by_cases h : p i = true
    · rw [List.filter_cons_of_pos h, List.map_cons, List.sum_cons, List.map_cons, List.sum_cons, if_pos h, sum_map_filter_ite p x l]
    · rw [List.filter_cons_of_neg h, List.map_cons, List.sum_cons, if_neg h, zero_add, sum_map_filter_ite p x l]

theorem Bal.filter {σ : Nat → Nat} {w1 w2 : Nat → K} {S1 S2 : List Nat} (h : Bal σ w1 w2 S1 S2) {p1 p2 : Nat → Bool}
    (hp : ∀ j ∈ S2, p2 j = p1 (σ j)) : Bal σ w1 w2 (S1.filter p1) (S2.filter p2) := by
  intro F
  have := h (fun i => if p1 i then F i else 0)
  rw [sum_map_filter_ite, sum_map_filter_ite]
  calc _ = (S1.map (fun i => w1 i * if p1 i then F i else 0)).sum := by
        congr 1; refine List.map_congr_left (fun i _ => ?_); split <;> simp
    _ = _ := this
    _ = _ := by
        congr 1; refine List.map_congr_left (fun j hj => ?_); rw [hp j hj]; split <;> simp

theorem Bal.perm {σ : Nat → Nat} {w1 w2 : Nat → K} {S1 S2 T1 T2 : List Nat} (h : Bal σ w1 w2 S1 S2) (h1 : T1.Perm S1)
    (h2 : T2.Perm S2) : Bal σ w1 w2 T1 T2 := by
  intro F
  rw [(h1.map _).sum_eq, (h2.map _).sum_eq]
  exact h F

/-- The gradients of the second data set are those of the first at the rows given by `σ`. -/
def TwinGrads (σ : Nat → Nat) (g1 g2 : List (GD K)) : Prop := ∀ j < g2.length, g2[j]? = g1[σ j]?

theorem Bal.sum {σ : Nat → Nat} {w1 w2 : Nat → K} {S1 S2 : List Nat} (h : Bal σ w1 w2 S1 S2) {g1 g2 : List (GD K)}
    (hg : TwinGrads σ g1 g2) (h2 : ∀ j ∈ S2, j < g2.length) :
    sumOf (weighted w1 g1) S1 = sumOf (weighted w2 g2) S2 := by
  have key : ∀ (p : GD K → K), (∀ (w : K) d, p (GD.scale w d) = w * p d) → p GD.zero = 0 →
      (S1.map (fun i => p (weighted w1 g1 i))).sum = (S2.map (fun j => p (weighted w2 g2 j))).sum := by
    intro p hp h0
    have e : ∀ (w : Nat → K) (g : List (GD K)) i, p (weighted w g i) = w i * p (g[i]?.getD GD.zero) := by
      intro w g i
      unfold weighted
      cases g[i]? with
      | none => simp [h0]
      | some d => simp [hp]
    have := h (fun i => p (g1[i]?.getD GD.zero))
    simp only [e]
    rw [this]
    congr 1
    refine List.map_congr_left (fun j hj => ?_)
    rw [hg j (h2 j hj)]
  rw [GD.ext_iff', sumOf_g, sumOf_g, sumOf_h, sumOf_h, key GD.g (fun _ _ => rfl) rfl, key GD.h (fun _ _ => rfl) rfl]
  exact ⟨rfl, rfl⟩

end sums

section fit
variable {K A : Type} [Field K] [LinearOrder K] [IsStrictOrderedRing K] [LinearOrder A] [ThrOps A]
variable {σ : Nat → Nat} {n1 n2 : Nat}

/-- Samples that correspond. -/
structure TwinSamples (σ : Nat → Nat) (n1 n2 : Nat) (w1 w2 : Nat → K) (S1 S2 : List Nat) : Prop where
  bal : Bal σ w1 w2 S1 S2
  in1 : ∀ i ∈ S1, i < n1
  in2 : ∀ j ∈ S2, j < n2

theorem TwinSamples.weightedSum {w1 w2 : Nat → K} {S1 S2 : List Nat} {g1 g2 : List (GD K)} (h : TwinSamples σ g1.length g2.length w1 w2 S1 S2)
    (hg : TwinGrads σ g1 g2) {nt1 nt2 : Int} (h1 : 0 < nt1) (h2 : 0 < nt2) :
    weightedSum nt1 w1 g1 S1 = weightedSum nt2 w2 g2 S2 := by
  obtain ⟨_, _, a2, a3⟩ := weightedSum_eq h1 w1 g1 S1 h.in1
  obtain ⟨_, _, b2, b3⟩ := weightedSum_eq h2 w2 g2 S2 h.in2
  rw [a3, b3, foldl_add_sumOf, foldl_add_sumOf, GD.zero_add', GD.zero_add', a2, b2, h.bal.sum hg h.in2]

theorem TwinSamples.histogram {w1 w2 : Nat → K} {S1 S2 : List Nat} {g1 g2 : List (GD K)} (h : TwinSamples σ g1.length g2.length w1 w2 S1 S2)
    (hg : TwinGrads σ g1 g2) {bound : Nat} {a b : IntCol} (hi : TwinInts σ g1.length g2.length bound a b) :
    (a.data >>= fun codes => histogramOf codes bound w1 g1 S1) = (b.data >>= fun codes => histogramOf codes bound w2 g2 S2) := by
  obtain ⟨l1, l2, h1, h2, h3, h4, h5, h6, h7⟩ := hi.ex
  obtain ⟨x1, a1, a2⟩ := histogramOf_spec (codes := l1) (n := bound) (w := w1) (grads := g1) (samples := S1)
    (fun i hi => ⟨h.in1 i hi, l1[i]'(by rw [h3]; exact h.in1 i hi), List.getElem?_eq_getElem _, h6 _ (List.getElem_mem _)⟩)
  obtain ⟨x2, b1, b2⟩ := histogramOf_spec (codes := l2) (n := bound) (w := w2) (grads := g2) (samples := S2)
    (fun i hi => ⟨h.in2 i hi, l2[i]'(by rw [h4]; exact h.in2 i hi), List.getElem?_eq_getElem _, h7 _ (List.getElem_mem _)⟩)
  rw [h1, h2, ok_bind, ok_bind, a1, b1]
  congr 1
  refine List.ext_getElem? (fun k => ?_)
  by_cases hk : k < bound
  · rw [a2.2 k hk, b2.2 k hk]
    congr 1
    unfold samplesWith
    refine (h.bal.filter (fun j hj => ?_)).sum hg (fun j hj => h.in2 j (List.mem_filter.mp hj).1)
    rw [h5 j (h.in2 j hj)]
  · rw [List.getElem?_eq_none (by rw [a2.1]; omega), List.getElem?_eq_none (by rw [b2.1]; omega)]

theorem TwinSamples.findBestSplit {w1 w2 : Nat → K} {S1 S2 : List Nat} {g1 g2 : List (GD K)}
    (h : TwinSamples σ g1.length g2.length w1 w2 S1 S2) (hg : TwinGrads σ g1 g2) {c1 c2 : Column A} (hc : TwinCol σ g1.length g2.length c1 c2)
    (sort : (Nat → K) → List Nat → List Nat) (cfg : SplitConfig K) (total : GD K) :
    findBestSplit sort c1 w1 g1 S1 cfg total = findBestSplit sort c2 w2 g2 S2 cfg total := by
  cases hc with
  | str c1 c2 hs _ hi =>
    have hm : c2.maxInt = c1.maxInt := by simp only [StrCol.maxInt, hs]
    have hh := h.histogram hg hi
    simp only [Gbdt.findBestSplit, findBestStringSplit, hm]
    rw [← bind_assoc, ← bind_assoc, hh]
  | bkt c1 c2 hx hn hi =>
    have hm : c2.maxInt = c1.maxInt := by simp only [BktCol.maxInt, hx]
    have hh := h.histogram hg hi
    have ht : thresholdOf c2 = thresholdOf c1 := by
      funext l r
      simp only [thresholdOf, BktCol.bucketMax, BktCol.bucketMin, hx, hn]
    simp only [Gbdt.findBestSplit, findBestFloatSplit, hm, ht]
    rw [← bind_assoc, ← bind_assoc, hh]
  | raw c1 c2 => rfl

theorem TwinCol.rowTest {c1 c2 : Column A} (hc : TwinCol σ n1 n2 c1 c2) (s : Split K A) :
    (Matches c1 s ↔ Matches c2 s) ∧ (Matches c1 s → (∀ j < n2, rowTest c2 s j = rowTest c1 s (σ j)) ∧
      (∀ i < n1, ∃ b, rowTest c1 s i = ok b) ∧ ∀ j < n2, ∃ b, rowTest c2 s j = ok b) := by
  cases hc with
  | str c1 c2 hs hx hi =>
    refine ⟨Iff.rfl, fun hm => ?_⟩
    simp only [Matches, Option.isSome_iff_exists] at hm
    obtain ⟨cs, hm⟩ := hm
    have hset : categorySet c2 cs = categorySet c1 cs := by simp only [categorySet, hx]
    simp only [Gbdt.rowTest, hm, stringGoesLeft, hset]
    refine ⟨fun j hj => by rw [(hi.code hj).1], fun i hl => ?_, fun j hj => ?_⟩
    · obtain ⟨k, hk, _⟩ := hi.code1 hl
      exact ⟨_, by rw [hk, ok_bind, pure_eq]⟩
    · obtain ⟨_, k, hk, _⟩ := hi.code hj
      exact ⟨_, by rw [hk, ok_bind, pure_eq]⟩
  | bkt c1 c2 hx hn hi =>
    refine ⟨Iff.rfl, fun hm => ?_⟩
    simp only [Matches, Option.isSome_iff_exists] at hm
    obtain ⟨fs, hm⟩ := hm
    have hle : c1.maxInt ≤ c1.maxs.length := Nat.mod_le _ _
    have tot : ∀ (ints : IntCol) (i k : Nat), ints.code i = ok k → k < c1.maxInt → ∃ b,
        (do let m ← ints.missing i
            if m && !fs.missingToRight then pure true
            else if !m then do
              let k ← ints.code i
              let x ← vecGet c1.maxs k
              pure (Fl.lt x fs.threshold)
            else pure false : Outcome Bool) = ok b := by
      intro ints i k hk hlt
      simp only [IntCol.missing, hk, ok_bind, pure_eq, vecGet_lt (lt_of_lt_of_le hlt hle)]
      split
      · exact ⟨_, rfl⟩
      · split <;> exact ⟨_, rfl⟩
    simp only [Gbdt.rowTest, hm, floatGoesLeft, BktCol.rowMax, BktCol.bucketMax, hx, bind_assoc]
    refine ⟨fun j hj => by rw [IntCol.missing, IntCol.missing, (hi.code hj).1], fun i hl => ?_, fun j hj => ?_⟩
    · obtain ⟨k, hk, hlt⟩ := hi.code1 hl
      exact tot _ _ _ hk hlt
    · obtain ⟨_, k, hk, hlt⟩ := hi.code hj
      exact tot _ _ _ hk hlt
  | raw c1 c2 => exact ⟨Iff.rfl, fun _ => ⟨fun _ _ => rfl, fun _ _ => ⟨_, rfl⟩, fun _ _ => ⟨_, rfl⟩⟩⟩

theorem partition_unmatched {c : Column A} {s : Split K A} (h : ¬ Matches c s) (samples : List Nat) : partition c s samples = fatal := by
  cases c with
  | str c =>
    have : s.catSplit = none := by simpa [Matches] using h
    simp [partition, partitionColumn, this]
  | bkt c =>
    have : s.floatSplit = none := by simpa [Matches] using h
    simp [partition, partitionColumn, this]
  | raw c => exact absurd trivial h

/-- Splitting samples that correspond gives samples that correspond. -/
theorem TwinSamples.partition {w1 w2 : Nat → K} {S1 S2 : List Nat} (h : TwinSamples σ n1 n2 w1 w2 S1 S2) {c1 c2 : Column A}
    (hc : TwinCol σ n1 n2 c1 c2) (s : Split K A) :
    OutRel (fun a b => TwinSamples σ n1 n2 w1 w2 a.1 b.1 ∧ TwinSamples σ n1 n2 w1 w2 a.2 b.2) (partition c1 s S1) (partition c2 s S2) := by
  obtain ⟨hiff, hm⟩ := hc.rowTest s
  by_cases hM : Matches c1 s
  · obtain ⟨e, t1, t2⟩ := hm hM
    set p1 : Nat → Bool := fun i => match Gbdt.rowTest c1 s i with | .ok b => b | _ => false with hp1
    set p2 : Nat → Bool := fun i => match Gbdt.rowTest c2 s i with | .ok b => b | _ => false with hp2
    have hp : ∀ j ∈ S2, p2 j = p1 (σ j) := fun j hj => by rw [hp1, hp2]; simp only [e j (h.in2 j hj)]
    obtain ⟨R1, a1, a2⟩ := partition_spec hM p1 S1 (fun i hi => by obtain ⟨b, hb⟩ := t1 i (h.in1 i hi); simp only [hp1, hb])
    obtain ⟨R2, b1, b2⟩ := partition_spec (hiff.mp hM) p2 S2 (fun i hi => by obtain ⟨b, hb⟩ := t2 i (h.in2 i hi); simp only [hp2, hb])
    rw [a1, b1]
    refine .ok ⟨⟨h.bal.filter hp, fun i hi => h.in1 i (List.mem_filter.mp hi).1, fun i hi => h.in2 i (List.mem_filter.mp hi).1⟩,
      (h.bal.filter (p1 := fun i => !p1 i) (p2 := fun i => !p2 i) (fun j hj => by rw [hp j hj])).perm a2 b2,
      fun i hi => h.in1 i (List.mem_filter.mp (a2.mem_iff.mp hi)).1, fun i hi => h.in2 i (List.mem_filter.mp (b2.mem_iff.mp hi)).1⟩
  · rw [partition_unmatched hM, partition_unmatched (fun h => hM (hiff.mpr h))]
    exact .fatal

/-- What growing a tree is given, twice. -/
structure TwinFit (σ : Nat → Nat) (e1 e2 : FitEnv K A) (cfg : FitConfig K) : Prop where
  sort : e2.sort = e1.sort
  top : e2.top = e1.top
  toInt : e2.toInt = e1.toInt
  ofNat : e2.ofNat = e1.ofNat
  draw : e2.draw = e1.draw
  rnd32 : e2.rnd32 = e1.rnd32
  threads1 : 0 < e1.numThreads
  threads2 : 0 < e2.numThreads
  features : List.Forall₂ (fun f1 f2 => f2.1 = f1.1 ∧ TwinCol σ e1.grads.length e2.grads.length f1.2 f2.2) e1.features e2.features
  grads : TwinGrads σ e1.grads e2.grads
  examples1 : e1.toInt (cfg.exampleRate * e1.ofNat e1.grads.length) ≠ none
  examples2 : e1.toInt (cfg.exampleRate * e1.ofNat e2.grads.length) ≠ none
  all : ∀ k, Dbl.ltb (e1.draw k) cfg.exampleRate = true
  start : TwinSamples σ e1.grads.length e2.grads.length e1.w e2.w (List.range e1.grads.length) (List.range e2.grads.length)
  pos : e1.grads.length = e2.grads.length ∨ ∀ k, Dbl.ltb (e1.draw k) cfg.featureRate = true

theorem vecGet_rel {α β : Type} {r : α → β → Prop} : ∀ {l1 : List α} {l2 : List β}, List.Forall₂ r l1 l2 → ∀ j : Nat,
    OutRel r (vecGet l1 j) (vecGet l2 j)
  | _, _, .nil, _ => by simp only [vecGet, List.getElem?_nil]; exact .ub
  | _, _, .cons h _, 0 => by simp only [vecGet, List.getElem?_cons_zero]; exact .ok h
  | _, _, .cons _ t, j + 1 => by
    have := vecGet_rel t j
    simpa only [vecGet, List.getElem?_cons_succ] using this

/-- The best splits of two nodes: the same, on corresponding columns. -/
inductive TwinBest (σ : Nat → Nat) (n1 n2 : Nat) : Option (Split K A × Column A) → Option (Split K A × Column A) → Prop where
  | none : TwinBest σ n1 n2 none none
  | some (s : Split K A) (c1 c2 : Column A) (h : TwinCol σ n1 n2 c1 c2) : TwinBest σ n1 n2 (some (s, c1)) (some (s, c2))

theorem subsample_rel {toInt : K → Option Int} {ofNat : Nat → K} {draw : Nat → K} {rate : K} {P : Prop} (n : Nat)
    (hP : P ∨ ∀ k, Dbl.ltb (draw k) rate = true) {p1 p2 : Nat} (hp : P → p1 = p2) :
    OutRel (fun a b => a.1 = b.1 ∧ (P → a.2 = b.2)) (uniformSubsample toInt ofNat draw n rate p1) (uniformSubsample toInt ofNat draw n rate p2) := by
  obtain ⟨u1, v1⟩ := C22_subsample toInt ofNat draw n rate p1
  obtain ⟨u2, v2⟩ := C22_subsample toInt ofNat draw n rate p2
  by_cases ht : toInt (rate * ofNat n) = none
  · rw [u1 ht, u2 ht]; exact .ub
  · obtain ⟨c1, a1, _, _⟩ := v1 ht
    obtain ⟨c2, b1, _, _⟩ := v2 ht
    rw [a1, b1]
    refine .ok ⟨?_, fun h => by rw [hp h]⟩
    rcases hP with h | h
    · rw [hp h, b1] at a1
      cases a1
      rfl
    · rw [(C22_rate_one_zero _ _ _ _ _ _ _ _ a1).1 h, (C22_rate_one_zero _ _ _ _ _ _ _ _ b1).1 h]

theorem OutRel.refl {α : Type} (x : Outcome α) : OutRel (fun a b => a = b) x x := .of_eq (fun _ => rfl) rfl

theorem TwinFit.bestFeature {e1 e2 : FitEnv K A} {cfg : FitConfig K} (h : TwinFit σ e1 e2 cfg) {S1 S2 : List Nat}
    (hS : TwinSamples σ e1.grads.length e2.grads.length e1.w e2.w S1 S2) (total : GD K) {p1 p2 : Nat}
    (hp : e1.grads.length = e2.grads.length → p1 = p2) :
    OutRel (fun a b => TwinBest σ e1.grads.length e2.grads.length a.1 b.1 ∧ (e1.grads.length = e2.grads.length → a.2 = b.2))
      (bestFeature e1 cfg S1 total p1) (bestFeature e2 cfg S2 total p2) := by
  unfold Gbdt.bestFeature
  rw [h.toInt, h.ofNat, h.draw, h.sort, ← h.features.length_eq]
  refine OutRel.bind (subsample_rel e1.features.length h.pos hp) ?_
  rintro ⟨chosen, q1⟩ ⟨_, q2⟩ ⟨rfl, hq⟩
  simp only
  refine OutRel.bind (r := fun a b => a = b) (OutRel.of_eq (fun _ => rfl) ?_) ?_
  · congr 1
    funext j
    refine OutRel.eq (OutRel.bind (vecGet_rel h.features j) ?_)
    rintro ⟨name, c1⟩ ⟨_, c2⟩ ⟨rfl, hc⟩
    simp only [hS.findBestSplit h.grads hc]
    exact OutRel.refl _
  · rintro splits _ rfl
    refine OutRel.bind (OutRel.refl _) ?_
    rintro best _ rfl
    split
    · refine OutRel.bind (OutRel.refl _) ?_
      rintro s _ rfl
      split
      · refine OutRel.bind (OutRel.refl _) ?_
        rintro j _ rfl
        refine OutRel.bind (vecGet_rel h.features j) ?_
        rintro ⟨name, c1⟩ ⟨_, c2⟩ ⟨rfl, hc⟩
        have hn : ∀ s : Split K A, nameCategories c2 s = nameCategories c1 s := by
          intro s
          cases hc with
          | str c1 c2 hs _ _ =>
            have : c2.catString = c1.catString := by funext k; rw [StrCol.catString, StrCol.catString, hs]
            simp only [nameCategories, this]
          | bkt c1 c2 _ _ _ => rfl
          | raw c1 c2 => rfl
        simp only [hn]
        refine OutRel.bind (OutRel.refl _) ?_
        rintro s1 _ rfl
        exact .ok ⟨.some _ _ _ hc, hq⟩
      · exact .ok ⟨.none, hq⟩
    · exact .ok ⟨.none, hq⟩

/-- Entries of the queue that correspond. -/
structure TwinNode (σ : Nat → Nat) (n1 n2 : Nat) (w1 w2 : Nat → K) (a b : NodeData A) : Prop where
  path : b.path = a.path
  feature : Option.Rel (TwinCol σ n1 n2) a.feature b.feature
  samples : TwinSamples σ n1 n2 w1 w2 a.samples b.samples

/-- States of growing a tree that correspond. -/
structure TwinState (σ : Nat → Nat) (n1 n2 : Nat) (w1 w2 : Nat → K) (a b : FitState K A) : Prop where
  tree : b.tree = a.tree
  queue : List.Forall₂ (TwinNode σ n1 n2 w1 w2) a.queue b.queue
  step : b.step = a.step
  pos : n1 = n2 → a.pos = b.pos

theorem TwinBest.feature {a b : Option (Split K A × Column A)} (h : TwinBest σ n1 n2 a b) :
    Option.Rel (TwinCol σ n1 n2) (a.map (·.2)) (b.map (·.2)) := by
  cases h with
  | none => exact .none
  | some s c1 c2 h => exact .some h

theorem TwinFit.newNode {e1 e2 : FitEnv K A} {cfg : FitConfig K} (h : TwinFit σ e1 e2 cfg) (total : GD K)
    {a b : Option (Split K A × Column A)} (hb : TwinBest σ n1 n2 a b) : newNode e2 cfg total b = newNode e1 cfg total a := by
  cases hb with
  | none => simp only [Gbdt.newNode, h.rnd32]
  | some s c1 c2 _ => simp only [Gbdt.newNode, h.rnd32]

theorem TwinFit.fitStart {e1 e2 : FitEnv K A} {cfg : FitConfig K} (h : TwinFit σ e1 e2 cfg) {p1 p2 : Nat}
    (hp : e1.grads.length = e2.grads.length → p1 = p2) :
    OutRel (TwinState σ e1.grads.length e2.grads.length e1.w e2.w) (fitStart e1 cfg p1) (fitStart e2 cfg p2) := by
  unfold Gbdt.fitStart
  rw [h.toInt, h.ofNat, h.draw]
  obtain ⟨s1, a1, _, _⟩ := (C22_subsample e1.toInt e1.ofNat e1.draw e1.grads.length cfg.exampleRate p1).2 h.examples1
  obtain ⟨s2, b1, _, _⟩ := (C22_subsample e1.toInt e1.ofNat e1.draw e2.grads.length cfg.exampleRate p2).2 h.examples2
  have hs1 := (C22_rate_one_zero _ _ _ _ _ _ _ _ a1).1 h.all
  have hs2 := (C22_rate_one_zero _ _ _ _ _ _ _ _ b1).1 h.all
  subst hs1 hs2
  simp only [a1, b1, ok_bind, h.start.weightedSum h.grads h.threads1 h.threads2]
  refine OutRel.bind (OutRel.refl _) ?_
  rintro total _ rfl
  refine OutRel.bind (h.bestFeature h.start total (fun he => by rw [hp he, he])) ?_
  rintro ⟨b1, q1⟩ ⟨b2, q2⟩ ⟨hb, hq⟩
  exact .ok ⟨h.newNode total hb, .cons ⟨rfl, hb.feature, h.start⟩ .nil, rfl, hq⟩

theorem forall₂_eraseIdx {α β : Type} {r : α → β → Prop} : ∀ {l1 : List α} {l2 : List β}, List.Forall₂ r l1 l2 → ∀ k : Nat,
    List.Forall₂ r (l1.eraseIdx k) (l2.eraseIdx k)
  | _, _, .nil, _ => .nil
  | _, _, .cons _ t, 0 => t
  | _, _, .cons h t, k + 1 => .cons h (forall₂_eraseIdx t k)

theorem forall₂_append {α β : Type} {r : α → β → Prop} : ∀ {l1 m1 : List α} {l2 m2 : List β}, List.Forall₂ r l1 l2 →
    List.Forall₂ r m1 m2 → List.Forall₂ r (l1 ++ m1) (l2 ++ m2)
  | _, _, _, _, .nil, h => h
  | _, _, _, _, .cons h t, h' => .cons h (forall₂_append t h')

theorem TwinFit.fitStep {e1 e2 : FitEnv K A} {cfg : FitConfig K} (h : TwinFit σ e1 e2 cfg) {s1 s2 : FitState K A}
    (hs : TwinState σ e1.grads.length e2.grads.length e1.w e2.w s1 s2) (k : Nat) {d1 d2 : NodeData A}
    (hd : TwinNode σ e1.grads.length e2.grads.length e1.w e2.w d1 d2) {c1 c2 : Column A}
    (hc : TwinCol σ e1.grads.length e2.grads.length c1 c2) :
    OutRel (TwinState σ e1.grads.length e2.grads.length e1.w e2.w) (fitStep e1 cfg s1 k d1 c1) (fitStep e2 cfg s2 k d2 c2) := by
  unfold Gbdt.fitStep
  rw [hs.tree, hd.path]
  cases s1.tree.at? d1.path with
  | none => exact .ub
  | some t =>
  simp only [ok_bind]
  refine OutRel.bind (hd.samples.partition hc t.splitOf) ?_
  rintro ⟨l1, r1⟩ ⟨l2, r2⟩ ⟨hl, hr⟩
  simp only at hl hr ⊢
  rw [hl.weightedSum h.grads h.threads1 h.threads2, hr.weightedSum h.grads h.threads1 h.threads2]
  refine OutRel.bind (OutRel.refl _) ?_
  rintro lt _ rfl
  refine OutRel.bind (OutRel.refl _) ?_
  rintro rt _ rfl
  refine OutRel.bind (h.bestFeature hl lt hs.pos) ?_
  rintro ⟨lb1, q1⟩ ⟨lb2, q2⟩ ⟨hlb, hq⟩
  refine OutRel.bind (h.bestFeature hr rt hq) ?_
  rintro ⟨rb1, q1'⟩ ⟨rb2, q2'⟩ ⟨hrb, hq'⟩
  simp only at hlb hrb hq' ⊢
  rw [h.newNode lt hlb, h.newNode rt hrb]
  refine .ok ⟨rfl, ?_, by simp only [hs.step], hq'⟩
  exact forall₂_append (forall₂_eraseIdx hs.queue k)
    (.cons ⟨rfl, hlb.feature, hl⟩ (.cons ⟨rfl, hrb.feature, hr⟩ .nil))

theorem TwinState.gains {w1 w2 : Nat → K} {s1 s2 : FitState K A} (hs : TwinState σ n1 n2 w1 w2 s1 s2) :
    queueGains s2 = queueGains s1 := by
  have := hs.queue
  unfold queueGains
  rw [hs.tree]
  generalize s1.queue = l1, s2.queue = l2 at this
  induction this with
  | nil => rfl
  | cons h _ ih => rw [List.map_cons, List.map_cons, ih, h.path]

theorem TwinFit.fitLoop {e1 e2 : FitEnv K A} {cfg : FitConfig K} (h : TwinFit σ e1 e2 cfg) : ∀ (fuel : Nat) {s1 s2 : FitState K A},
    TwinState σ e1.grads.length e2.grads.length e1.w e2.w s1 s2 →
    OutRel (TwinState σ e1.grads.length e2.grads.length e1.w e2.w) (fitLoop e1 cfg fuel s1) (fitLoop e2 cfg fuel s2)
  | 0, _, _, hs => .ok hs
  | fuel + 1, s1, s2, hs => by
    rw [Gbdt.fitLoop, Gbdt.fitLoop, ← hs.queue.length_eq]
    split
    · simp only [hs.gains, hs.step, h.top]
      refine OutRel.bind (vecGet_rel hs.queue _) ?_
      intro d1 d2 hd
      have hf := hd.feature
      generalize ha : d1.feature = a at hf
      generalize hb : d2.feature = b at hf
      cases hf with
      | none => exact .ok hs
      | some hc =>
        refine OutRel.bind (h.fitStep hs _ hd hc) ?_
        intro t1 t2 ht
        exact h.fitLoop fuel ht
    · exact .ok hs

/-- Two environments that correspond give the same tree. -/
theorem TwinFit.fitTree {e1 e2 : FitEnv K A} {cfg : FitConfig K} (h : TwinFit σ e1 e2 cfg) {p1 p2 : Nat}
    (hp : e1.grads.length = e2.grads.length → p1 = p2) :
    OutRel (fun a b => a.1 = b.1 ∧ (e1.grads.length = e2.grads.length → a.2 = b.2)) (fitTree e1 cfg p1) (fitTree e2 cfg p2) := by
  unfold Gbdt.fitTree
  refine OutRel.bind (h.fitStart hp) ?_
  intro s1 s2 hs
  refine OutRel.bind (h.fitLoop cfg.numLeaves hs) ?_
  intro t1 t2 ht
  exact .ok ⟨ht.tree.symm, ht.pos⟩

end fit

end Gbdt
