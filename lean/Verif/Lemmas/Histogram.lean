import Verif.Spec.Split
import Mathlib.Algebra.BigOperators.Group.List.Basic

/-!
# Histograms
-/

set_option autoImplicit false
set_option linter.unusedSectionVars false

namespace Gbdt

open Outcome

section lawfree
variable {D : Type} [Dbl D]

theorem histStep_eq {codes : List Nat} {w : Nat → D} {grads h : List (GD D)} {i c : Nat} {b : GD D}
    (hc : codes[i]? = some c) (hb : h[c]? = some b) (hg : i < grads.length) :
    histStep codes w grads h i = ok (h.set c (b.add (weighted w grads i))) := by
  have h1 : vecGet codes i = ok c := vecGet_eq_ok.mpr hc
  have h2 : vecGet h c = ok b := vecGet_eq_ok.mpr hb
  simp only [histStep, h1, ok_bind, h2, vecGet_lt hg, pure_eq, weighted, List.getElem?_eq_getElem hg]
  rfl

/-- What the histogram holds when the samples `done` have been added. -/
def HistInv (codes : List Nat) (n : Nat) (x : Nat → GD D) (done : List Nat) (h : List (GD D)) : Prop :=
  h.length = n ∧ ∀ k < n, h[k]? = some (sumOf x (samplesWith codes done k))

theorem hist_foldlM {codes : List Nat} {n : Nat} {w : Nat → D} {grads : List (GD D)} :
    ∀ (todo done : List Nat) (h : List (GD D)), HistInv codes n (weighted w grads) done h →
    (∀ i ∈ todo, i < grads.length ∧ ∃ c, codes[i]? = some c ∧ c < n) →
    ∃ h', todo.foldlM (histStep codes w grads) h = ok h' ∧ HistInv codes n (weighted w grads) (done ++ todo) h' := by
  intro todo
  induction todo with
  | nil => intro done h hi _; exact ⟨h, rfl, by simpa using hi⟩
  | cons i is ih =>
    intro done h hi hin
    obtain ⟨hg, c, hc, hcn⟩ := hin i (by simp)
    have hb := hi.2 c hcn
    rw [List.foldlM_cons, histStep_eq hc hb hg, ok_bind]
    have hstep : HistInv codes n (weighted w grads) (done ++ [i])
        (h.set c ((sumOf (weighted w grads) (samplesWith codes done c)).add (weighted w grads i))) := by
      refine ⟨by simpa using hi.1, ?_⟩
      intro k hk
      rw [List.getElem?_set]
      by_cases hck : c = k
      · subst hck
        rw [if_pos rfl, if_pos (by rw [hi.1]; exact hk)]
        simp [samplesWith, List.filter_append, hc, sumOf, List.foldl_append]
      · rw [if_neg hck, hi.2 k hk]
        simp [samplesWith, List.filter_append, hc, hck]
    obtain ⟨h', e, hi'⟩ := ih (done ++ [i]) _ hstep (fun j hj => hin j (by simp [hj]))
    exact ⟨h', e, by simpa using hi'⟩

theorem histogramOf_spec {codes : List Nat} {n : Nat} {w : Nat → D} {grads : List (GD D)} {samples : List Nat}
    (hin : ∀ i ∈ samples, i < grads.length ∧ ∃ c, codes[i]? = some c ∧ c < n) :
    ∃ h, histogramOf codes n w grads samples = ok h ∧ HistInv codes n (weighted w grads) samples h := by
  have := hist_foldlM (codes := codes) (n := n) (w := w) (grads := grads) samples [] (List.replicate n GD.zero)
    ⟨by simp, fun k hk => by simp [hk, samplesWith, sumOf]⟩ hin
  simpa [histogramOf] using this

/-- The bin of code `k`. -/
def binOf (codes : List Nat) (x : Nat → GD D) (samples : List Nat) (k : Nat) : GD D :=
  sumOf x (samplesWith codes samples k)

/-- A bin counts when both of its sums are not zero. -/
def countsBin (b : GD D) : Bool := !Dbl.eqb b.g 0 && !Dbl.eqb b.h 0

theorem nonZeroValues_eq {codes : List Nat} {n : Nat} {x : Nat → GD D} {samples : List Nat} {h : List (GD D)}
    (hi : HistInv codes n x samples h) :
    nonZeroValues h = (List.range n).filter (fun k => countsBin (binOf codes x samples k)) := by
  unfold nonZeroValues
  rw [hi.1]
  apply List.filter_congr
  intro k hk
  rw [hi.2 k (List.mem_range.mp hk)]
  rfl

theorem histData_eq {codes : List Nat} {n : Nat} {x : Nat → GD D} {samples : List Nat} {h : List (GD D)}
    (hi : HistInv codes n x samples h) (l : List Nat) (hl : ∀ k ∈ l, k < n) :
    histData h l = ok (l.map (binOf codes x samples)) := by
  unfold histData
  induction l with
  | nil => rfl
  | cons k ks ih =>
    have h1 : vecGet h k = ok (binOf codes x samples k) := vecGet_eq_ok.mpr (hi.2 k (hl k (by simp)))
    rw [List.mapM_cons, h1, ok_bind, ih (fun j hj => hl j (by simp [hj]))]
    rfl

theorem missingData_eq {codes : List Nat} {n : Nat} {x : Nat → GD D} {samples : List Nat} {h : List (GD D)}
    (hi : HistInv codes n x samples h) (hn : 0 < n) :
    missingData h = ok (if !Dbl.eqb (binOf codes x samples 0).g 0 || !Dbl.eqb (binOf codes x samples 0).h 0
      then some (binOf codes x samples 0) else none) := by
  have h1 : vecGet h 0 = ok (binOf codes x samples 0) := vecGet_eq_ok.mpr (hi.2 0 hn)
  unfold missingData
  rw [h1, ok_bind]
  rfl

theorem prefixSum_map (bin : Nat → GD D) (l : List Nat) (k : Nat) :
    prefixSum (l.map bin) k = sumOf bin (l.take k) := by
  simp [prefixSum, sumOf, ← List.map_take, List.foldl_map]

/-- A bin that no sample has is zero. -/
theorem binOf_none {codes : List Nat} {x : Nat → GD D} {samples : List Nat} {k : Nat}
    (h : ∀ i ∈ samples, codes[i]? ≠ some k) : binOf codes x samples k = GD.zero := by
  have : samplesWith codes samples k = [] := by
    rw [samplesWith, List.filter_eq_nil_iff]
    intro i hi
    simpa using h i hi
  simp [binOf, this, sumOf]

/-- A bin that counts has a sample (`0 == 0` holds of doubles). -/
theorem exists_sample_of_counts [FpOrder D] {codes : List Nat} {x : Nat → GD D} {samples : List Nat} {k : Nat}
    (h : countsBin (binOf codes x samples k) = true) : ∃ i ∈ samples, codes[i]? = some k := by
  by_contra hcon
  push Not at hcon
  rw [binOf_none hcon] at h
  have : Dbl.eqb (GD.zero : GD D).g 0 = true := FpOrder.zero_not_nan
  simp [countsBin, this] at h

end lawfree

section exact
variable {K : Type} [Field K] [LinearOrder K]

theorem GD.ext_iff' {a b : GD K} : a = b ↔ a.g = b.g ∧ a.h = b.h := by
  cases a; cases b; simp

theorem sumOf_foldl (x : Nat → GD K) (l : List Nat) (a : GD K) :
    (l.foldl (fun a i => a.add (x i)) a).g = a.g + (l.map (fun i => (x i).g)).sum ∧
    (l.foldl (fun a i => a.add (x i)) a).h = a.h + (l.map (fun i => (x i).h)).sum := by
  induction l generalizing a with
  | nil => simp
  | cons i is ih =>
    simp only [List.foldl_cons, List.map_cons, List.sum_cons]
    obtain ⟨h1, h2⟩ := ih (a.add (x i))
    rw [h1, h2]
    simp only [GD.add]
    constructor <;> exact add_assoc _ _ _

theorem sumOf_g (x : Nat → GD K) (l : List Nat) : (sumOf x l).g = (l.map (fun i => (x i).g)).sum := by
  have := (sumOf_foldl x l GD.zero).1
  simpa [sumOf, GD.zero] using this

theorem sumOf_h (x : Nat → GD K) (l : List Nat) : (sumOf x l).h = (l.map (fun i => (x i).h)).sum := by
  have := (sumOf_foldl x l GD.zero).2
  simpa [sumOf, GD.zero] using this

theorem sumOf_perm (x : Nat → GD K) {l l' : List Nat} (h : l.Perm l') : sumOf x l = sumOf x l' := by
  rw [GD.ext_iff', sumOf_g, sumOf_g, sumOf_h, sumOf_h]
  exact ⟨(h.map _).sum_eq, (h.map _).sum_eq⟩

theorem sumOf_append (x : Nat → GD K) (l l' : List Nat) : sumOf x (l ++ l') = (sumOf x l).add (sumOf x l') := by
  rw [GD.ext_iff']
  simp [sumOf_g, sumOf_h, GD.add]

theorem sumOf_zero (x : Nat → GD K) (l : List Nat) (h : ∀ i ∈ l, x i = GD.zero) : sumOf x l = GD.zero := by
  rw [GD.ext_iff', sumOf_g, sumOf_h]
  have h1 : l.map (fun i => (x i).g) = l.map (fun _ => 0) := List.map_congr_left (fun i hi => by rw [h i hi]; rfl)
  have h2 : l.map (fun i => (x i).h) = l.map (fun _ => 0) := List.map_congr_left (fun i hi => by rw [h i hi]; rfl)
  rw [h1, h2]
  simp [GD.zero]

theorem GD.add_zero' (a : GD K) : a.add GD.zero = a := by simp [GD.add, GD.zero]
theorem GD.zero_add' (a : GD K) : GD.zero.add a = a := by simp [GD.add, GD.zero]
theorem GD.add_comm' (a b : GD K) : a.add b = b.add a := by simp [GD.add, add_comm]
theorem GD.add_assoc' (a b c : GD K) : (a.add b).add c = a.add (b.add c) := by simp [GD.add, add_assoc]
theorem GD.add_sub_cancel' (a b : GD K) : (a.add b).sub a = b := by simp [GD.add, GD.sub]
theorem GD.sub_add_cancel' (a b : GD K) : (a.sub b).add b = a := by simp [GD.add, GD.sub]

theorem sumOf_filter_add (x : Nat → GD K) (l : List Nat) (p : Nat → Bool) :
    (sumOf x (l.filter p)).add (sumOf x (l.filter (fun i => !p i))) = sumOf x l := by
  rw [← sumOf_append]
  exact sumOf_perm x (List.filter_append_perm p l)

/-- Summing over the samples whose code satisfies `q` is summing the bins that satisfy `q`. -/
theorem sum_by_code {M : Type} [AddCommMonoid M] (f : Nat → M) (codes : List Nat) (n : Nat) (q : Nat → Bool) (samples : List Nat)
    (hin : ∀ i ∈ samples, ∃ c, codes[i]? = some c ∧ c < n) :
    ((samples.filter (fun i => match codes[i]? with | some c => q c | none => false)).map f).sum =
    (((List.range n).filter q).map (fun k => ((samplesWith codes samples k).map f).sum)).sum := by
  induction samples with
  | nil =>
    simp [samplesWith]
  | cons i is ih =>
    have ih := ih (fun j hj => hin j (by simp [hj]))
    obtain ⟨c, hc, hcn⟩ := hin i (by simp)
    have hbin : ∀ k, ((samplesWith codes (i :: is) k).map f).sum =
        (if k = c then f i else 0) + ((samplesWith codes is k).map f).sum := by
      intro k
      by_cases hk : k = c
      · subst hk; simp [samplesWith, hc]
      · have : ¬ c = k := fun h => hk h.symm
        simp [samplesWith, hc, hk, this]
    have hsplit : (((List.range n).filter q).map (fun k => (if k = c then f i else 0) +
        ((samplesWith codes is k).map f).sum)).sum = (((List.range n).filter q).map (fun k => if k = c then f i else 0)).sum
          + (((List.range n).filter q).map (fun k => ((samplesWith codes is k).map f).sum)).sum := by
      rw [← List.sum_map_add]
    rw [List.map_congr_left (fun k _ => hbin k), hsplit, ← ih]
    have hone : ∀ (l : List Nat), l.Nodup → (l.map (fun k => if k = c then f i else (0 : M))).sum = if c ∈ l then f i else 0 := by
      intro l
      induction l with
      | nil => simp
      | cons a l ihl =>
        intro hnd
        rw [List.nodup_cons] at hnd
        rw [List.map_cons, List.sum_cons, ihl hnd.2]
        by_cases hac : a = c
        · subst hac; simp [hnd.1]
        · have : ¬ c = a := fun h => hac h.symm
          simp [hac, this]
    rw [hone _ (List.Nodup.filter _ List.nodup_range)]
    cases hq : q c with
    | true =>
      rw [if_pos (by simp [hcn, hq])]
      simp [hc, hq]
    | false =>
      rw [if_neg (by simp [hq])]
      simp [hc, hq]

theorem sumOf_by_code (x : Nat → GD K) (codes : List Nat) (n : Nat) (q : Nat → Bool) (samples : List Nat)
    (hin : ∀ i ∈ samples, ∃ c, codes[i]? = some c ∧ c < n) :
    sumOf x (samples.filter (fun i => match codes[i]? with | some c => q c | none => false)) =
    sumOf (binOf codes x samples) ((List.range n).filter q) := by
  rw [GD.ext_iff', sumOf_g, sumOf_g, sumOf_h, sumOf_h]
  refine ⟨?_, ?_⟩
  · rw [sum_by_code _ codes n q samples hin]
    congr 1
    exact List.map_congr_left (fun k _ => by rw [binOf, sumOf_g])
  · rw [sum_by_code _ codes n q samples hin]
    congr 1
    exact List.map_congr_left (fun k _ => by rw [binOf, sumOf_h])

end exact

end Gbdt
