import Verif.Model.Metrics
import Mathlib.Algebra.BigOperators.Group.List.Basic
import Mathlib.Algebra.Order.BigOperators.Group.List
import Mathlib.Data.Finset.Dedup
import Mathlib.Data.Finset.Card
import Mathlib.Algebra.BigOperators.Intervals
import Mathlib.Tactic.Linarith
import Mathlib.Tactic.Ring
import Mathlib.Tactic.Linarith

/-!
# Lemmas on the metrics scripts
-/

set_option autoImplicit false
set_option linter.unusedSectionVars false

namespace Gbdt

/-! ## Lines -/

theorem keepLines_line : ∀ (l rest : Text), '\n' ∉ l → keepLines (l ++ '\n' :: rest) = (l ++ ['\n']) :: keepLines rest
  | [], rest, _ => by simp [keepLines]
  | c :: l, rest, h => by
    have hc : c ≠ '\n' := fun e => h (by simp [e])
    have ih := keepLines_line l rest (fun e => h (by simp [e]))
    simp only [List.cons_append]
    rw [keepLines, if_neg hc, ih]

theorem keepLines_printLines : ∀ (ls : List Text), (∀ l ∈ ls, '\n' ∉ l) → keepLines (printLines ls) = ls.map (· ++ ['\n'])
  | [], _ => rfl
  | l :: ls, h => by
    have : printLines (l :: ls) = l ++ '\n' :: printLines ls := by simp [printLines]
    rw [this, keepLines_line l _ (h l (by simp)), keepLines_printLines ls (fun x hx => h x (by simp [hx]))]
    rfl

/-- The lines of a flat file that hold data. -/
def metricLines (ls : List Text) : List Text := ls.filter (fun l => !(l.head? == some '#'))

theorem scriptRows_printLines (ls : List Text) (h : ∀ l ∈ ls, '\n' ∉ l) : scriptRows (printLines ls) = (metricLines ls).map (· ++ ['\n']) := by
  rw [scriptRows, keepLines_printLines ls h, List.filter_map, metricLines]
  congr 1
  refine List.filter_congr (fun l _ => ?_)
  cases l <;> simp

/-! ## Groups -/

section runs
variable {α β : Type}

/-- What the generator yields when the other files do not end before the file of groups. -/
def runsFrom : Option Text → List α → List (Text × α) → List (List α)
  | _, cur, [] => if cur.isEmpty then [] else [cur]
  | prev, cur, (g, x) :: l =>
    if prev.isSome && prev != some g then cur :: runsFrom (some g) [x] l else runsFrom (some g) (cur ++ [x]) l

theorem runsFrom_map (f : α → β) : ∀ (l : List (Text × α)) (prev : Option Text) (cur : List α),
    runsFrom prev (cur.map f) (l.map (fun p => (p.1, f p.2))) = (runsFrom prev cur l).map (List.map f)
  | [], prev, cur => by
    simp only [runsFrom, List.map_nil]
    cases cur <;> simp
  | (g, x) :: l, prev, cur => by
    simp only [List.map_cons, runsFrom]
    split
    · rw [List.map_cons, ← runsFrom_map f l]
      rfl
    · rw [← runsFrom_map f l]
      simp

theorem runsFrom_ne_nil : ∀ (l : List (Text × α)) (prev : Option Text) (cur : List α), (prev.isSome = true → cur ≠ []) →
    ∀ g ∈ runsFrom prev cur l, g ≠ []
  | [], prev, cur, h, g, hg => by
    simp only [runsFrom] at hg
    split at hg
    · cases hg
    · next hc =>
      rw [List.mem_singleton] at hg
      subst hg
      simpa using hc
  | (gid, x) :: l, prev, cur, h, g, hg => by
    simp only [runsFrom] at hg
    split at hg
    · next hc =>
      rcases List.mem_cons.mp hg with rfl | hg
      · exact h (by simp only [Bool.and_eq_true] at hc; exact hc.1)
      · exact runsFrom_ne_nil l _ _ (fun _ => by simp) g hg
    · exact runsFrom_ne_nil l _ _ (fun _ => by simp) g hg

end runs

section rows
variable {K : Type}

theorem readGroups_runs {parse : Text → Option K} : ∀ (gids ss ts : List Text) (s t : List K) (prev : Option Text) (cur : List (K × K)),
    List.Forall₂ (fun l v => parse l = some v) ss s → List.Forall₂ (fun l v => parse l = some v) ts t → ss.length = gids.length →
    ts.length = gids.length → readGroups parse prev cur gids ss ts = some (runsFrom prev cur (gids.zip (s.zip t)))
  | [], _, _, _, _, _, cur, _, _, _, _ => by
    simp only [readGroups, List.zip_nil_left, runsFrom]
  | gid :: gids, [], _, _, _, _, _, _, _, h, _ => by simp at h
  | gid :: gids, _ :: _, [], _, _, _, _, _, _, _, h => by simp at h
  | gid :: gids, sl :: ss, tl :: ts, _, _, prev, cur, .cons (b := sv) (l₂ := s) h1 h2, .cons (b := tv) (l₂ := t) h3 h4, h5, h6 => by
    simp only [List.length_cons, Nat.add_right_cancel_iff] at h5 h6
    rw [readGroups, h1]
    simp only [h3, List.zip_cons_cons, runsFrom]
    split
    · rw [readGroups_runs gids ss ts s t _ _ h2 h4 h5 h6]
      rfl
    · rw [readGroups_runs gids ss ts s t _ _ h2 h4 h5 h6]

end rows

/-! ## Sums of ranked groups -/

section sums
variable {K : Type} [Field K]

/-- The sum of discounted targets that satisfy `p`, in the order given, from position `i` on. -/
def rankedSum (discount : Nat → K) (p : K → Bool) : Nat → List K → K
  | _, [] => 0
  | i, t :: ts => (if p t then discount i * t else 0) + rankedSum discount p (i + 1) ts

variable [LinearOrder K]

/-- Every row has the rank that the rows before and after give it. -/
def rankSum (discount : Nat → K) (p : K → Bool) : List (K × K) → List (K × K) → K
  | _, [] => 0
  | before, x :: l =>
    (if p x.2 then discount (before.countP (fun y => x.1 ≤ y.1) + l.countP (fun y => x.1 < y.1)) * x.2 else 0) +
      rankSum discount p (before ++ [x]) l

/-- The sum over a ranked list, with `before` in front of what has no higher score. -/
def sortedSum (discount : Nat → K) (p : K → Bool) (before : List (K × K)) : Nat → List (K × K) → K
  | _, [] => 0
  | j, x :: l => (if p x.2 then discount (before.countP (fun y => x.1 ≤ y.1) + j) * x.2 else 0) + sortedSum discount p before (j + 1) l

theorem sortedSum_push (discount : Nat → K) (p : K → Bool) (before : List (K × K)) (x : K × K) : ∀ (l : List (K × K)) (j : Nat),
    (∀ y ∈ l, y.1 ≤ x.1) → sortedSum discount p (before ++ [x]) j l = sortedSum discount p before (j + 1) l
  | [], _, _ => rfl
  | y :: l, j, h => by
    have hy : y.1 ≤ x.1 := h y (by simp)
    rw [sortedSum, sortedSum, sortedSum_push discount p before x l (j + 1) (fun z hz => h z (by simp [hz])), List.countP_append]
    have : [x].countP (fun z => decide (y.1 ≤ z.1)) = 1 := by simp [hy]
    rw [this, Nat.add_assoc, Nat.add_comm 1 j]

theorem sortedSum_insert (discount : Nat → K) (p : K → Bool) (before : List (K × K)) (x : K × K) : ∀ (l : List (K × K)) (j : Nat),
    l.Pairwise (fun a b => b.1 ≤ a.1) → sortedSum discount p before j (l.orderedInsert (fun a b => b.1 ≤ a.1) x) =
      (if p x.2 then discount (before.countP (fun y => x.1 ≤ y.1) + (j + l.countP (fun y => x.1 < y.1))) * x.2 else 0) +
        sortedSum discount p (before ++ [x]) j l
  | [], j, _ => by simp [sortedSum]
  | y :: l, j, h => by
    rw [List.orderedInsert]
    by_cases hy : y.1 ≤ x.1
    · rw [if_pos hy]
      have hall : ∀ z ∈ y :: l, z.1 ≤ x.1 := by
        intro z hz
        rcases List.mem_cons.mp hz with rfl | hz
        · exact hy
        · exact ((List.pairwise_cons.mp h).1 z hz).trans hy
      have hc : (y :: l).countP (fun z => decide (x.1 < z.1)) = 0 := by
        rw [List.countP_eq_zero]
        intro z hz
        simpa using hall z hz
      rw [hc, sortedSum_push discount p before x _ j hall, sortedSum]
      rfl
    · rw [if_neg hy, sortedSum, sortedSum, sortedSum_insert discount p before x l (j + 1) (List.pairwise_cons.mp h).2]
      have h1 : (before ++ [x]).countP (fun z => decide (y.1 ≤ z.1)) = before.countP (fun z => decide (y.1 ≤ z.1)) := by
        rw [List.countP_append]
        simp [hy]
      have h2 : (y :: l).countP (fun z => decide (x.1 < z.1)) = l.countP (fun z => decide (x.1 < z.1)) + 1 := by
        rw [List.countP_cons, if_pos (by simpa using hy)]
      rw [h1, h2]
      have h3 : j + (l.countP (fun z => decide (x.1 < z.1)) + 1) = j + 1 + l.countP (fun z => decide (x.1 < z.1)) := by omega
      rw [h3]
      ring

instance rank_total : Std.Total (fun a b : K × K => b.1 ≤ a.1) := ⟨fun a b => le_total b.1 a.1⟩
instance rank_trans : IsTrans (K × K) (fun a b => b.1 ≤ a.1) := ⟨fun _ _ _ h1 h2 => le_trans h2 h1⟩

theorem rankSum_sorted (discount : Nat → K) (p : K → Bool) : ∀ (l before : List (K × K)),
    rankSum discount p before l = sortedSum discount p before 0 (rankGroup l)
  | [], _ => rfl
  | x :: l, before => by
    have hs : (rankGroup l).Pairwise (fun a b => b.1 ≤ a.1) := List.pairwise_insertionSort _ l
    have hp : (rankGroup l).Perm l := List.perm_insertionSort _ l
    have hx : rankGroup (x :: l) = (rankGroup l).orderedInsert (fun a b => b.1 ≤ a.1) x := List.insertionSort_cons _ _ _
    rw [hx, sortedSum_insert discount p before x _ 0 hs, rankSum, rankSum_sorted discount p l, hp.countP_eq, Nat.zero_add]

theorem sortedSum_nil (discount : Nat → K) (p : K → Bool) : ∀ (l : List (K × K)) (j : Nat),
    sortedSum discount p [] j l = rankedSum discount p j (l.map Prod.snd)
  | [], _ => rfl
  | x :: l, j => by
    rw [sortedSum, List.map_cons, rankedSum, sortedSum_nil discount p l]
    simp

/-- The sum over the group in the order of the script, in terms of ranks. -/
theorem rankedSum_rankGroup (discount : Nat → K) (p : K → Bool) (g : List (K × K)) :
    rankedSum discount p 0 ((rankGroup g).map Prod.snd) = rankSum discount p [] g := by
  rw [rankSum_sorted, sortedSum_nil]

/-! ## Rows with their groups -/

/-- The same over all rows; only rows of the same group count. -/
def rowsSum (discount : Nat → K) (p : K → Bool) : List (Text × K × K) → List (Text × K × K) → K
  | _, [] => 0
  | before, x :: l =>
    (if p x.2.2 then discount (before.countP (fun y => y.1 == x.1 && decide (x.2.1 ≤ y.2.1)) +
        l.countP (fun y => y.1 == x.1 && decide (x.2.1 < y.2.1))) * x.2.2 else 0) +
      rowsSum discount p (before ++ [x]) l

theorem rowsSum_drop (discount : Nat → K) (p : K → Bool) (far : List (Text × K × K)) : ∀ (l before : List (Text × K × K)),
    (∀ a ∈ far, ∀ b ∈ l, a.1 ≠ b.1) → rowsSum discount p (far ++ before) l = rowsSum discount p before l
  | [], _, _ => rfl
  | x :: l, before, h => by
    have hz : far.countP (fun y => y.1 == x.1 && decide (x.2.1 ≤ y.2.1)) = 0 := by
      rw [List.countP_eq_zero]
      intro a ha
      simp [h a ha x (by simp)]
    rw [rowsSum, rowsSum, List.append_assoc, rowsSum_drop discount p far l (before ++ [x]) (fun a ha b hb => h a ha b (by simp [hb])),
      List.countP_append, hz, Nat.zero_add]

theorem rowsSum_group (discount : Nat → K) (p : K → Bool) (g : Text) (rest : List (Text × K × K)) (hr : ∀ b ∈ rest, b.1 ≠ g) :
    ∀ (cur before : List (Text × K × K)), (∀ a ∈ cur, a.1 = g) → (∀ a ∈ before, a.1 = g) →
    rowsSum discount p before (cur ++ rest) =
      rankSum discount p (before.map Prod.snd) (cur.map Prod.snd) + rowsSum discount p (before ++ cur) rest
  | [], before, _, _ => by simp [rankSum]
  | x :: cur, before, hc, hb => by
    have hx : x.1 = g := hc x (by simp)
    have hcur : ∀ a ∈ cur, a.1 = g := fun a ha => hc a (by simp [ha])
    have h1 : before.countP (fun y => y.1 == x.1 && decide (x.2.1 ≤ y.2.1)) =
        (before.map Prod.snd).countP (fun y => decide (x.2.1 ≤ y.1)) := by
      rw [List.countP_map]
      refine List.countP_congr (fun a ha => ?_)
      simp [hb a ha, hx]
    have h2 : (cur ++ rest).countP (fun y => y.1 == x.1 && decide (x.2.1 < y.2.1)) =
        (cur.map Prod.snd).countP (fun y => decide (x.2.1 < y.1)) := by
      have hz : rest.countP (fun y => y.1 == x.1 && decide (x.2.1 < y.2.1)) = 0 := by
        rw [List.countP_eq_zero]
        intro a ha
        have := hr a ha
        rw [← hx] at this
        simp [this]
      rw [List.countP_append, hz, Nat.add_zero, List.countP_map]
      refine List.countP_congr (fun a ha => ?_)
      simp [hcur a ha, hx]
    have ih := rowsSum_group discount p g rest hr cur (before ++ [x]) hcur (by
      intro a ha
      rcases List.mem_append.mp ha with ha | ha
      · exact hb a ha
      · rw [List.mem_singleton] at ha
        rw [ha, hx])
    rw [List.cons_append, rowsSum, h1, h2, ih, List.map_cons, rankSum, List.map_append]
    simp only [List.append_assoc, List.cons_append, List.nil_append, List.map_cons, List.map_nil]
    ring

/-! ## Groups that are together -/

/-- All rows of a group are together. -/
def Together (gids : List Text) : Prop :=
  ∀ i j k : Nat, i < j → j < k → k < gids.length → gids[i]? = gids[k]? → gids[j]? = gids[i]?

theorem Together.tail {g : Text} {l : List Text} (h : Together (g :: l)) : Together l := by
  intro i j k hij hjk hk he
  have := h (i + 1) (j + 1) (k + 1) (by omega) (by omega) (by simpa using hk) (by simpa using he)
  simpa using this

theorem Together.suffix : ∀ {l l' : List Text}, Together (l ++ l') → Together l'
  | [], _, h => h
  | _ :: l, _, h => Together.suffix (l := l) h.tail

theorem Together.gone {g g' : Text} {l : List Text} (h : Together (g :: g' :: l)) (hne : g' ≠ g) : g ∉ g' :: l := by
  intro hm
  obtain ⟨k, hk, he⟩ := List.getElem_of_mem hm
  cases k with
  | zero => exact hne he
  | succ k =>
    have := h 0 1 (k + 2) (by omega) (by omega) (by simpa using hk) (by
      rw [List.getElem?_cons_zero, List.getElem?_eq_getElem (by simpa using hk)]
      congr 1
      rw [← he]
      rfl)
    simp only [List.getElem?_cons_succ, List.getElem?_cons_zero, Option.some.injEq] at this
    exact hne this

theorem runs_rows (discount : Nat → K) (p : K → Bool) (g : Text) : ∀ (l cur : List (Text × K × K)), cur ≠ [] → (∀ a ∈ cur, a.1 = g) →
    Together ((cur ++ l).map Prod.fst) →
    ((runsFrom (some g) (cur.map Prod.snd) l).map (rankSum discount p [])).sum = rowsSum discount p [] (cur ++ l) ∧
      (runsFrom (some g) (cur.map Prod.snd) l).length = ((cur ++ l).map Prod.fst).toFinset.card
  | [], cur, hne, hg, _ => by
    have h1 : (cur.map Prod.snd).isEmpty = false := by simpa using hne
    have h2 := rowsSum_group discount p g [] (by simp) cur [] hg (by simp)
    simp only [List.append_nil, List.map_nil, rowsSum, add_zero] at h2
    simp only [runsFrom, h1, Bool.false_eq_true, if_false, List.map_cons, List.map_nil, List.sum_cons, List.sum_nil, h2,
      List.length_cons, List.length_nil, List.append_nil, add_zero, true_and]
    have : (cur.map Prod.fst).toFinset = {g} := by
      ext a
      simp only [List.mem_toFinset, List.mem_map, Finset.mem_singleton]
      constructor
      · rintro ⟨b, hb, rfl⟩
        exact hg b hb
      · rintro rfl
        obtain ⟨b, hb⟩ := List.exists_mem_of_ne_nil cur hne
        exact ⟨b, hb, hg b hb⟩
    rw [this]
    rfl
  | (g', x) :: l, cur, hne, hg, ht => by
    rw [runsFrom]
    by_cases hgg : g' = g
    · subst hgg
      have hc : ((some g').isSome && some g' != some g') = false := by simp
      rw [hc]
      have := runs_rows discount p g' l (cur ++ [(g', x)]) (by simp) (by
        intro a ha
        rcases List.mem_append.mp ha with ha | ha
        · exact hg a ha
        · rw [List.mem_singleton] at ha
          rw [ha]) (by simpa using ht)
      simpa using this
    · have hc : ((some g).isSome && some g != some g') = true := by simpa using fun e => hgg e.symm
      rw [hc]
      simp only [if_true, List.map_cons, List.sum_cons, List.length_cons]
      have hrest : ∀ b ∈ (g', x) :: l, b.1 ≠ g := by
        obtain ⟨last, hlast⟩ : ∃ c0 last, cur = c0 ++ [last] := ⟨_, _, (List.dropLast_append_getLast hne).symm⟩
        obtain ⟨last, rfl⟩ := hlast
        have hl : last.1 = g := hg last (by simp)
        have h1 : Together (g :: g' :: l.map Prod.fst) := by
          rw [List.append_assoc, List.map_append] at ht
          have := ht.suffix
          simpa [hl] using this
        have h2 := h1.gone hgg
        intro b hb e
        exact h2 (by
          have : b.1 ∈ ((g', x) :: l).map Prod.fst := List.mem_map_of_mem hb
          rw [e] at this
          simpa using this)
      have hsuf : Together (([(g', x)] ++ l).map Prod.fst) := by
        rw [List.map_append] at ht
        simpa using ht.suffix
      obtain ⟨i1, i2⟩ := runs_rows discount p g' l [(g', x)] (by simp) (by simp) hsuf
      simp only [List.map_cons, List.map_nil] at i1 i2
      constructor
      · rw [i1, rowsSum_group discount p g ((g', x) :: l) hrest cur [] hg (by simp)]
        rw [List.nil_append, ← List.append_nil cur, rowsSum_drop discount p cur _ [] (by
          intro a ha b hb
          rw [hg a ha]
          exact (hrest b hb).symm)]
        simp
      · rw [i2]
        have : ((cur ++ (g', x) :: l).map Prod.fst).toFinset = insert g (((g', x) :: l).map Prod.fst).toFinset := by
          ext a
          simp only [List.mem_toFinset, List.map_append, List.mem_append, Finset.mem_insert]
          constructor
          · rintro (h | h)
            · obtain ⟨b, hb, rfl⟩ := List.mem_map.mp h
              exact Or.inl (hg b hb)
            · exact Or.inr h
          · rintro (rfl | h)
            · obtain ⟨b, hb⟩ := List.exists_mem_of_ne_nil cur hne
              exact Or.inl (List.mem_map.mpr ⟨b, hb, hg b hb⟩)
            · exact Or.inr h
        rw [this, Finset.card_insert_of_notMem]
        · rfl
        · rw [List.mem_toFinset]
          intro h
          obtain ⟨b, hb, e⟩ := List.mem_map.mp h
          exact hrest b hb e

/-- The groups that the script sees, if the rows of each group are together. -/
theorem runs_together (discount : Nat → K) (p : K → Bool) (l : List (Text × K × K)) (ht : Together (l.map Prod.fst)) :
    ((runsFrom none [] l).map (rankSum discount p [])).sum = rowsSum discount p [] l ∧
      (runsFrom none [] l).length = (l.map Prod.fst).toFinset.card := by
  cases l with
  | nil => exact ⟨rfl, rfl⟩
  | cons a l =>
    obtain ⟨g, x⟩ := a
    have := runs_rows discount p g l [(g, x)] (by simp) (by simp) (by simpa using ht)
    simpa [runsFrom] using this

end sums

end Gbdt

namespace Gbdt

/-! ## The dictionary -/

section dict
variable {K : Type} [Field K]

/-- The number that a Python number is. -/
def PyNum.value : PyNum K → K
  | .int a => a
  | .float x => x

/-- `metrics[k]`. -/
def metricAt (k : String) (m : List (String × PyNum K)) : PyNum K := (m.lookup k).getD (.int 0)

theorem PyNum.add_float (a : PyNum K) (u : K) : a.add (.float u) = .float (a.value + u) := by
  cases a <;> rfl

theorem PyNum.zero_add_int (n : Int) : (PyNum.int 0 : PyNum K).add (.int n) = .int n := by simp [PyNum.add]

theorem bumpMetric_lookup (k k' : String) (v : PyNum K) : ∀ m : List (String × PyNum K),
    (bumpMetric k v m).lookup k' = if k' = k then some ((metricAt k m).add v) else m.lookup k'
  | [] => by
    by_cases h : k' = k
    · simp [bumpMetric, metricAt, h]
    · have h3 : (k' == k) = false := by simpa using h
      simp [bumpMetric, List.lookup, h, h3]
  | (k1, v1) :: m => by
    rw [bumpMetric]
    by_cases h1 : k1 = k
    · subst h1
      rw [if_pos rfl]
      by_cases h : k' = k1
      · simp [metricAt, h]
      · have : (k' == k1) = false := by simpa using h
        simp [List.lookup, h, this]
    · rw [if_neg h1]
      have hk : (k == k1) = false := by simpa using fun e => h1 e.symm
      by_cases h2 : k' = k1
      · subst h2
        simp [List.lookup, h1]
      · have h3 : (k' == k1) = false := by simpa using h2
        simp only [List.lookup, h3, bumpMetric_lookup k k' v m, metricAt, hk]

theorem bumpMetric_keys (k : String) (v : PyNum K) : ∀ m : List (String × PyNum K),
    (bumpMetric k v m).map Prod.fst = if k ∈ m.map Prod.fst then m.map Prod.fst else m.map Prod.fst ++ [k]
  | [] => rfl
  | (k1, v1) :: m => by
    rw [bumpMetric]
    by_cases h1 : k1 = k
    · simp [h1]
    · have : ¬ k = k1 := fun e => h1 e.symm
      simp only [if_neg h1, List.map_cons, bumpMetric_keys k v m, List.mem_cons, this, false_or]
      split <;> simp

theorem bumpMetric_nodup (k : String) (v : PyNum K) {m : List (String × PyNum K)} (h : (m.map Prod.fst).Nodup) :
    ((bumpMetric k v m).map Prod.fst).Nodup := by
  rw [bumpMetric_keys]
  split
  · exact h
  · next hk =>
    rw [List.nodup_append]
    refine ⟨h, by simp, ?_⟩
    intro a ha b hb e
    rw [List.mem_singleton] at hb
    exact hk (by rw [← hb, ← e]; exact ha)

theorem metricsLoop_nodup (discount : Nat → K) (shown : K → String) : ∀ (l : List K) (i : Nat) {m : List (String × PyNum K)},
    (m.map Prod.fst).Nodup → ((metricsLoop discount shown i l m).map Prod.fst).Nodup
  | [], _, _, h => h
  | t :: l, i, m, h => by
    rw [metricsLoop]
    exact metricsLoop_nodup discount shown l (i + 1)
      (bumpMetric_nodup _ _ (bumpMetric_nodup _ _ (bumpMetric_nodup _ _ (bumpMetric_nodup _ _ h))))

theorem mergeMetrics_nodup : ∀ (sub : List (String × PyNum K)) {m : List (String × PyNum K)}, (m.map Prod.fst).Nodup →
    ((mergeMetrics sub m).map Prod.fst).Nodup
  | [], _, h => h
  | kv :: sub, m, h => by
    rw [mergeMetrics, List.foldl_cons]
    exact mergeMetrics_nodup sub (bumpMetric_nodup _ _ h)

theorem mergeMetrics_lookup (k : String) : ∀ (sub m : List (String × PyNum K)), (sub.map Prod.fst).Nodup →
    (mergeMetrics sub m).lookup k = match sub.lookup k with
      | none => m.lookup k
      | some v => some ((metricAt k m).add v)
  | [], _, _ => rfl
  | (k1, v1) :: sub, m, h => by
    rw [List.map_cons, List.nodup_cons] at h
    have ih := mergeMetrics_lookup k sub (bumpMetric k1 v1 m) h.2
    rw [mergeMetrics, List.foldl_cons]
    rw [mergeMetrics] at ih
    rw [ih]
    by_cases hk : k = k1
    · subst hk
      have : sub.lookup k = none := by
        rw [List.lookup_eq_none_iff]
        intro p hp
        have : ¬ p.1 = k := fun e => h.1 (by rw [← e]; exact List.mem_map.mpr ⟨p, hp, rfl⟩)
        simpa using fun e => this e.symm
      simp only [this, List.lookup, beq_self_eq_true, bumpMetric_lookup, if_true]
    · have hb : (k == k1) = false := by simpa using hk
      simp only [List.lookup, hb, metricAt, bumpMetric_lookup, if_neg hk]

/-- Which targets the entries `dcu_<class>` and `count_<class>` are about. -/
def inClass (shown : K → String) (cls : String) (t : K) : Bool := cls == "total" || shown t == cls

theorem dcu_inj (a b : String) : "dcu_" ++ a = "dcu_" ++ b ↔ a = b := by
  rw [← String.toList_inj, String.toList_append, String.toList_append, List.append_cancel_left_eq, String.toList_inj]

theorem count_inj (a b : String) : "count_" ++ a = "count_" ++ b ↔ a = b := by
  rw [← String.toList_inj, String.toList_append, String.toList_append, List.append_cancel_left_eq, String.toList_inj]

theorem dcu_ne_count (a b : String) : "dcu_" ++ a ≠ "count_" ++ b := by
  intro h
  have := congrArg (fun s => s.toList.head?) h
  simp [String.toList_append] at this

theorem total_split : "dcu_total" = "dcu_" ++ "total" ∧ "count_total" = "count_" ++ "total" := by decide

variable {shown : K → String} (hshown : ∀ x, shown x ≠ "total")
include hshown

theorem step_dcu (cls : String) (t u : K) (m : List (String × PyNum K)) :
    (bumpMetric "count_total" (.int 1) (bumpMetric ("count_" ++ shown t) (.int 1) (bumpMetric "dcu_total" (.float u)
      (bumpMetric ("dcu_" ++ shown t) (.float u) m)))).lookup ("dcu_" ++ cls) =
    if inClass shown cls t then some (.float ((metricAt ("dcu_" ++ cls) m).value + u)) else m.lookup ("dcu_" ++ cls) := by
  have h1 : ∀ b, ¬ "dcu_" ++ cls = "count_" ++ b := dcu_ne_count cls
  rw [total_split.1, total_split.2]
  simp only [bumpMetric_lookup, h1, if_false, dcu_inj, metricAt, PyNum.add_float]
  by_cases h2 : cls = "total"
  · subst h2
    have : ¬ "total" = shown t := fun e => hshown t e.symm
    simp [inClass, this]
  · by_cases h3 : cls = shown t
    · have h4 : (shown t == cls) = true := by simpa using h3.symm
      simp [inClass, h3]
      exact fun e => absurd e (hshown t)
    · have h4 : (shown t == cls) = false := by simpa using fun e => h3 e.symm
      simp [inClass, h2, h3, h4]

theorem step_count (cls : String) (t u : K) {m : List (String × PyNum K)} {a : Int} (ha : metricAt ("count_" ++ cls) m = .int a) :
    (bumpMetric "count_total" (.int 1) (bumpMetric ("count_" ++ shown t) (.int 1) (bumpMetric "dcu_total" (.float u)
      (bumpMetric ("dcu_" ++ shown t) (.float u) m)))).lookup ("count_" ++ cls) =
    if inClass shown cls t then some (.int (a + 1)) else m.lookup ("count_" ++ cls) := by
  have h1 : ∀ b, ¬ "count_" ++ cls = "dcu_" ++ b := fun b e => dcu_ne_count b cls e.symm
  have h1' : ∀ a b, ¬ "count_" ++ a = "dcu_" ++ b := fun a b e => dcu_ne_count b a e.symm
  rw [metricAt] at ha
  rw [total_split.1, total_split.2]
  simp only [bumpMetric_lookup, h1, h1', if_false, count_inj, metricAt]
  by_cases h2 : cls = "total"
  · subst h2
    have : ¬ "total" = shown t := fun e => hshown t e.symm
    simp only [this, if_false, if_true, ha, PyNum.add, inClass, beq_self_eq_true, Bool.true_or]
  · by_cases h3 : cls = shown t
    · subst h3
      simp [inClass, h2, ha, PyNum.add]
    · have h4 : (shown t == cls) = false := by simpa using fun e => h3 e.symm
      simp [inClass, h2, h3, h4]

theorem loop_dcu (discount : Nat → K) (cls : String) : ∀ (l : List K) (i : Nat) (m : List (String × PyNum K)),
    (metricsLoop discount shown i l m).lookup ("dcu_" ++ cls) =
      if l.any (inClass shown cls) then some (.float ((metricAt ("dcu_" ++ cls) m).value + rankedSum discount (inClass shown cls) i l))
      else m.lookup ("dcu_" ++ cls)
  | [], _, _ => rfl
  | t :: l, i, m => by
    rw [metricsLoop, loop_dcu discount cls l (i + 1)]
    simp only [metricAt, step_dcu hshown cls t, List.any_cons, rankedSum]
    by_cases h1 : inClass shown cls t = true
    · simp only [h1, if_true, Option.getD_some, PyNum.value, Bool.true_or, add_assoc]
      split
      · rfl
      · next h2 =>
        have : rankedSum discount (inClass shown cls) (i + 1) l = 0 := by
          clear hshown
          generalize i + 1 = j
          induction l generalizing j with
          | nil => rfl
          | cons x l ih =>
            simp only [List.any_cons, Bool.or_eq_true, not_or] at h2
            rw [rankedSum, if_neg h2.1, zero_add]
            exact ih h2.2 _
        rw [this, add_zero]
    · have h1 : inClass shown cls t = false := by simpa using h1
      simp only [h1, Bool.false_eq_true, if_false, Bool.false_or, zero_add]

theorem loop_count (discount : Nat → K) (cls : String) : ∀ (l : List K) (i : Nat) {m : List (String × PyNum K)} {a : Int},
    metricAt ("count_" ++ cls) m = .int a →
    (metricsLoop discount shown i l m).lookup ("count_" ++ cls) =
      if l.any (inClass shown cls) then some (.int (a + l.countP (inClass shown cls))) else m.lookup ("count_" ++ cls)
  | [], _, _, _, _ => rfl
  | t :: l, i, m, a, ha => by
    rw [metricsLoop]
    have hs := step_count hshown cls t (discount i * t) ha
    by_cases h1 : inClass shown cls t = true
    · rw [if_pos h1] at hs
      rw [loop_count discount cls l (i + 1) (a := a + 1) (by rw [metricAt, hs, Option.getD_some]), hs]
      simp only [List.any_cons, h1, Bool.true_or, if_true, List.countP_cons, Nat.cast_add, Nat.cast_one]
      split
      · congr 2
        omega
      · next h2 =>
        have : l.countP (inClass shown cls) = 0 := by
          rw [List.countP_eq_zero]
          intro x hx hc
          exact h2 (List.any_eq_true.mpr ⟨x, hx, hc⟩)
        rw [this]
        simp
    · have h1' : inClass shown cls t = false := by simpa using h1
      rw [if_neg h1] at hs
      rw [loop_count discount cls l (i + 1) (a := a) (by rw [metricAt, hs, ← metricAt, ha]), hs]
      simp [List.any_cons, h1']

variable [LinearOrder K]

theorem groups_dcu (discount : Nat → K) (cls : String) : ∀ (gs : List (List (K × K))) (m : List (String × PyNum K)),
    (gs.foldl (fun m g => mergeMetrics (metricsLoop discount shown 0 ((rankGroup g).map Prod.snd) []) m) m).lookup ("dcu_" ++ cls) =
      if gs.any (fun g => g.any (fun x => inClass shown cls x.2)) then
        some (.float ((metricAt ("dcu_" ++ cls) m).value + (gs.map (rankSum discount (inClass shown cls) [])).sum))
      else m.lookup ("dcu_" ++ cls)
  | [], _ => rfl
  | g :: gs, m => by
    rw [List.foldl_cons, groups_dcu discount cls gs]
    have hany : ((rankGroup g).map Prod.snd).any (inClass shown cls) = g.any (fun x => inClass shown cls x.2) := by
      rw [List.any_map]
      exact (List.perm_insertionSort _ g).any_eq
    have hstep : (mergeMetrics (metricsLoop discount shown 0 ((rankGroup g).map Prod.snd) []) m).lookup ("dcu_" ++ cls) =
        if g.any (fun x => inClass shown cls x.2) then
          some (.float ((metricAt ("dcu_" ++ cls) m).value + rankSum discount (inClass shown cls) [] g))
        else m.lookup ("dcu_" ++ cls) := by
      rw [mergeMetrics_lookup _ _ _ (metricsLoop_nodup discount shown _ 0 (by simp)), loop_dcu hshown, hany, rankedSum_rankGroup]
      by_cases hb : g.any (fun x => inClass shown cls x.2) = true
      · rw [if_pos hb, if_pos hb]
        have : (metricAt ("dcu_" ++ cls) ([] : List (String × PyNum K))).value = 0 := by simp [metricAt, PyNum.value]
        simp only [this, zero_add, PyNum.add_float]
      · rw [if_neg hb, if_neg hb]
        rfl
    have hzero : ∀ g : List (K × K), g.any (fun x => inClass shown cls x.2) = false → rankSum discount (inClass shown cls) [] g = 0 := by
      intro g
      have : ∀ (g before : List (K × K)), g.any (fun x => inClass shown cls x.2) = false →
          rankSum discount (inClass shown cls) before g = 0 := by
        intro g
        induction g with
        | nil => intro _ _; rfl
        | cons x g ih =>
          intro before h
          simp only [List.any_cons, Bool.or_eq_false_iff] at h
          rw [rankSum, h.1, ih _ h.2]
          simp
      exact this g []
    simp only [metricAt, hstep, List.any_cons, List.map_cons, List.sum_cons]
    by_cases h1 : g.any (fun x => inClass shown cls x.2) = true
    · simp only [h1, if_true, Option.getD_some, PyNum.value, Bool.true_or, add_assoc]
      split
      · rfl
      · next h2 =>
        have : (gs.map (rankSum discount (inClass shown cls) [])).sum = 0 := by
          apply List.sum_eq_zero
          intro x hx
          obtain ⟨g', hg', rfl⟩ := List.mem_map.mp hx
          refine hzero g' ?_
          by_contra hc
          exact h2 (List.any_eq_true.mpr ⟨g', hg', by simpa using hc⟩)
        rw [this, add_zero]
    · have h1 : g.any (fun x => inClass shown cls x.2) = false := by simpa using h1
      simp only [h1, Bool.false_eq_true, if_false, Bool.false_or, hzero g h1, zero_add]

theorem groups_count (discount : Nat → K) (cls : String) : ∀ (gs : List (List (K × K))) {m : List (String × PyNum K)} {a : Int},
    metricAt ("count_" ++ cls) m = .int a →
    (gs.foldl (fun m g => mergeMetrics (metricsLoop discount shown 0 ((rankGroup g).map Prod.snd) []) m) m).lookup ("count_" ++ cls) =
      if gs.any (fun g => g.any (fun x => inClass shown cls x.2)) then
        some (.int (a + (gs.flatten.countP (fun x => inClass shown cls x.2) : Nat)))
      else m.lookup ("count_" ++ cls)
  | [], _, _, _ => rfl
  | g :: gs, m, a, ha => by
    rw [List.foldl_cons]
    have hany : ((rankGroup g).map Prod.snd).any (inClass shown cls) = g.any (fun x => inClass shown cls x.2) := by
      rw [List.any_map]
      exact (List.perm_insertionSort _ g).any_eq
    have hcnt : ((rankGroup g).map Prod.snd).countP (inClass shown cls) = g.countP (fun x => inClass shown cls x.2) := by
      rw [List.countP_map]
      exact (List.perm_insertionSort _ g).countP_eq _
    have hstep : (mergeMetrics (metricsLoop discount shown 0 ((rankGroup g).map Prod.snd) []) m).lookup ("count_" ++ cls) =
        if g.any (fun x => inClass shown cls x.2) then some (.int (a + (g.countP (fun x => inClass shown cls x.2) : Nat)))
        else m.lookup ("count_" ++ cls) := by
      rw [mergeMetrics_lookup _ _ _ (metricsLoop_nodup discount shown _ 0 (by simp)), loop_count hshown discount cls _ 0 (a := 0) rfl, hany, hcnt]
      by_cases hb : g.any (fun x => inClass shown cls x.2) = true
      · rw [if_pos hb, if_pos hb]
        simp only [ha, PyNum.add, zero_add]
      · rw [if_neg hb, if_neg hb]
        rfl
    rw [List.any_cons, List.flatten_cons, List.countP_append]
    by_cases h1 : g.any (fun x => inClass shown cls x.2) = true
    · rw [if_pos h1] at hstep
      rw [groups_count discount cls gs (by rw [metricAt, hstep, Option.getD_some]), hstep]
      simp only [h1, Bool.true_or, if_true]
      split
      · congr 2
        push_cast
        ring
      · next h2 =>
        have : gs.flatten.countP (fun x => inClass shown cls x.2) = 0 := by
          rw [List.countP_eq_zero]
          intro x hx hc
          obtain ⟨g', hg', hxg⟩ := List.mem_flatten.mp hx
          exact h2 (List.any_eq_true.mpr ⟨g', hg', List.any_eq_true.mpr ⟨x, hxg, hc⟩⟩)
        rw [this, Nat.add_zero]
    · have h1' : g.any (fun x => inClass shown cls x.2) = false := by simpa using h1
      rw [if_neg h1] at hstep
      rw [groups_count discount cls gs (by rw [metricAt, hstep, ← metricAt, ha]), hstep]
      have : g.countP (fun x => inClass shown cls x.2) = 0 := by
        rw [List.countP_eq_zero]
        intro x hx hc
        exact h1 (List.any_eq_true.mpr ⟨x, hx, hc⟩)
      rw [this, h1', Nat.zero_add, Bool.false_or]

end dict

theorem lookup_of_perm {α β : Type} [BEq α] [LawfulBEq α] {l l' : List (α × β)} (h : l.Perm l') (hn : (l.map Prod.fst).Nodup) (k : α) :
    l.lookup k = l'.lookup k := by
  have key : ∀ {l l' : List (α × β)}, l.Perm l' → (l.map Prod.fst).Nodup → ∀ v, l.lookup k = some v → l'.lookup k = some v := by
    intro l l' h hn v hv
    have hmem : (k, v) ∈ l := by
      obtain ⟨l1, l2, rfl, _⟩ := List.lookup_eq_some_iff.mp hv
      simp
    have hmem' := h.mem_iff.mp hmem
    have hn' : (l'.map Prod.fst).Nodup := (h.map Prod.fst).nodup_iff.mp hn
    clear h hn hv hmem
    induction l' with
    | nil => cases hmem'
    | cons p l' ih =>
      obtain ⟨k1, v1⟩ := p
      rw [List.map_cons, List.nodup_cons] at hn'
      rcases List.mem_cons.mp hmem' with e | hm
      · cases e
        simp [List.lookup]
      · have hne : k ≠ k1 := fun e => hn'.1 (by rw [← e]; exact List.mem_map.mpr ⟨(k, v), hm, rfl⟩)
        have : (k == k1) = false := by simpa using hne
        rw [List.lookup, this]
        exact ih hm hn'.2
  cases hl : l.lookup k with
  | some v => exact (key h hn v hl).symm
  | none =>
    cases hl' : l'.lookup k with
    | none => rfl
    | some v =>
      have := key h.symm ((h.map Prod.fst).nodup_iff.mp hn) v hl'
      rw [hl] at this
      cases this

theorem groupMetrics_nodup {K : Type} [Field K] [LinearOrder K] (discount : Nat → K) (shown : K → String) (gs : List (List (K × K))) :
    ((groupMetrics discount shown gs).map Prod.fst).Nodup := by
  unfold groupMetrics
  have : ∀ (gs : List (List (K × K))) (m : List (String × PyNum K)), (m.map Prod.fst).Nodup →
      ((gs.foldl (fun m g => mergeMetrics (metricsLoop discount shown 0 ((rankGroup g).map Prod.snd) []) m) m).map Prod.fst).Nodup := by
    intro gs
    induction gs with
    | nil => intro m h; exact h
    | cons g gs ih => intro m h; exact ih _ (mergeMetrics_nodup _ h)
  exact this gs [] (by simp)

/-- What is printed for a key. -/
theorem printed_lookup {K : Type} [Field K] [LinearOrder K] (discount : Nat → K) (shown : K → String) (gs : List (List (K × K))) (k : String) :
    (((groupMetrics discount shown gs).map (fun kv => (kv.1, kv.2.over gs.length))).insertionSort (fun a b => a.1 ≤ b.1)).lookup k =
      ((groupMetrics discount shown gs).lookup k).map (PyNum.over gs.length) := by
  have hn := groupMetrics_nodup discount shown gs
  generalize groupMetrics discount shown gs = m at hn
  have hp := List.perm_insertionSort (fun a b : String × PyNum K => a.1 ≤ b.1) (m.map (fun kv => (kv.1, kv.2.over gs.length)))
  have hm : (m.map (fun kv => (kv.1, kv.2.over gs.length))).map Prod.fst = m.map Prod.fst := by simp [List.map_map, Function.comp_def]
  rw [← lookup_of_perm hp.symm (by rw [hm]; exact hn)]
  clear hp hm hn
  induction m with
  | nil => rfl
  | cons p m ih =>
    obtain ⟨k1, v1⟩ := p
    simp only [List.map_cons, List.lookup]
    cases k == k1
    · exact ih
    · rfl

end Gbdt

namespace Gbdt

/-! ## Rows by number -/

theorem countP_range (p : Nat → Bool) : ∀ n : Nat, (List.range n).countP p = ((Finset.range n).filter (fun j => p j = true)).card
  | 0 => rfl
  | n + 1 => by
    rw [List.range_succ, List.countP_append, countP_range p n, Finset.range_add_one, Finset.filter_insert]
    by_cases h : p n = true
    · rw [if_pos h, Finset.card_insert_of_notMem (by simp)]
      simp [h]
    · rw [if_neg h]
      simp [h]

section byRow
variable {K : Type} [Field K] [LinearOrder K]

theorem rowsSum_range (discount : Nat → K) (p : K → Bool) (g : Nat → Text) (s t : Nat → K) (n : Nat) : ∀ (m k : Nat), k + m = n →
    rowsSum discount p ((List.range k).map (fun i => (g i, s i, t i))) ((List.range' k m).map (fun i => (g i, s i, t i))) =
      ∑ i ∈ Finset.Ico k n, if p (t i) then
        discount ((Finset.range n).filter (fun j => g j = g i ∧ (s i < s j ∨ (s j = s i ∧ j < i)))).card * t i else 0
  | 0, k, h => by
    have : k = n := by omega
    subst this
    simp [rowsSum]
  | m + 1, k, h => by
    have ih := rowsSum_range discount p g s t n m (k + 1) (by omega)
    have hk : (List.range k).map (fun i => (g i, s i, t i)) ++ [(g k, s k, t k)] = (List.range (k + 1)).map (fun i => (g i, s i, t i)) := by
      rw [List.range_succ, List.map_append]
      rfl
    rw [List.range'_succ, List.map_cons, rowsSum, hk, ih, Finset.sum_eq_sum_Ico_succ_bot (show k < n by omega)]
    congr 1
    have hn : List.range n = List.range k ++ k :: List.range' (k + 1) m := by
      rw [List.range_eq_range', ← h, ← List.range'_append_1, Nat.zero_add, List.range'_succ, ← List.range_eq_range']
    have hcount : ((List.range k).map (fun i => (g i, s i, t i))).countP (fun y => y.1 == g k && decide (s k ≤ y.2.1)) +
        ((List.range' (k + 1) m).map (fun i => (g i, s i, t i))).countP (fun y => y.1 == g k && decide (s k < y.2.1)) =
        ((Finset.range n).filter (fun j => g j = g k ∧ (s k < s j ∨ (s j = s k ∧ j < k)))).card := by
      have := countP_range (fun j => decide (g j = g k ∧ (s k < s j ∨ (s j = s k ∧ j < k)))) n
      simp only [decide_eq_true_eq] at this
      rw [← this, hn, List.countP_append, List.countP_cons_of_neg (by simp), List.countP_map, List.countP_map]
      congr 1
      · refine List.countP_congr (fun j hj => ?_)
        have hj : j < k := by simpa using hj
        simp only [Function.comp, Bool.and_eq_true, beq_iff_eq, decide_eq_true_eq, hj, and_true, le_iff_lt_or_eq]
        constructor
        · rintro ⟨h1, h2 | h2⟩
          · exact ⟨h1, Or.inl h2⟩
          · exact ⟨h1, Or.inr h2.symm⟩
        · rintro ⟨h1, h2 | h2⟩
          · exact ⟨h1, Or.inl h2⟩
          · exact ⟨h1, Or.inr h2.symm⟩
      · refine List.countP_congr (fun j hj => ?_)
        have hj : ¬ j < k := by
          have := (List.mem_range'_1.mp hj).1
          omega
        simp only [Function.comp, Bool.and_eq_true, beq_iff_eq, decide_eq_true_eq, hj, and_false, or_false]
    dsimp only
    rw [hcount]

theorem rowsSum_all (discount : Nat → K) (p : K → Bool) (g : Nat → Text) (s t : Nat → K) (n : Nat) :
    rowsSum discount p [] ((List.range n).map (fun i => (g i, s i, t i))) =
      ∑ i ∈ Finset.range n, if p (t i) then
        discount ((Finset.range n).filter (fun j => g j = g i ∧ (s i < s j ∨ (s j = s i ∧ j < i)))).card * t i else 0 := by
  have := rowsSum_range discount p g s t n n 0 (by omega)
  rw [← List.range_eq_range', Nat.Ico_zero_eq_range] at this
  exact this

/-! ## The best order -/

variable [IsStrictOrderedRing K]

theorem rankedSum_cons_insert {discount : Nat → K} (hd : Antitone discount) (x : K) : ∀ (l : List K) (i : Nat),
    rankedSum discount (fun _ => true) i (x :: l) ≤ rankedSum discount (fun _ => true) i (l.orderedInsert (fun a b => b ≤ a) x)
  | [], _ => le_refl _
  | y :: l, i => by
    rw [List.orderedInsert]
    by_cases hy : y ≤ x
    · rw [if_pos hy]
    · rw [if_neg hy]
      have ih := rankedSum_cons_insert hd x l (i + 1)
      have h1 : discount (i + 1) ≤ discount i := hd (by omega)
      have h2 : x < y := not_le.mp hy
      simp only [rankedSum, if_true] at ih ⊢
      nlinarith [mul_nonneg (sub_nonneg.mpr h1) (sub_nonneg.mpr h2.le)]

theorem rankedSum_le_sorted {discount : Nat → K} (hd : Antitone discount) : ∀ (l : List K) (i : Nat),
    rankedSum discount (fun _ => true) i l ≤ rankedSum discount (fun _ => true) i (l.insertionSort (fun a b => b ≤ a))
  | [], _ => le_refl _
  | x :: l, i => by
    rw [List.insertionSort_cons]
    refine le_trans ?_ (rankedSum_cons_insert hd x _ i)
    simp only [rankedSum, if_true]
    exact add_le_add_right (rankedSum_le_sorted hd l (i + 1)) _

instance down_total : Std.Total (fun a b : K => b ≤ a) := ⟨fun a b => le_total b a⟩
instance down_trans : IsTrans K (fun a b => b ≤ a) := ⟨fun _ _ _ h1 h2 => le_trans h2 h1⟩

theorem rankSum_le_best {discount : Nat → K} (hd : Antitone discount) (g : List (K × K)) :
    rankSum discount (fun _ => true) [] g ≤ rankSum discount (fun _ => true) [] (g.map (fun x => (x.2, x.2))) := by
  rw [← rankedSum_rankGroup, ← rankedSum_rankGroup]
  refine (rankedSum_le_sorted hd _ 0).trans (le_of_eq ?_)
  congr 1
  refine List.Perm.eq_of_pairwise (le := fun a b : K => b ≤ a) ?_ (List.pairwise_insertionSort _ _) ?_ ?_
  · intro a b _ _ h1 h2
    exact le_antisymm h2 h1
  · have h1 : (rankGroup (g.map (fun x => (x.2, x.2)))).Pairwise (fun a b => b.1 ≤ a.1) := List.pairwise_insertionSort _ _
    rw [List.pairwise_map]
    refine h1.imp_of_mem (fun {a b} ha hb h => ?_)
    have hmem : ∀ c ∈ rankGroup (g.map (fun x => (x.2, x.2))), c.1 = c.2 := by
      intro c hc
      have := (List.perm_insertionSort _ _).mem_iff.mp hc
      obtain ⟨d, _, rfl⟩ := List.mem_map.mp this
      rfl
    rw [← hmem a ha, ← hmem b hb]
    exact h
  · refine (List.perm_insertionSort _ _).trans ?_
    refine ((List.perm_insertionSort _ g).map Prod.snd).trans ?_
    have := (List.perm_insertionSort (fun a b : K × K => b.1 ≤ a.1) (g.map (fun x => (x.2, x.2)))).map Prod.snd
    rw [List.map_map] at this
    exact this.symm

end byRow

/-! ## Only the order of the scores -/

theorem orderedInsert_congr {α : Type} {r r' : α → α → Prop} [DecidableRel r] [DecidableRel r'] (x : α) : ∀ (l : List α),
    (∀ y ∈ l, r x y ↔ r' x y) → l.orderedInsert r x = l.orderedInsert r' x
  | [], _ => rfl
  | y :: l, h => by
    rw [List.orderedInsert, List.orderedInsert, orderedInsert_congr x l (fun z hz => h z (by simp [hz]))]
    have := h y (by simp)
    by_cases hr : r x y
    · rw [if_pos hr, if_pos (this.mp hr)]
    · rw [if_neg hr, if_neg (fun e => hr (this.mpr e))]

theorem insertionSort_congr {α : Type} {r r' : α → α → Prop} [DecidableRel r] [DecidableRel r'] : ∀ (l : List α),
    (∀ x ∈ l, ∀ y ∈ l, r x y ↔ r' x y) → l.insertionSort r = l.insertionSort r'
  | [], _ => rfl
  | x :: l, h => by
    rw [List.insertionSort_cons, List.insertionSort_cons,
      insertionSort_congr l (fun a ha b hb => h a (by simp [ha]) b (by simp [hb]))]
    refine orderedInsert_congr x _ (fun y hy => ?_)
    exact h x (by simp) y (by simp [(List.perm_insertionSort r' l).mem_iff.mp hy])

theorem runsFrom_same (g : Nat → Text) : ∀ (l : List Nat) (prev : Option Text) (cur : List Nat),
    (∀ i ∈ cur, prev = some (g i)) → (prev = none → cur = []) →
    ∀ run ∈ runsFrom prev cur (l.map (fun i => (g i, i))), ∀ i ∈ run, (∀ j ∈ run, g i = g j) ∧ (i ∈ cur ∨ i ∈ l)
  | [], prev, cur, h, _, run, hr, i, hi => by
    simp only [List.map_nil, runsFrom] at hr
    split at hr
    · cases hr
    · rw [List.mem_singleton] at hr
      subst hr
      refine ⟨fun j hj => ?_, Or.inl hi⟩
      have h1 := h i hi
      have h2 := h j hj
      rw [h1] at h2
      exact Option.some.inj h2
  | a :: l, prev, cur, h, hp, run, hr, i, hi => by
    simp only [List.map_cons, runsFrom] at hr
    split at hr
    · rcases List.mem_cons.mp hr with rfl | hr
      · refine ⟨fun j hj => ?_, Or.inl hi⟩
        have h1 := h i hi
        have h2 := h j hj
        rw [h1] at h2
        exact Option.some.inj h2
      · obtain ⟨h1, h2⟩ := runsFrom_same g l _ _ (by simp) (by simp) run hr i hi
        refine ⟨h1, Or.inr ?_⟩
        rcases h2 with h2 | h2
        · rw [List.mem_singleton] at h2
          simp [h2]
        · simp [h2]
    · next hc =>
      obtain ⟨h1, h2⟩ := runsFrom_same g l _ _ (by
        intro j hj
        rcases List.mem_append.mp hj with hj | hj
        · have hpj := h j hj
          rw [hpj] at hc
          simp only [Option.isSome_some, Bool.true_and, bne_iff_ne, ne_eq, Option.some.injEq, Decidable.not_not] at hc
          rw [hc]
        · rw [List.mem_singleton] at hj
          rw [hj]) (by simp) run hr i hi
      refine ⟨h1, ?_⟩
      rcases h2 with h2 | h2
      · rcases List.mem_append.mp h2 with h2 | h2
        · exact Or.inl h2
        · rw [List.mem_singleton] at h2
          exact Or.inr (by simp [h2])
      · exact Or.inr (by simp [h2])

/-- The targets in the order of the scores. -/
theorem rankGroup_targets {K : Type} [LinearOrder K] (s t : Nat → K) (run : List Nat) :
    (rankGroup (run.map (fun i => (s i, t i)))).map Prod.snd = (run.insertionSort (fun i j => s j ≤ s i)).map t := by
  have : rankGroup (run.map (fun i => (s i, t i))) = (run.insertionSort (fun i j => s j ≤ s i)).map (fun i => (s i, t i)) := by
    unfold rankGroup
    symm
    apply List.map_insertionSort
    intro a _ b _
    exact Iff.rfl
  rw [this, List.map_map]
  rfl

end Gbdt
