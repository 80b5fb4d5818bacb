import Verif.Model.PairTasks
import Verif.Lemmas.Havoc
import Verif.Props.Pairwise

/-!
# The tasks of a pairwise loss: helper lemmas
-/

set_option autoImplicit false
set_option linter.unusedSectionVars false

namespace Gbdt

open Outcome

section
variable {D G : Type} [Dbl D]

/-! ## Run alone, they do what the sequential model does -/

theorem addToRow_run (x : G) (groups : List Group) (grads : List (GD D)) (row : Nat) (plus : Bool) (dg dh : D) :
    (addToRowProg grads.length row plus dg dh).run (pairMem x groups grads) =
      addToRow grads row plus dg dh >>= fun g => ok ((), pairMem x groups g) := by
  unfold addToRowProg addToRow
  by_cases h : row < grads.length
  · rw [if_pos h, vecGet_eq_ok.mpr (List.getElem?_eq_getElem h)]
    simp only [Prog.run, ok_bind, pure_eq, Outcome.ok.injEq, Prod.mk.injEq, true_and]
    have hr : (pairMem x groups grads (.grad row) : GD D) = grads[row] := by
      show grads.getD row GD.zero = _
      simp [List.getD_eq_getElem?_getD, h]
    rw [hr]
    funext l
    cases l with
    | gen => rw [Function.update_of_ne (by simp)]; rfl
    | group k => rw [Function.update_of_ne (by simp)]; rfl
    | grad i =>
      by_cases e : i = row
      · subst e
        rw [Function.update_self]
        show _ = (grads.set i _).getD i GD.zero
        simp [List.getD_eq_getElem?_getD, h]
      · rw [Function.update_of_ne (by simpa using e)]
        show grads.getD i GD.zero = (grads.set row _).getD i GD.zero
        simp [List.getD_eq_getElem?_getD, List.getElem?_set_ne (fun h => e h.symm)]
  · rw [if_neg h]
    have : vecGet grads row = .ub := by
      unfold vecGet
      rw [List.getElem?_eq_none (by omega)]
    rw [this]
    rfl

theorem addToRow_length {grads g : List (GD D)} {row : Nat} {plus : Bool} {dg dh : D}
    (h : addToRow grads row plus dg dh = ok g) : g.length = grads.length := by
  simp only [addToRow, bind_eq_ok, pure_eq, Outcome.ok.injEq] at h
  obtain ⟨_, _, rfl⟩ := h
  simp

theorem bind_assoc' {α β γ : Type} (x : Outcome α) (f : α → Outcome β) (g : β → Outcome γ) :
    (x >>= f) >>= g = x >>= fun a => f a >>= g := by
  cases x <;> rfl

theorem pairStep_terms (e : PairLoss D) (f : List D) (g : Group) (factor : D) (index : Nat) (grads : List (GD D)) :
    pairStep e f g factor index grads = pairTerms e f g factor index >>= fun x =>
      addToRow grads x.1 true x.2.2.1 x.2.2.2 >>= fun grads1 => addToRow grads1 x.2.1 false x.2.2.1 x.2.2.2 := by
  unfold pairStep pairTerms
  simp only [bind_assoc', pure_eq, ok_bind]

theorem pairStep_run (e : PairLoss D) (f : List D) (g : Group) (factor : D) (index : Nat) (x : G) (groups : List Group)
    (grads : List (GD D)) : (pairStepProg e f g factor grads.length index).run (pairMem x groups grads) =
      pairStep e f g factor index grads >>= fun gr => ok ((), pairMem x groups gr) := by
  rw [pairStep_terms, pairStepProg]
  cases pairTerms e f g factor index with
  | ub => rfl
  | fatal => rfl
  | ok t =>
    rw [Prog.bind, run_bind, addToRow_run, ok_bind]
    cases ha : addToRow grads t.1 true t.2.2.1 t.2.2.2 with
    | ub => rfl
    | fatal => rfl
    | ok gr =>
      simp only [ok_bind]
      rw [← addToRow_length ha, addToRow_run]

theorem pairStep_length {e : PairLoss D} {f : List D} {g : Group} {factor : D} {index : Nat} {grads gr : List (GD D)}
    (h : pairStep e f g factor index grads = ok gr) : gr.length = grads.length := by
  rw [pairStep_terms] at h
  simp only [bind_eq_ok] at h
  obtain ⟨_, _, _, h1, h2⟩ := h
  rw [addToRow_length h2, addToRow_length h1]

theorem pairLoop_run (e : PairLoss D) (f : List D) (g : Group) (factor : D) (draw : Nat → Nat) (x : G)
    (groups : List Group) : ∀ (left i : Nat) (grads : List (GD D)),
    (pairLoopProg e f g factor grads.length (fun i => .out (.ok (draw i))) left i).run (pairMem x groups grads) =
      pairLoop e f g factor draw left i grads >>= fun gr => ok ((), pairMem x groups gr)
  | 0, i, grads => rfl
  | left + 1, i, grads => by
    rw [pairLoopProg, Prog.bind, run_bind, pairStep_run, pairLoop]
    cases hs : pairStep e f g factor (draw i) grads with
    | ub => rfl
    | fatal => rfl
    | ok gr =>
      simp only [ok_bind]
      rw [← pairStep_length hs, pairLoop_run e f g factor draw x groups left (i + 1) gr]

theorem pairLoop_length {e : PairLoss D} {f : List D} {g : Group} {factor : D} {draw : Nat → Nat} :
    ∀ {left i : Nat} {grads gr : List (GD D)}, pairLoop e f g factor draw left i grads = ok gr → gr.length = grads.length
  | 0, i, grads, gr, h => by
    rw [pairLoop, Outcome.ok.injEq] at h
    rw [h]
  | left + 1, i, grads, gr, h => by
    rw [pairLoop, bind_eq_ok] at h
    obtain ⟨g1, h1, h2⟩ := h
    rw [pairLoop_length h2, pairStep_length h1]

theorem pairMem_group (x : G) (groups : List Group) (grads : List (GD D)) {index : Nat} (h : index < groups.length)
    (g1 : Group) : Function.update (pairMem x groups grads) (.group index) g1 = pairMem x (groups.set index g1) grads := by
  funext l
  cases l with
  | gen => rw [Function.update_of_ne (by simp)]; rfl
  | grad i => rw [Function.update_of_ne (by simp)]; rfl
  | group k =>
    by_cases e : k = index
    · subst e
      rw [Function.update_self]
      show _ = (groups.set k g1).getD k _
      simp [List.getD_eq_getElem?_getD, h]
    · rw [Function.update_of_ne (by simpa using e)]
      show groups.getD k _ = (groups.set index g1).getD k _
      simp [List.getD_eq_getElem?_getD, List.getElem?_set_ne (fun h => e h.symm)]

/-- The draws of the sequential model as programs. -/
def fixedDraw (draw : Nat → Nat → Nat → Nat) (k i n : Nat) : Prog PairCell (PairVal D G) Nat := .out (.ok (draw k i n))

theorem pairGroup_form (e : PairLoss D) (s : PairState D) (f : List D) (index : Nat) (grads : List (GD D)) :
    pairGroup e s f index grads = vecGet s.groups index >>= fun g =>
      (if e.rerank then Gbdt.rerank e.sort f g else pure g) >>= fun g1 =>
        samplePairs e s.prob g1 >>= fun count =>
          pairLoop e f g1 (groupFactor e s.minNumPairs g1) (fun i => e.draw s.round index i g1.numPairs) count 0 grads
            >>= fun grads1 => ok (g1, grads1) := by
  unfold pairGroup
  congr 1
  funext g
  by_cases h : e.rerank = true
  · simp only [if_pos h, pure_eq]
  · simp only [if_neg h, pure_eq]

theorem pairGroup_run (e : PairLoss D) (s : PairState D) (f : List D) (index : Nat) (x : G) (grads : List (GD D)) :
    (pairGroupProg e s.prob s.minNumPairs f s.groups.length grads.length (fixedDraw (e.draw s.round)) index).run
        (pairMem x s.groups grads) =
      pairGroup e s f index grads >>= fun r => ok ((), pairMem x (s.groups.set index r.1) r.2) := by
  rw [pairGroup_form]
  unfold pairGroupProg
  by_cases h : index < s.groups.length
  · rw [if_pos h, vecGet_eq_ok.mpr (List.getElem?_eq_getElem h), ok_bind, Prog.run]
    have hr : (pairMem x s.groups grads (.group index) : Group) = s.groups[index] := by
      show s.groups.getD index _ = _
      simp [List.getD_eq_getElem?_getD, h]
    rw [hr]
    -- ranking anew
    have hrank : (rerankProg e f index s.groups[index]).run (pairMem x s.groups grads) =
        (if e.rerank then Gbdt.rerank e.sort f s.groups[index] else pure s.groups[index]) >>= fun g1 =>
          ok (g1, pairMem x (s.groups.set index g1) grads) := by
      unfold rerankProg
      split
      · cases Gbdt.rerank e.sort f s.groups[index] with
        | ub => rfl
        | fatal => rfl
        | ok g1 => rw [Prog.bind, Prog.run, Prog.run, ok_bind, pairMem_group x s.groups grads h]
      · rw [Prog.run, pure_eq, ok_bind, List.set_getElem_self]
    rw [run_bind, hrank, bind_assoc', bind_assoc']
    congr 1
    funext g1
    simp only [ok_bind]
    rw [bind_assoc']
    cases samplePairs e s.prob g1 with
    | ub => rfl
    | fatal => rfl
    | ok count =>
      rw [Prog.bind, ok_bind]
      unfold fixedDraw
      rw [pairLoop_run, bind_assoc']
      rfl
  · rw [if_neg h]
    have : vecGet s.groups index = .ub := by
      unfold vecGet
      rw [List.getElem?_eq_none (by omega)]
    rw [this]
    rfl

theorem pairGroup_length {e : PairLoss D} {s : PairState D} {f : List D} {index : Nat} {grads : List (GD D)}
    {r : Group × List (GD D)} (h : pairGroup e s f index grads = ok r) : r.2.length = grads.length := by
  rw [pairGroup_form] at h
  simp only [bind_eq_ok, Outcome.ok.injEq] at h
  obtain ⟨_, _, _, _, _, _, _, h1, rfl⟩ := h
  exact pairLoop_length h1

theorem pairGroups_run (e : PairLoss D) (f : List D) (x : G) : ∀ (order : List Nat) (s : PairState D)
    (grads : List (GD D)),
    (pairGroupsProg e s.prob s.minNumPairs f s.groups.length grads.length (fixedDraw (e.draw s.round)) order).run
        (pairMem x s.groups grads) =
      pairGroups e f order s grads >>= fun r => ok ((), pairMem x r.1.groups r.2)
  | [], s, grads => rfl
  | index :: rest, s, grads => by
    rw [pairGroupsProg, run_bind, pairGroup_run, pairGroups, bind_assoc', bind_assoc']
    cases hg : pairGroup e s f index grads with
    | ub => rfl
    | fatal => rfl
    | ok r =>
      simp only [ok_bind]
      have := pairGroups_run e f x rest { s with groups := s.groups.set index r.1 } r.2
      rw [← this]
      simp only [List.length_set, pairGroup_length hg]

theorem pairGroupsProg_append (e : PairLoss D) (prob : D) (mn : Nat) (f : List D) (ng n : Nat)
    (draw : Nat → Nat → Nat → Prog PairCell (PairVal D G) Nat) : ∀ (l1 l2 : List Nat) (m : ∀ l, PairVal D G l),
    (pairGroupsProg e prob mn f ng n draw (l1 ++ l2)).run m =
      (pairGroupsProg e prob mn f ng n draw l1).run m >>= fun r => (pairGroupsProg e prob mn f ng n draw l2).run r.2
  | [], l2, m => rfl
  | a :: l1, l2, m => by
    rw [List.cons_append, pairGroupsProg, pairGroupsProg, run_bind, run_bind, bind_assoc']
    congr 1
    funext r
    exact pairGroupsProg_append e prob mn f ng n draw l1 l2 r.2

theorem pairGroups_runAll (e : PairLoss D) (prob : D) (mn : Nat) (f : List D) (ng n : Nat)
    (draw : Nat → Nat → Nat → Prog PairCell (PairVal D G) Nat) : ∀ (ls : List (List Nat)) (m : ∀ l, PairVal D G l),
    runAll (ls.map (pairGroupsProg e prob mn f ng n draw)) m =
      (pairGroupsProg e prob mn f ng n draw ls.flatten).run m >>= fun r => ok r.2
  | [], m => rfl
  | l :: ls, m => by
    rw [List.map_cons, runAll, List.flatten_cons, pairGroupsProg_append, bind_assoc']
    congr 1
    funext r
    exact pairGroups_runAll e prob mn f ng n draw ls r.2

/-! ## What they access -/

/-- The cells of a task that works on the groups in `idx`. -/
def PairFoot (groups : List Group) (idx : List Nat) : PairCell → Prop
  | .gen => False
  | .grad i => ∃ k ∈ idx, ∃ g, groups[k]? = some g ∧ i ∈ g.rows
  | .group k => k ∈ idx

/-- What the cells may hold: a group keeps its rows and pairs. -/
def PairOk (groups : List Group) : ∀ l, PairVal D G l → Prop
  | .gen => fun _ => True
  | .grad _ => fun _ => True
  | .group k => fun (v : Group) => ∀ g, groups[k]? = some g → v.rows = g.rows ∧ v.numPairs = g.numPairs

theorem pairTerms_rows {e : PairLoss D} {f : List D} {g : Group} {factor : D} {index : Nat} {x : Nat × Nat × D × D}
    (h : pairTerms e f g factor index = ok x) : x.1 ∈ g.rows ∧ x.2.1 ∈ g.rows := by
  unfold pairTerms at h
  simp only [bind_eq_ok, pure_eq, Outcome.ok.injEq] at h
  obtain ⟨_, _, pos, h1, neg, h2, _, _, _, _, _, _, rfl⟩ := h
  rw [vecGet_eq_ok] at h1 h2
  exact ⟨List.mem_of_getElem? h1, List.mem_of_getElem? h2⟩

theorem rerank_keeps {e : PairLoss D} {f : List D} {g g1 : Group} (h : Gbdt.rerank e.sort f g = ok g1) :
    g1.rows = g.rows ∧ g1.numPairs = g.numPairs := by
  unfold Gbdt.rerank at h
  simp only [bind_eq_ok, pure_eq, Outcome.ok.injEq] at h
  obtain ⟨_, _, _, _, _, _, rfl⟩ := h
  exact ⟨rfl, rfl⟩

theorem addToRow_within {R : PairCell → Prop} {I : ∀ l, PairVal D G l → Prop} (hI : ∀ i v, I (.grad i) v) {n row : Nat}
    (hrow : R (.grad row)) (plus : Bool) (dg dh : D) :
    Within R R I (fun _ => True) (addToRowProg n row plus dg dh) := by
  unfold addToRowProg
  split
  · exact ⟨hrow, fun _ _ => ⟨hrow, hI _ _, trivial⟩⟩
  · trivial

theorem pairStep_within {R : PairCell → Prop} {I : ∀ l, PairVal D G l → Prop} (hI : ∀ i v, I (.grad i) v)
    (e : PairLoss D) (f : List D) {g : Group} (hrows : ∀ i ∈ g.rows, R (.grad i)) (factor : D) (n index : Nat) :
    Within R R I (fun _ => True) (pairStepProg e f g factor n index) := by
  unfold pairStepProg
  refine Within.bind (Q := fun x : Nat × Nat × D × D => x.1 ∈ g.rows ∧ x.2.1 ∈ g.rows) ?_ ?_
  · cases h : pairTerms e f g factor index with
    | ub => trivial
    | fatal => trivial
    | ok x => exact pairTerms_rows h
  · intro x hx
    exact (addToRow_within hI (hrows _ hx.1) _ _ _).bind (fun _ _ => addToRow_within hI (hrows _ hx.2) _ _ _)

theorem pairLoop_within {R : PairCell → Prop} {I : ∀ l, PairVal D G l → Prop} (hI : ∀ i v, I (.grad i) v)
    (e : PairLoss D) (f : List D) {g : Group} (hrows : ∀ i ∈ g.rows, R (.grad i)) (factor : D) (n : Nat)
    {draw : Nat → Prog PairCell (PairVal D G) Nat} (hdraw : ∀ i, Within R R I (fun _ => True) (draw i)) :
    ∀ (left i : Nat), Within R R I (fun _ => True) (pairLoopProg e f g factor n draw left i)
  | 0, _ => trivial
  | left + 1, i => (hdraw i).bind (fun index _ => (pairStep_within hI e f hrows factor n index).bind
      (fun _ _ => pairLoop_within hI e f hrows factor n hdraw left (i + 1)))

theorem rerank_within {R : PairCell → Prop} {groups : List Group} {index : Nat} {g : Group}
    (hR : R (.group index)) (hg : ∀ g', groups[index]? = some g' → g.rows = g'.rows ∧ g.numPairs = g'.numPairs)
    (e : PairLoss D) (f : List D) :
    Within R R (PairOk (D := D) (G := G) groups) (fun g1 => g1.rows = g.rows ∧ g1.numPairs = g.numPairs)
      (rerankProg e f index g) := by
  unfold rerankProg
  split
  · cases h : Gbdt.rerank e.sort f g with
    | ub => trivial
    | fatal => trivial
    | ok g1 =>
      obtain ⟨k1, k2⟩ := rerank_keeps h
      refine ⟨hR, ?_, k1, k2⟩
      intro g' hg'
      obtain ⟨j1, j2⟩ := hg g' hg'
      exact ⟨k1.trans j1, k2.trans j2⟩
  · exact ⟨rfl, rfl⟩

theorem pairGroup_within {R : PairCell → Prop} {groups : List Group} {index : Nat} (hR : R (.group index))
    (hrows : ∀ g, groups[index]? = some g → ∀ i ∈ g.rows, R (.grad i))
    {draw : Nat → Nat → Nat → Prog PairCell (PairVal D G) Nat}
    (hdraw : ∀ k i n, Within R R (PairOk groups) (fun _ => True) (draw k i n)) (e : PairLoss D) (prob : D) (mn : Nat)
    (f : List D) (n : Nat) : Within R R (PairOk groups) (fun _ => True)
      (pairGroupProg e prob mn f groups.length n draw index) := by
  unfold pairGroupProg
  split
  · next hlt =>
    refine ⟨hR, fun g hg => ?_⟩
    have hg : ∀ g', groups[index]? = some g' → g.rows = g'.rows ∧ g.numPairs = g'.numPairs := hg
    refine (rerank_within hR hg e f).bind (fun g1 hg1 => ?_)
    cases samplePairs e prob g1 with
    | ub => trivial
    | fatal => trivial
    | ok count =>
      refine pairLoop_within (fun _ _ => trivial) e f ?_ _ n (fun i => hdraw _ _ _) count 0
      intro i hi
      have hget := List.getElem?_eq_getElem hlt
      rw [hg1.1, (hg _ hget).1] at hi
      exact hrows _ hget i hi
  · trivial

theorem pairGroups_within {groups : List Group} {R : PairCell → Prop}
    {draw : Nat → Nat → Nat → Prog PairCell (PairVal D G) Nat}
    (hdraw : ∀ k i n, Within R R (PairOk groups) (fun _ => True) (draw k i n)) (e : PairLoss D) (prob : D) (mn : Nat)
    (f : List D) (n : Nat) : ∀ (idx : List Nat), (∀ l, PairFoot groups idx l → R l) →
    Within R R (PairOk groups) (fun _ => True) (pairGroupsProg e prob mn f groups.length n draw idx)
  | [], _ => trivial
  | index :: rest, hR => by
    refine (pairGroup_within (hR (.group index) (List.mem_cons_self ..)) ?_ hdraw e prob mn f n).bind (fun _ _ => ?_)
    · intro g hg i hi
      exact hR (.grad i) ⟨index, List.mem_cons_self .., g, hg, hi⟩
    · refine pairGroups_within hdraw e prob mn f n rest (fun l hl => hR l ?_)
      cases l with
      | gen => exact hl
      | grad i =>
        obtain ⟨k, hk, g, h1, h2⟩ := hl
        exact ⟨k, List.mem_cons_of_mem _ hk, g, h1, h2⟩
      | group k => exact List.mem_cons_of_mem (a := k) _ hl

/-- Different groups have different rows. -/
theorem pairFoot_apart {groups : List Group} (hnd : (groups.flatMap (·.rows)).Nodup) {idx idx' : List Nat}
    (hd : ∀ k ∈ idx, k ∉ idx') {l : PairCell} (h : PairFoot groups idx l) : ¬ PairFoot groups idx' l := by
  cases l with
  | gen => exact absurd h id
  | group k => exact hd k h
  | grad i =>
    rintro ⟨k', hk', g', hg', hi'⟩
    obtain ⟨k, hk, g, hg, hi⟩ := h
    have hkk : k ≠ k' := fun e => hd k hk (e ▸ hk')
    rw [List.nodup_flatMap] at hnd
    have hpw := hnd.2
    rw [List.pairwise_iff_getElem] at hpw
    obtain ⟨h1, rfl⟩ := List.getElem?_eq_some_iff.mp hg
    obtain ⟨h2, rfl⟩ := List.getElem?_eq_some_iff.mp hg'
    rcases Nat.lt_or_gt_of_ne hkk with hlt | hlt
    · exact hpw k k' h1 h2 hlt hi hi'
    · exact hpw k' k h2 h1 hlt hi' hi

/-! ## The draws of a schedule -/

/-- The cells that the tasks share. -/
def IsGen : PairCell → Prop := (· = .gen)

theorem pairLoopProg_congr (e : PairLoss D) (f : List D) (g : Group) (factor : D) (n : Nat)
    {draw draw' : Nat → Prog PairCell (PairVal D G) Nat} : ∀ (left i : Nat), (∀ k, i ≤ k → draw k = draw' k) →
    pairLoopProg e f g factor n draw left i = pairLoopProg e f g factor n draw' left i
  | 0, _, _ => rfl
  | left + 1, i, h => by
    rw [pairLoopProg, pairLoopProg, h i (le_refl _)]
    simp only [pairLoopProg_congr e f g factor n left (i + 1) (fun k hk => h k (by omega))]

theorem pairGroupsProg_congr (e : PairLoss D) (prob : D) (mn : Nat) (f : List D) (ng n : Nat)
    {draw draw' : Nat → Nat → Nat → Prog PairCell (PairVal D G) Nat} : ∀ (idx : List Nat),
    (∀ k ∈ idx, draw k = draw' k) →
    pairGroupsProg e prob mn f ng n draw idx = pairGroupsProg e prob mn f ng n draw' idx
  | [], _ => rfl
  | k :: idx, h => by
    rw [pairGroupsProg, pairGroupsProg, pairGroupsProg_congr e prob mn f ng n idx (fun j hj => h j (by simp [hj]))]
    simp only [pairGroupProg, h k (by simp)]

theorem drawProg_within {A : PairCell → Prop} {I : ∀ l, PairVal D G l → Prop} (hI : ∀ v, I .gen v)
    (sample : Nat → G → Nat × G) (n : Nat) :
    Within (fun l => A l ∨ IsGen l) (fun l => A l ∨ IsGen l) I (fun _ => True) (drawProg (D := D) sample n) :=
  ⟨Or.inr rfl, fun _ _ => ⟨Or.inr rfl, hI _, trivial⟩⟩

theorem pairLoop_outs {A : PairCell → Prop} (hA : ¬ A .gen) {I : ∀ l, PairVal D G l → Prop} (hI : ∀ i v, I (.grad i) v)
    (hIg : ∀ v, I .gen v) (sample : Nat → G → Nat × G) (n0 : Nat) (e : PairLoss D) (f : List D) {g : Group}
    (hrows : ∀ i ∈ g.rows, A (.grad i)) (factor : D) (n : Nat) : ∀ (left i : Nat) (m : ∀ l, PairVal D G l)
    (o : Outcome (Unit × (∀ l, PairVal D G l))), (∀ l, A l → I l (m l)) →
    Outs IsGen A I (pairLoopProg e f g factor n (fun _ => drawProg sample n0) left i) m o →
    ∃ d : Nat → Nat, (∀ i, ∃ s, d i = (sample n0 s).1) ∧
      Outs IsGen A I (pairLoopProg e f g factor n (fun i => .out (.ok (d i))) left i) m o
  | 0, i, m, o, _, h => ⟨fun _ => (sample n0 (m .gen)).1, fun _ => ⟨_, rfl⟩, h⟩
  | left + 1, i, m, o, hm, h => by
    have hstep : ∀ index, Within (fun l => A l ∨ IsGen l) (fun l => A l ∨ IsGen l) I (fun _ => True)
        (pairStepProg e f g factor n index) := fun index =>
      pairStep_within hI e f (fun i hi => Or.inl (hrows i hi)) factor n index
    have hloop : ∀ (draw : Nat → Prog PairCell (PairVal D G) Nat) left i,
        (∀ i, Within (fun l => A l ∨ IsGen l) (fun l => A l ∨ IsGen l) I (fun _ => True) (draw i)) →
        Within (fun l => A l ∨ IsGen l) (fun l => A l ∨ IsGen l) I (fun _ => True)
          (pairLoopProg e f g factor n draw left i) := fun draw left i hd =>
      pairLoop_within hI e f (fun i hi => Or.inl (hrows i hi)) factor n hd left i
    rw [pairLoopProg] at h
    rcases h with ⟨_, s, _, h⟩ | ⟨hn, _⟩
    · have h : Outs IsGen A I ((pairStepProg e f g factor n (sample n0 s).1).bind fun _ =>
          pairLoopProg e f g factor n (fun _ => drawProg sample n0) left (i + 1))
          (Function.update m .gen (sample n0 s).2) o := h
      have h := Outs.congr (m' := m) ((hstep _).bind (fun _ _ => hloop _ left (i + 1)
        (fun _ => drawProg_within hIg sample n0))) (fun l hl => by
          have hne : l ≠ .gen := fun e => hA (e ▸ hl)
          rw [Function.update_of_ne hne]; exact hm l hl) (fun l hl => by
          have hne : l ≠ .gen := fun e => hA (e ▸ hl)
          rw [Function.update_of_ne hne]) h
      rcases Outs.bind (hstep _) hm h with ⟨a, m1, _, hm1, h1, h2⟩ | ⟨h1, rfl⟩ | ⟨h1, rfl⟩
      · obtain ⟨d, hd, h3⟩ := pairLoop_outs hA hI hIg sample n0 e f hrows factor n left (i + 1) m1 o hm1 h2
        refine ⟨fun k => if k = i then (sample n0 s).1 else d k, ?_, ?_⟩
        · intro k
          simp only
          split
          · exact ⟨s, rfl⟩
          · exact hd k
        · rw [pairLoopProg]
          simp only [if_true, Prog.bind]
          refine Outs.bind_intro h1 (Q := fun _ => True) (hloop _ left (i + 1) (fun _ => trivial)) hm1 ?_
          rw [pairLoopProg_congr (draw' := fun i => .out (.ok (d i))) e f g factor n left (i + 1)]
          · exact h3
          · intro k hk
            rw [if_neg (by omega)]
      · refine ⟨fun _ => (sample n0 s).1, fun _ => ⟨s, rfl⟩, ?_⟩
        exact (Outs.bind_crash (f := fun _ => pairLoopProg e f g factor n (fun _ => .out (.ok (sample n0 s).1)) left
          (i + 1))).1 h1
      · refine ⟨fun _ => (sample n0 s).1, fun _ => ⟨s, rfl⟩, ?_⟩
        exact (Outs.bind_crash (f := fun _ => pairLoopProg e f g factor n (fun _ => .out (.ok (sample n0 s).1)) left
          (i + 1))).2 h1
    · exact absurd rfl hn

theorem fixedDraw_within {R W : PairCell → Prop} {I : ∀ l, PairVal D G l → Prop} (d : Nat → Nat → Nat → Nat) (k i n : Nat) :
    Within R W I (fun _ => True) (fixedDraw (D := D) (G := G) d k i n) := trivial

theorem pairGroup_outs {groups : List Group} {A : PairCell → Prop} (hA : ¬ A .gen) {index : Nat} (hAg : A (.group index))
    (hrows : ∀ g, groups[index]? = some g → ∀ i ∈ g.rows, A (.grad i)) (sample : Nat → G → Nat × G)
    (e : PairLoss D) (prob : D) (mn : Nat) (f : List D) (n : Nat) (m : ∀ l, PairVal D G l)
    (o : Outcome (Unit × (∀ l, PairVal D G l))) (hm : ∀ l, A l → PairOk groups l (m l))
    (h : Outs IsGen A (PairOk groups)
      (pairGroupProg e prob mn f groups.length n (fun _ _ n => drawProg sample n) index) m o) :
    ∃ d : Nat → Nat → Nat, (∀ i N, ∃ s, d i N = (sample N s).1) ∧
      Outs IsGen A (PairOk groups)
        (pairGroupProg e prob mn f groups.length n (fixedDraw (fun _ => d)) index) m o := by
  have hany : ∀ i N, ∃ s : G, (fun (_ N : Nat) => (sample N (m .gen)).1) i N = (sample N s).1 := fun i N => ⟨_, rfl⟩
  unfold pairGroupProg at h ⊢
  by_cases hlt : index < groups.length
  · rw [if_pos hlt] at h
    simp only [if_pos hlt]
    have hget := List.getElem?_eq_getElem hlt
    have hgm : ∀ g', groups[index]? = some g' → (m (.group index) : Group).rows = g'.rows ∧
        (m (.group index) : Group).numPairs = g'.numPairs := hm _ hAg
    rcases h with ⟨hn, _⟩ | ⟨hn, h⟩
    · cases hn
    · rcases Outs.bind (rerank_within (Or.inl hAg) hgm e f) hm h with ⟨g1, m1, hg1, hm1, h1, h2⟩ | ⟨h1, rfl⟩ | ⟨h1, rfl⟩
      · have hr1 : ∀ i ∈ g1.rows, A (.grad i) := by
          intro i hi
          rw [hg1.1, (hgm _ hget).1] at hi
          exact hrows _ hget i hi
        cases hc : samplePairs e prob g1 with
        | ub =>
          rw [hc] at h2
          refine ⟨_, hany, Or.inr ⟨hn, ?_⟩⟩
          refine Outs.bind_intro h1 (Q := fun _ => True) ?_ hm1 ?_
          · rw [hc]; trivial
          · rw [hc]; exact h2
        | fatal =>
          rw [hc] at h2
          refine ⟨_, hany, Or.inr ⟨hn, ?_⟩⟩
          refine Outs.bind_intro h1 (Q := fun _ => True) ?_ hm1 ?_
          · rw [hc]; trivial
          · rw [hc]; exact h2
        | ok count =>
          rw [hc] at h2
          obtain ⟨d, hd, h3⟩ := pairLoop_outs hA (fun _ _ => trivial) (fun _ => trivial) sample g1.numPairs e f hr1
            (groupFactor e mn g1) n count 0 m1 o hm1 h2
          refine ⟨fun i N => if N = g1.numPairs then d i else (sample N (m .gen)).1, ?_, Or.inr ⟨hn, ?_⟩⟩
          · intro i N
            by_cases e : N = g1.numPairs
            · simp only [e]
              exact hd i
            · simp only [if_neg e]
              exact ⟨_, rfl⟩
          · refine Outs.bind_intro h1 (Q := fun _ => True) ?_ hm1 ?_
            · rw [hc]
              exact pairLoop_within (fun _ _ => trivial) e f (fun i hi => Or.inl (hr1 i hi)) _ n
                (fun i => fixedDraw_within _ _ _ _) count 0
            · rw [hc]
              simp only [Prog.bind, fixedDraw, if_true]
              exact h3
      · exact ⟨_, hany, Or.inr ⟨hn, Outs.bind_crash.1 h1⟩⟩
      · exact ⟨_, hany, Or.inr ⟨hn, Outs.bind_crash.2 h1⟩⟩
  · rw [if_neg hlt] at h
    exact ⟨_, hany, by rw [if_neg hlt]; exact h⟩

theorem pairGroups_outs {groups : List Group} {A : PairCell → Prop} (hA : ¬ A .gen) (sample : Nat → G → Nat × G)
    (e : PairLoss D) (prob : D) (mn : Nat) (f : List D) (n : Nat) : ∀ (idx : List Nat) (m : ∀ l, PairVal D G l)
    (o : Outcome (Unit × (∀ l, PairVal D G l))), idx.Nodup → (∀ l, PairFoot groups idx l → A l) →
    (∀ l, A l → PairOk groups l (m l)) →
    Outs IsGen A (PairOk groups)
      (pairGroupsProg e prob mn f groups.length n (fun _ _ n => drawProg sample n) idx) m o →
    ∃ d : Nat → Nat → Nat → Nat, (∀ k i N, ∃ s, d k i N = (sample N s).1) ∧
      Outs IsGen A (PairOk groups) (pairGroupsProg e prob mn f groups.length n (fixedDraw d) idx) m o
  | [], m, o, _, _, _, h => ⟨fun _ _ N => (sample N (m .gen)).1, fun _ _ _ => ⟨_, rfl⟩, h⟩
  | k :: rest, m, o, hnd, hsub, hm, h => by
    rw [List.nodup_cons] at hnd
    have hAg : A (.group k) := hsub (.group k) (List.mem_cons_self ..)
    have hrows : ∀ g, groups[k]? = some g → ∀ i ∈ g.rows, A (.grad i) := fun g hg i hi =>
      hsub (.grad i) ⟨k, List.mem_cons_self .., g, hg, hi⟩
    have hsub' : ∀ l, PairFoot groups rest l → A l := by
      intro l hl
      apply hsub
      cases l with
      | gen => exact hl
      | grad i =>
        obtain ⟨k, hk, g, h1, h2⟩ := hl
        exact ⟨k, List.mem_cons_of_mem _ hk, g, h1, h2⟩
      | group k => exact List.mem_cons_of_mem (a := k) _ hl
    rw [pairGroupsProg] at h
    have hw : Within (fun l => A l ∨ IsGen l) (fun l => A l ∨ IsGen l) (PairOk groups) (fun _ => True)
        (pairGroupProg e prob mn f groups.length n (fun _ _ n => drawProg sample n) k) :=
      pairGroup_within (Or.inl hAg) (fun g hg i hi => Or.inl (hrows g hg i hi))
        (fun _ _ n => drawProg_within (fun _ => trivial) sample n) e prob mn f n
    rcases Outs.bind hw hm h with ⟨a, m1, _, hm1, h1, h2⟩ | ⟨h1, rfl⟩ | ⟨h1, rfl⟩
    · obtain ⟨d1, hd1, h3⟩ := pairGroup_outs hA hAg hrows sample e prob mn f n m _ hm h1
      obtain ⟨d2, hd2, h4⟩ := pairGroups_outs hA sample e prob mn f n rest m1 o hnd.2 hsub' hm1 h2
      refine ⟨fun j => if j = k then d1 else d2 j, ?_, ?_⟩
      · intro j i N
        by_cases e : j = k
        · simp only [if_pos e]
          exact hd1 i N
        · simp only [if_neg e]
          exact hd2 j i N
      · rw [pairGroupsProg]
        have e1 : pairGroupsProg (D := D) (G := G) e prob mn f groups.length n
            (fixedDraw (fun j => if j = k then d1 else d2 j)) rest =
            pairGroupsProg e prob mn f groups.length n (fixedDraw d2) rest := by
          apply pairGroupsProg_congr
          intro j hj
          have : j ≠ k := fun e => hnd.1 (e ▸ hj)
          funext i N
          simp only [fixedDraw, if_neg this]
        have e2 : pairGroupProg (D := D) (G := G) e prob mn f groups.length n
            (fixedDraw (fun j => if j = k then d1 else d2 j)) k =
            pairGroupProg e prob mn f groups.length n (fixedDraw (fun _ => d1)) k := by
          simp only [pairGroupProg, fixedDraw, if_true]
        rw [e1, e2]
        refine Outs.bind_intro h3 (Q := fun _ => True) ?_ hm1 h4
        exact pairGroups_within (fixedDraw_within d2) e prob mn f n rest (fun l hl => Or.inl (hsub' l hl))
    · obtain ⟨d1, hd1, h3⟩ := pairGroup_outs hA hAg hrows sample e prob mn f n m _ hm h1
      exact ⟨fun _ => d1, fun _ => hd1, Outs.bind_crash.1 h3⟩
    · obtain ⟨d1, hd1, h3⟩ := pairGroup_outs hA hAg hrows sample e prob mn f n m _ hm h1
      exact ⟨fun _ => d1, fun _ => hd1, Outs.bind_crash.2 h3⟩

/-! ## How long they take -/

theorem samplePairs_eq {e : PairLoss D} {prob : D} {g g' : Group} (h : g.numPairs = g'.numPairs) :
    samplePairs e prob g = samplePairs e prob g' := by
  unfold samplePairs
  rw [h]

theorem addToRow_short {I : ∀ l, PairVal D G l → Prop} (n row : Nat) (plus : Bool) (dg dh : D) :
    Short I 2 (addToRowProg n row plus dg dh) := by
  unfold addToRowProg
  split
  · exact ⟨by omega, fun _ _ => ⟨by omega, trivial⟩⟩
  · trivial

theorem pairStep_short {I : ∀ l, PairVal D G l → Prop} (e : PairLoss D) (f : List D) (g : Group) (factor : D)
    (n index : Nat) : Short I 4 (pairStepProg e f g factor n index) := by
  unfold pairStepProg
  cases pairTerms e f g factor index with
  | ub => trivial
  | fatal => trivial
  | ok x =>
    exact Short.bind (N := 2) (M := 2) (f := fun _ => addToRowProg n x.2.1 false x.2.2.1 x.2.2.2)
      (addToRow_short n x.1 true x.2.2.1 x.2.2.2) (fun _ => addToRow_short _ _ _ _ _)

theorem pairLoop_short {I : ∀ l, PairVal D G l → Prop} (sample : Nat → G → Nat × G) (n0 : Nat) (e : PairLoss D)
    (f : List D) (g : Group) (factor : D) (n : Nat) : ∀ (left i : Nat),
    Short I (6 * left) (pairLoopProg e f g factor n (fun _ => drawProg sample n0) left i)
  | 0, _ => trivial
  | left + 1, i => by
    refine Short.mono (N := 2 + (4 + 6 * left)) ?_ (by omega)
    refine Short.bind (N := 2) ⟨by omega, fun _ _ => ⟨by omega, trivial⟩⟩ (fun index => ?_)
    exact Short.bind (pairStep_short e f g factor n index) (fun _ => pairLoop_short sample n0 e f g factor n left (i + 1))

theorem rerank_short {I : ∀ l, PairVal D G l → Prop} (e : PairLoss D) (f : List D) (index : Nat) (g : Group) :
    Short I 1 (rerankProg (D := D) (G := G) e f index g) := by
  unfold rerankProg
  split
  · cases Gbdt.rerank e.sort f g with
    | ub => trivial
    | fatal => trivial
    | ok g1 => exact ⟨by omega, trivial⟩
  · trivial

theorem pairGroups_short {groups : List Group} (sample : Nat → G → Nat × G) (e : PairLoss D) (prob : D) (mn : Nat)
    (f : List D) (n : Nat) : ∀ (idx : List Nat), ∃ N, Short (PairOk (D := D) (G := G) groups) N
      (pairGroupsProg e prob mn f groups.length n (fun _ _ n => drawProg sample n) idx)
  | [] => ⟨0, trivial⟩
  | k :: idx => by
    obtain ⟨M, hM⟩ := pairGroups_short sample e prob mn f n idx
    have h1 : ∃ N, Short (PairOk (D := D) (G := G) groups) N
        (pairGroupProg e prob mn f groups.length n (fun _ _ n => drawProg sample n) k) := by
      unfold pairGroupProg
      by_cases hlt : k < groups.length
      · simp only [if_pos hlt]
        have hget := List.getElem?_eq_getElem hlt
        refine ⟨1 + (6 * (match samplePairs e prob groups[k] with | ok c => c | _ => 0)) + 1, by omega, fun g hg => ?_⟩
        have hg : ∀ g', groups[k]? = some g' → g.rows = g'.rows ∧ g.numPairs = g'.numPairs := hg
        refine Short.bindOk (Q := fun g1 => g1.numPairs = groups[k].numPairs) (rerank_short e f k g)
          ((rerank_within (R := fun _ => True) trivial hg e f).mono (fun _ h => h) (fun _ h => h)
            (fun g1 h1 => h1.2.trans (hg _ hget).2)) (fun g1 hg1 => ?_)
        rw [samplePairs_eq hg1]
        cases samplePairs e prob groups[k] with
        | ub => trivial
        | fatal => trivial
        | ok count => exact pairLoop_short _ _ _ _ _ _ _ _ _
      · simp only [if_neg hlt]
        exact ⟨0, trivial⟩
    obtain ⟨N, hN⟩ := h1
    exact ⟨N + M, hN.bind (fun _ => hM)⟩

/-! ## The draws are not used elsewhere -/

theorem pairLoopProg_draw (e : PairLoss D) (dr : Nat → Nat → Nat → Nat → Nat) (f : List D) (g : Group) (factor : D) (n : Nat)
    (draw : Nat → Prog PairCell (PairVal D G) Nat) : ∀ (left i : Nat),
    pairLoopProg { e with draw := dr } f g factor n draw left i = pairLoopProg e f g factor n draw left i
  | 0, _ => rfl
  | left + 1, i => by
    rw [pairLoopProg, pairLoopProg]
    simp only [pairLoopProg_draw e dr f g factor n draw left (i + 1)]
    rfl

theorem pairGroupsProg_draw (e : PairLoss D) (dr : Nat → Nat → Nat → Nat → Nat) (prob : D) (mn : Nat) (f : List D)
    (ng n : Nat) (draw : Nat → Nat → Nat → Prog PairCell (PairVal D G) Nat) : ∀ (idx : List Nat),
    pairGroupsProg { e with draw := dr } prob mn f ng n draw idx = pairGroupsProg e prob mn f ng n draw idx
  | [] => rfl
  | k :: idx => by
    rw [pairGroupsProg, pairGroupsProg, pairGroupsProg_draw e dr prob mn f ng n draw idx]
    simp only [pairGroupProg, pairLoopProg_draw]
    rfl

theorem pairLoop_draw (e : PairLoss D) (dr : Nat → Nat → Nat → Nat → Nat) (f : List D) (g : Group) (factor : D)
    (draw : Nat → Nat) : ∀ (left i : Nat) (grads : List (GD D)),
    pairLoop { e with draw := dr } f g factor draw left i grads = pairLoop e f g factor draw left i grads
  | 0, _, _ => rfl
  | left + 1, i, grads => by
    rw [pairLoop, pairLoop]
    simp only [pairLoop_draw e dr f g factor draw left (i + 1)]
    rfl

theorem pairGroups_draw (e : PairLoss D) (dr : Nat → Nat → Nat → Nat → Nat) (f : List D) : ∀ (order : List Nat)
    (s : PairState D) (grads : List (GD D)), dr s.round = e.draw s.round →
    pairGroups { e with draw := dr } f order s grads = pairGroups e f order s grads
  | [], _, _, _ => rfl
  | k :: order, s, grads, h => by
    rw [pairGroups, pairGroups]
    have : pairGroup { e with draw := dr } s f k grads = pairGroup e s f k grads := by
      rw [pairGroup_form, pairGroup_form]
      simp only [pairLoop_draw, h]
      rfl
    rw [this]
    congr 1
    funext r
    exact pairGroups_draw e dr f order _ _ h

theorem pairCompute_draw (e : PairLoss D) (dr : Nat → Nat → Nat → Nat → Nat) (s : PairState D) (f : List D)
    (h : dr s.round = e.draw s.round) : pairCompute { e with draw := dr } s f = pairCompute e s f := by
  unfold pairCompute
  simp only [pairGroups_draw e dr f _ s _ h]

theorem pairGroups_round {e : PairLoss D} {f : List D} : ∀ {order : List Nat} {s s1 : PairState D}
    {grads out : List (GD D)}, pairGroups e f order s grads = ok (s1, out) → s1.round = s.round
  | [], s, s1, grads, out, h => by
    rw [pairGroups, Outcome.ok.injEq, Prod.mk.injEq] at h
    rw [h.1]
  | k :: order, s, s1, grads, out, h => by
    rw [pairGroups, bind_eq_ok] at h
    obtain ⟨⟨g, grads1⟩, _, h2⟩ := h
    exact (pairGroups_round (s := { s with groups := s.groups.set k g }) h2).trans rfl

/-- Reaching a state needs only the draws of the rounds before it. -/
theorem PairReach.draw {e : PairLoss D} {numRows : Nat} {col : Option StrCol} {s : PairState D}
    (h : PairReach e numRows col s) : ∀ (dr : Nat → Nat → Nat → Nat → Nat), (∀ t, t < s.round → dr t = e.draw t) →
    PairReach { e with draw := dr } numRows col s := by
  induction h with
  | init h => exact fun dr _ => .init h
  | @compute s s' f c grads hr h ih =>
    intro dr hd
    have hround : s'.round = s.round + 1 := by
      rw [pairCompute, bind_eq_ok] at h
      obtain ⟨⟨s1, g1⟩, h1, h2⟩ := h
      simp only [pure_eq, Outcome.ok.injEq, Prod.mk.injEq] at h2
      rw [← h2.1]
      simp only [pairGroups_round h1]
    refine .compute (ih dr (fun t ht => hd t (by omega))) (f := f) (c := c) (grads := grads) ?_
    rw [pairCompute_draw e dr s f (hd _ (by omega))]
    exact h

end

end Gbdt
