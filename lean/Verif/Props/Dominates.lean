import Verif.Props.Accuracy
import Verif.Props.NumberText
import Mathlib.Data.List.Sections

/-!
# C200: the range and the order of predictions, in doubles
-/

set_option autoImplicit false

namespace Gbdt

open Outcome

section spec
variable {D A : Type}

/-- The scores of the leaves of a tree.  A child that is not set counts as a leaf with score 0. -/
def allLeafScores [Zero D] : Tree D A → List D
  | .absent => [0]
  | .node score _ .absent _ => [score]
  | .node _ _ (.node sc sp l r) right => allLeafScores (.node sc sp l r) ++ allLeafScores right

end spec

/-- Not NaN, and `a ≤ b`. -/
def NoMore (a b : F64) : Prop := a ≠ .nan ∧ b ≠ .nan ∧ F64.lt b a = false

/-- A finite double. -/
def FiniteScore (x : F64) : Prop := ∃ q, x = .num q ∧ FiniteDouble q

theorem scoreOf_leaf {D A : Type} [Zero D] [LinearOrder A] {columns : String → Option (Column A)} {i : Nat} :
    ∀ {t : Tree D A} {x : D}, scoreOf columns t i = some x → x ∈ allLeafScores t
  | .absent, x, h => by
    simp only [scoreOf, leafOf, Option.map_some, Option.some.injEq] at h
    simp [allLeafScores, h]
  | .node score _ .absent _, x, h => by
    simp only [scoreOf, leafOf, Option.map_some, Option.some.injEq] at h
    simp [allLeafScores, h]
  | .node _ none (.node _ _ _ _) _, x, h => by simp [scoreOf, leafOf] at h
  | .node _ (some s) (.node sc sp l r) right, x, h => by
    simp only [scoreOf, leafOf] at h
    rw [allLeafScores, List.mem_append]
    split at h
    · cases h
    · split at h
      · cases h
      · rw [Option.map_map] at h
        exact Or.inl (scoreOf_leaf (columns := columns) (i := i) (t := .node sc sp l r) h)
      · rw [Option.map_map] at h
        exact Or.inr (scoreOf_leaf (columns := columns) (i := i) (t := right) h)

theorem round_keeps_order {q q' : ℚ} (h : q ≤ q') : NoMore (F64.round q) (F64.round q') := by
  have hm : roundRat 53 1074 q ≤ roundRat 53 1074 q' := by
    rcases h.eq_or_lt with rfl | h
    · exact le_rfl
    · exact (roundRat_nearest (by decide) q).1.mono (roundRat_nearest (by decide) q').1 h
  unfold F64.round
  simp only
  generalize roundRat 53 1074 q = a at hm
  generalize roundRat 53 1074 q' = b at hm
  have hpos : (0 : ℚ) < 2 ^ 1024 := by positivity
  generalize (2 : ℚ) ^ 1024 = M at hpos
  refine ⟨by split_ifs <;> simp, by split_ifs <;> simp, ?_⟩
  split_ifs <;> simp only [F64.lt, Bool.and_eq_false_iff, Bool.not_eq_false', decide_eq_false_iff_not, not_lt] <;>
    first | linarith | simp

theorem add_keeps_order {a b : F64} (h : NoMore a b) {q q' : ℚ} (hq : q ≤ q') : NoMore (a + .num q) (b + .num q') := by
  obtain ⟨h1, h2, h3⟩ := h
  rcases a with _ | s | x <;> rcases b with _ | s' | y
  · exact absurd rfl h1
  · exact absurd rfl h1
  · exact absurd rfl h1
  · exact absurd rfl h2
  · exact ⟨h1, h2, h3⟩
  · cases s
    · cases h3
    · refine ⟨h1, ?_, ?_⟩
      · exact (round_keeps_order (le_refl (y + q'))).1
      · show F64.lt (F64.round (y + q')) (.inf true) = false
        cases F64.round (y + q') with
        | nan => rfl
        | inf s => cases s <;> rfl
        | num _ => rfl
  · exact absurd rfl h2
  · cases s'
    · refine ⟨(round_keeps_order (le_refl (x + q))).1, h2, ?_⟩
      show F64.lt (.inf false) (F64.round (x + q)) = false
      cases F64.round (x + q) with
      | nan => rfl
      | inf s => cases s <;> rfl
      | num _ => rfl
    · cases h3
  · simp only [F64.lt, decide_eq_false_iff_not, not_lt] at h3
    exact round_keeps_order (by linarith)

theorem score_plus_zero {q : ℚ} (h : FiniteDouble q) : (F64.num q + 0 : F64) = .num q := by
  rw [zero_num, add_num, add_zero]
  exact round_self h.1 h.2

theorem sum_keeps_order : ∀ {xs ys : List F64} {a b : F64}, NoMore a b →
    List.Forall₂ (fun x y => FiniteScore x ∧ FiniteScore y ∧ F64.lt y x = false) xs ys →
    NoMore (xs.foldl (fun a x => a + (x + 0)) a) (ys.foldl (fun a x => a + (x + 0)) b)
  | [], _, a, b, h, .nil => h
  | x :: xs, _, a, b, h, .cons (b := y) (l₂ := ys) hxy hl => by
    obtain ⟨⟨q, rfl, hq⟩, ⟨q', rfl, hq'⟩, hlt⟩ := hxy
    simp only [F64.lt, decide_eq_false_iff_not, not_lt] at hlt
    rw [List.foldl_cons, List.foldl_cons, score_plus_zero hq, score_plus_zero hq']
    exact sum_keeps_order (add_keeps_order h hlt) hl

section props
variable {A : Type} [LinearOrder A]

theorem mapM_forall₂ {α β γ : Type} {f : α → Option β} {g : α → Option γ} {R : β → γ → Prop} : ∀ {l : List α} {xs : List β} {ys : List γ},
    l.mapM f = some xs → l.mapM g = some ys → (∀ a ∈ l, ∀ x y, f a = some x → g a = some y → R x y) → List.Forall₂ R xs ys
  | [], xs, ys, h1, h2, _ => by
    simp only [List.mapM_nil, Option.pure_def, Option.some.injEq] at h1 h2
    subst h1 h2
    exact .nil
  | a :: l, xs, ys, h1, h2, h => by
    simp only [List.mapM_cons, Option.pure_def, Option.bind_eq_bind, Option.bind_eq_some_iff, Option.some.injEq] at h1 h2
    obtain ⟨x, hx, xs, hxs, rfl⟩ := h1
    obtain ⟨y, hy, ys, hys, rfl⟩ := h2
    exact .cons (h a (by simp) x y hx hy) (mapM_forall₂ hxs hys (fun b hb => h b (by simp [hb])))

theorem mapM_forall₂_list {α β γ : Type} {f : α → Option β} {R : β → γ → Prop} {S : α → γ → Prop} : ∀ {l : List α} {xs : List β} {ys : List γ},
    l.mapM f = some xs → List.Forall₂ S l ys → (∀ a ∈ l, ∀ x y, f a = some x → S a y → R x y) → List.Forall₂ R xs ys
  | [], xs, _, h1, .nil, _ => by
    simp only [List.mapM_nil, Option.pure_def, Option.some.injEq] at h1
    subst h1
    exact .nil
  | a :: l, xs, _, h1, .cons (b := y) (l₂ := ys) hS hl, h => by
    simp only [List.mapM_cons, Option.pure_def, Option.bind_eq_bind, Option.bind_eq_some_iff, Option.some.injEq] at h1
    obtain ⟨x, hx, xs, hxs, rfl⟩ := h1
    exact .cons (h a (by simp) x y hx hS) (mapM_forall₂_list hxs hl (fun b hb => h b (by simp [hb])))

/-- **C200 (order).** Two rows, perhaps of different stores, and a forest whose leaves have finite scores.  If no tree gives the first row more than the
second, then the prediction for the first row is not more than that for the second: in doubles, with every rounding and overflow. -/
theorem C200_order {columns columns' : String → Option (Column A)} {n n' : Nat} (hcols : ∀ name c, columns name = some c → HasRows n c)
    (hcols' : ∀ name c, columns' name = some c → HasRows n' c) {numThreads : Int} (hnt : 0 < numThreads) (forest : List (Tree F64 A))
    (hfeat : HasFeatures columns forest) (hf : ∀ t ∈ forest, Scorable columns t) (hfeat' : HasFeatures columns' forest)
    (hf' : ∀ t ∈ forest, Scorable columns' t) (hfin : ∀ t ∈ forest, ∀ x ∈ allLeafScores t, FiniteScore x) :
    ∃ scores scores', evaluateForest columns n numThreads forest = ok (.ok, some scores) ∧
      evaluateForest columns' n' numThreads forest = ok (.ok, some scores') ∧
      ∀ i < n, ∀ j < n', (∀ t ∈ forest, ∀ x y, scoreOf columns t i = some x → scoreOf columns' t j = some y → F64.lt y x = false) →
        ∃ a b, scores[i]? = some a ∧ scores'[j]? = some b ∧ a ≠ .nan ∧ b ≠ .nan ∧ F64.lt b a = false := by
  obtain ⟨scores, h1, _, h3⟩ := C37_prediction hcols hnt forest hfeat hf
  obtain ⟨scores', g1, _, g3⟩ := C37_prediction hcols' hnt forest hfeat' hf'
  refine ⟨scores, scores', h1, g1, fun i hi j hj hle => ?_⟩
  obtain ⟨xs, k1, k2⟩ := h3 i hi
  obtain ⟨ys, l1, l2⟩ := g3 j hj
  refine ⟨_, _, k2, l2, sum_keeps_order ⟨by decide, by decide, by decide +kernel⟩ (mapM_forall₂ k1 l1 ?_)⟩
  intro t ht x y hx hy
  exact ⟨hfin t ht x (scoreOf_leaf hx), hfin t ht y (scoreOf_leaf hy), hle t ht x y hx hy⟩

/-- **C200 (range).** No row of any store is predicted less than the sum of the smallest leaves or more than the sum of the largest, both added in doubles
tree by tree. -/
theorem C200_range {columns : String → Option (Column A)} {n : Nat} (hcols : ∀ name c, columns name = some c → HasRows n c) {numThreads : Int}
    (hnt : 0 < numThreads) (forest : List (Tree F64 A)) (hfeat : HasFeatures columns forest) (hf : ∀ t ∈ forest, Scorable columns t)
    (hfin : ∀ t ∈ forest, ∀ x ∈ allLeafScores t, FiniteScore x) {low high : List F64}
    (hlow : List.Forall₂ (fun t y => FiniteScore y ∧ ∀ x ∈ allLeafScores t, F64.lt x y = false) forest low)
    (hhigh : List.Forall₂ (fun t y => FiniteScore y ∧ ∀ x ∈ allLeafScores t, F64.lt y x = false) forest high) :
    ∃ scores, evaluateForest columns n numThreads forest = ok (.ok, some scores) ∧ scores.length = n ∧
      ∀ a ∈ scores, a ≠ .nan ∧ F64.lt a (low.foldl (· + ·) 0) = false ∧ F64.lt (high.foldl (· + ·) 0) a = false := by
  obtain ⟨scores, h1, h2, h3⟩ := C37_prediction hcols hnt forest hfeat hf
  refine ⟨scores, h1, h2, fun a ha => ?_⟩
  obtain ⟨i, hi, rfl⟩ := List.mem_iff_getElem.mp ha
  obtain ⟨xs, k1, k2⟩ := h3 i (by omega)
  rw [List.getElem?_eq_getElem hi, Option.some.injEq] at k2
  rw [k2]
  have hz : NoMore (0 : F64) 0 := ⟨by decide, by decide, by decide +kernel⟩
  have hplain : ∀ {ys : List F64}, (∀ y ∈ ys, FiniteScore y) → ∀ b : F64, ys.foldl (fun a x => a + (x + 0)) b = ys.foldl (· + ·) b := by
    intro ys
    induction ys with
    | nil => intro _ b; rfl
    | cons y ys ih =>
      intro hy b
      obtain ⟨q, rfl, hq⟩ := hy y (by simp)
      rw [List.foldl_cons, List.foldl_cons, score_plus_zero hq]
      exact ih (fun z hz => hy z (by simp [hz])) _
  have hall : ∀ {l : List (Tree F64 A)} {ys : List F64} {P : Tree F64 A → F64 → Prop},
      List.Forall₂ (fun t y => FiniteScore y ∧ P t y) l ys → ∀ y ∈ ys, FiniteScore y := by
    intro l ys P h
    induction h with
    | nil => simp
    | cons h _ ih =>
      intro y hy
      rcases List.mem_cons.mp hy with rfl | hy
      · exact h.1
      · exact ih y hy
  have m1 := sum_keeps_order hz (List.Forall₂.flip (mapM_forall₂_list (R := fun x y => FiniteScore y ∧ FiniteScore x ∧ F64.lt x y = false) k1 hlow
    (fun t ht x y hx hy => ⟨hy.1, hfin t ht x (scoreOf_leaf hx), hy.2 x (scoreOf_leaf hx)⟩)))
  have m2 := sum_keeps_order hz (mapM_forall₂_list (R := fun x y => FiniteScore x ∧ FiniteScore y ∧ F64.lt y x = false) k1 hhigh
    (fun t ht x y hx hy => ⟨hfin t ht x (scoreOf_leaf hx), hy.1, hy.2 x (scoreOf_leaf hx)⟩))
  rw [hplain (hall hlow)] at m1
  rw [hplain (hall hhigh)] at m2
  exact ⟨m2.1, m1.2.2, m2.2.2⟩

/-- **C200 (how many).** In any arithmetic, a forest has no more different predictions than there are choices of one leaf per tree. -/
theorem C200_how_many {D : Type} [Dbl D] [DecidableEq D] {columns : String → Option (Column A)} {n : Nat}
    (hcols : ∀ name c, columns name = some c → HasRows n c) {numThreads : Int} (hnt : 0 < numThreads) (forest : List (Tree D A))
    (hfeat : HasFeatures columns forest) (hf : ∀ t ∈ forest, Scorable columns t) :
    ∃ scores, evaluateForest columns n numThreads forest = ok (.ok, some scores) ∧ scores.length = n ∧
      scores.dedup.length ≤ (forest.map (fun t => (allLeafScores t).length)).prod := by
  obtain ⟨scores, h1, h2, h3⟩ := C37_prediction hcols hnt forest hfeat hf
  refine ⟨scores, h1, h2, ?_⟩
  have hsub : scores.dedup ⊆ (forest.map allLeafScores).sections.map sumScores := by
    intro a ha
    obtain ⟨i, hi, rfl⟩ := List.mem_iff_getElem.mp (List.mem_dedup.mp ha)
    obtain ⟨xs, k1, k2⟩ := h3 i (by omega)
    rw [List.getElem?_eq_getElem hi, Option.some.injEq] at k2
    rw [k2]
    refine List.mem_map.mpr ⟨xs, List.mem_sections.mpr ?_, rfl⟩
    refine mapM_forall₂_list (S := fun t y => y = allLeafScores t) k1 ?_ (fun t _ x y hx hy => by rw [hy]; exact scoreOf_leaf hx)
    exact List.forall₂_map_right_iff.mpr (List.forall₂_same.mpr (fun _ _ => rfl))
  have hlen : ∀ L : List (List D), L.sections.length = (L.map List.length).prod := by
    intro L
    induction L with
    | nil => rfl
    | cons l L ih =>
      rw [List.sections, List.length_flatMap, List.map_cons, List.prod_cons, ← ih]
      simp [mul_comm]
  have := (List.nodup_dedup scores).subperm hsub
  have := this.length_le
  rwa [List.length_map, hlen, List.map_map] at this

end props

/-! ## Examples -/

/-- The leaves of the forest of doubles of the examples are finite; the smallest and the largest of each tree. -/
example : (∀ t ∈ doubleForest, ∀ x ∈ allLeafScores t, FiniteScore x) ∧
    List.Forall₂ (fun t y => FiniteScore y ∧ ∀ x ∈ allLeafScores t, F64.lt x y = false) doubleForest [.num 10, .num (1 / 2 ^ 60)] ∧
    List.Forall₂ (fun t y => FiniteScore y ∧ ∀ x ∈ allLeafScores t, F64.lt y x = false) doubleForest [.num 10, .num 1] := by
  have h10 : FiniteScore (.num 10) := ⟨10, rfl, ⟨10, 0, by norm_num, by norm_num, by norm_num⟩, by
    refine lt_of_lt_of_le (b := 2 ^ 4) (by norm_num) (pow_le_pow_right₀ (by norm_num) (by norm_num))⟩
  have h1 : FiniteScore (.num 1) := ⟨1, rfl, ⟨1, 0, by norm_num, by norm_num, by norm_num⟩, by
    refine lt_of_lt_of_le (b := 2 ^ 4) (by norm_num) (pow_le_pow_right₀ (by norm_num) (by norm_num))⟩
  have h60 : FiniteScore (.num (1 / 2 ^ 60)) := ⟨_, rfl, ⟨1, -60, by norm_num, by norm_num, by norm_num⟩, by
    refine lt_of_lt_of_le (b := 2 ^ 4) (by norm_num) (pow_le_pow_right₀ (by norm_num) (by norm_num))⟩
  refine ⟨?_, .cons ⟨h10, ?_⟩ (.cons ⟨h60, ?_⟩ .nil), .cons ⟨h10, ?_⟩ (.cons ⟨h1, ?_⟩ .nil)⟩
  · intro t ht x hx
    simp only [doubleForest, List.mem_cons, List.not_mem_nil, or_false] at ht
    rcases ht with rfl | rfl
    · simp only [allLeafScores, List.mem_singleton] at hx
      rw [hx]; exact h10
    · simp only [allLeafScores, List.mem_append, List.mem_singleton] at hx
      rcases hx with rfl | rfl
      · exact h1
      · exact h60
  all_goals decide +kernel

/-- Two trees, two predictions. -/
example : (doubleForest.map (fun t => (allLeafScores t).length)).prod = 2 := by decide +kernel

/-- The sums of the smallest and of the largest leaves. -/
example : ([.num 10, .num (1 / 2 ^ 60)] : List F64).foldl (· + ·) 0 = .num 10 ∧ ([.num 10, .num 1] : List F64).foldl (· + ·) 0 = .num 11 := by
  decide +kernel

end Gbdt
