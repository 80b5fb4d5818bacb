import Verif.Lemmas.Score
import Verif.Props.SplitWitness

/-!
# C37, C38, C43, C44, C64, C65: predictions
-/

set_option autoImplicit false
set_option linter.unusedSectionVars false

namespace Gbdt

open Outcome

variable {D A : Type} [LinearOrder A] [Dbl D]

/-- Every feature the forest names is in the store. -/
def HasFeatures (columns : String → Option (Column A)) (forest : List (Tree D A)) : Prop :=
  ∀ name ∈ forestFeatures forest, columns name ≠ none

theorem loadFeatures_ok {columns : String → Option (Column A)} : ∀ {names : List String},
    (∀ name ∈ names, columns name ≠ none) → ∃ cs, loadFeatures columns names = .ok cs
  | [], _ => ⟨[], rfl⟩
  | name :: names, h => by
    obtain ⟨cs, hcs⟩ := loadFeatures_ok (names := names) (fun x hx => h x (by simp [hx]))
    cases hc : columns name with
    | none => exact absurd hc (h name (by simp))
    | some c => exact ⟨(name, c) :: cs, by simp only [loadFeatures, hc, hcs]⟩

theorem loadFeatures_missing {columns : String → Option (Column A)} : ∀ {names : List String},
    (∃ name ∈ names, columns name = none) → loadFeatures columns names = .error .notFound
  | [], h => by obtain ⟨_, h, _⟩ := h; cases h
  | name :: names, h => by
    cases hc : columns name with
    | none => simp only [loadFeatures, hc]
    | some c =>
      have : ∃ x ∈ names, columns x = none := by
        obtain ⟨x, hx, hx0⟩ := h
        rcases List.mem_cons.mp hx with rfl | hx
        · rw [hc] at hx0; cases hx0
        · exact ⟨x, hx, hx0⟩
      simp only [loadFeatures, hc, loadFeatures_missing this]

/-- The sum of scores as the code adds them: each tree's score plus the constant 0, added to the sum so far. -/
def sumScores (xs : List D) : D := xs.foldl (fun a x => a + (x + 0)) 0

theorem addForestScores_spec {columns : String → Option (Column A)} {n : Nat}
    (hcols : ∀ name c, columns name = some c → HasRows n c) : ∀ (forest : List (Tree D A)) (slices : List (List Nat))
    (scores : List D), (∀ t ∈ forest, Scorable columns t) → Slices n slices → scores.length = n →
    ∃ ss sc, addForestScores columns forest slices scores = ok (ss, sc) ∧ Slices n ss ∧ sc.length = n ∧
      ∀ i < n, ∃ xs old, forest.mapM (fun t => scoreOf columns t i) = some xs ∧ scores[i]? = some old ∧
        sc[i]? = some (xs.foldl (fun a x => a + (x + 0)) old)
  | [], slices, scores, _, hs, hl =>
    ⟨slices, scores, rfl, hs, hl, fun i hi => ⟨[], scores[i]'(by omega), rfl, by simp, by simp⟩⟩
  | t :: ts, slices, scores, hf, hs, hl => by
    obtain ⟨s1, sc1, a1, a2, a3, a4⟩ := hs.add hcols 0 (hf t (by simp)) hl
    obtain ⟨s2, sc2, b1, b2, b3, b4⟩ := addForestScores_spec hcols ts s1 sc1 (fun x hx => hf x (by simp [hx])) a2 a3
    refine ⟨s2, sc2, by simp only [addForestScores, a1, ok_bind, b1], b2, b3, ?_⟩
    intro i hi
    obtain ⟨x, old, g1, g2, g3⟩ := a4 i hi
    obtain ⟨xs, old', k1, k2, k3⟩ := b4 i hi
    rw [g3, Option.some.injEq] at k2
    subst k2
    exact ⟨x :: xs, old, by simp [List.mapM_cons, g1, k1], g2, k3⟩

/-- A store used in the examples: a string column (b a __missing__ b c) and a float column (5 nan 7 5 9). -/
def sampleCols (name : String) : Option (Column Int) :=
  if name = "color" then some (.str (StrCol.build [["b", "a"], ["__missing__", "b", "c"]]))
  else if name = "size" then
    match BktCol.build (1000 : Int) 5 [[.num 5, .nan, .num 7, .num 5, .num 9]] with
    | .ok c => some (.bkt c)
    | _ => none
  else none

/-- A forest used in the examples: a constant and a tree that splits on both columns. -/
def sampleForest : List (Tree ℚ Int) :=
  [.node 10 none .absent .absent,
   .node 0 (some { feature := "size", floatSplit := some ⟨.num 6, true⟩, gain := 3 })
    (.node 1 none .absent .absent)
    (.node 0 (some { feature := "color", catSplit := some { category := ["c", "zz", "a"] }, gain := 2 })
      (.node (1/2) none .absent .absent) (.node (1/3) none .absent .absent))]

theorem sampleCols_hasRows : ∀ name c, sampleCols name = some c → HasRows 5 c := by
  intro name c h
  unfold sampleCols at h
  split at h
  · cases h
    exact HasRows.str _ (by decide) (by decide)
  · split at h
    · split at h
      · next c' hb =>
        cases h
        exact HasRows.bkt 1000 5 _ c' (by decide) (by decide) (by decide) hb
      · cases h
    · cases h

theorem sampleForest_scorable : ∀ t ∈ sampleForest, Scorable sampleCols t := by
  have hsize : ∃ c, sampleCols "size" = some (.bkt c) := by
    have h : (match BktCol.build (1000 : Int) 5 [[.num 5, .nan, .num 7, .num 5, .num 9]] with
      | .ok _ => true
      | _ => false) = true := by decide +kernel
    unfold sampleCols
    rw [if_neg (by decide), if_pos rfl]
    split at h
    · next c hb => exact ⟨c, rfl⟩
    · cases h
  intro t ht
  simp only [sampleForest, List.mem_cons, List.not_mem_nil, or_false] at ht
  rcases ht with rfl | rfl
  · trivial
  · obtain ⟨c, hc⟩ := hsize
    refine ⟨⟨_, _, rfl, hc, _, rfl⟩, trivial, ⟨_, .str _, rfl, rfl, _, rfl, Or.inl rfl⟩, trivial, trivial⟩

example : HasFeatures sampleCols sampleForest := by
  intro name hn
  simp only [sampleForest, forestFeatures, treeFeatures, List.flatMap_cons, List.flatMap_nil, List.mem_append,
    List.mem_cons, List.not_mem_nil, or_false, false_or] at hn
  rcases hn with rfl | rfl
  · exact fun h => absurd h (by
      have : (sampleCols "size").isSome = true := by decide +kernel
      intro h; rw [h] at this; cases this)
  · exact fun h => absurd h (by simp [sampleCols])

example : evaluateForest sampleCols 5 3 sampleForest = ok (.ok, some [11, 21/2, 31/3, 11, 21/2]) := by decide +kernel

/-- **C37.** Predicting gives for each row the sum, in tree order, of the scores of the leaves the row reaches by its own
values; the number of threads does not matter. -/
theorem C37_prediction {columns : String → Option (Column A)} {n : Nat}
    (hcols : ∀ name c, columns name = some c → HasRows n c) {numThreads : Int} (hnt : 0 < numThreads)
    (forest : List (Tree D A)) (hfeat : HasFeatures columns forest) (hf : ∀ t ∈ forest, Scorable columns t) :
    ∃ scores, evaluateForest columns n numThreads forest = ok (.ok, some scores) ∧ scores.length = n ∧
      ∀ i < n, ∃ xs, forest.mapM (fun t => scoreOf columns t i) = some xs ∧ scores[i]? = some (sumScores xs) := by
  obtain ⟨cs, hload⟩ := loadFeatures_ok hfeat
  obtain ⟨slices, h1, h2⟩ := scoreSlices_ok hnt n
  obtain ⟨ss, sc, g1, _, g2, g3⟩ := addForestScores_spec hcols forest slices (List.replicate n 0) hf h2 (by simp)
  refine ⟨sc, by simp only [evaluateForest, hload, h1, ok_bind, g1, pure_eq], g2, ?_⟩
  intro i hi
  obtain ⟨xs, old, k1, k2, k3⟩ := g3 i hi
  rw [List.getElem?_replicate, if_pos hi, Option.some.injEq] at k2
  subst k2
  exact ⟨xs, k1, k3⟩

/-- **C37 (exact arithmetic).** The prediction is the sum. -/
theorem C37_prediction_exact {K : Type} [Field K] [LinearOrder K] {columns : String → Option (Column A)} {n : Nat}
    (hcols : ∀ name c, columns name = some c → HasRows n c) {numThreads : Int} (hnt : 0 < numThreads)
    (forest : List (Tree K A)) (hfeat : HasFeatures columns forest) (hf : ∀ t ∈ forest, Scorable columns t) :
    ∃ scores, evaluateForest columns n numThreads forest = ok (.ok, some scores) ∧ scores.length = n ∧
      ∀ i < n, ∃ xs, forest.mapM (fun t => scoreOf columns t i) = some xs ∧ scores[i]? = some xs.sum := by
  obtain ⟨scores, h1, h2, h3⟩ := C37_prediction hcols hnt forest hfeat hf
  refine ⟨scores, h1, h2, fun i hi => ?_⟩
  obtain ⟨xs, k1, k2⟩ := h3 i hi
  refine ⟨xs, k1, ?_⟩
  rw [k2, sumScores]
  have : ∀ (l : List K) (a : K), l.foldl (fun a x => a + (x + 0)) a = a + l.sum := by
    intro l
    induction l with
    | nil => intro a; simp
    | cons x l ih => intro a; rw [List.foldl_cons, ih, List.sum_cons, add_zero, add_assoc]
  rw [this, zero_add]

/-- **C37 (any division of the rows).** Adding one tree's scores (with a constant) to the rows of any slices: each row of
a slice gets the score of its leaf, other rows keep theirs, whatever the order and division of the samples. -/
theorem C37_slices {columns : String → Option (Column A)} {n : Nat}
    (hcols : ∀ name c, columns name = some c → HasRows n c) (constant : D) (t : Tree D A) (ht : Scorable columns t)
    (slices : List (List Nat)) (hnodup : slices.flatten.Nodup) (hin : ∀ i ∈ slices.flatten, i < n) (scores : List D)
    (hl : scores.length = n) :
    ∃ slices' scores', addTreeScores columns t constant slices scores = ok (slices', scores') ∧
      slices'.flatten.Perm slices.flatten ∧ scores'.length = n ∧
      (∀ i ∈ slices.flatten, ∃ x old, scoreOf columns t i = some x ∧ scores[i]? = some old ∧
        scores'[i]? = some (old + (x + constant))) ∧
      ∀ i, i ∉ slices.flatten → scores'[i]? = scores[i]? := by
  obtain ⟨ss, sc, h1, h2, h3, h4, h5⟩ := addTreeScores_spec hcols constant ht slices scores hnodup hin hl
  exact ⟨ss, sc, h1, h2, by omega, h4, h5⟩

/-- Two slices in disorder that leave out row 2; the second tree of `sampleForest` and the constant 100. -/
example : [[4, 0], [3, 1]].flatten.Nodup ∧ (∀ i ∈ [[4, 0], [3, 1]].flatten, i < 5) ∧
    (match (sampleForest : List (Tree ℚ Int))[1]? with
      | some t => match addTreeScores (D := ℚ) sampleCols t 100 [[4, 0], [3, 1]] [1, 2, 3, 4, (5 : ℚ)] with
        | .ok (_, scores) => decide (scores = [102, 205/2, 3, 105, 211/2])
        | _ => false
      | none => false) = true := ⟨by decide, by decide, by decide +kernel⟩

/-! ## C38 -/

/-- Row `i` of one column and row `j` of another hold the same value: the same string, or both missing, or numbers with
the same bucket limit. -/
def SameValue (c1 : Column A) (i : Nat) (c2 : Column A) (j : Nat) : Prop :=
  match c1, c2 with
  | .str c1, .str c2 => ∃ x, c1.rowString i = ok x ∧ c2.rowString j = ok x
  | .bkt c1, .bkt c2 => (c1.ints.missing i = ok true ∧ c2.ints.missing j = ok true) ∨
      (c1.ints.missing i = ok false ∧ c2.ints.missing j = ok false ∧ ∃ x, c1.rowMax i = ok x ∧ c2.rowMax j = ok x)
  | .raw _, .raw _ => True
  | _, _ => False

theorem SameValue.sendsLeft {c1 c2 : Column A} {i j : Nat} (h : SameValue c1 i c2 j) (s : Split D A) :
    sendsLeft c1 s i = sendsLeft c2 s j := by
  cases c1 <;> cases c2 <;> simp only [SameValue] at h
  · obtain ⟨x, h1, h2⟩ := h
    simp only [Gbdt.sendsLeft, h1, h2]
  · rcases h with ⟨h1, h2⟩ | ⟨h1, h2, x, h3, h4⟩
    · simp only [Gbdt.sendsLeft, h1, h2]
      cases s.floatSplit <;> rfl
    · simp only [Gbdt.sendsLeft, h1, h2, h3, h4]
  · rfl

/-- **C38.** A row that has the same values in two stores (in the columns the tree splits on) reaches the same leaf in
both, so it gets the same score. -/
theorem C38_same_values_same_leaf {cols1 cols2 : String → Option (Column A)} {i j : Nat} (t : Tree D A)
    (hsame : ∀ name ∈ treeFeatures t, ∃ c1 c2, cols1 name = some c1 ∧ cols2 name = some c2 ∧ SameValue c1 i c2 j) :
    leafOf cols1 t i = leafOf cols2 t j := by
  induction t with
  | absent => rfl
  | node score split left right ihl ihr =>
    cases left with
    | absent => rfl
    | node a b c d =>
      cases split with
      | none => rfl
      | some s =>
        obtain ⟨c1, c2, h1, h2, h3⟩ := hsame s.feature (by simp [treeFeatures])
        have hl := ihl (fun name hn => hsame name (by
          simp only [treeFeatures, List.mem_append] at hn ⊢; tauto))
        have hr := ihr (fun name hn => hsame name (by
          simp only [treeFeatures, List.mem_append] at hn ⊢; tauto))
        simp only [leafOf, h1, h2, h3.sendsLeft, hl, hr]

/-- **C38 (predictions).** Two stores, possibly with different numbers of rows, other rows and other codes: equal values
give equal predictions, bit for bit. -/
theorem C38_same_prediction {cols1 cols2 : String → Option (Column A)} {n1 n2 : Nat}
    (h1 : ∀ name c, cols1 name = some c → HasRows n1 c) (h2 : ∀ name c, cols2 name = some c → HasRows n2 c)
    {nt1 nt2 : Int} (hnt1 : 0 < nt1) (hnt2 : 0 < nt2) (forest : List (Tree D A))
    (hf1 : ∀ t ∈ forest, Scorable cols1 t) (hf2 : ∀ t ∈ forest, Scorable cols2 t) {i j : Nat} (hi : i < n1) (hj : j < n2)
    (hsame : ∀ name ∈ forestFeatures forest,
      ∃ c1 c2, cols1 name = some c1 ∧ cols2 name = some c2 ∧ SameValue c1 i c2 j) :
    ∃ s1 s2 x, evaluateForest cols1 n1 nt1 forest = ok (.ok, some s1) ∧
      evaluateForest cols2 n2 nt2 forest = ok (.ok, some s2) ∧ s1[i]? = some x ∧ s2[j]? = some x := by
  obtain ⟨s1, a1, a2, a3⟩ := C37_prediction h1 hnt1 forest (fun name hn => by
    obtain ⟨c1, c2, g1, _, _⟩ := hsame name hn; rw [g1]; simp) hf1
  obtain ⟨s2, b1, b2, b3⟩ := C37_prediction h2 hnt2 forest (fun name hn => by
    obtain ⟨c1, c2, _, g1, _⟩ := hsame name hn; rw [g1]; simp) hf2
  obtain ⟨xs, k1, k2⟩ := a3 i hi
  obtain ⟨ys, l1, l2⟩ := b3 j hj
  have hcongr : ∀ (l : List (Tree D A)), (∀ t ∈ l, t ∈ forest) →
      l.mapM (fun t => scoreOf cols1 t i) = l.mapM (fun t => scoreOf cols2 t j) := by
    intro l
    induction l with
    | nil => intro _; rfl
    | cons t l ih =>
      intro hm
      have ht : t ∈ forest := hm t (by simp)
      have : scoreOf cols1 t i = scoreOf cols2 t j := by
        rw [scoreOf, scoreOf, C38_same_values_same_leaf t (fun name hn =>
          hsame name (by rw [forestFeatures, List.mem_flatMap]; exact ⟨t, ht, hn⟩))]
      rw [List.mapM_cons, List.mapM_cons, this, ih (fun x hx => hm x (by simp [hx]))]
  rw [hcongr forest (fun _ h => h), l1, Option.some.injEq] at k1
  subst k1
  exact ⟨s1, s2, _, a1, b1, k2, l2⟩

/-- **C38 (columns).** String columns hold the same value in two rows exactly when the strings fed were the same; small
float columns when the numbers fed were. -/
theorem C38_same_string (b1 b2 : List (List String)) (h1 : b1.flatten.length + 1 < 2 ^ 32)
    (h2 : b2.flatten.length + 1 < 2 ^ 32) {i j : Nat} (hi : i < b1.flatten.length) (hj : j < b2.flatten.length) :
    SameValue (.str (StrCol.build b1) : Column A) i (.str (StrCol.build b2)) j ↔
      b1.flatten[i] = b2.flatten[j] := by
  have e1 := (C01_string_roundtrip b1 h1).2 i hi
  have e2 := (C01_string_roundtrip b2 h2).2 j hj
  simp only [SameValue, e1, e2, Outcome.ok.injEq]
  constructor
  · rintro ⟨x, h, h'⟩; rw [h, h']
  · intro h; exact ⟨_, rfl, h.symm⟩

theorem C38_same_float {fmax : A} {nb1 nb2 : Nat} {b1 b2 : List (List (Fl A))} {c1 c2 : BktCol A}
    (hf1 : Fits nb1 b1) (hok1 : BktCol.build fmax nb1 b1 = ok c1) (hn1 : b1.flatten.length < 2 * nb1)
    (hf2 : Fits nb2 b2) (hok2 : BktCol.build fmax nb2 b2 = ok c2) (hn2 : b2.flatten.length < 2 * nb2)
    {i j : Nat} (hi : i < b1.flatten.length) (hj : j < b2.flatten.length) :
    SameValue (.bkt c1) i (.bkt c2) j ↔ b1.flatten[i] = b2.flatten[j] := by
  have m1 := (C03_missing_iff_nan hf1 hok1).2 i hi
  have m2 := (C03_missing_iff_nan hf2 hok2).2 j hj
  have g1 := List.getElem?_eq_getElem hi
  have g2 := List.getElem?_eq_getElem hj
  simp only [SameValue, m1, m2]
  cases hv1 : b1.flatten[i] with
  | nan =>
    cases hv2 : b2.flatten[j] with
    | nan => simp
    | num v2 => simp
  | num v1 =>
    cases hv2 : b2.flatten[j] with
    | nan => simp
    | num v2 =>
      rw [hv1] at g1
      rw [hv2] at g2
      have e1 := (C07_few_values_exact hf1 hok1 hn1 g1).2
      have e2 := (C07_few_values_exact hf2 hok2 hn2 g2).2
      simp only [e1, e2, Outcome.ok.injEq, reduceCtorEq, decide_false, Bool.false_eq_true, and_self, true_and,
        false_or, Fl.num.injEq]
      constructor
      · rintro ⟨x, h, h'⟩
        rw [← h, Fl.num.injEq] at h'
        exact h'.symm
      · intro h; exact ⟨_, rfl, by rw [h]⟩

/-- Another store with the rows 4, 1 of `sampleCols` in this order and another row in front: other codes, other buckets. -/
def otherCols (name : String) : Option (Column Int) :=
  if name = "color" then some (.str (StrCol.build [["q", "c"], ["a"]]))
  else if name = "size" then
    match BktCol.build (1000 : Int) 7 [[.num 4], [.num 9, .nan]] with
    | .ok c => some (.bkt c)
    | _ => none
  else none

/-- The hypotheses of the theorems of C38 for rows 4 and 1 here, and what comes out. -/
example : (∃ c1 c2, sampleCols "color" = some c1 ∧ otherCols "color" = some c2 ∧ SameValue c1 4 c2 1) ∧
    (match sampleCols "size", otherCols "size" with
      | some (.bkt c1), some (.bkt c2) => decide (c1.ints.missing 4 = ok false ∧ c2.ints.missing 1 = ok false ∧
          c1.rowMax 4 = c2.rowMax 1 ∧ c1.ints.missing 1 = ok true ∧ c2.ints.missing 2 = ok true)
      | _, _ => false) = true ∧
    evaluateForest otherCols 3 2 sampleForest = ok (.ok, some [11, 21/2, 21/2]) := by
  refine ⟨⟨_, _, rfl, rfl, ?_⟩, by decide +kernel, by decide +kernel⟩
  exact (C38_same_string [["b", "a"], ["__missing__", "b", "c"]] [["q", "c"], ["a"]] (by decide) (by decide) (i := 4) (j := 1)
    (by decide) (by decide)).mpr (by decide)

end Gbdt
