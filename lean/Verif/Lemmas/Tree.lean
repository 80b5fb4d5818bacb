import Verif.Lemmas.Score

/-!
# Trees and paths: helper lemmas
-/

set_option autoImplicit false
set_option linter.unusedSectionVars false

namespace Gbdt

open Outcome

variable {D A : Type}


theorem IsLeafAt.unique {t : Tree D A} {q : List Bool} {x y : D} {sp sq : Option (Split D A)} (h1 : IsLeafAt t q x sp)
    (h2 : IsLeafAt t q y sq) : x = y ∧ sp = sq := by
  rw [IsLeafAt] at h1 h2
  rw [h1] at h2
  cases h2
  exact ⟨rfl, rfl⟩

/-- A new leaf. -/
abbrev leaf (x : D) (sp : Option (Split D A)) : Tree D A := .node x sp .absent .absent

theorem at?_leaf {x y : D} {sp sq : Option (Split D A)} {q : List Bool} :
    IsLeafAt (leaf x sp) q y sq ↔ q = [] ∧ y = x ∧ sq = sp := by
  cases q with
  | nil => simp [IsLeafAt, Tree.at?]; tauto
  | cons b q => cases b <;> simp [IsLeafAt, Tree.at?]

theorem not_at?_absent {q : List Bool} {x : D} {sp : Option (Split D A)} : ¬ IsLeafAt (.absent : Tree D A) q x sp := by
  cases q <;> simp [IsLeafAt, Tree.at?]

theorem isLeafAt_nil {s x : D} {sp sx : Option (Split D A)} {l r : Tree D A} :
    IsLeafAt (.node s sp l r) [] x sx ↔ s = x ∧ sp = sx ∧ l = .absent ∧ r = .absent := by
  simp [IsLeafAt, Tree.at?]

theorem isLeafAt_cons {s x : D} {sp sx : Option (Split D A)} {l r : Tree D A} {b : Bool} {q : List Bool} :
    IsLeafAt (.node s sp l r) (b :: q) x sx ↔ IsLeafAt (if b then r else l) q x sx := by
  cases b <;> simp [IsLeafAt, Tree.at?]

theorem graft_ne_absent {t : Tree D A} (ht : t ≠ .absent) (p : List Bool) (nl nr : Tree D A) :
    t.graft p nl nr ≠ .absent := by
  cases t with
  | absent => exact absurd rfl ht
  | node s sp l r =>
    cases p with
    | nil => simp [Tree.graft]
    | cons b p => cases b <;> simp [Tree.graft]

theorem IsLeafAt.ne_absent {t : Tree D A} {q : List Bool} {x : D} {sp : Option (Split D A)} (h : IsLeafAt t q x sp) :
    t ≠ .absent := by
  rintro rfl
  exact not_at?_absent h

/-- The leaves after a leaf got two children. -/
theorem isLeafAt_graft {a b : D} {sa sb : Option (Split D A)} : ∀ {t : Tree D A} {p q : List Bool} {s x : D}
    {sp sx : Option (Split D A)}, IsLeafAt t p s sp →
    (IsLeafAt (t.graft p (leaf a sa) (leaf b sb)) q x sx ↔
      (q ≠ p ∧ IsLeafAt t q x sx) ∨ (q = p ++ [false] ∧ x = a ∧ sx = sa) ∨ (q = p ++ [true] ∧ x = b ∧ sx = sb)) := by
  intro t
  induction t with
  | absent => intro p q s x sp sx h; exact absurd h not_at?_absent
  | node s0 sp0 l r ihl ihr =>
    intro p q s x sp sx h
    cases p with
    | nil =>
      obtain ⟨rfl, rfl, rfl, rfl⟩ := isLeafAt_nil.mp h
      rw [Tree.graft]
      cases q with
      | nil => simp [isLeafAt_nil]
      | cons c q =>
        rw [isLeafAt_cons, isLeafAt_cons]
        cases c
        · simp only [Bool.false_eq_true, if_false, at?_leaf]
          have := not_at?_absent (q := q) (x := x) (sp := sx)
          simp [this]
        · simp only [if_true, at?_leaf]
          have := not_at?_absent (q := q) (x := x) (sp := sx)
          simp [this]
    | cons c p =>
      rw [isLeafAt_cons] at h
      have hne := h.ne_absent
      cases c with
      | true =>
        simp only [if_true] at h hne
        rw [Tree.graft, if_pos rfl]
        cases q with
        | nil => simp [isLeafAt_nil, hne, graft_ne_absent hne]
        | cons d q =>
          rw [isLeafAt_cons, isLeafAt_cons]
          cases d with
          | true => simp only [if_true, ihr h]; simp
          | false => simp
      | false =>
        simp only [Bool.false_eq_true, if_false] at h hne
        rw [Tree.graft, if_neg (by simp)]
        cases q with
        | nil => simp [isLeafAt_nil, hne, graft_ne_absent hne]
        | cons d q =>
          rw [isLeafAt_cons, isLeafAt_cons]
          cases d with
          | false => simp only [Bool.false_eq_true, if_false, ihl h]; simp
          | true => simp

theorem wellFormed_node {P : Split D A → Prop} {s : D} {sp : Option (Split D A)} {l r : Tree D A} :
    (Tree.node s sp l r).WellFormed P ↔ (l = .absent ∧ r = .absent) ∨
      ((∃ s, sp = some s ∧ P s) ∧ l.WellFormed P ∧ r.WellFormed P) := by
  cases l <;> cases r <;> simp [Tree.WellFormed]

theorem countLeaves_node {s : D} {sp : Option (Split D A)} {l r : Tree D A} (h : ¬ (l = .absent ∧ r = .absent)) :
    (Tree.node s sp l r).countLeaves = l.countLeaves + r.countLeaves := by
  cases l <;> cases r <;> simp_all [Tree.countLeaves]

theorem countLeaves_graft {a b : D} {sa sb : Option (Split D A)} : ∀ {t : Tree D A} {p : List Bool} {s : D}
    {sp : Option (Split D A)}, IsLeafAt t p s sp →
    (t.graft p (leaf a sa) (leaf b sb)).countLeaves = t.countLeaves + 1 := by
  intro t
  induction t with
  | absent => intro p s sp h; exact absurd h not_at?_absent
  | node s0 sp0 l r ihl ihr =>
    intro p s sp h
    cases p with
    | nil =>
      obtain ⟨rfl, rfl, rfl, rfl⟩ := isLeafAt_nil.mp h
      rfl
    | cons c p =>
      rw [isLeafAt_cons] at h
      have hne := h.ne_absent
      cases c with
      | true =>
        simp only [if_true] at h hne
        rw [Tree.graft, if_pos rfl, countLeaves_node (by simp [graft_ne_absent hne]), ihr h,
          countLeaves_node (by simp [hne])]
        omega
      | false =>
        simp only [Bool.false_eq_true, if_false] at h hne
        rw [Tree.graft, if_neg (by simp), countLeaves_node (by simp [graft_ne_absent hne]), ihl h,
          countLeaves_node (by simp [hne])]
        omega

theorem wellFormed_graft {P : Split D A → Prop} {a b : D} {sa sb : Option (Split D A)} : ∀ {t : Tree D A} {p : List Bool}
    {s : D} {sp : Split D A}, IsLeafAt t p s (some sp) → P sp → t.WellFormed P →
    (t.graft p (leaf a sa) (leaf b sb)).WellFormed P := by
  intro t
  induction t with
  | absent => intro p s sp h; exact absurd h not_at?_absent
  | node s0 sp0 l r ihl ihr =>
    intro p s sp h hP hw
    cases p with
    | nil =>
      obtain ⟨rfl, rfl, rfl, rfl⟩ := isLeafAt_nil.mp h
      rw [Tree.graft, wellFormed_node]
      exact Or.inr ⟨⟨sp, rfl, hP⟩, trivial, trivial⟩
    | cons c p =>
      rw [isLeafAt_cons] at h
      have hne := h.ne_absent
      rw [wellFormed_node] at hw
      cases c with
      | true =>
        simp only [if_true] at h hne
        rcases hw with hw | ⟨h1, h2, h3⟩
        · exact absurd hw.2 hne
        rw [Tree.graft, if_pos rfl, wellFormed_node]
        exact Or.inr ⟨h1, h2, ihr h hP h3⟩
      | false =>
        simp only [Bool.false_eq_true, if_false] at h hne
        rcases hw with hw | ⟨h1, h2, h3⟩
        · exact absurd hw.1 hne
        rw [Tree.graft, if_neg (by simp), wellFormed_node]
        exact Or.inr ⟨h1, ihl h hP h2, h3⟩

theorem wellFormed_imp {P Q : Split D A → Prop} (hPQ : ∀ s, P s → Q s) : ∀ {t : Tree D A}, t.WellFormed P → t.WellFormed Q := by
  intro t
  induction t with
  | absent => exact fun h => h
  | node s0 sp0 l r ihl ihr =>
    rw [wellFormed_node, wellFormed_node]
    rintro (h | ⟨⟨s, h1, h2⟩, h3, h4⟩)
    · exact Or.inl h
    · exact Or.inr ⟨⟨s, h1, hPQ s h2⟩, ihl h3, ihr h4⟩

variable [LinearOrder A]

theorem leafOf_node [Zero D] {columns : String → Option (Column A)} {score : D} {s : Split D A} {l r : Tree D A}
    {c : Column A} {i : Nat} {b : Bool} (hl : l ≠ .absent) (hc : columns s.feature = some c)
    (hb : sendsLeft c s i = some b) :
    leafOf columns (.node score (some s) l r) i =
      (leafOf columns (if b then l else r) i).map (fun x => ((!b) :: x.1, x.2)) := by
  cases l with
  | absent => exact absurd rfl hl
  | node a d e f =>
    rw [leafOf]
    simp only [hc, hb]
    cases b <;> rfl

theorem WellFormed.ne_absent {P : Split D A → Prop} {t : Tree D A} (h : t.WellFormed P) : t ≠ .absent := by
  rintro rfl
  exact h

/-- In a tree with two children or none, what a row reaches is a leaf. -/
theorem leafOf_isLeafAt [Zero D] {columns : String → Option (Column A)} {P : Split D A → Prop} :
    ∀ {t : Tree D A} {i : Nat} {q : List Bool} {x : D}, t.WellFormed P → leafOf columns t i = some (q, x) →
      ∃ sp, IsLeafAt t q x sp := by
  intro t
  induction t with
  | absent => intro i q x h; exact absurd h id
  | node s0 sp0 l r ihl ihr =>
    intro i q x hw h
    rw [wellFormed_node] at hw
    rcases hw with ⟨rfl, rfl⟩ | ⟨⟨s, rfl, _⟩, h2, h3⟩
    · rw [leafOf, Option.some.injEq, Prod.mk.injEq] at h
      obtain ⟨rfl, rfl⟩ := h
      exact ⟨sp0, rfl⟩
    · have hl := WellFormed.ne_absent h2
      cases hc : columns s.feature with
      | none =>
        cases l with
        | absent => exact absurd rfl hl
        | node a b c d => simp [leafOf, hc] at h
      | some c =>
        cases hb : sendsLeft c s i with
        | none =>
          cases l with
          | absent => exact absurd rfl hl
          | node a b c d => simp [leafOf, hc, hb] at h
        | some b =>
          rw [leafOf_node hl hc hb, Option.map_eq_some_iff] at h
          obtain ⟨⟨q', x'⟩, h4, h5⟩ := h
          simp only [Prod.mk.injEq] at h5
          obtain ⟨rfl, rfl⟩ := h5
          cases b with
          | true =>
            obtain ⟨sp, h6⟩ := ihl h2 h4
            exact ⟨sp, by rw [isLeafAt_cons]; exact h6⟩
          | false =>
            obtain ⟨sp, h6⟩ := ihr h3 h4
            exact ⟨sp, by rw [isLeafAt_cons]; exact h6⟩

/-- Rows that reach other leaves still do. -/
theorem leafOf_graft_ne [Zero D] {columns : String → Option (Column A)} {P : Split D A → Prop} {a b : D}
    {sa sb : Option (Split D A)} : ∀ {t : Tree D A} {p : List Bool} {s : D} {sp : Option (Split D A)} {i : Nat}
    {q : List Bool} {x : D}, IsLeafAt t p s sp → t.WellFormed P → leafOf columns t i = some (q, x) → q ≠ p →
    leafOf columns (t.graft p (leaf a sa) (leaf b sb)) i = some (q, x) := by
  intro t
  induction t with
  | absent => intro p s sp i q x h; exact absurd h not_at?_absent
  | node s0 sp0 l r ihl ihr =>
    intro p s sp i q x h hw hleaf hq
    cases p with
    | nil =>
      obtain ⟨rfl, rfl, rfl, rfl⟩ := isLeafAt_nil.mp h
      rw [leafOf, Option.some.injEq, Prod.mk.injEq] at hleaf
      exact absurd hleaf.1.symm hq
    | cons c p =>
      rw [isLeafAt_cons] at h
      have hne := h.ne_absent
      rw [wellFormed_node] at hw
      rcases hw with ⟨rfl, rfl⟩ | ⟨⟨sx, rfl, _⟩, h2, h3⟩
      · cases c <;> exact absurd rfl hne
      have hl := WellFormed.ne_absent h2
      obtain ⟨col, hc⟩ : ∃ col, columns sx.feature = some col := by
        cases hc : columns sx.feature with
        | none =>
          cases l with
          | absent => exact absurd rfl hl
          | node a b c d => simp [leafOf, hc] at hleaf
        | some c => exact ⟨c, rfl⟩
      obtain ⟨b', hb⟩ : ∃ b', sendsLeft col sx i = some b' := by
        cases hb : sendsLeft col sx i with
        | none =>
          cases l with
          | absent => exact absurd rfl hl
          | node a b c d => simp [leafOf, hc, hb] at hleaf
        | some b => exact ⟨b, rfl⟩
      rw [leafOf_node hl hc hb, Option.map_eq_some_iff] at hleaf
      obtain ⟨⟨q', x'⟩, h4, h5⟩ := hleaf
      simp only [Prod.mk.injEq] at h5
      obtain ⟨rfl, rfl⟩ := h5
      cases c with
      | true =>
        simp only [if_true] at h hne
        rw [Tree.graft, if_pos rfl, leafOf_node hl hc hb, Option.map_eq_some_iff]
        refine ⟨(q', x'), ?_, rfl⟩
        cases b' with
        | true => exact h4
        | false => exact ihr h h3 h4 (fun e => hq (by rw [e]; rfl))
      | false =>
        simp only [Bool.false_eq_true, if_false] at h hne
        rw [Tree.graft, if_neg (by simp), leafOf_node (graft_ne_absent hne _ _ _) hc hb, Option.map_eq_some_iff]
        refine ⟨(q', x'), ?_, rfl⟩
        cases b' with
        | true => exact ihl h h2 h4 (fun e => hq (by rw [e]; rfl))
        | false => exact h4

/-- Rows that reached the leaf go on to one of its children. -/
theorem leafOf_graft_eq [Zero D] {columns : String → Option (Column A)} {P : Split D A → Prop} {a b : D}
    {sa sb : Option (Split D A)} {sp : Split D A} {c : Column A} (hcol : columns sp.feature = some c) :
    ∀ {t : Tree D A} {p : List Bool} {s : D} {i : Nat} {x : D} {d : Bool}, IsLeafAt t p s (some sp) → t.WellFormed P →
    leafOf columns t i = some (p, x) → sendsLeft c sp i = some d →
    leafOf columns (t.graft p (leaf a sa) (leaf b sb)) i = some (p ++ [!d], if d then a else b) := by
  intro t
  induction t with
  | absent => intro p s i x d h; exact absurd h not_at?_absent
  | node s0 sp0 l r ihl ihr =>
    intro p s i x d h hw hleaf hd
    cases p with
    | nil =>
      obtain ⟨rfl, rfl, rfl, rfl⟩ := isLeafAt_nil.mp h
      rw [Tree.graft, leafOf_node (by simp) hcol hd]
      cases d <;> simp [leafOf]
    | cons e p =>
      rw [isLeafAt_cons] at h
      have hne := h.ne_absent
      rw [wellFormed_node] at hw
      rcases hw with ⟨rfl, rfl⟩ | ⟨⟨sx, rfl, _⟩, h2, h3⟩
      · cases e <;> exact absurd rfl hne
      have hl := WellFormed.ne_absent h2
      obtain ⟨col, hc⟩ : ∃ col, columns sx.feature = some col := by
        cases hc : columns sx.feature with
        | none =>
          cases l with
          | absent => exact absurd rfl hl
          | node a b c d => simp [leafOf, hc] at hleaf
        | some c => exact ⟨c, rfl⟩
      obtain ⟨b', hb⟩ : ∃ b', sendsLeft col sx i = some b' := by
        cases hb : sendsLeft col sx i with
        | none =>
          cases l with
          | absent => exact absurd rfl hl
          | node a b c d => simp [leafOf, hc, hb] at hleaf
        | some b => exact ⟨b, rfl⟩
      rw [leafOf_node hl hc hb, Option.map_eq_some_iff] at hleaf
      obtain ⟨⟨q', x'⟩, h4, h5⟩ := hleaf
      simp only [Prod.mk.injEq, List.cons.injEq] at h5
      obtain ⟨⟨rfl, rfl⟩, rfl⟩ := h5
      cases b' with
      | false =>
        simp only [Bool.not_false, if_true] at h hne
        rw [Tree.graft, Bool.not_false, if_pos rfl, leafOf_node hl hc hb]
        simp only [Bool.false_eq_true, if_false]
        rw [ihr h h3 h4 hd]
        rfl
      | true =>
        simp only [Bool.not_true, Bool.false_eq_true, if_false] at h hne
        rw [Tree.graft, Bool.not_true, if_neg (by simp), leafOf_node (graft_ne_absent hne _ _ _) hc hb]
        simp only [if_true]
        rw [ihl h h2 h4 hd]
        rfl

/-- A well-formed tree whose splits fit the columns can be scored. -/
theorem scorable_of_wellFormed {columns : String → Option (Column A)} : ∀ {t : Tree D A},
    t.WellFormed (fun s => ∃ c, columns s.feature = some c ∧ SplitFits c s) → Scorable columns t := by
  intro t
  induction t with
  | absent => intro _; trivial
  | node s0 sp0 l r ihl ihr =>
    rw [wellFormed_node]
    rintro (⟨rfl, rfl⟩ | ⟨⟨s, rfl, c, h1, h2⟩, h3, h4⟩)
    · trivial
    · cases l with
      | absent => exact absurd h3 id
      | node a b c d => exact ⟨⟨s, _, rfl, h1, h2⟩, ihl h3, ihr h4⟩

end Gbdt
