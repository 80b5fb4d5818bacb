import Verif.Model.Pipeline
import Verif.Lemmas.DataStore
import Verif.Lemmas.PyStore
import Verif.Props.TrainLosses

/-!
# Lemmas about training and prediction from Python
-/

set_option autoImplicit false
set_option linter.unusedSectionVars false

namespace Gbdt

open Outcome

section names
variable {A : Type} [LinearOrder A]

theorem mem_namesOfType {s : Option (DataStore A)} (hk : ((s.getD []).map Prod.fst).Nodup) (ty : ColType) (name : String) :
    name ∈ namesOfType s ty ↔ ∃ c, (s.getD []).getColumn name = some c ∧ c.type = ty := by
  cases s with
  | none => simp [namesOfType, DataStore.getColumn]
  | some t =>
    simp only [namesOfType, DataStore.namesOf, List.mem_map, List.mem_filter, beq_iff_eq, Option.getD_some]
    constructor
    · rintro ⟨⟨_, c⟩, ⟨hm, hc⟩, rfl⟩
      exact ⟨c, (DataStore.get_some hk _ _).mpr hm, hc⟩
    · rintro ⟨c, hm, hc⟩
      exact ⟨(name, c), ⟨(DataStore.get_some hk _ _).mp hm, hc⟩, rfl⟩

end names

theorem raise_lib {α : Type} {e : Code} {k : PyRes α} {x : PyErr} (hk : k ≠ ok (.error x)) (h : raise e k = ok (.error x)) :
    ∃ y, x = .lib y := by
  unfold raise at h
  split at h
  · next y _ =>
    rw [Outcome.ok.injEq, Except.error.injEq] at h
    exact ⟨y, h.symm⟩
  · exact absurd h hk

section loss
variable {D A : Type} [Dbl D] [LinearOrder A]

/-- Whatever the loss, it is created and used, or the process crashes before it is used. -/
theorem withLoss_cases {R : Type} {mc : Machine D A} {c : Config D} {seed nt : Int}
    {k : ∀ S : Type, ((w y : Nat → D) → LossFunc S D) → Outcome R} {r : Outcome R} (h : withLoss mc c seed nt k = some r) :
    r = ub ∨ r = fatal ∨ ∃ S loss, r = k S loss := by
  unfold withLoss at h
  split at h
  case h_7 =>
    rw [Option.some.injEq] at h
    subst h
    simp only
    cases lambdaTable (discountOf mc.math.log mc.ofNat (dcgBaseOf mc c)) with
    | ok t => exact Or.inr (Or.inr ⟨_, _, rfl⟩)
    | ub => exact Or.inl rfl
    | fatal => exact Or.inr (Or.inl rfl)
  case h_8 => cases h
  all_goals
    rw [Option.some.injEq] at h
    exact Or.inr (Or.inr ⟨_, _, h.symm⟩)

/-- A loss that looks at one row at a time, as `CreateLossFunc` makes it. -/
structure PointOf (mc : Machine D A) (c : Config D) (nt : Int) (w y : Nat → D) (e : PointLoss D) : Prop where
  numThreads : e.numThreads = nt
  weights : e.w = w
  targets : e.y = y
  one : e.one = mc.math.one
  minusOne : e.minusOne = mc.minusOne
  mse : c.lossFunc = "mse" → e = mkPoint mc nt w y false (mseLoss mc.math)

/-- The losses that look at one row at a time. -/
theorem withLoss_point (mc : Machine D A) {c : Config D} (seed nt : Int)
    (hl : c.lossFunc ∈ ["mse", "logloss", "huberized_hinge"]) :
    ∃ e : (Nat → D) → (Nat → D) → PointLoss D, (∀ w y, PointOf mc c nt w y (e w y)) ∧
      ∀ {R : Type} (k : ∀ S : Type, ((w y : Nat → D) → LossFunc S D) → Outcome R),
        withLoss mc c seed nt k = some (k _ (fun w y => (e w y).toLoss)) := by
  simp only [List.mem_cons, List.not_mem_nil, or_false] at hl
  rcases hl with h | h | h
  · exact ⟨fun w y => mkPoint mc nt w y false (mseLoss mc.math), fun _ _ => ⟨rfl, rfl, rfl, rfl, rfl, fun _ => rfl⟩,
      fun k => by simp [withLoss, h]⟩
  · exact ⟨fun w y => mkPoint mc nt w y true (logLoss mc.math), fun _ _ => ⟨rfl, rfl, rfl, rfl, rfl, fun h' => by
      rw [h] at h'; exact absurd h' (by decide)⟩, fun k => by simp [withLoss, h]⟩
  · exact ⟨fun w y => mkPoint mc nt w y true (huberizedHinge mc.math), fun _ _ => ⟨rfl, rfl, rfl, rfl, rfl, fun h' => by
      rw [h] at h'; exact absurd h' (by decide)⟩, fun k => by simp [withLoss, h]⟩

/-- The length of a vector that is given is compared with the number of rows. -/
theorem wrongLength_ok {s : Option (DataStore A)} {m : Nat} (h : PyStore.len s = ok m) (l : List (Fl A)) :
    wrongLength s l = ok (decide (l ≠ [] ∧ m ≠ l.length)) := by
  unfold wrongLength
  by_cases hl : l = []
  · simp [hl]
  · rw [if_neg hl, h, ok_bind, pure_eq]
    congr 1
    rw [Bool.eq_iff_iff]
    simp [hl]

variable [ThrOps A]

/-- Exceptions of the compiled part are not `ValueError`. -/
theorem trainPyFull_lib {mc : Machine D A} {s : Option (DataStore A)} {c : Config D} {y w : List (Fl A)}
    {base : Option (List (Tree D A))} {seed nt : Int} {features : List String} {x : PyErr}
    (h : trainPyFull mc s c y w base seed nt features = ok (.error x)) : ∃ e, x = .lib e := by
  have hub : ∀ {α : Type} {x : PyErr}, (ub : PyRes α) ≠ ok (.error x) := by intro _ _ h; cases h
  unfold trainPyFull at h
  simp only [bind_eq_ok] at h
  obtain ⟨_, _, h⟩ := h
  · split at h
    · exact raise_lib hub h
    · rw [bind_eq_ok] at h
      obtain ⟨_, _, h⟩ := h
      split at h
      · exact raise_lib hub h
      · have ht : ∀ {x}, trainPyTargets mc s c y = ok (.error x) → ∃ e, x = .lib e := by
          intro x hx
          unfold trainPyTargets at hx
          split at hx
          · cases hx
          · split at hx
            · exact raise_lib hub hx
            · split at hx
              · cases hx
              · split at hx
                · exact raise_lib hub hx
                · cases hx
        have hrun : ∀ {t : DataStore A} {wf yf : Nat → D} {x : PyErr},
            trainPyRun mc t c wf yf base seed nt features = ok (.error x) → ∃ e, x = .lib e := by
          intro t wf yf x hx
          unfold trainPyRun at hx
          split at hx
          · exact raise_lib hub hx
          · next hr =>
            rcases withLoss_cases hr with rfl | rfl | ⟨S, loss, rfl⟩
            · cases hx
            · cases hx
            · split at hx
              · exact raise_lib hub hx
              · simp only [bind_eq_ok] at hx
                obtain ⟨n, _, r, _, hx⟩ := hx
                split at hx
                · cases hx
                · exact raise_lib (by intro h; cases h) hx
        unfold PyRes.andThen at h
        split at h
        · exact hrun h
        · next e he =>
          rw [Outcome.ok.injEq, Except.error.injEq] at h
          exact ht (h ▸ he)
        · cases h
        · cases h

end loss

/-! ## Stores -/

section stores
variable {A : Type} [LinearOrder A] [ThrOps A]

/-- A store as training needs it: different names, and columns with one row per sample and no number above `FLT_MAX`. -/
structure GoodStore (n : Nat) (t : DataStore A) : Prop where
  names : (t.map Prod.fst).Nodup
  rows : ∀ p ∈ t, TrainRows n p.2

theorem GoodStore.col {n : Nat} {t : DataStore A} (h : GoodStore n t) {name : String} {c : Column A}
    (hc : t.getColumn name = some c) : TrainRows n c :=
  h.rows (name, c) ((DataStore.get_some h.names _ _).mp hc)

theorem GoodStore.numRows {n : Nat} {t : DataStore A} (h : GoodStore n t) (hne : t ≠ []) : t.numRows = ok n := by
  rw [PyStore.numRows_of (fun p hp => PyStore.hasRows_size (h.rows p hp).hasRows), if_neg hne]

/-- A created column without numbers above `FLT_MAX`. -/
theorem createCol_trainRows {fmax : A} {nb : Nat} {t : ColType} {vals : List (Cell A)}
    (hfit : ∀ x ∈ vals, PyStore.Cell.Fit t x) (hl : vals.length < 2 ^ 31) (hnb : nb < 2 ^ 32)
    (hfin : ∀ v, Cell.num (Fl.num v) ∈ vals → v ≤ fmax) {c : Column A}
    (hc : PyStore.createCol fmax nb t vals = ok c) : TrainRows vals.length c := by
  have hr := (PyStore.createCol_rows hfit hl hnb hc).2
  cases t with
  | string =>
    rw [PyStore.createCol, Outcome.ok.injEq] at hc
    subst hc
    exact TrainRows.str _ (by simpa using PyStore.strings_length hfit) (by omega)
  | bucketized =>
    rw [PyStore.createCol, Column.createBucketized, bind_eq_ok] at hc
    obtain ⟨b, hb', hc⟩ := hc
    rw [pure_eq, Outcome.ok.injEq] at hc
    subst hc
    refine TrainRows.bkt fmax nb _ b (by simpa using PyStore.numbers_length (PyStore.fit_bkt hfit)) (by omega) hnb hb' ?_
    intro v hv
    rw [List.flatten_singleton] at hv
    apply hfin
    have key : ∀ l : List (Cell A), Fl.num v ∈ PyStore.numbers l → Cell.num (Fl.num v) ∈ l := by
      intro l
      induction l with
      | nil => intro h; cases h
      | cons x l ih =>
        cases x with
        | str s => intro h; exact List.mem_cons_of_mem _ (ih h)
        | num x =>
          intro h
          rw [PyStore.numbers] at h
          rcases List.mem_cons.mp h with h | h
          · rw [h]; exact List.mem_cons_self ..
          · exact List.mem_cons_of_mem _ (ih h)
    exact key _ hv
  | raw =>
    rw [PyStore.createCol, Outcome.ok.injEq] at hc
    subst hc
    generalize vals.length = n at hr
    cases hr with
    | raw c hlen => exact TrainRows.raw _ hlen

omit [ThrOps A] in
theorem forall₂_names {P : String × ColType × List (Cell A) → String × Column A → Prop}
    (hP : ∀ l p, P l p → p.1 = l.1) : ∀ (L : List (String × ColType × List (Cell A))) (cs : DataStore A),
    List.Forall₂ P L cs → cs.map Prod.fst = L.map (·.1) ∧ (∀ p ∈ cs, ∃ l ∈ L, P l p) ∧ ∀ l ∈ L, ∃ p ∈ cs, P l p
  | [], cs, h => by cases h; simp
  | a :: L, cs, h => by
    cases h with
    | @cons _ b _ cs hh ht =>
      obtain ⟨h1, h2, h3⟩ := forall₂_names hP L _ ht
      refine ⟨by rw [List.map_cons, List.map_cons, hP _ _ hh, h1], ?_, ?_⟩
      · intro p hp
        rcases List.mem_cons.mp hp with rfl | hp
        · exact ⟨a, List.mem_cons_self .., hh⟩
        · obtain ⟨l, hl, hl'⟩ := h2 p hp
          exact ⟨l, List.mem_cons_of_mem _ hl, hl'⟩
      · intro l hl
        rcases List.mem_cons.mp hl with rfl | hl
        · exact ⟨b, List.mem_cons_self .., hh⟩
        · obtain ⟨p, hp, hp'⟩ := h3 l hl
          exact ⟨p, List.mem_cons_of_mem _ hp, hp'⟩

/-- Adding columns of one length under different names, without numbers above `FLT_MAX`. -/
theorem addAll_good {fmax : A} {nb : Nat} (hnb : nb < 2 ^ 32) {place : DataStore A → DataStore A}
    (hplace : ∀ l, (place l).Perm l) {n : Nat} (hn : n < 2 ^ 31)
    {L : List (String × ColType × List (Cell A))} (hnames : (L.map (·.1)).Nodup)
    (hL : ∀ l ∈ L, l.2.2.length = n ∧ (∀ x ∈ l.2.2, PyStore.Cell.Fit l.2.1 x) ∧ ∀ v, Cell.num (Fl.num v) ∈ l.2.2 → v ≤ fmax)
    {d : Option (DataStore A)} (hd : PyStore.addAll fmax nb place none L = ok (.ok d)) :
    GoodStore n (d.getD []) ∧ (d.getD []).length = L.length ∧ (L ≠ [] → d ≠ none) ∧
      ∀ l ∈ L, ∃ c, (d.getD []).getColumn l.1 = some c ∧ c.type = l.2.1 := by
  have hor : ∀ l ∈ L, PyStore.createCol fmax nb l.2.1 l.2.2 = ub ∨
      ∃ c, PyStore.createCol fmax nb l.2.1 l.2.2 = ok c ∧ c.size = ok n := by
    intro l hl
    have := PyStore.createCol_ok_or_ub (fmax := fmax) (nb := nb) (hL l hl).2.1 (by have := (hL l hl).1; omega) hnb
    rwa [(hL l hl).1] at this
  have hall : ∀ l ∈ L, ∃ c, PyStore.createCol fmax nb l.2.1 l.2.2 = ok c ∧ c.size = ok n := by
    intro l hl
    refine (hor l hl).resolve_left (fun hub => ?_)
    rw [PyStore.addAll_ub hplace (n := n) L none [] List.Perm.nil (by simp) (by simpa using hnames) hor ⟨l, hl, hub⟩] at hd
    cases hd
  obtain ⟨d', cs, h1, h2, h3, h4⟩ := PyStore.addAll_ok hplace (n := n) L none [] List.Perm.nil (by simp)
    (by simpa using hnames) hall
  rw [hd, Outcome.ok.injEq, Except.ok.injEq] at h1
  subst h1
  rw [List.append_nil] at h3
  obtain ⟨k1, k2, k3⟩ := forall₂_names (fun _ _ h => h.1) L cs h2
  have hk : (d.getD []).Keys := by
    refine (h3.map Prod.fst).nodup_iff.mpr ?_
    rw [k1]
    exact hnames
  refine ⟨⟨hk, ?_⟩, ?_, ?_, ?_⟩
  · intro p hp
    obtain ⟨l, hl, _, hc⟩ := k2 p (h3.mem_iff.mp hp)
    obtain ⟨g1, g2, g3⟩ := hL l hl
    rw [← g1]
    exact createCol_trainRows g2 (by omega) hnb g3 hc
  · rw [h3.length_eq, ← List.length_map (f := Prod.fst) (as := cs), k1, List.length_map]
  · intro hne hx
    exact hne ((h4.mp hx).2)
  · intro l hl
    obtain ⟨p, hp, hp1, hc⟩ := k3 l hl
    obtain ⟨g1, g2, g3⟩ := hL l hl
    refine ⟨p.2, (DataStore.get_some hk _ _).mpr ?_, (PyStore.createCol_rows g2 (by omega) hnb hc).1⟩
    rw [← hp1]
    exact h3.mem_iff.mpr hp

end stores

end Gbdt
