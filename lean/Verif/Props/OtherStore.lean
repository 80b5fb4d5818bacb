import Verif.Spec.Forest
import Verif.Props.Pipeline

/-!
# C96, C97: a forest as a function of the values of a row
-/

set_option autoImplicit false
set_option linter.unusedSectionVars false

namespace Gbdt

open Outcome

section general
variable {D A : Type} [Dbl D] [LinearOrder A]

/-- What the forest says of a row: the scores of the leaves it reaches, added up in the order of the trees. -/
def forestValue (row : String → Option (Cell A)) (forest : List (Tree D A)) : Option D :=
  (forest.mapM (treeValue row)).map sumScores

/-- What scoring sees of row `i` of a column. -/
def ColSees (c : Column A) (i : Nat) (x : Cell A) : Prop :=
  match c, x with
  | .str c, .str s => c.rowString i = ok s
  | .bkt c, .num .nan => c.ints.missing i = ok true
  | .bkt c, .num (.num v) => c.ints.missing i = ok false ∧ c.rowMax i = ok (.num v)
  | _, _ => False

theorem ColSees.sendsLeft {c : Column A} {i : Nat} {x : Cell A} (h : ColSees c i x) (s : Split D A) :
    Gbdt.sendsLeft c s i = goesLeft s x := by
  cases c with
  | str c => cases x with
    | str y =>
      have h : c.rowString i = ok y := h
      simp only [Gbdt.sendsLeft, goesLeft, h]
      cases s.catSplit <;> rfl
    | num y => cases h
  | bkt c => cases x with
    | str y => cases h
    | num y => cases y with
      | nan =>
        have h : c.ints.missing i = ok true := h
        simp only [Gbdt.sendsLeft, goesLeft, h]
        cases s.floatSplit <;> rfl
      | num v =>
        have h : c.ints.missing i = ok false ∧ c.rowMax i = ok (.num v) := h
        simp only [Gbdt.sendsLeft, goesLeft, h.1, h.2]
        cases s.floatSplit <;> rfl
  | raw c => cases h

/-- If scoring sees the values of `row`, then the score is the value of the tree. -/
theorem scoreOf_treeValue {columns : String → Option (Column A)} {i : Nat} {row : String → Option (Cell A)} : ∀ (t : Tree D A),
    (∀ name ∈ treeFeatures t, ∃ c x, columns name = some c ∧ row name = some x ∧ ColSees c i x) →
    scoreOf columns t i = treeValue row t := by
  intro t
  induction t with
  | absent => intro _; rfl
  | node score split left right ihl ihr =>
    intro h
    cases left with
    | absent => rfl
    | node a b c d =>
      cases split with
      | none => rfl
      | some s =>
        obtain ⟨col, x, h1, h2, h3⟩ := h s.feature (by simp [treeFeatures])
        have hl := ihl (fun name hn => h name (by simp only [treeFeatures, List.mem_append] at hn ⊢; tauto))
        have hr := ihr (fun name hn => h name (by simp only [treeFeatures, List.mem_append] at hn ⊢; tauto))
        simp only [scoreOf] at hl hr
        simp only [scoreOf, leafOf, treeValue, h1, h2, h3.sendsLeft, Option.bind_some]
        cases goesLeft s x with
        | none => rfl
        | some b => cases b with
          | true => simp only [Option.map_map]; exact hl
          | false => simp only [Option.map_map]; exact hr

theorem TypedTree.feature {kind : String → Option ColType} {name : String} : ∀ {t : Tree D A}, TypedTree kind t →
    name ∈ treeFeatures t → kind name = some .bucketized ∨ kind name = some .string
  | .absent, _, h => by cases h
  | .node score split left right, ⟨_, h2, h3, h4⟩, h => by
    simp only [treeFeatures, List.mem_append] at h
    rcases h with (h | h) | h
    · cases split with
      | none => cases h
      | some s =>
        rw [List.mem_singleton.mp h]
        rcases h2 s rfl with h | h
        · exact Or.inl h.1
        · exact Or.inr h.1
    · exact h3.feature h
    · exact h4.feature h

/-- The columns have the types that `kind` tells. -/
def HasKinds (columns : String → Option (Column A)) (kind : String → Option ColType) : Prop :=
  ∀ name ty, kind name = some ty → ∃ c, columns name = some c ∧ c.type = ty

theorem TypedTree.scorable {kind : String → Option ColType} {columns : String → Option (Column A)} (hk : HasKinds columns kind) :
    ∀ {t : Tree D A}, TypedTree kind t → Scorable columns t
  | .absent, _ => trivial
  | .node _ _ .absent _, _ => trivial
  | .node score split (.node sc sp l r) right, ⟨h1, h2, h3, h4⟩ => by
    refine ⟨?_, h3.scorable hk, h4.scorable hk⟩
    cases split with
    | none => cases h1 rfl
    | some s =>
      rcases h2 s rfl with ⟨g1, f, g2⟩ | ⟨g1, cs, g2, g3⟩
      · obtain ⟨c, k1, k2⟩ := hk _ _ g1
        refine ⟨s, c, rfl, k1, ?_⟩
        cases c with
        | bkt c => exact ⟨f, g2⟩
        | str c => cases k2
        | raw c => cases k2
      · obtain ⟨c, k1, k2⟩ := hk _ _ g1
        refine ⟨s, c, rfl, k1, ?_⟩
        cases c with
        | str c => exact ⟨cs, g2, Or.inl g3⟩
        | bkt c => cases k2
        | raw c => cases k2

/-- A store whose columns have the right types can be predicted on, and if scoring sees the values of `row i` in row `i`, the
prediction is the value of the forest. -/
theorem predict_forestValue {t : DataStore A} {n : Nat} (hrows : ∀ name c, t.getColumn name = some c → HasRows n c)
    (hnum : t.numRows = ok n) {kind : String → Option ColType} (hk : HasKinds t.getColumn kind) {forest : List (Tree D A)}
    (hf : ∀ tr ∈ forest, TypedTree kind tr) {nt : Int} (hnt : 0 < nt) {row : Nat → String → Option (Cell A)}
    (hrow : ∀ i < n, ∀ name ∈ forestFeatures forest, ∃ c x, t.getColumn name = some c ∧ row i name = some x ∧ ColSees c i x) :
    ∃ scores, pyPredict (some t) forest nt = ok (.ok scores) ∧ scores.length = n ∧
      ∀ i < n, ∃ x, scores[i]? = some x ∧ forestValue (row i) forest = some x := by
  obtain ⟨scores, h1, h2, h3⟩ := C37_prediction (columns := t.getColumn) hrows hnt forest (by
    intro name hn
    rw [forestFeatures, List.mem_flatMap] at hn
    obtain ⟨tr, htr, hn⟩ := hn
    rcases (hf tr htr).feature hn with h | h <;> obtain ⟨c, hc, _⟩ := hk _ _ h <;> rw [hc] <;> simp)
    (fun tr htr => (hf tr htr).scorable hk)
  refine ⟨scores, by simp only [pyPredict, hnum, h1, if_true, Option.getD_some], h2, ?_⟩
  intro i hi
  obtain ⟨xs, k1, k2⟩ := h3 i hi
  refine ⟨_, k2, ?_⟩
  have hcongr : ∀ (l : List (Tree D A)), (∀ tr ∈ l, tr ∈ forest) →
      l.mapM (fun tr => scoreOf t.getColumn tr i) = l.mapM (treeValue (row i)) := by
    intro l
    induction l with
    | nil => intro _; rfl
    | cons tr l ih =>
      intro hm
      rw [List.mapM_cons, List.mapM_cons, ih (fun x hx => hm x (List.mem_cons_of_mem _ hx)),
        scoreOf_treeValue tr (row := row i) (fun name hn => hrow i hi name (by
          rw [forestFeatures, List.mem_flatMap]; exact ⟨tr, hm tr (List.mem_cons_self ..), hn⟩))]
  rw [forestValue, ← hcongr forest (fun _ h => h), k1]
  rfl

/-- A created column of few rows: scoring sees the values. -/
theorem createCol_sees {fmax : A} {nb : Nat} {ty : ColType} (hty : ty ≠ .raw) {vals : List (Cell A)}
    (hfit : ∀ x ∈ vals, PyStore.Cell.Fit ty x) (hl : vals.length < 2 ^ 31) (hnb : nb < 2 ^ 32) (hsmall : vals.length < 2 * nb)
    {c : Column A} (hc : PyStore.createCol fmax nb ty vals = ok c) {j : Nat} {x : Cell A} (hj : vals[j]? = some x) :
    ColSees c j x := by
  have hjl : j < vals.length := (List.getElem?_eq_some_iff.mp hj).1
  cases ty with
  | raw => exact absurd rfl hty
  | string =>
    rw [PyStore.createCol, Outcome.ok.injEq] at hc
    subst hc
    obtain ⟨s, rfl, hs⟩ := PyStore.strings_get hfit hj
    have hlen := PyStore.strings_length hfit
    have hr := (C01_string_roundtrip [PyStore.strings vals] (by
      simp only [List.flatten_cons, List.flatten_nil, List.append_nil]; omega)).2
      j (by simp only [List.flatten_cons, List.flatten_nil, List.append_nil]; omega)
    simp only [List.flatten_cons, List.flatten_nil, List.append_nil] at hr
    have : (PyStore.strings vals)[j]'(by omega) = s := (List.getElem?_eq_some_iff.mp hs).2
    rw [this] at hr
    exact hr
  | bucketized =>
    have hfit' := PyStore.fit_bkt hfit
    obtain ⟨s, rfl, hs⟩ := PyStore.numbers_get hfit' hj
    have hlen := PyStore.numbers_length hfit'
    rw [PyStore.createCol, Column.createBucketized, bind_eq_ok] at hc
    obtain ⟨b, hb', hc⟩ := hc
    rw [pure_eq, Outcome.ok.injEq] at hc
    subst hc
    have hflat : [PyStore.numbers vals].flatten = PyStore.numbers vals := by simp
    have hf : Fits nb [PyStore.numbers vals] := ⟨by rw [hflat]; omega, hnb⟩
    have hm := (C03_missing_iff_nan hf hb').2 j (by rw [hflat]; omega)
    have hx : [PyStore.numbers vals].flatten[j]'(by rw [hflat]; omega) = s := by
      have := (List.getElem?_eq_some_iff.mp hs).2
      simpa using this
    rw [hx] at hm
    cases s with
    | nan =>
      show b.ints.missing j = ok true
      simpa using hm
    | num a =>
      exact ⟨by simpa using hm, (C07_few_values_exact hf hb' (by rw [hflat, hlen]; exact hsmall) (by rw [hflat]; exact hs)).2⟩

/-- The columns that adding leaves in the store are the created ones. -/
theorem addAll_created {fmax : A} {nb : Nat} (hnb : nb < 2 ^ 32) {place : DataStore A → DataStore A}
    (hplace : ∀ l, (place l).Perm l) {n : Nat} (hn : n < 2 ^ 31)
    {L : List (String × ColType × List (Cell A))} (hnames : (L.map (·.1)).Nodup)
    (hL : ∀ l ∈ L, l.2.2.length = n ∧ ∀ x ∈ l.2.2, PyStore.Cell.Fit l.2.1 x)
    {t : DataStore A} (hd : PyStore.addAll fmax nb place none L = ok (.ok (some t))) :
    t.numRows = ok n ∧ (t.map Prod.fst).Nodup ∧ (∀ p ∈ t, HasRows n p.2) ∧
      (∀ name c, t.getColumn name = some c → ∃ l ∈ L, l.1 = name ∧ PyStore.createCol fmax nb l.2.1 l.2.2 = ok c) ∧
      ∀ l ∈ L, ∃ c, t.getColumn l.1 = some c ∧ c.type = l.2.1 ∧ PyStore.createCol fmax nb l.2.1 l.2.2 = ok c := by
  have hor : ∀ l ∈ L, PyStore.createCol fmax nb l.2.1 l.2.2 = ub ∨
      ∃ c, PyStore.createCol fmax nb l.2.1 l.2.2 = ok c ∧ c.size = ok n := by
    intro l hl
    have := PyStore.createCol_ok_or_ub (fmax := fmax) (nb := nb) (hL l hl).2 (by have := (hL l hl).1; omega) hnb
    rwa [(hL l hl).1] at this
  have hall : ∀ l ∈ L, ∃ c, PyStore.createCol fmax nb l.2.1 l.2.2 = ok c ∧ c.size = ok n := by
    intro l hl
    refine (hor l hl).resolve_left (fun hub => ?_)
    rw [PyStore.addAll_ub hplace (n := n) L none [] List.Perm.nil (by simp) (by simpa using hnames) hor ⟨l, hl, hub⟩] at hd
    cases hd
  obtain ⟨d', cs, h1, h2, h3, h4⟩ := PyStore.addAll_ok hplace (n := n) L none [] List.Perm.nil (by simp)
    (by simpa using hnames) hall
  rw [hd, Outcome.ok.injEq, Except.ok.injEq] at h1
  subst h1
  rw [List.append_nil, Option.getD_some] at h3
  obtain ⟨k1, k2, k3⟩ := forall₂_names (fun _ _ h => h.1) L cs h2
  have hk : (t.map Prod.fst).Nodup := by
    refine (h3.map Prod.fst).nodup_iff.mpr ?_
    rw [k1]
    exact hnames
  have hrows : ∀ p ∈ t, HasRows n p.2 := by
    intro p hp
    obtain ⟨l, hl, _, hc⟩ := k2 p (h3.mem_iff.mp hp)
    have := (PyStore.createCol_rows (hL l hl).2 (by have := (hL l hl).1; omega) hnb hc).2
    rwa [(hL l hl).1] at this
  have hne : t ≠ [] := by
    rintro rfl
    have hcs := h3.symm.eq_nil
    subst hcs
    cases h2
    cases (h4.mpr ⟨rfl, rfl⟩)
  refine ⟨?_, hk, hrows, ?_, ?_⟩
  · rw [PyStore.numRows_of (fun p hp => PyStore.hasRows_size (hrows p hp)), if_neg hne]
  · intro name c hc
    obtain ⟨l, hl, hl1, hl2⟩ := k2 _ (h3.mem_iff.mp ((DataStore.get_some hk _ _).mp hc))
    exact ⟨l, hl, hl1.symm, hl2⟩
  · intro l hl
    obtain ⟨p, hp, hp1, hc⟩ := k3 l hl
    refine ⟨p.2, (DataStore.get_some hk _ _).mpr ?_, (PyStore.createCol_rows (hL l hl).2 (by
      have := (hL l hl).1; omega) hnb hc).1, hc⟩
    rw [← hp1]
    exact h3.mem_iff.mpr hp

/-! ## C96 -/

/-- Data as it is given to `from_dict`: the columns of numbers to be bucketized, of strings, and of raw numbers. -/
structure Dict (A : Type) where
  bucketized : List (String × List (Fl A)) := []
  strs : List (String × List String) := []
  raw : List (String × List (Fl A)) := []

/-- `n` values in every column, and different names. -/
structure Dict.Rows (d : Dict A) (n : Nat) : Prop where
  names : (d.bucketized.map Prod.fst ++ (d.strs.map Prod.fst ++ d.raw.map Prod.fst)).Nodup
  bucketized : ∀ p ∈ d.bucketized, p.2.length = n
  strs : ∀ p ∈ d.strs, p.2.length = n
  raw : ∀ p ∈ d.raw, p.2.length = n

/-- The type of the column of a name. -/
def Dict.kind (d : Dict A) (name : String) : Option ColType :=
  if (d.bucketized.lookup name).isSome then some .bucketized
  else if (d.strs.lookup name).isSome then some .string
  else if (d.raw.lookup name).isSome then some .raw
  else none

/-- Row `i` of the data, as far as it can be a feature. -/
def Dict.row (d : Dict A) (i : Nat) (name : String) : Option (Cell A) :=
  match d.bucketized.lookup name with
  | some vals => vals[i]?.map Cell.num
  | none => match d.strs.lookup name with
    | some vals => vals[i]?.map Cell.str
    | none => none

/-- `from_dict` (C81). -/
def Dict.store (d : Dict A) (fmax : A) (nb : Nat) (place : DataStore A → DataStore A) : PyRes (Option (DataStore A)) :=
  PyStore.fromDict fmax nb place d.bucketized d.strs d.raw

/-- The columns that `from_dict` adds. -/
def Dict.cols (d : Dict A) : List (String × ColType × List (Cell A)) :=
  d.bucketized.map (fun p => (p.1, .bucketized, p.2.map Cell.num)) ++
    (d.strs.map (fun p => (p.1, .string, p.2.map Cell.str)) ++ d.raw.map (fun p => (p.1, .raw, p.2.map Cell.num)))

theorem mem_of_lookup_eq {α : Type} {l : List (String × α)} {name : String} {v : α} (h : l.lookup name = some v) : (name, v) ∈ l := by
  induction l with
  | nil => cases h
  | cons p l ih =>
    obtain ⟨k, w⟩ := p
    rw [List.lookup_cons] at h
    split at h
    · next hk =>
      rw [beq_iff_eq] at hk
      cases h
      subst hk
      exact List.mem_cons_self ..
    · exact List.mem_cons_of_mem _ (ih h)

theorem Dict.Rows.cols {d : Dict A} {n : Nat} (h : d.Rows n) : (d.cols.map (·.1)).Nodup ∧
    ∀ l ∈ d.cols, l.2.2.length = n ∧ ∀ x ∈ l.2.2, PyStore.Cell.Fit l.2.1 x := by
  refine ⟨by simpa [Dict.cols, List.map_append, Function.comp_def] using h.names, ?_⟩
  intro l hl
  simp only [Dict.cols, List.mem_append, List.mem_map] at hl
  rcases hl with ⟨p, hp, rfl⟩ | ⟨p, hp, rfl⟩ | ⟨p, hp, rfl⟩
  · exact ⟨by simpa using h.bucketized p hp, by rintro x hx; obtain ⟨y, _, rfl⟩ := List.mem_map.mp hx; trivial⟩
  · exact ⟨by simpa using h.strs p hp, by rintro x hx; obtain ⟨y, _, rfl⟩ := List.mem_map.mp hx; trivial⟩
  · exact ⟨by simpa using h.raw p hp, by rintro x hx; obtain ⟨y, _, rfl⟩ := List.mem_map.mp hx; trivial⟩

theorem Dict.kind_bucketized {d : Dict A} {name : String} (h : d.kind name = some .bucketized) :
    ∃ vals, d.bucketized.lookup name = some vals := by
  unfold Dict.kind at h
  split at h
  · next h' => exact Option.isSome_iff_exists.mp h'
  · split at h
    · cases h
    · split at h <;> cases h

theorem Dict.kind_string {d : Dict A} {name : String} (h : d.kind name = some .string) :
    d.bucketized.lookup name = none ∧ ∃ vals, d.strs.lookup name = some vals := by
  unfold Dict.kind at h
  split at h
  · cases h
  · next hb =>
    split at h
    · next h' => exact ⟨Option.not_isSome_iff_eq_none.mp hb, Option.isSome_iff_exists.mp h'⟩
    · split at h <;> cases h

theorem Dict.kind_raw {d : Dict A} {name : String} (h : d.kind name = some .raw) : ∃ vals, d.raw.lookup name = some vals := by
  unfold Dict.kind at h
  split at h
  · cases h
  · split at h
    · cases h
    · split at h
      · next h' => exact Option.isSome_iff_exists.mp h'
      · cases h

/-- The column of the store behind a name. -/
theorem Dict.col_of {d : Dict A} {name : String} {ty : ColType} (h : d.kind name = some ty) :
    ∃ vals, (name, ty, vals) ∈ d.cols ∧ (ty ≠ .raw → ∀ i, d.row i name = vals[i]?) := by
  cases ty with
  | bucketized =>
    obtain ⟨vals, hv⟩ := Dict.kind_bucketized h
    refine ⟨vals.map Cell.num, ?_, fun _ i => ?_⟩
    · simp only [Dict.cols, List.mem_append, List.mem_map]
      exact Or.inl ⟨_, mem_of_lookup_eq hv, rfl⟩
    · simp [Dict.row, hv]
  | string =>
    obtain ⟨hn, vals, hv⟩ := Dict.kind_string h
    refine ⟨vals.map Cell.str, ?_, fun _ i => ?_⟩
    · simp only [Dict.cols, List.mem_append, List.mem_map]
      exact Or.inr (Or.inl ⟨_, mem_of_lookup_eq hv, rfl⟩)
    · simp [Dict.row, hn, hv]
  | raw =>
    obtain ⟨vals, hv⟩ := Dict.kind_raw h
    refine ⟨vals.map Cell.num, ?_, fun h => absurd rfl h⟩
    simp only [Dict.cols, List.mem_append, List.mem_map]
    exact Or.inr (Or.inr ⟨_, mem_of_lookup_eq hv, rfl⟩)

/-- **C96.** On data of fewer than 60000 rows, `predict` gives for every row the value that the forest has as a function of the
values of that row, whatever the other rows and columns are.  The forest may come from anywhere: its splits have to fit the
types of the columns. -/
theorem C96_predict (fmax : A) {nb : Nat} (hnb : nb < 2 ^ 32) {place : DataStore A → DataStore A}
    (hplace : ∀ l, (place l).Perm l) {d : Dict A} {n : Nat} (hd : d.Rows n) (hn : n < 2 ^ 31) (hsmall : n < 2 * nb)
    {t : DataStore A} (ht : d.store fmax nb place = ok (.ok (some t))) {forest : List (Tree D A)}
    (hf : ∀ tr ∈ forest, TypedTree d.kind tr) {nt : Int} (hnt : 0 < nt) :
    ∃ scores, pyPredict (some t) forest nt = ok (.ok scores) ∧ scores.length = n ∧
      ∀ i < n, ∃ x, scores[i]? = some x ∧ forestValue (d.row i) forest = some x := by
  obtain ⟨g1, g2, g3, _, g4⟩ := addAll_created (fmax := fmax) hnb hplace hn hd.cols.1 hd.cols.2 ht
  have hcol : ∀ name ty, d.kind name = some ty → ∃ vals c, (name, ty, vals) ∈ d.cols ∧
      (ty ≠ .raw → ∀ i, d.row i name = vals[i]?) ∧ t.getColumn name = some c ∧ c.type = ty ∧
      PyStore.createCol fmax nb ty vals = ok c := by
    intro name ty h
    obtain ⟨vals, h1, h2⟩ := Dict.col_of h
    obtain ⟨c, h3, h4, h5⟩ := g4 _ h1
    exact ⟨vals, c, h1, h2, h3, h4, h5⟩
  refine predict_forestValue (fun name c hc => g3 (name, c) ((DataStore.get_some g2 _ _).mp hc)) g1 (kind := d.kind) ?_ hf hnt ?_
  · intro name ty h
    obtain ⟨_, c, _, _, h3, h4, _⟩ := hcol name ty h
    exact ⟨c, h3, h4⟩
  · intro i hi name hname
    rw [forestFeatures, List.mem_flatMap] at hname
    obtain ⟨tr, htr, hname⟩ := hname
    have : ∃ ty, ty ≠ ColType.raw ∧ d.kind name = some ty := by
      rcases (hf tr htr).feature hname with h | h
      · exact ⟨_, by decide, h⟩
      · exact ⟨_, by decide, h⟩
    obtain ⟨ty, hty, hk⟩ := this
    obtain ⟨vals, c, h1, h2, h3, h4, h5⟩ := hcol name ty hk
    obtain ⟨hlen, hfit⟩ := hd.cols.2 _ h1
    simp only at hlen hfit
    have hx : vals[i]? = some (vals[i]'(by omega)) := List.getElem?_eq_getElem _
    exact ⟨c, _, h3, (h2 hty i).trans hx, createCol_sees hty hfit (by omega) hnb (by omega) h5 hx⟩

/-- The type that `get_column_type` reports. -/
def storeKind (t : DataStore A) (name : String) : Option ColType := (t.getColumn name).map Column.type

theorem lookup_isSome {α : Type} {l : List (String × α)} {p : String × α} (h : p ∈ l) : (l.lookup p.1).isSome = true := by
  induction l with
  | nil => cases h
  | cons q l ih =>
    rw [List.lookup_cons]
    split
    · rfl
    · next hk =>
      rcases List.mem_cons.mp h with rfl | h
      · simp at hk
      · exact ih h

/-- The store has the types of the data. -/
theorem Dict.storeKind {fmax : A} {nb : Nat} (hnb : nb < 2 ^ 32) {place : DataStore A → DataStore A}
    (hplace : ∀ l, (place l).Perm l) {d : Dict A} {n : Nat} (hd : d.Rows n) (hn : n < 2 ^ 31) {t : DataStore A}
    (ht : d.store fmax nb place = ok (.ok (some t))) (name : String) : Gbdt.storeKind t name = d.kind name := by
  obtain ⟨_, _, _, g3, g4⟩ := addAll_created (fmax := fmax) hnb hplace hn hd.cols.1 hd.cols.2 ht
  unfold Gbdt.storeKind
  cases hk : d.kind name with
  | some ty =>
    obtain ⟨vals, h1, _⟩ := Dict.col_of hk
    obtain ⟨c, h2, h3, _⟩ := g4 _ h1
    simp only at h2 h3
    rw [h2, Option.map_some, h3]
  | none =>
    cases hc : t.getColumn name with
    | none => rfl
    | some c =>
      exfalso
      obtain ⟨l, hl, rfl, _⟩ := g3 name c hc
      simp only [Dict.cols, List.mem_append, List.mem_map] at hl
      rcases hl with ⟨p, hp, rfl⟩ | ⟨p, hp, rfl⟩ | ⟨p, hp, rfl⟩
      · simp only [Dict.kind, lookup_isSome hp, if_true] at hk
        cases hk
      · simp only [Dict.kind, lookup_isSome hp, if_true] at hk
        split at hk <;> cases hk
      · simp only [Dict.kind, lookup_isSome hp, if_true] at hk
        split at hk
        · cases hk
        · split at hk <;> cases hk

theorem TypedTree.mono {k1 k2 : String → Option ColType} : ∀ {t : Tree D A}, TypedTree k1 t →
    (∀ name ∈ treeFeatures t, k2 name = k1 name) → TypedTree k2 t
  | .absent, _, _ => trivial
  | .node _ split left right, ⟨h1, h2, h3, h4⟩, h => by
    refine ⟨h1, ?_, h3.mono (fun name hn => h name ?_), h4.mono (fun name hn => h name ?_)⟩
    · intro s hs
      have := h s.feature (by simp [treeFeatures, hs])
      unfold TypedSplit
      rw [this]
      exact h2 s hs
    · simp only [treeFeatures, List.mem_append]; tauto
    · simp only [treeFeatures, List.mem_append]; tauto

theorem clearIndex_feature (s : Split D A) : (clearIndex s).feature = s.feature := rfl

/-- Removing what is internal leaves the tree fitting the types. -/
theorem TypedTree.clear {kind : String → Option ColType} : ∀ {t : Tree D A}, TypedTree kind t → TypedTree kind (clearInternal t)
  | .absent, _ => trivial
  | .node _ split left right, ⟨h1, h2, h3, h4⟩ => by
    refine ⟨?_, ?_, h3.clear, h4.clear⟩
    · cases split with
      | none => intro _; rw [h1 rfl]; rfl
      | some s =>
        cases left with
        | absent => intro _; rfl
        | node a b c d => intro h; simp [Tree.isSet] at h
    · intro s' hs'
      split at hs'
      · cases split with
        | none => cases hs'
        | some s =>
          rw [Option.map_some, Option.some.injEq] at hs'
          subst hs'
          rcases h2 s rfl with ⟨g1, f, g2⟩ | ⟨g1, cs, g2, g3⟩
          · exact Or.inl ⟨g1, f, g2⟩
          · exact Or.inr ⟨g1, { cs with index := [] }, by simp [clearIndex, g2], rfl⟩
      · cases hs'

/-- A fitted tree without what is internal fits the types of the columns, if no split is on a raw column. -/
theorem WellFormed.typed {columns : String → Option (Column A)} {P : Split D A → Prop}
    (hP : ∀ s, P s → ∃ c, columns s.feature = some c ∧ SplitFits c s ∧ c.type ≠ .raw) : ∀ {t : Tree D A}, t.WellFormed P →
    TypedTree (fun name => (columns name).map Column.type) (clearInternal t)
  | .absent, h => h.elim
  | .node score split left right, h => by
    by_cases hleaf : left = .absent ∧ right = .absent
    · obtain ⟨rfl, rfl⟩ := hleaf
      exact ⟨fun _ => rfl, fun s hs => by simp [Tree.isSet] at hs, trivial, trivial⟩
    · have h' : (∃ s, split = some s ∧ P s) ∧ left.WellFormed P ∧ right.WellFormed P := by
        cases left with
        | absent => cases right with
          | absent => exact absurd ⟨rfl, rfl⟩ hleaf
          | node => exact h
        | node => exact h
      obtain ⟨⟨s, rfl, hs⟩, hl, hr⟩ := h'
      refine ⟨?_, ?_, WellFormed.typed hP hl, WellFormed.typed hP hr⟩
      · cases left with
        | absent => intro _; rfl
        | node => intro h; simp [Tree.isSet] at h
      · intro s' hs'
        split at hs'
        · rw [Option.map_some, Option.some.injEq] at hs'
          subst hs'
          obtain ⟨c, h1, h2, h3⟩ := hP s hs
          unfold TypedSplit
          simp only [clearIndex_feature, h1, Option.map_some]
          cases c with
          | str c =>
            obtain ⟨cs, g1, _⟩ := h2
            exact Or.inr ⟨rfl, { cs with index := [] }, by simp [clearIndex, g1], rfl⟩
          | bkt c =>
            obtain ⟨f, g1⟩ := h2
            exact Or.inl ⟨rfl, f, g1⟩
          | raw c => exact absurd rfl h3
        · cases hs'

end general

section trained
variable {D A : Type} [Dbl D] [FpOrder D] [EqOrder D] [LinearOrder A] [ThrOps A]

/-- **C96 (trained forests).** The forest that `train` returns fits the types of the columns of the store, as those of the base
forest do. -/
theorem C96_trained {mc : Machine D A} {t : DataStore A} {n : Nat} {c : Config D} {base : Option (List (Tree D A))}
    {nt : Int} (hi : PyInput mc t n c base nt) (hbase : ∀ tr ∈ base.getD [], TypedTree (storeKind t) tr) {y w : List (Fl A)}
    {features : List String} {seed : Int} {forest : List (Tree D A)}
    (h : pyTrain mc (some t) c y features w base seed nt = ok (.ok forest)) : ∀ tr ∈ forest, TypedTree (storeKind t) tr := by
  rcases pyTrain_cases hi y w features seed with ⟨_, h'⟩ | ⟨wf, yf, e, r, names, hne, h1, hok, he, _, _, hn, hs, hr⟩
  · rw [h] at h'; cases h'
  · rw [h] at h1
    simp only [Outcome.ok.injEq, Except.ok.injEq] at h1
    subst h1
    obtain ⟨fitted, constants, g1, _, _, _, g5, _⟩ := C39_function_values (pointTrainData hs (e := e) (he.numThreads ▸ hi.threads)) hr hok
    intro tr htr
    rw [g1] at htr
    rcases List.mem_cons.mp htr with rfl | htr
    · exact ⟨fun _ => rfl, fun s hs => (by cases hs), trivial, trivial⟩
    · obtain ⟨t0, ht0, rfl⟩ := List.mem_map.mp htr
      rcases List.mem_append.mp ht0 with ht0 | ht0
      · exact (hbase t0 (List.mem_of_mem_filter ht0)).clear
      · refine WellFormed.typed (columns := t.getColumn) ?_ (g5 t0 ht0).2.2
        rintro s ⟨_, hs', c, hc, hfit⟩
        refine ⟨c, hc, hfit, ?_⟩
        obtain ⟨c', hc', hty⟩ := (hn _ hs').2
        rw [Option.getD_some] at hc'
        change t.getColumn s.feature = some c at hc
        rw [hc'] at hc
        cases hc
        rcases hty with h | h <;> rw [h] <;> decide

/-- **C96 (new data).** A forest trained on one store predicts on every other one, of fewer than 60000 rows, in which the features
have the same types: no exception, no crash, and the prediction of a row is the value of the forest for the values of
that row. -/
theorem C96_new_data {mc : Machine D A} {t : DataStore A} {n : Nat} {c : Config D} {nt : Int} (hi : PyInput mc t n c none nt)
    {y w : List (Fl A)} {features : List String} {seed : Int} {forest : List (Tree D A)}
    (h : pyTrain mc (some t) c y features w none seed nt = ok (.ok forest))
    (fmax : A) {nb : Nat} (hnb : nb < 2 ^ 32) {place : DataStore A → DataStore A} (hplace : ∀ l, (place l).Perm l)
    {d : Dict A} {m : Nat} (hd : d.Rows m) (hm : m < 2 ^ 31) (hsmall : m < 2 * nb) {t' : DataStore A}
    (ht' : d.store fmax nb place = ok (.ok (some t'))) (hsame : ∀ name ∈ features, storeKind t' name = storeKind t name)
    {nt' : Int} (hnt' : 0 < nt') :
    ∃ scores, pyPredict (some t') forest nt' = ok (.ok scores) ∧ scores.length = m ∧
      ∀ i < m, ∃ x, scores[i]? = some x ∧ forestValue (d.row i) forest = some x := by
  refine C96_predict fmax hnb hplace hd hm hsmall ht' (fun tr htr => ?_) hnt'
  refine (C96_trained hi (by simp) h tr htr).mono (fun name hn => ?_)
  rw [← Dict.storeKind hnb hplace hd hm ht']
  refine hsame name ?_
  rcases C86_only_named hi h name (by rw [forestFeatures, List.mem_flatMap]; exact ⟨tr, htr, hn⟩) with h | h
  · exact h
  · simp [forestFeatures] at h

end trained

/-! ## C97 -/

section rows
variable {D A : Type} [Dbl D] [LinearOrder A]

/-- Row `i` alone. -/
def Dict.only (d : Dict A) (i : Nat) : Dict A where
  bucketized := d.bucketized.map (fun p => (p.1, (p.2[i]?).toList))
  strs := d.strs.map (fun p => (p.1, (p.2[i]?).toList))
  raw := d.raw.map (fun p => (p.1, (p.2[i]?).toList))

theorem lookup_map {α β : Type} (f : α → β) (l : List (String × α)) (name : String) :
    (l.map (fun p => (p.1, f p.2))).lookup name = (l.lookup name).map f := by
  induction l with
  | nil => rfl
  | cons p l ih =>
    rw [List.map_cons, List.lookup_cons, List.lookup_cons]
    split
    · rfl
    · exact ih

theorem toList_zero {α : Type} (o : Option α) : o.toList[0]? = o := by cases o <;> rfl

theorem Dict.only_row (d : Dict A) (i : Nat) : (d.only i).row 0 = d.row i := by
  funext name
  have h1 := lookup_map (fun v : List (Fl A) => (v[i]?).toList) d.bucketized name
  have h2 := lookup_map (fun v : List String => (v[i]?).toList) d.strs name
  unfold Dict.row Dict.only
  simp only [h1, h2]
  cases d.bucketized.lookup name with
  | some vals => simp only [Option.map_some, toList_zero]
  | none =>
    simp only [Option.map_none]
    cases d.strs.lookup name with
    | some vals => simp only [Option.map_some, toList_zero]
    | none => rfl

theorem Dict.only_kind (d : Dict A) (i : Nat) : (d.only i).kind = d.kind := by
  funext name
  have h1 := lookup_map (fun v : List (Fl A) => (v[i]?).toList) d.bucketized name
  have h2 := lookup_map (fun v : List String => (v[i]?).toList) d.strs name
  have h3 := lookup_map (fun v : List (Fl A) => (v[i]?).toList) d.raw name
  unfold Dict.kind Dict.only
  simp only [h1, h2, h3, Option.isSome_map]

theorem Dict.Rows.only {d : Dict A} {n : Nat} (h : d.Rows n) {i : Nat} (hi : i < n) : (d.only i).Rows 1 where
  names := by simpa [Dict.only, Function.comp_def] using h.names
  bucketized := by
    intro p hp
    obtain ⟨q, hq, rfl⟩ := List.mem_map.mp hp
    simp [List.getElem?_eq_getElem (show i < q.2.length by have := h.bucketized q hq; omega)]
  strs := by
    intro p hp
    obtain ⟨q, hq, rfl⟩ := List.mem_map.mp hp
    simp [List.getElem?_eq_getElem (show i < q.2.length by have := h.strs q hq; omega)]
  raw := by
    intro p hp
    obtain ⟨q, hq, rfl⟩ := List.mem_map.mp hp
    simp [List.getElem?_eq_getElem (show i < q.2.length by have := h.raw q hq; omega)]

/-- **C97 (fewer than 60000 rows).** The prediction of a row is the same whether the row is predicted alone or together with
others. -/
theorem C97_small_partial (fmax : A) {nb : Nat} (hnb : nb < 2 ^ 32) {place : DataStore A → DataStore A}
    (hplace : ∀ l, (place l).Perm l) {d : Dict A} {n : Nat} (hd : d.Rows n) (hn : n < 2 ^ 31) (hsmall : n < 2 * nb)
    {t : DataStore A} (ht : d.store fmax nb place = ok (.ok (some t))) {i : Nat} (hi : i < n) {t1 : DataStore A}
    (ht1 : (d.only i).store fmax nb place = ok (.ok (some t1))) {forest : List (Tree D A)}
    (hf : ∀ tr ∈ forest, TypedTree d.kind tr) {nt nt1 : Int} (hnt : 0 < nt) (hnt1 : 0 < nt1) :
    ∃ scores x, pyPredict (some t) forest nt = ok (.ok scores) ∧ pyPredict (some t1) forest nt1 = ok (.ok [x]) ∧
      scores[i]? = some x := by
  obtain ⟨scores, a1, a2, a3⟩ := C96_predict fmax hnb hplace hd hn hsmall ht hf hnt
  obtain ⟨s1, b1, b2, b3⟩ := C96_predict fmax hnb hplace (hd.only hi) (by decide) (by omega) ht1
    (by rw [Dict.only_kind]; exact hf) hnt1
  obtain ⟨x, c1, c2⟩ := a3 i hi
  obtain ⟨x1, e1, e2⟩ := b3 0 (by decide)
  rw [Dict.only_row, c2, Option.some.injEq] at e2
  subst e2
  refine ⟨scores, x, a1, ?_, c1⟩
  rw [b1]
  match s1, b2, e1 with
  | [_], _, e1 => simp only [List.getElem?_cons_zero, Option.some.injEq] at e1; rw [e1]

/-- A value as it may be seen after bucketizing: strings and missing numbers as they are, numbers not below. -/
def RoundedUp (x y : Cell A) : Prop :=
  match x, y with
  | .num (.num v), .num (.num u) => v ≤ u
  | x, y => x = y

/-- A created column of any size: scoring sees the values, numbers perhaps larger. -/
theorem createCol_sees_large {fmax : A} {nb : Nat} {ty : ColType} (hty : ty ≠ .raw) {vals : List (Cell A)}
    (hfit : ∀ x ∈ vals, PyStore.Cell.Fit ty x) (hl : vals.length < 2 ^ 31) (hnb : nb < 2 ^ 32)
    (hfin : ∀ v, Cell.num (Fl.num v) ∈ vals → v ≤ fmax)
    {c : Column A} (hc : PyStore.createCol fmax nb ty vals = ok c) {j : Nat} {x : Cell A} (hj : vals[j]? = some x) :
    ∃ y, ColSees c j y ∧ RoundedUp x y := by
  have hjl : j < vals.length := (List.getElem?_eq_some_iff.mp hj).1
  cases ty with
  | raw => exact absurd rfl hty
  | string =>
    rw [PyStore.createCol, Outcome.ok.injEq] at hc
    subst hc
    obtain ⟨s, rfl, hs⟩ := PyStore.strings_get hfit hj
    have hlen := PyStore.strings_length hfit
    have hr := (C01_string_roundtrip [PyStore.strings vals] (by
      simp only [List.flatten_cons, List.flatten_nil, List.append_nil]; omega)).2
      j (by simp only [List.flatten_cons, List.flatten_nil, List.append_nil]; omega)
    simp only [List.flatten_cons, List.flatten_nil, List.append_nil] at hr
    have : (PyStore.strings vals)[j]'(by omega) = s := (List.getElem?_eq_some_iff.mp hs).2
    rw [this] at hr
    exact ⟨.str s, hr, rfl⟩
  | bucketized =>
    have hfit' := PyStore.fit_bkt hfit
    obtain ⟨s, rfl, hs⟩ := PyStore.numbers_get hfit' hj
    have hlen := PyStore.numbers_length hfit'
    rw [PyStore.createCol, Column.createBucketized, bind_eq_ok] at hc
    obtain ⟨b, hb', hc⟩ := hc
    rw [pure_eq, Outcome.ok.injEq] at hc
    subst hc
    have hflat : [PyStore.numbers vals].flatten = PyStore.numbers vals := by simp
    have hf : Fits nb [PyStore.numbers vals] := ⟨by rw [hflat]; omega, hnb⟩
    have hm := (C03_missing_iff_nan hf hb').2 j (by rw [hflat]; omega)
    have hx : [PyStore.numbers vals].flatten[j]'(by rw [hflat]; omega) = s := by
      have := (List.getElem?_eq_some_iff.mp hs).2
      simpa using this
    rw [hx] at hm
    cases s with
    | nan => exact ⟨.num .nan, by show b.ints.missing j = ok true; simpa using hm, rfl⟩
    | num a =>
      obtain ⟨lo, hi, _, h2, _, h4⟩ := C04_row_in_bucket hf hb' (by rw [hflat]; exact hs)
        (Or.inl (hfin a (List.mem_of_getElem? hj)))
      exact ⟨.num (.num hi), ⟨by simpa using hm, h2⟩, h4⟩

/-- **C97 (any number of rows).** The prediction of a row is the value of the forest for a row with the same strings and missing
numbers, in which the other numbers are not below those of the row: the limits of the buckets that they are in. -/
theorem C97_large_partial (fmax : A) {nb : Nat} (hnb : nb < 2 ^ 32) {place : DataStore A → DataStore A}
    (hplace : ∀ l, (place l).Perm l) {d : Dict A} {n : Nat} (hd : d.Rows n) (hn : n < 2 ^ 31)
    (hfin : ∀ p ∈ d.bucketized, ∀ v, Fl.num v ∈ p.2 → v ≤ fmax)
    {t : DataStore A} (ht : d.store fmax nb place = ok (.ok (some t))) {forest : List (Tree D A)}
    (hf : ∀ tr ∈ forest, TypedTree d.kind tr) {nt : Int} (hnt : 0 < nt) :
    ∃ scores, pyPredict (some t) forest nt = ok (.ok scores) ∧ scores.length = n ∧
      ∀ i < n, ∃ (x : D) (row : String → Option (Cell A)), scores[i]? = some x ∧ forestValue row forest = some x ∧
        ∀ name ∈ forestFeatures forest, ∃ u v, d.row i name = some u ∧ row name = some v ∧ RoundedUp u v := by
  obtain ⟨g1, g2, g3, _, g4⟩ := addAll_created (fmax := fmax) hnb hplace hn hd.cols.1 hd.cols.2 ht
  have hcol : ∀ name ty, d.kind name = some ty → ∃ vals c, (name, ty, vals) ∈ d.cols ∧
      (ty ≠ .raw → ∀ i, d.row i name = vals[i]?) ∧ t.getColumn name = some c ∧ c.type = ty ∧
      PyStore.createCol fmax nb ty vals = ok c := by
    intro name ty h
    obtain ⟨vals, h1, h2⟩ := Dict.col_of h
    obtain ⟨c, h3, h4, h5⟩ := g4 _ h1
    exact ⟨vals, c, h1, h2, h3, h4, h5⟩
  have hsee : ∀ i < n, ∀ name ∈ forestFeatures forest, ∃ c u v, t.getColumn name = some c ∧ d.row i name = some u ∧
      ColSees c i v ∧ RoundedUp u v := by
    intro i hi name hname
    rw [forestFeatures, List.mem_flatMap] at hname
    obtain ⟨tr, htr, hname⟩ := hname
    have hfin' : ∀ ty vals, (name, ty, vals) ∈ d.cols → ty ≠ .raw → ∀ v, Cell.num (Fl.num v) ∈ vals → v ≤ fmax := by
      intro ty vals hm hty v hv
      simp only [Dict.cols, List.mem_append, List.mem_map] at hm
      rcases hm with ⟨p, hp, he⟩ | ⟨p, hp, he⟩ | ⟨p, hp, he⟩
      · cases he
        obtain ⟨z, hz, hz'⟩ := List.mem_map.mp hv
        cases hz'
        exact hfin p hp v hz
      · cases he
        obtain ⟨z, hz, hz'⟩ := List.mem_map.mp hv
        cases hz'
      · cases he
        exact absurd rfl hty
    have : ∃ ty, ty ≠ ColType.raw ∧ d.kind name = some ty := by
      rcases (hf tr htr).feature hname with h | h
      · exact ⟨_, by decide, h⟩
      · exact ⟨_, by decide, h⟩
    obtain ⟨ty, hty, hk⟩ := this
    obtain ⟨vals, c, h1, h2, h3, h4, h5⟩ := hcol name ty hk
    obtain ⟨hlen, hfit⟩ := hd.cols.2 _ h1
    simp only at hlen hfit
    have hx : vals[i]? = some (vals[i]'(by omega)) := List.getElem?_eq_getElem _
    obtain ⟨y, hy1, hy2⟩ := createCol_sees_large hty hfit (by omega) hnb (hfin' ty vals h1 hty) h5 hx
    exact ⟨c, _, y, h3, (h2 hty i).trans hx, hy1, hy2⟩
  classical
  let row : Nat → String → Option (Cell A) := fun i name =>
    if h : i < n ∧ name ∈ forestFeatures forest then some (hsee i h.1 name h.2).choose_spec.choose_spec.choose else none
  have hrow : ∀ i (hi : i < n) name (hname : name ∈ forestFeatures forest),
      row i name = some (hsee i hi name hname).choose_spec.choose_spec.choose := by
    intro i hi name hname
    exact dif_pos ⟨hi, hname⟩
  obtain ⟨scores, h1, h2, h3⟩ := predict_forestValue (fun name c hc => g3 (name, c) ((DataStore.get_some g2 _ _).mp hc)) g1
    (kind := d.kind) (by
      intro name ty h
      obtain ⟨_, c, _, _, h3, h4, _⟩ := hcol name ty h
      exact ⟨c, h3, h4⟩) hf hnt (row := row) (by
      intro i hi name hname
      have hs := (hsee i hi name hname).choose_spec.choose_spec.choose_spec
      exact ⟨_, _, hs.1, hrow i hi name hname, hs.2.2.1⟩)
  refine ⟨scores, h1, h2, fun i hi => ?_⟩
  obtain ⟨x, k1, k2⟩ := h3 i hi
  refine ⟨x, row i, k1, k2, fun name hname => ?_⟩
  have hs := (hsee i hi name hname).choose_spec.choose_spec.choose_spec
  exact ⟨_, _, hs.2.1, hrow i hi name hname, hs.2.2.2⟩

end rows

/-- C97 in full, for the default of 30000 buckets, exact numbers and one column. -/
def C97_full : Prop :=
  ∀ (vals : List (Fl ℚ)) (t t1 : DataStore ℚ) (i : Nat) (v : Fl ℚ) (forest : List (Tree ℚ ℚ)) (scores scores1 : List ℚ),
    vals[i]? = some v → (∀ tr ∈ forest, TypedTree (fun name => if name = "x" then some .bucketized else none) tr) →
    Dict.store { bucketized := [("x", vals)] } (10 ^ 9 : ℚ) 30000 id = ok (.ok (some t)) →
    Dict.store { bucketized := [("x", [v])] } (10 ^ 9 : ℚ) 30000 id = ok (.ok (some t1)) →
    pyPredict (some t) forest 1 = ok (.ok scores) → pyPredict (some t1) forest 1 = ok (.ok scores1) →
    scores[i]? = scores1[0]?

/-- The numbers 0, 1, ..., n - 1. -/
def manyNumbers (n : Nat) : List (Fl ℚ) := (List.range n).map (fun k : Nat => Fl.num (k : ℚ))

theorem manyNumbers_get {n i : Nat} (hi : i < n) : (manyNumbers n)[i]? = some (.num (i : ℚ)) := by
  simp [manyNumbers, hi]

/-- Four times as many different numbers as buckets: the column is built, and as there are fewer buckets than numbers, some
number is not the limit of its bucket. -/
theorem many_rounded {fmax : ℚ} {nb : Nat} (h2 : 2 ≤ nb) (hn : 4 * nb + 2 < 2 ^ 32) (hmax : (4 * nb : ℕ) ≤ fmax) :
    ∃ c, BktCol.build fmax nb [manyNumbers (4 * nb)] = ok c ∧
      ∃ (i : Nat) (u : ℚ), i < 4 * nb ∧ c.rowMax i = ok (.num u) ∧ (i : ℚ) < u := by
  have hlen : (manyNumbers (4 * nb)).length = 4 * nb := by simp [manyNumbers]
  have hnd : (manyNumbers (4 * nb)).Nodup := List.nodup_range.map (fun a b h => by simpa using h)
  have hs : sampleOf nb [] [manyNumbers (4 * nb)] = manyNumbers (4 * nb) := by
    unfold sampleOf
    simp only [List.nil_append, sampleOf]
    split <;> rfl
  have hflat : [manyNumbers (4 * nb)].flatten = manyNumbers (4 * nb) := by simp
  have hf : Fits nb [manyNumbers (4 * nb)] := ⟨by rw [hflat, hlen]; omega, by omega⟩
  have hbuilt : ∃ c, BktCol.build fmax nb [manyNumbers (4 * nb)] = ok c := by
    refine (C08_crash_iff_partial fmax nb [manyNumbers (4 * nb)] hf).2 ?_
    rw [hs, hlen, Nat.mul_div_cancel _ (by omega)]
    have : (manyNumbers (4 * nb)).toFinset.filter (fun v => v ≠ Fl.nan ∧ max 1 4 ≤ (manyNumbers (4 * nb)).count v) = ∅ := by
      refine Finset.filter_eq_empty_iff.mpr ?_
      rintro v hv ⟨_, h⟩
      have := List.nodup_iff_count_le_one.mp hnd v
      omega
    rw [this, Finset.card_empty]
    omega
  obtain ⟨c, hc⟩ := hbuilt
  refine ⟨c, hc, ?_⟩
  by_contra hno
  have hexact : ∀ i < 4 * nb, c.rowMax i = ok (.num (i : ℚ)) := by
    intro i hi
    have hle : (i : ℚ) ≤ fmax := le_trans (by exact_mod_cast hi.le) hmax
    obtain ⟨lo, u, _, h2, _, h4⟩ := C04_row_in_bucket hf hc (by rw [hflat]; exact manyNumbers_get hi) (Or.inl hle)
    rcases lt_or_eq_of_le h4 with h | h
    · exact absurd ⟨i, u, hi, h2, h⟩ hno
    · rw [h2, h]
  have hsub : manyNumbers (4 * nb) ⊆ c.maxs := by
    intro x hx
    obtain ⟨i, hi, rfl⟩ := List.mem_map.mp hx
    have := hexact i (List.mem_range.mp hi)
    unfold BktCol.rowMax at this
    obtain ⟨k, _, hk⟩ := bind_eq_ok.mp this
    exact List.mem_of_getElem? (vecGet_eq_ok.mp hk)
  have hle := (hnd.subperm hsub).length_le
  obtain ⟨buf, rest, M, _, _, _, _, r⟩ := build_ok hf.1 hf.2 hc
  have h6 := C06_bucket_count hf hc
  rw [r.maxInt] at h6
  rw [r.maxs] at hle
  simp only [List.length_cons, List.length_map, List.length_append, List.length_nil, hlen] at hle
  omega

/-- One split: below the threshold the score is 1, otherwise 0. -/
def belowTree (u : ℚ) : Tree ℚ ℚ :=
  .node 0 (some { feature := "x", floatSplit := some ⟨.num u, false⟩, gain := 1 }) (.node 1 none .absent .absent)
    (.node 0 none .absent .absent)

theorem belowTree_typed (u : ℚ) :
    TypedTree (fun name => if name = "x" then some ColType.bucketized else none) (belowTree u) := by
  refine ⟨fun h => (by cases h), fun s hs => ?_, ⟨fun _ => rfl, fun _ h => (by cases h), trivial, trivial⟩,
    ⟨fun _ => rfl, fun _ h => (by cases h), trivial, trivial⟩⟩
  cases hs
  exact Or.inl ⟨rfl, _, rfl⟩

/-- What `predict` gives with that tree, by the limit of the bucket that the row is in. -/
theorem predict_below {c : BktCol ℚ} {n : Nat} (hr : HasRows n (.bkt c)) (u : ℚ) {i : Nat} {v : ℚ} (hi : i < n)
    (hm : c.ints.missing i = ok false) (hv : c.rowMax i = ok (.num v)) :
    ∃ scores, pyPredict (some [("x", .bkt c)]) [belowTree u] 1 = ok (.ok scores) ∧
      scores[i]? = some (if v < u then 1 else 0) := by
  have hcols : ∀ name col, DataStore.getColumn [("x", Column.bkt c)] name = some col → HasRows n col := by
    intro name col h
    rw [DataStore.getColumn, List.lookup_cons] at h
    split at h
    · cases h; exact hr
    · cases h
  have hx : DataStore.getColumn [("x", Column.bkt c)] "x" = some (.bkt c) := rfl
  obtain ⟨scores, h1, h2, h3⟩ := C37_prediction (columns := DataStore.getColumn [("x", Column.bkt c)]) hcols
    (numThreads := 1) (by decide) [belowTree u] (by
      intro name hn
      have : name = "x" := by simpa [forestFeatures, treeFeatures, belowTree] using hn
      rw [this, hx]
      simp) (by
      intro t ht
      rw [List.mem_singleton.mp ht]
      exact ⟨⟨_, _, rfl, hx, _, rfl⟩, trivial, trivial⟩)
  obtain ⟨xs, k1, k2⟩ := h3 i hi
  refine ⟨scores, ?_, ?_⟩
  · have hn : DataStore.numRows [("x", Column.bkt c)] = ok n := PyStore.hasRows_size hr
    simp only [pyPredict, hn, h1, if_true, Option.getD_some]
  · rw [k2]
    have hscore : scoreOf (DataStore.getColumn [("x", Column.bkt c)]) (belowTree u) i = some (if v < u then 1 else 0) := by
      by_cases hlt : v < u
      · simp [scoreOf, belowTree, leafOf, hx, sendsLeft, hm, hv, Fl.lt, hlt]
      · simp [scoreOf, belowTree, leafOf, hx, sendsLeft, hm, hv, Fl.lt, hlt]
    rw [List.mapM_cons, hscore] at k1
    simp only [List.mapM_nil, Option.bind_eq_bind, Option.bind_some, Option.pure_def, Option.some.injEq] at k1
    rw [← k1]
    simp [sumScores]

theorem numbers_map (l : List (Fl ℚ)) : PyStore.numbers (l.map Cell.num) = l := by
  induction l with
  | nil => rfl
  | cons x l ih => rw [List.map_cons, PyStore.numbers, ih]

theorem store_one {fmax : ℚ} {nb : Nat} {vals : List (Fl ℚ)} {c : BktCol ℚ} (hc : BktCol.build fmax nb [vals] = ok c) :
    Dict.store { bucketized := [("x", vals)] } fmax nb id = ok (.ok (some [("x", .bkt c)])) := by
  simp [Dict.store, PyStore.fromDict, PyStore.addAll, PyStore.addCol, DataStorePy.add, PyStore.createCol, Column.createBucketized,
    numbers_map, hc, DataStore.add, DataStore.getColumn, DataStore.numRows, PyRes.andThen]

/-- One of the numbers is predicted differently together with the others and alone. -/
theorem batch_matters {fmax : ℚ} {nb : Nat} (h3 : 3 ≤ nb) (hn : 4 * nb + 2 < 2 ^ 32) (hmax : (4 * nb : ℕ) ≤ fmax) :
    ∃ (i : Nat) (t t1 : DataStore ℚ) (u : ℚ) (scores scores1 : List ℚ), i < 4 * nb ∧
      Dict.store { bucketized := [("x", manyNumbers (4 * nb))] } fmax nb id = ok (.ok (some t)) ∧
      Dict.store { bucketized := [("x", [Fl.num (i : ℚ)])] } fmax nb id = ok (.ok (some t1)) ∧
      pyPredict (some t) [belowTree u] 1 = ok (.ok scores) ∧ pyPredict (some t1) [belowTree u] 1 = ok (.ok scores1) ∧
      scores[i]? = some 0 ∧ scores1[0]? = some 1 := by
  obtain ⟨c, hc, i, u, hi, hu, hlt⟩ := many_rounded (nb := nb) (by omega) hn hmax
  have hlen : (manyNumbers (4 * nb)).length = 4 * nb := by simp [manyNumbers]
  have hflat : [manyNumbers (4 * nb)].flatten = manyNumbers (4 * nb) := by simp
  have hf : Fits nb [manyNumbers (4 * nb)] := ⟨by rw [hflat, hlen]; omega, by omega⟩
  have hf1 : Fits nb [[Fl.num (i : ℚ)]] := ⟨by simp, by omega⟩
  obtain ⟨c1, hc1⟩ := (C08_crash_iff_partial fmax nb [[Fl.num (i : ℚ)]] hf1).2 (by
    rw [not_or]
    refine ⟨by omega, fun h => ?_⟩
    have : (Finset.filter (fun v => v ≠ Fl.nan ∧ max 1 ((sampleOf nb [] [[Fl.num (i : ℚ)]]).length / nb) ≤
        List.count v (sampleOf nb [] [[Fl.num (i : ℚ)]])) (sampleOf nb [] [[Fl.num (i : ℚ)]]).toFinset).card ≤ 1 := by
      refine (Finset.card_filter_le _ _).trans ?_
      have hs : sampleOf nb [] [[Fl.num (i : ℚ)]] = [Fl.num (i : ℚ)] := by
        unfold sampleOf
        simp only [List.nil_append, sampleOf]
        split <;> rfl
      rw [hs]
      simp
    omega)
  have hm := (C03_missing_iff_nan hf hc).2 i (by rw [hflat, hlen]; exact hi)
  have hx : [manyNumbers (4 * nb)].flatten[i]'(by rw [hflat, hlen]; exact hi) = .num (i : ℚ) := by
    have := (List.getElem?_eq_some_iff.mp (manyNumbers_get hi)).2
    simpa only [hflat] using this
  rw [hx] at hm
  have hm1 := (C03_missing_iff_nan hf1 hc1).2 0 (by simp)
  have hu1 := (C07_few_values_exact hf1 hc1 (by simp; omega) (i := 0) (v := (i : ℚ)) rfl).2
  obtain ⟨s, a1, a2⟩ := predict_below (HasRows.bkt fmax nb _ c (by rw [hflat, hlen]) (by omega) hf.2 hc) u hi (by simpa using hm) hu
  obtain ⟨s1, b1, b2⟩ := predict_below (HasRows.bkt fmax nb _ c1 (n := 1) rfl (by decide) hf.2 hc1) u (i := 0) (by decide)
    (by simpa using hm1) hu1
  rw [if_neg (lt_irrefl u)] at a2
  rw [if_pos hlt] at b2
  exact ⟨i, _, _, u, s, s1, hi, store_one hc, store_one hc1, a1, b1, a2, b2⟩

/-- **C97 is false.** Among 120000 different numbers there is one that is above the threshold of a split when it is predicted
together with the others and below it when it is predicted alone. -/
theorem C97_refuted : ¬ C97_full := by
  intro hfull
  obtain ⟨i, t, t1, u, s, s1, hi, h1, h2, h3, h4, h5, h6⟩ := batch_matters (fmax := 10 ^ 9) (nb := 30000) (by norm_num)
    (by norm_num) (by norm_num)
  have := hfull _ t t1 i _ [belowTree u] s s1 (manyNumbers_get hi)
    (fun tr htr => by rw [List.mem_singleton.mp htr]; exact belowTree_typed u) h1 h2 h3 h4
  rw [h5, h6] at this
  norm_num at this

/-! ## Examples -/

/-- Other data than that of C87: new values, a new category, the columns in another order, one more column. -/
def otherData : Dict ℚ where
  bucketized := [("weight", [.num 1, .num 1, .nan]), ("size", [.num 6, .num 9, .nan])]
  strs := [("color", ["c", "zz", "b"])]

theorem otherData_rows : otherData.Rows 3 where
  names := by decide
  bucketized := by decide
  strs := by decide
  raw := by decide

/-- Training on the data of C87 and predicting on the other data: the hypotheses of `C96_new_data` hold, the scores are the values of
the forest for the rows, and they differ. -/
example : (match pyDict id, otherData.store 1000 6 List.reverse with
    | .ok (.ok (some t)), .ok (.ok (some t')) => match pyTrain ratMachine (some t) pyCfg [] ["color", "size"] [] none 1 2 with
      | .ok (.ok forest) => match pyPredict (some t') forest 3 with
        | .ok (.ok l) => decide (storeKind t' "color" = storeKind t "color" ∧ storeKind t' "size" = storeKind t "size" ∧
            l.length = 3 ∧ (List.range 3).map (fun i => forestValue (otherData.row i) forest) = l.map some ∧
            l[1]? ≠ l[2]?)
        | _ => false
      | _ => false
    | _, _ => false) = true := by
  decide +kernel

example {t : DataStore ℚ} (h : pyDict id = ok (.ok (some t))) : PyInput ratMachine t 5 pyCfg none 2 :=
  pyInput h (by decide) rfl

/-- A forest that was not trained here: `C96_predict` and `C97_small_partial`. -/
example : (∀ tr ∈ [belowTree 7], TypedTree (Dict.kind { bucketized := [("x", [.num 6, .num 7, .nan])] }) tr) ∧
    (∀ row : String → Option (Cell ℚ), row "x" = some (.num (.num 6)) → forestValue row [belowTree 7] = some 1) ∧
    (∀ row : String → Option (Cell ℚ), row "x" = some (.num (.num 7)) → forestValue row [belowTree 7] = some 0) ∧
    (∀ row : String → Option (Cell ℚ), row "x" = some (.num .nan) → forestValue row [belowTree 7] = some 1) := by
  refine ⟨?_, ?_, ?_, ?_⟩
  · intro tr htr
    rw [List.mem_singleton.mp htr]
    refine (belowTree_typed 7).mono ?_
    intro name hn
    have : name = "x" := by simpa [treeFeatures, belowTree] using hn
    subst this
    rfl
  all_goals
    intro row h
    simp only [forestValue, belowTree, treeValue, h, goesLeft, Option.bind_some, Option.map_some, List.mapM_cons, List.mapM_nil]
    decide +kernel

/-- Numbers that share a bucket: with 3 buckets, 12 numbers are not kept apart. -/
example : (match Dict.store { bucketized := [("x", manyNumbers 12)] } (1000 : ℚ) 3 id with
    | .ok (.ok (some t)) => match pyPredict (some t) [belowTree 1] 1, pyPredict (some t) [belowTree 6] 1 with
      | .ok (.ok l), .ok (.ok l') => decide (l = [0, 0, 0, 0, 0, 0, 0, 0, 0, 0, 0, 0] ∧ l' ≠ l)
      | _, _ => false
    | _ => false) = true := by
  decide +kernel

end Gbdt
