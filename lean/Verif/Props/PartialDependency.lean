import Verif.Model.PartialDependency
import Verif.Props.OtherStore
import Verif.Props.PyStore

/-!
# C98: partial dependency
-/

set_option autoImplicit false
set_option linter.unusedSectionVars false

namespace Gbdt

open Outcome

variable {D A : Type} [Dbl D] [LinearOrder A]

/-! ## Specification -/

/-- The row with one value replaced. -/
def withFeature (row : String → Option (Cell A)) (feature : String) (v : Cell A) : String → Option (Cell A) :=
  fun name => if name = feature then some v else row name

/-- Row `i` of a store as the user sees it: `data[name][i]`. -/
def storeRow (t : DataStore A) (i : Nat) (name : String) : Option (Cell A) :=
  match t.getColumn name with
  | none => none
  | some c => match PyStore.item c i with
    | .ok (.ok x) => some x
    | _ => none

/-! ## Proof -/

/-- A store of `n` rows in which scoring sees the values of `row`. -/
structure SeesRows (t : DataStore A) (n : Nat) (kind : String → Option ColType) (row : Nat → String → Option (Cell A)) : Prop where
  keys : (t.map Prod.fst).Nodup
  rows : ∀ p ∈ t, HasRows n p.2
  nonempty : t ≠ []
  cols : ∀ name ty, kind name = some ty → ∃ c, t.getColumn name = some c ∧ c.type = ty ∧
    (ty ≠ .raw → ∀ i < n, ∃ x, row i name = some x ∧ ColSees c i x)

theorem SeesRows.numRows {t : DataStore A} {n : Nat} {kind : String → Option ColType} {row : Nat → String → Option (Cell A)}
    (h : SeesRows t n kind row) : t.numRows = ok n := by
  rw [PyStore.numRows_of (fun p hp => PyStore.hasRows_size (h.rows p hp)), if_neg h.nonempty]

theorem SeesRows.predict {t : DataStore A} {n : Nat} {kind : String → Option ColType} {row : Nat → String → Option (Cell A)}
    (h : SeesRows t n kind row) {forest : List (Tree D A)} (hf : ∀ tr ∈ forest, TypedTree kind tr) {nt : Int} (hnt : 0 < nt) :
    ∃ scores, pyPredict (some t) forest nt = ok (.ok scores) ∧ scores.length = n ∧
      ∀ i < n, ∃ x, scores[i]? = some x ∧ forestValue (row i) forest = some x := by
  refine predict_forestValue (fun name c hc => h.rows (name, c) ((DataStore.get_some h.keys _ _).mp hc)) h.numRows (kind := kind)
    ?_ hf hnt ?_
  · intro name ty hk
    obtain ⟨c, h1, h2, _⟩ := h.cols name ty hk
    exact ⟨c, h1, h2⟩
  · intro i hi name hname
    rw [forestFeatures, List.mem_flatMap] at hname
    obtain ⟨tr, htr, hname⟩ := hname
    rcases (hf tr htr).feature hname with hk | hk
    · obtain ⟨c, h1, _, h3⟩ := h.cols name _ hk
      obtain ⟨x, h4, h5⟩ := h3 (by decide) i hi
      exact ⟨c, x, h1, h4, h5⟩
    · obtain ⟨c, h1, _, h3⟩ := h.cols name _ hk
      obtain ⟨x, h4, h5⟩ := h3 (by decide) i hi
      exact ⟨c, x, h1, h4, h5⟩

theorem fit_of_cellFits {ty : ColType} {v : Cell A} (h : cellFits ty v = true) : PyStore.Cell.Fit ty v := by
  cases ty <;> cases v <;> cases h <;> trivial

/-- A constant column can always be created. -/
theorem createCol_const {fmax : A} {nb : Nat} (hnb : nb < 2 ^ 32) (h2 : 2 < nb) {n : Nat} (hn : n < 2 ^ 31) (hsmall : n < 2 * nb)
    {ty : ColType} {v : Cell A} (hv : cellFits ty v = true) :
    ∃ c, PyStore.createCol fmax nb ty (List.replicate n v) = ok c := by
  cases ty with
  | string => exact ⟨_, rfl⟩
  | raw => exact ⟨_, rfl⟩
  | bucketized =>
    have hfit : ∀ x ∈ List.replicate n v, PyStore.Cell.Fit .bucketized x := by
      intro x hx
      rw [List.eq_of_mem_replicate hx]
      exact fit_of_cellFits hv
    have hlen := PyStore.numbers_length (PyStore.fit_bkt hfit)
    rw [List.length_replicate] at hlen
    obtain ⟨c, _, hc⟩ := (PyStore.createBucketized_iff fmax (nb := nb) (vals := PyStore.numbers (List.replicate n v)) (by omega)
      (by omega) hnb).2 (by
        have hle : ((PyStore.numbers (List.replicate n v)).toFinset.filter (fun v => v ≠ Fl.nan)).card ≤ 1 := by
          rw [Finset.card_le_one]
          have hone : ∀ (m : Nat) (a : Fl A), a ∈ PyStore.numbers (List.replicate m v) → Cell.num a = v := by
            intro m
            induction m with
            | zero => intro a ha; cases ha
            | succ m ih =>
              intro a ha
              rw [List.replicate_succ] at ha
              cases v with
              | str s => cases hv
              | num w =>
                rcases List.mem_cons.mp ha with rfl | ha
                · rfl
                · exact ih a ha
          intro a ha b hb
          simp only [Finset.mem_filter, List.mem_toFinset] at ha hb
          exact Cell.num.inj ((hone n a ha.1).trans (hone n b hb.1).symm)
        omega)
    exact ⟨_, hc⟩

theorem SeesRows.replace {fmax : A} {nb : Nat} (hnb : nb < 2 ^ 32) (h2 : 2 < nb) {place : DataStore A → DataStore A}
    (hplace : ∀ l, (place l).Perm l) {t : DataStore A} {n : Nat} {kind : String → Option ColType}
    {row : Nat → String → Option (Cell A)} (h : SeesRows t n kind row) (hn : n < 2 ^ 31) (hsmall : n < 2 * nb)
    {feature : String} {ty : ColType} (hk : kind feature = some ty) {v : Cell A} (hv : cellFits ty v = true) :
    ∃ t', replaceFeature fmax nb place (some t) feature ty v = ok (.ok (some t')) ∧
      SeesRows t' n kind (fun i => withFeature (row i) feature v) := by
  obtain ⟨c, hc⟩ := createCol_const (fmax := fmax) hnb h2 hn hsmall hv
  have hfit : ∀ x ∈ List.replicate n v, PyStore.Cell.Fit ty x := by
    intro x hx
    rw [List.eq_of_mem_replicate hx]
    exact fit_of_cellFits hv
  obtain ⟨hct, hcr⟩ := PyStore.createCol_rows hfit (by simpa using hn) hnb hc
  rw [List.length_replicate] at hcr
  have hkr := DataStore.keys_remove h.keys feature
  have hnew : (t.remove feature).getColumn feature = none := by rw [DataStore.get_remove h.keys, if_pos rfl]
  have hrr : ∀ p ∈ t.remove feature, HasRows n p.2 := fun p hp => h.rows p ((DataStore.mem_remove h.keys _ _).mp hp).1
  have hadd := PyStore.addCol_ok (fmax := fmax) (nb := nb) (place := place) (d := some (t.remove feature)) (name := feature)
    (t := ty) (vals := List.replicate n v) (n := n) (fun p hp => PyStore.hasRows_size (hrr p hp)) hnew hc
    (PyStore.hasRows_size hcr)
  have hall : (List.replicate n v).all (cellFits ty) = true := by
    rw [List.all_eq_true]
    intro x hx
    rw [List.eq_of_mem_replicate hx]
    exact hv
  rw [Option.getD_some] at hadd
  have hp := hplace ((feature, c) :: t.remove feature)
  have hkc : (((feature, c) :: t.remove feature).map Prod.fst).Nodup := by
    rw [List.map_cons, List.nodup_cons]
    exact ⟨(DataStore.get_none _).mp hnew, hkr⟩
  refine ⟨place ((feature, c) :: t.remove feature), ?_, ?_⟩
  · simp only [replaceFeature, PyStore.len, h.numRows, if_pos hall, DataStorePy.remove, Option.map_some]
    exact hadd
  · refine ⟨(hp.map Prod.fst).nodup_iff.mpr hkc, ?_, ?_, ?_⟩
    · intro p hp'
      rcases List.mem_cons.mp (hp.mem_iff.mp hp') with rfl | hp'
      · exact hcr
      · exact hrr p hp'
    · intro he
      rw [he] at hp
      exact absurd hp.nil_eq (by simp)
    · intro name ty' hk'
      rw [DataStore.get_perm hp ((hp.map Prod.fst).nodup_iff.mpr hkc)]
      by_cases he : name = feature
      · subst he
        rw [hk] at hk'
        cases hk'
        refine ⟨c, by simp [DataStore.getColumn], hct, ?_⟩
        intro hraw i hi
        refine ⟨v, by simp [withFeature], createCol_sees hraw hfit (by simpa using hn) hnb (by simpa using hsmall) hc ?_⟩
        rw [List.getElem?_replicate, if_pos hi]
      · obtain ⟨c', h1, h2, h3⟩ := h.cols name ty' hk'
        refine ⟨c', ?_, h2, ?_⟩
        · have : DataStore.getColumn (((feature, c) :: t.remove feature) : DataStore A) name = (t.remove feature).getColumn name := by
            unfold DataStore.getColumn
            rw [List.lookup_cons, beq_eq_false_iff_ne.mpr he]
          rw [this, DataStore.get_remove h.keys, if_neg he, h1]
        · intro hraw i hi
          obtain ⟨x, h4, h5⟩ := h3 hraw i hi
          exact ⟨x, by simp [withFeature, he, h4], h5⟩

/-- Scoring sees in a copy the values that the user sees in the original. -/
theorem copy_sees (fmax : A) {nb : Nat} (hnb : nb < 2 ^ 32) {place : DataStore A → DataStore A}
    (hplace : ∀ l, (place l).Perm l) {s : DataStore A} (hk : (s.map Prod.fst).Nodup) (hne : s ≠ []) {n : Nat} (hn : n < 2 ^ 31)
    (hr : ∀ p ∈ s, HasRows n p.2) (hsmall : n < 2 * nb)
    (hno : ¬ PicksDistinct s ((List.range n).map Int.ofNat) (nb - 1)) :
    ∃ d, PyStore.copy fmax nb place (some s) = ok (.ok (some d)) ∧ SeesRows d n (storeKind s) (storeRow s) := by
  obtain ⟨d, h1, h2, _⟩ := C80_copy fmax hnb hplace hk hn hr hsmall hno
  have hnr : s.numRows = ok n := by rw [PyStore.numRows_of (fun p hp => PyStore.hasRows_size (hr p hp)), if_neg hne]
  have hidx : ∀ i ∈ (List.range n).map Int.ofNat, 0 ≤ i ∧ i < (n : Int) := by
    intro i hi
    obtain ⟨j, hj, rfl⟩ := List.mem_map.mp hi
    rw [List.mem_range] at hj
    simp only [Int.ofNat_eq_natCast]
    omega
  obtain ⟨get, hget, heq⟩ := PyStore.slice_eq (fmax := fmax) (nb := nb) (place := place) hk hn hr hidx
  obtain ⟨hub, hok⟩ := PyStore.slice_outcome (fmax := fmax) hplace hnb hk (by simpa using hn) hget
  have hcopy : PyStore.copy fmax nb place (some s) = PyStore.slice fmax nb place (some s) ((List.range n).map Int.ofNat) := by
    simp only [PyStore.copy, PyStore.len, hnr]
  rw [hcopy, heq] at h1
  obtain ⟨d', k1, k2, k3⟩ := hok (by
    intro name c hc hbad
    rw [hub ⟨name, c, hc, hbad⟩] at h1
    cases h1)
  rw [h1, Outcome.ok.injEq, Except.ok.injEq] at k1
  subst k1
  cases d with
  | none =>
    rw [Option.getD_none, List.map_nil] at k2
    exact absurd (List.map_eq_nil_iff.mp k2.nil_eq.symm) hne
  | some d =>
    rw [Option.getD_some] at *
    have hkd : (d.map Prod.fst).Nodup := k2.nodup_iff.mpr hk
    refine ⟨d, by rw [hcopy, heq, h1], hkd, ?_, ?_, ?_⟩
    · intro p hp
      have hm : p.1 ∈ s.map Prod.fst := k2.mem_iff.mp (List.mem_map.mpr ⟨p, hp, rfl⟩)
      obtain ⟨⟨q1, q2⟩, hq, hq1⟩ := List.mem_map.mp hm
      obtain ⟨c', g1, _, g3⟩ := h2.2 q1 q2 ((DataStore.get_some hk _ _).mpr hq)
      have hp' : d.getColumn p.1 = some p.2 := (DataStore.get_some hkd _ _).mpr hp
      rw [← hq1, g1] at hp'
      cases hp'
      exact g3
    · rintro rfl
      exact hne (List.map_eq_nil_iff.mp k2.symm.eq_nil)
    · intro name ty hty
      unfold storeKind at hty
      obtain ⟨c, hc, hct⟩ := Option.map_eq_some_iff.mp hty
      obtain ⟨g1, g2, g3, g4, g5⟩ := hget name c hc
      obtain ⟨c', m1, m2⟩ := k3 name c hc
      rw [List.length_map, List.length_range] at g3
      rw [← g1] at g4
      refine ⟨c', m1, ((PyStore.createCol_rows g4 (by omega) hnb m2).1.trans g1).trans hct, ?_⟩
      intro hraw i hi
      obtain ⟨x, x1, x2⟩ := g5 i (i : Int) (by rw [List.getElem?_map, List.getElem?_range hi]; rfl)
      refine ⟨x, by simp only [storeRow, hc, x2], ?_⟩
      exact createCol_sees (by rw [g1, hct]; exact hraw) g4 (by omega) hnb (by omega) m2 x1

theorem withFeature_twice (row : String → Option (Cell A)) (feature : String) (u v : Cell A) :
    withFeature (withFeature row feature u) feature v = withFeature row feature v := by
  funext name
  unfold withFeature
  split <;> rfl

/-- What the plot shows: for each value, the differences of the values that the forest has for the rows with the feature set to
the value and to the base. -/
def ShowsDifferences (forest : List (Tree D A)) (n : Nat) (row : Nat → String → Option (Cell A)) (feature : String)
    (base : Cell A) (out : List (Cell A × List D)) : Prop :=
  ∀ p ∈ out, p.2.length = n ∧ ∀ i < n, ∃ a b, forestValue (withFeature (row i) feature p.1) forest = some a ∧
    forestValue (withFeature (row i) feature base) forest = some b ∧ p.2[i]? = some (a - b)

theorem dependencyLoop_ok {fmax : A} {nb : Nat} (hnb : nb < 2 ^ 32) (h2 : 2 < nb) {place : DataStore A → DataStore A}
    (hplace : ∀ l, (place l).Perm l) {n : Nat} {kind : String → Option ColType} {row : Nat → String → Option (Cell A)}
    (hn : n < 2 ^ 31) (hsmall : n < 2 * nb) {feature : String} {ty : ColType} (hk : kind feature = some ty)
    {forest : List (Tree D A)} (hf : ∀ tr ∈ forest, TypedTree kind tr) {nt : Int} (hnt : 0 < nt) {x0 : Cell A} {base : List D}
    (hlen : base.length = n)
    (hbase : ∀ i < n, ∃ b, base[i]? = some b ∧ forestValue (withFeature (row i) feature x0) forest = some b) :
    ∀ (x : List (Cell A)) (t : DataStore A) (u : Cell A), (∀ v ∈ x, cellFits ty v = true) →
    SeesRows t n kind (fun i => withFeature (row i) feature u) →
    ∃ out, dependencyLoop fmax nb place forest nt feature ty base (some t) x = ok (.ok out) ∧ out.map Prod.fst = x ∧
      ShowsDifferences forest n row feature x0 out
  | [], _, _, _, _ => ⟨[], rfl, rfl, by intro p hp; cases hp⟩
  | v :: x, t, u, hx, ht => by
    obtain ⟨t1, h3, h4⟩ := ht.replace (fmax := fmax) hnb h2 hplace hn hsmall hk (hx v (List.mem_cons_self ..))
    simp only [withFeature_twice] at h4
    obtain ⟨scores, h5, h6, h7⟩ := h4.predict hf hnt
    obtain ⟨out, h8, h9, h10⟩ := dependencyLoop_ok (fmax := fmax) hnb h2 hplace hn hsmall hk hf hnt hlen hbase x t1 v
      (fun w hw => hx w (List.mem_cons_of_mem _ hw)) h4
    refine ⟨(v, List.zipWith (· - ·) scores base) :: out, ?_, by rw [List.map_cons, h9], ?_⟩
    · simp only [dependencyLoop, h3, PyRes.andThen, h5, h8]
    · intro p hp
      rcases List.mem_cons.mp hp with rfl | hp
      · refine ⟨by simp [h6, hlen], ?_⟩
        intro i hi
        obtain ⟨a, a1, a2⟩ := h7 i hi
        obtain ⟨b, b1, b2⟩ := hbase i hi
        exact ⟨a, b, a2, b2, by simp only [List.getElem?_zipWith, a1, b1]⟩
      · exact h10 p hp

theorem dependencyFrom_ok {fmax : A} {nb : Nat} (hnb : nb < 2 ^ 32) (h2 : 2 < nb) {place : DataStore A → DataStore A}
    (hplace : ∀ l, (place l).Perm l) {n : Nat} {kind : String → Option ColType} {row : Nat → String → Option (Cell A)}
    (hn : n < 2 ^ 31) (hsmall : n < 2 * nb) {feature : String} {ty : ColType} (hk : kind feature = some ty)
    {forest : List (Tree D A)} (hf : ∀ tr ∈ forest, TypedTree kind tr) {nt : Int} (hnt : 0 < nt) {x0 : Cell A}
    (hx0 : cellFits ty x0 = true) {x : List (Cell A)} (hx : ∀ v ∈ x, cellFits ty v = true) {t : DataStore A}
    (ht : SeesRows t n kind row) :
    ∃ out, dependencyFrom fmax nb place forest nt feature ty x0 (some t) x = ok (.ok out) ∧ out.map Prod.fst = x ∧
      ShowsDifferences forest n row feature x0 out := by
  obtain ⟨t1, h3, h4⟩ := ht.replace (fmax := fmax) hnb h2 hplace hn hsmall hk hx0
  obtain ⟨base, h5, h6, h7⟩ := h4.predict hf hnt
  obtain ⟨out, h8, h9, h10⟩ := dependencyLoop_ok (fmax := fmax) hnb h2 hplace hn hsmall hk hf hnt h6 h7 x t1 x0 hx h4
  exact ⟨out, by simp only [dependencyFrom, h3, PyRes.andThen, h5, h8], h9, h10⟩

/-! ## C98 -/

/-- A store that can be plotted: different names, `n` rows in every column, and copying does not crash (C80). -/
structure Plottable (nb n : Nat) (s : DataStore A) : Prop where
  names : (s.map Prod.fst).Nodup
  rows : ∀ p ∈ s, HasRows n p.2
  few : n < 2 * nb
  copies : ¬ PicksDistinct s ((List.range n).map Int.ofNat) (nb - 1)

theorem nonempty_of_kind {s : DataStore A} {feature : String} {ty : ColType} (h : storeKind s feature = some ty) : s ≠ [] := by
  rintro rfl
  cases h

/-- **C98 (numbers).** For a bucketized feature the plot shows the given values in the order of `sorted`, and for each of them and
each row the value of the forest for that row with the feature set to the value, minus the value with the feature set to `x0`
(missing if not given).  The other columns keep their values, and nothing is left of one value when the next is computed. -/
theorem C98_numbers (fmax : A) {nb : Nat} (hnb : nb < 2 ^ 32) (h2 : 2 < nb) {place : DataStore A → DataStore A}
    (hplace : ∀ l, (place l).Perm l) {s : DataStore A} {n : Nat} (hn : n < 2 ^ 31) (hs : Plottable nb n s) {feature : String}
    (hk : storeKind s feature = some .bucketized) {forest : List (Tree D A)} (hf : ∀ tr ∈ forest, TypedTree (storeKind s) tr)
    {nt : Int} (hnt : 0 < nt) {sort : List (Cell A) → List (Cell A)} (hsort : ∀ l, (sort l).Perm l) (x : List (Fl A))
    (x0 : Option (Fl A)) :
    ∃ out, partialDependency fmax nb place sort forest nt (some s) feature (x.map Cell.num) (x0.map Cell.num) = ok (.ok out) ∧
      out.map Prod.fst = sort (x.map Cell.num) ∧
      ShowsDifferences forest n (storeRow s) feature (.num (x0.getD .nan)) out := by
  obtain ⟨d, h3, h4⟩ := copy_sees fmax hnb hplace hs.names (nonempty_of_kind hk) hn hs.rows hs.few hs.copies
  obtain ⟨c, c1, c2, _⟩ := h4.cols feature _ hk
  have hbase : (x0.map Cell.num).getD (.num .nan) = .num (x0.getD .nan) := by cases x0 <;> rfl
  obtain ⟨out, h5, h6, h7⟩ := dependencyFrom_ok (fmax := fmax) hnb h2 hplace hn hs.few hk hf hnt (x0 := .num (x0.getD .nan)) rfl
    (x := sort (x.map Cell.num)) (by
      intro v hv
      obtain ⟨y, _, rfl⟩ := List.mem_map.mp ((hsort _).mem_iff.mp hv)
      rfl) h4
  refine ⟨out, ?_, h6, h7⟩
  cases c with
  | bkt c => simp only [partialDependency, h3, PyRes.andThen, PyStore.getCol, c1, hbase, h5]
  | str c => cases c2
  | raw c => cases c2

/-- **C98 (strings).** The same for a string feature; the base is `x0`, or the first value if it is not given. -/
theorem C98_strings (fmax : A) {nb : Nat} (hnb : nb < 2 ^ 32) (h2 : 2 < nb) {place : DataStore A → DataStore A}
    (hplace : ∀ l, (place l).Perm l) {s : DataStore A} {n : Nat} (hn : n < 2 ^ 31) (hs : Plottable nb n s) {feature : String}
    (hk : storeKind s feature = some .string) {forest : List (Tree D A)} (hf : ∀ tr ∈ forest, TypedTree (storeKind s) tr)
    {nt : Int} (hnt : 0 < nt) (sort : List (Cell A) → List (Cell A)) (x : List String) (x0 : Option String) {base : String}
    (hbase : x0.or x.head? = some base) :
    ∃ out, partialDependency fmax nb place sort forest nt (some s) feature (x.map Cell.str) (x0.map Cell.str) = ok (.ok out) ∧
      out.map Prod.fst = x.map Cell.str ∧ ShowsDifferences forest n (storeRow s) feature (.str base) out := by
  obtain ⟨d, h3, h4⟩ := copy_sees fmax hnb hplace hs.names (nonempty_of_kind hk) hn hs.rows hs.few hs.copies
  obtain ⟨c, c1, c2, _⟩ := h4.cols feature _ hk
  obtain ⟨out, h5, h6, h7⟩ := dependencyFrom_ok (fmax := fmax) hnb h2 hplace hn hs.few hk hf hnt (x0 := .str base) rfl
    (x := x.map Cell.str) (by
      intro v hv
      obtain ⟨y, _, rfl⟩ := List.mem_map.mp hv
      rfl) h4
  refine ⟨out, ?_, h6, h7⟩
  cases c with
  | str c =>
    cases x0 with
    | some v =>
      cases hbase
      simp only [partialDependency, h3, PyRes.andThen, PyStore.getCol, c1, Option.map_some, h5]
    | none =>
      cases x with
      | nil => cases hbase
      | cons v x =>
        cases hbase
        rw [List.map_cons] at h5
        simp only [partialDependency, h3, PyRes.andThen, PyStore.getCol, c1, Option.map_none, List.map_cons, h5]
  | bkt c => cases c2
  | raw c => cases c2

/-- **C98 (errors).** A feature that is not in the store, or is a raw column, raises a `ValueError`. -/
theorem C98_errors (fmax : A) {nb : Nat} (hnb : nb < 2 ^ 32) {place : DataStore A → DataStore A}
    (hplace : ∀ l, (place l).Perm l) {s : DataStore A} {n : Nat} (hn : n < 2 ^ 31) (hs : Plottable nb n s) {feature : String}
    (hk : storeKind s feature = none ∨ storeKind s feature = some .raw) (forest : List (Tree D A)) (nt : Int)
    (sort : List (Cell A) → List (Cell A)) (x : List (Cell A)) (x0 : Option (Cell A)) :
    partialDependency fmax nb place sort forest nt (some s) feature x x0 = ok (.error .valueError) := by
  obtain ⟨d, h1, ⟨h2, h3⟩, _⟩ := C80_copy fmax hnb hplace hs.names hn hs.rows hs.few hs.copies
  have hkd : ((d.getD []).map Prod.fst).Nodup := h2.nodup_iff.mpr hs.names
  rcases hk with hk | hk
  · have : (d.getD []).getColumn feature = none := by
      rw [DataStore.get_none]
      intro hm
      have hm' := h2.mem_iff.mp hm
      rw [storeKind, Option.map_eq_none_iff, DataStore.get_none] at hk
      exact hk hm'
    cases d with
    | none => simp only [partialDependency, h1, PyRes.andThen, PyStore.getCol]
    | some d =>
      rw [Option.getD_some] at this
      simp only [partialDependency, h1, PyRes.andThen, PyStore.getCol, this]
  · unfold storeKind at hk
    obtain ⟨c, hc, hct⟩ := Option.map_eq_some_iff.mp hk
    obtain ⟨c', h4, h5, _⟩ := h3 feature c hc
    rw [hct] at h5
    cases d with
    | none => cases h4
    | some d =>
      rw [Option.getD_some] at h4
      cases c' with
      | raw c' => simp only [partialDependency, h1, PyRes.andThen, PyStore.getCol, h4]
      | str c' => cases h5
      | bkt c' => cases h5

/-- Trees do not look at features that they do not have. -/
theorem treeValue_congr {row row' : String → Option (Cell A)} : ∀ (t : Tree D A), (∀ name ∈ treeFeatures t, row name = row' name) →
    treeValue row t = treeValue row' t := by
  intro t
  induction t with
  | absent => intro _; rfl
  | node score split left right ihl ihr =>
    intro h
    cases left with
    | absent => rfl
    | node a b c d =>
      cases split with
      | none => rfl
      | some s =>
        have hl := ihl (fun name hn => h name (by simp only [treeFeatures, List.mem_append] at hn ⊢; tauto))
        have hr := ihr (fun name hn => h name (by simp only [treeFeatures, List.mem_append] at hn ⊢; tauto))
        simp only [treeValue, h s.feature (by simp [treeFeatures]), hl, hr]

theorem forestValue_congr {row row' : String → Option (Cell A)} {forest : List (Tree D A)}
    (h : ∀ name ∈ forestFeatures forest, row name = row' name) : forestValue row forest = forestValue row' forest := by
  unfold forestValue
  congr 1
  induction forest with
  | nil => rfl
  | cons t ts ih =>
    rw [List.mapM_cons, List.mapM_cons, ih (fun name hn => h name (by
      simp only [forestFeatures, List.flatMap_cons, List.mem_append] at hn ⊢; exact Or.inr hn)),
      treeValue_congr t (fun name hn => h name (by
        simp only [forestFeatures, List.flatMap_cons, List.mem_append] at hn ⊢; exact Or.inl hn))]

/-- **C98 (unused features).** For a feature that the forest does not use, every difference is that of a number with itself. -/
theorem C98_unused {forest : List (Tree D A)} {n : Nat} {row : Nat → String → Option (Cell A)} {feature : String} {base : Cell A}
    {out : List (Cell A × List D)} (h : ShowsDifferences forest n row feature base out) (hf : feature ∉ forestFeatures forest) :
    ∀ p ∈ out, ∀ i < n, ∃ a, forestValue (row i) forest = some a ∧ p.2[i]? = some (a - a) := by
  intro p hp i hi
  obtain ⟨a, b, h1, h2, h3⟩ := (h p hp).2 i hi
  have hrow : ∀ v, forestValue (withFeature (row i) feature v) forest = forestValue (row i) forest := by
    intro v
    refine forestValue_congr ?_
    intro name hname
    unfold withFeature
    rw [if_neg]
    rintro rfl
    exact hf hname
  rw [hrow] at h1 h2
  rw [h1] at h2
  cases h2
  exact ⟨a, h1, h3⟩

/-- **C98 (data from `from_dict`).** A store made from Python lists of fewer than twice as many values as buckets can be plotted:
copying it does not crash, as creating it did not.  The rows of the theorems above are those of the lists. -/
theorem C98_dict (fmax : A) {nb : Nat} (hnb : nb < 2 ^ 32) {place : DataStore A → DataStore A} (hplace : ∀ l, (place l).Perm l)
    {d : Dict A} {n : Nat} (hd : d.Rows n) (hn : n < 2 ^ 31) (hsmall : n < 2 * nb) {t : DataStore A}
    (ht : d.store fmax nb place = ok (.ok (some t))) :
    Plottable nb n t ∧ (∀ name, storeKind t name = d.kind name) ∧
      ∀ i < n, ∀ name, d.kind name ≠ some .raw → storeRow t i name = d.row i name := by
  obtain ⟨_, g2, g3, g4, g5⟩ := addAll_created (fmax := fmax) hnb hplace hn hd.cols.1 hd.cols.2 ht
  have hread : ∀ l ∈ d.cols, ∀ c, PyStore.createCol fmax nb l.2.1 l.2.2 = ok c → ∀ (j : Nat) (x : Cell A), l.2.2[j]? = some x →
      PyStore.item c j = ok (.ok x) := by
    intro l hl c hc
    obtain ⟨a1, a2⟩ := hd.cols.2 l hl
    obtain ⟨b1, b2⟩ := PyStore.createCol_rows a2 (by omega) hnb hc
    exact PyStore.createCol_read a2 (by omega) hnb hc ⟨b1, b2, fun _ => by omega⟩
  refine ⟨⟨g2, g3, hsmall, ?_⟩, Dict.storeKind hnb hplace hd hn ht, ?_⟩
  · rintro ⟨name, c, hc, hcard⟩
    obtain ⟨⟨name', ty, vals⟩, hl, rfl, hcr⟩ := g4 name _ hc
    obtain ⟨a1, a2⟩ := hd.cols.2 _ hl
    simp only at a1 a2 hcr
    have hrow := hread _ hl _ hcr
    simp only at hrow
    have hty : ty = .bucketized := (PyStore.createCol_rows a2 (by omega) hnb hcr).1.symm
    subst hty
    obtain ⟨vals', e1, e2, _, e4⟩ := PyStore.items_in hn (g3 _ ((DataStore.get_some g2 _ _).mp hc))
      (index := (List.range n).map Int.ofNat) (by
        intro i hi
        obtain ⟨j, hj, rfl⟩ := List.mem_map.mp hi
        rw [List.mem_range] at hj
        simp only [Int.ofNat_eq_natCast]
        omega)
    have hv : vals' = vals := by
      refine List.ext_getElem? ?_
      intro j
      rw [List.length_map, List.length_range] at e2
      by_cases hj : j < n
      · obtain ⟨x, x1, x2⟩ := e4 j (j : Int) (by rw [List.getElem?_map, List.getElem?_range hj]; rfl)
        have hx := hrow j _ (List.getElem?_eq_getElem (show j < vals.length by omega))
        rw [x2, Outcome.ok.injEq, Except.ok.injEq] at hx
        rw [x1, hx, List.getElem?_eq_getElem (show j < vals.length by omega)]
      · rw [List.getElem?_eq_none (by omega), List.getElem?_eq_none (by omega)]
    subst hv
    rw [PyStore.distinct_ncard e1, PyStore.distinct] at hcard
    have hlen := PyStore.numbers_length (PyStore.fit_bkt a2)
    have := (PyStore.createBucketized_iff fmax (nb := nb) (vals := PyStore.numbers vals') (by omega) (by omega) hnb).1.mpr
      (by omega)
    rw [PyStore.createCol, this] at hcr
    cases hcr
  · intro i hi name hraw
    unfold storeRow
    cases hk : d.kind name with
    | none =>
      have := Dict.storeKind hnb hplace hd hn ht name
      rw [hk, storeKind, Option.map_eq_none_iff] at this
      rw [this]
      unfold Dict.kind at hk
      split at hk
      · cases hk
      · next hb =>
        split at hk
        · cases hk
        · next hs =>
          rw [Dict.row, Option.not_isSome_iff_eq_none.mp hb, Option.not_isSome_iff_eq_none.mp hs]
    | some ty =>
      obtain ⟨vals, h1, h2⟩ := Dict.col_of hk
      obtain ⟨c, h3, _, h5⟩ := g5 _ h1
      have hl := (hd.cols.2 _ h1).1
      simp only at h3 h5 hl
      have hx : vals[i]? = some (vals[i]'(by omega)) := List.getElem?_eq_getElem _
      rw [h3]
      simp only [hread _ h1 c h5 i _ hx]
      rw [h2 (by rintro rfl; exact hraw hk) i, hx]

/-! ## Examples -/

/-- Two numbers and a missing one; the tree asks whether `x < 7`. -/
def plotData : Dict ℚ where
  bucketized := [("x", [.num 6, .num 7, .nan]), ("z", [.num 1, .num 1, .num 2])]
  strs := [("color", ["c", "zz", "b"])]
  raw := [("y", [.num 1, .num 2, .num 3])]

theorem plotData_rows : plotData.Rows 3 where
  names := by decide
  bucketized := by decide
  strs := by decide
  raw := by decide

/-- The tree of the example uses `x`; where `x < 7` it looks at `z`. -/
def plotTree : Tree ℚ ℚ :=
  .node 0 (some { feature := "x", floatSplit := some ⟨.num 7, true⟩, gain := 1 })
    (.node 0 (some { feature := "z", floatSplit := some ⟨.num 2, true⟩, gain := 1 })
      (.node 5 none .absent .absent) (.node 6 none .absent .absent))
    (.node 1 none .absent .absent)

/-- The plot of the example, `none` where an exception is raised. -/
def examplePlot (feature : String) (x : List (Cell ℚ)) (x0 : Option (Cell ℚ)) : Option (List (Cell ℚ × List ℚ)) :=
  match plotData.store 1000 6 List.reverse with
  | .ok (.ok (some t)) => match partialDependency 1000 6 id (fun l => l) [plotTree] 2 (some t) feature x x0 with
    | .ok (.ok out) => some out
    | _ => none
  | _ => none

example : examplePlot "x" [.num (.num 6), .num (.num 7)] none =
    some [(.num (.num 6), [4, 4, 5]), (.num (.num 7), [0, 0, 0])] := by decide +kernel

example : examplePlot "x" [.num .nan, .num (.num 8)] (some (.num (.num 3))) =
    some [(.num .nan, [-4, -4, -5]), (.num (.num 8), [-4, -4, -5])] := by decide +kernel

example : examplePlot "color" [.str "a", .str "b"] none = some [(.str "a", [0, 0, 0]), (.str "b", [0, 0, 0])] := by
  decide +kernel

example : examplePlot "color" [] none = none ∧ examplePlot "y" [.num (.num 6)] none = none ∧
    examplePlot "w" [.num (.num 6)] none = none := by decide +kernel

/-- The hypotheses about the forest hold. -/
example : TypedTree plotData.kind plotTree := by
  refine ⟨fun h => (by cases h), fun s hs => ?_, ⟨fun h => (by cases h), fun s hs => ?_, ⟨fun _ => rfl, fun _ h => (by cases h),
    trivial, trivial⟩, ⟨fun _ => rfl, fun _ h => (by cases h), trivial, trivial⟩⟩,
    ⟨fun _ => rfl, fun _ h => (by cases h), trivial, trivial⟩⟩
  · cases hs
    exact Or.inl ⟨rfl, _, rfl⟩
  · cases hs
    exact Or.inl ⟨rfl, _, rfl⟩

end Gbdt
