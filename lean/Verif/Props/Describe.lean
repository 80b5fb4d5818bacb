import Verif.Model.Describe
import Verif.Lemmas.Text
import Verif.Props.PyDataFrame

/-!
# C176, C177: what `repr` shows

Specification: `PyStore.listCol` (`list(column)`, see C93).
-/

set_option autoImplicit false
set_option linter.unusedSectionVars false

namespace Gbdt
open Outcome

variable {A : Type} [LinearOrder A]

theorem join_intercalate (d : Text) : ∀ ws : List Text, join ws d = d.intercalate ws
  | [] => rfl
  | [w] => by rw [join_single]; simp [List.intercalate]
  | w :: v :: ws => by
    rw [join_cons_cons, join_intercalate d (v :: ws)]
    simp [List.intercalate, List.intersperse, List.append_assoc]

/-- **C176 (columns).** `repr` of a column never raises an exception; it shows the first ten elements, or all if there are not more, in order and separated by commas,
strings between quotation marks, and three dots exactly if there are more than ten. -/
theorem C176_column (fmt : Fl A → Text) {n : Nat} (hn : n < 2 ^ 31) {c : Column A} (h : HasRows n c) :
    ∃ vals, PyStore.listCol c = ok (.ok vals) ∧ vals.length = n ∧
      PyStore.describeCol fmt c = ok (.ok ((match c.type with
          | .string => "StringColumn".toList
          | .bucketized => "BucketizedFloatColumn".toList
          | .raw => "FloatColumn".toList) ++ "([".toList ++
        [','].intercalate ((vals.take 10).map (fun v => match v with
          | .str s => ['"'] ++ s.toList ++ ['"']
          | .num x => fmt x)) ++ (if n ≤ 10 then [] else " ...".toList) ++ "])".toList)) := by
  obtain ⟨vals, h1, h2, h3⟩ := C93_list hn h
  refine ⟨vals, h1, h2, ?_⟩
  obtain ⟨vs, g1, g2, _, g3⟩ := PyStore.items_in hn h (index := (List.range (min n 10)).map Int.ofNat) (by
    intro i hi
    obtain ⟨k, hk, rfl⟩ := List.mem_map.mp hi
    have := List.mem_range.mp hk
    exact ⟨Int.natCast_nonneg k, Int.ofNat_lt.mpr (by omega)⟩)
  have hvs : vs = vals.take 10 := by
    rw [List.length_map, List.length_range] at g2
    refine List.ext_getElem? (fun j => ?_)
    by_cases hj : j < min n 10
    · obtain ⟨x, hx, hix⟩ := g3 j (Int.ofNat j) (by simp [hj])
      have hjl : j < vals.length := by omega
      have := h3 j _ (List.getElem?_eq_getElem hjl)
      rw [show ((j : Int)) = Int.ofNat j from rfl, hix] at this
      cases this
      rw [hx, List.getElem?_take, if_pos (by omega), List.getElem?_eq_getElem hjl]
    · rw [List.getElem?_eq_none (by omega), List.getElem?_eq_none]
      rw [List.length_take]
      omega
  unfold PyStore.describeCol
  rw [PyStore.hasRows_size h]
  simp only [g1, PyRes.andThen, join_intercalate, hvs]
  congr 2
  have hcell : (vals.take 10).map (PyStore.cellText fmt) = (vals.take 10).map (fun v => match v with
      | .str s => ['"'] ++ s.toList ++ ['"']
      | .num x => fmt x) := List.map_congr_left (fun v _ => by cases v <;> simp [PyStore.cellText])
  rw [hcell]
  have htype : PyStore.typeText c.type = (match c.type with
      | .string => "StringColumn".toList
      | .bucketized => "BucketizedFloatColumn".toList
      | .raw => "FloatColumn".toList) := by cases c.type <;> rfl
  rw [htype]
  by_cases h10 : n ≤ 10
  · rw [if_neg (by omega), if_pos h10]
  · rw [if_pos (by omega), if_neg h10]

/-- **C176 (stores).** `repr` of a store says how many columns of each type there are, and the number of rows; the numbers of columns add up. -/
theorem C176_store {s : DataStore A} {n : Nat} (hr : ∀ p ∈ s, HasRows n p.2) (hs : s ≠ []) :
    PyStore.describe (some s) = ok ("DataStore with ".toList ++ (toString (s.countP (fun p => p.2.type == .bucketized))).toList ++ " bucketized float, ".toList ++
      (toString (s.countP (fun p => p.2.type == .raw))).toList ++ " raw float and ".toList ++
      (toString (s.countP (fun p => p.2.type == .string))).toList ++ " string columns, each with ".toList ++ (toString n).toList ++ " rows.".toList) ∧
    s.countP (fun p => p.2.type == .bucketized) + s.countP (fun p => p.2.type == .raw) + s.countP (fun p => p.2.type == .string) = s.length := by
  constructor
  · have hrows : s.numRows = ok n := by
      cases s with
      | nil => exact absurd rfl hs
      | cons p s => exact PyStore.hasRows_size (hr p (by simp))
    unfold PyStore.describe
    simp only [hrows, ok_bind, PyStore.countText, DataStore.namesOf, List.length_map, ← List.countP_eq_length_filter, pure_eq]
  · clear hr hs
    induction s with
    | nil => rfl
    | cons p s ih =>
      simp only [List.countP_cons, List.length_cons]
      cases p.2.type <;> simp <;> omega

/-- **C176 (no columns).** A store from which all columns have been erased is said to have no columns and no rows; one that never had a column, or that has been
cleared, is said to be empty. -/
theorem C176_empty : PyStore.describe (some ([] : DataStore A)) =
      ok "DataStore with 0 bucketized float, 0 raw float and 0 string columns, each with 0 rows.".toList ∧
    PyStore.describe (none : Option (DataStore A)) = ok "Empty data store.".toList := by
  constructor
  · have h0 : (toString 0).toList = ['0'] := by decide +kernel
    show ok ("DataStore with ".toList ++ (toString 0).toList ++ " bucketized float, ".toList ++ (toString 0).toList ++ " raw float and ".toList ++
      (toString 0).toList ++ " string columns, each with ".toList ++ (toString 0).toList ++ " rows.".toList) = _
    rw [h0]
    exact congrArg ok (by decide +kernel)
  · rfl

/-! ## C177: telling columns apart -/

/-- The elements with what follows them. -/
def showStrings : List Text → Text → Text
  | [], t => t
  | [s], t => '"' :: (s ++ '"' :: t)
  | s :: s' :: ss, t => '"' :: (s ++ '"' :: ',' :: showStrings (s' :: ss) t)

theorem showStrings_eq (t : Text) : ∀ ss : List Text, [','].intercalate (ss.map (fun s => ['"'] ++ s ++ ['"'])) ++ t = showStrings ss t
  | [] => by simp [List.intercalate, showStrings]
  | [s] => by simp [List.intercalate, showStrings]
  | s :: s' :: ss => by
    have ih := showStrings_eq t (s' :: ss)
    rw [showStrings, ← ih]
    simp [List.intercalate]

theorem quoted_inj : ∀ {s s' r r' : Text}, '"' ∉ s → '"' ∉ s' → s ++ '"' :: r = s' ++ '"' :: r' → s = s' ∧ r = r'
  | [], [], r, r', _, _, h => by simpa using h
  | [], c :: s', r, r', _, h2, h => by
    simp only [List.nil_append, List.cons_append, List.cons.injEq] at h
    exact absurd (by rw [h.1]; exact List.mem_cons_self ..) h2
  | c :: s, [], r, r', h1, _, h => by
    simp only [List.nil_append, List.cons_append, List.cons.injEq] at h
    exact absurd (by rw [← h.1]; exact List.mem_cons_self ..) h1
  | c :: s, c' :: s', r, r', h1, h2, h => by
    simp only [List.cons_append, List.cons.injEq] at h
    obtain ⟨h3, h4⟩ := quoted_inj (s := s) (s' := s') (fun hm => h1 (List.mem_cons_of_mem _ hm)) (fun hm => h2 (List.mem_cons_of_mem _ hm)) h.2
    exact ⟨by rw [h.1, h3], h4⟩

/-- What follows does not look like an element or a comma. -/
def EndOfList (t : Text) : Prop := ∃ c r, t = c :: r ∧ c ≠ '"' ∧ c ≠ ','

theorem showStrings_inj : ∀ {ss ss' : List Text} {t t' : Text}, (∀ s ∈ ss, '"' ∉ s) → (∀ s ∈ ss', '"' ∉ s) → EndOfList t → EndOfList t' →
    showStrings ss t = showStrings ss' t' → ss = ss' ∧ t = t'
  | [], [], t, t', _, _, _, _, h => ⟨rfl, h⟩
  | [], s :: ss, t, t', _, _, ⟨c, r, ht, h1, _⟩, _, h => by
    cases ss <;> (rw [ht] at h; simp only [showStrings, List.cons.injEq] at h; exact absurd h.1 h1)
  | s :: ss, [], t, t', _, _, _, ⟨c, r, ht, h1, _⟩, h => by
    cases ss <;> (rw [ht] at h; simp only [showStrings, List.cons.injEq] at h; exact absurd h.1.symm h1)
  | [s], [s'], t, t', h1, h2, _, _, h => by
    simp only [showStrings, List.cons.injEq, true_and] at h
    obtain ⟨rfl, rfl⟩ := quoted_inj (h1 s (by simp)) (h2 s' (by simp)) h
    exact ⟨rfl, rfl⟩
  | [s], s' :: s2 :: ss', t, t', h1, h2, ⟨c, r, ht, _, h3⟩, _, h => by
    simp only [showStrings, List.cons.injEq, true_and] at h
    obtain ⟨rfl, g⟩ := quoted_inj (h1 s (by simp)) (h2 s' (by simp)) h
    rw [ht] at g
    exact absurd (List.cons.inj g).1 h3
  | s :: s2 :: ss, [s'], t, t', h1, h2, _, ⟨c, r, ht, _, h3⟩, h => by
    simp only [showStrings, List.cons.injEq, true_and] at h
    obtain ⟨rfl, g⟩ := quoted_inj (h1 s (by simp)) (h2 s' (by simp)) h
    rw [ht] at g
    exact absurd (List.cons.inj g).1.symm h3
  | s :: s2 :: ss, s' :: s2' :: ss', t, t', h1, h2, ht, ht', h => by
    simp only [showStrings, List.cons.injEq, true_and] at h
    obtain ⟨rfl, g⟩ := quoted_inj (h1 s (by simp)) (h2 s' (by simp)) h
    obtain ⟨h3, h4⟩ := showStrings_inj (fun x hx => h1 x (List.mem_cons_of_mem _ hx)) (fun x hx => h2 x (List.mem_cons_of_mem _ hx)) ht ht' (List.cons.inj g).2
    exact ⟨by rw [h3], h4⟩

/-- **C177 (partial).** If `repr` shows two columns of strings alike, and there are no quotation marks in the strings, then the first ten elements are the same, and
both columns have more than ten or neither has; so columns of at most ten elements are the same.  Missing: strings with quotation marks, see `C177_refuted`. -/
theorem C177_strings_partial (fmt : Fl A → Text) {c c' : StrCol} {n n' : Nat} (hn : n < 2 ^ 31) (hn' : n' < 2 ^ 31) (h : HasRows n (.str c : Column A))
    (h' : HasRows n' (.str c' : Column A)) {vals vals' : List String} (hv : PyStore.listCol (.str c : Column A) = ok (.ok (vals.map Cell.str)))
    (hv' : PyStore.listCol (.str c' : Column A) = ok (.ok (vals'.map Cell.str))) (hq : ∀ s ∈ vals, '"' ∉ s.toList) (hq' : ∀ s ∈ vals', '"' ∉ s.toList)
    (heq : PyStore.describeCol fmt (.str c : Column A) = PyStore.describeCol fmt (.str c' : Column A)) :
    vals.take 10 = vals'.take 10 ∧ (10 < vals.length ↔ 10 < vals'.length) ∧ (vals.length ≤ 10 → vals = vals') := by
  obtain ⟨v, e1, e2, e3⟩ := C176_column fmt hn h
  obtain ⟨v', f1, f2, f3⟩ := C176_column fmt hn' h'
  rw [hv] at e1
  rw [hv'] at f1
  cases e1
  cases f1
  rw [List.length_map] at e2 f2
  rw [e3, f3] at heq
  simp only [Outcome.ok.injEq, Except.ok.injEq, Column.type, List.append_assoc, List.append_cancel_left_eq, ← List.map_take, List.map_map] at heq
  have hshow : ∀ (l : List String) (t : Text), [','].intercalate (l.map ((fun v : Cell A => match v with
      | .str s => ['"'] ++ (s.toList ++ ['"'])
      | .num x => fmt x) ∘ Cell.str)) ++ t = showStrings (l.map String.toList) t := by
    intro l t
    rw [← showStrings_eq, List.map_map]
    congr 2
  rw [hshow, hshow] at heq
  have hend : ∀ m : Nat, EndOfList ((if m ≤ 10 then [] else " ...".toList) ++ "])".toList) := by
    intro m
    split
    · exact ⟨']', [')'], by decide, by decide, by decide⟩
    · exact ⟨' ', "...])".toList, by decide, by decide, by decide⟩
  obtain ⟨k1, k2⟩ := showStrings_inj (by
    intro x hx
    obtain ⟨s, hs, rfl⟩ := List.mem_map.mp hx
    exact hq s (List.mem_of_mem_take (i := 10) hs)) (by
    intro x hx
    obtain ⟨s, hs, rfl⟩ := List.mem_map.mp hx
    exact hq' s (List.mem_of_mem_take (i := 10) hs)) (hend n) (hend n') heq
  have k3 : vals.take 10 = vals'.take 10 := (List.map_injective_iff.mpr (fun a b h => String.toList_injective h)) k1
  have k4 : 10 < vals.length ↔ 10 < vals'.length := by
    rw [e2, f2, ← not_le, ← not_le, not_iff_not]
    by_cases a : n ≤ 10 <;> by_cases b : n' ≤ 10
    · simp [a, b]
    · rw [if_pos a, if_neg b] at k2
      exact absurd k2 (by decide)
    · rw [if_neg a, if_pos b] at k2
      exact absurd k2 (by decide)
    · simp [a, b]
  refine ⟨k3, k4, fun hle => ?_⟩
  rw [List.take_of_length_le hle, List.take_of_length_le (by omega)] at k3
  exact k3

/-- **C177 (in full).** Columns of at most ten strings that `repr` shows alike are the same. -/
def C177_full : Prop :=
  ∀ (fmt : Fl ℚ → Text) (vals vals' : List String), vals.length ≤ 10 → vals'.length ≤ 10 →
    PyStore.describeCol fmt (Column.createString vals) = PyStore.describeCol fmt (Column.createString vals') → vals = vals'

/-- **C177 refuted.** One string `a","b` is shown like the two strings `a` and `b`. -/
theorem C177_refuted : ¬ C177_full := by
  intro h
  have := h (fun _ => []) ["a\",\"b"] ["a", "b"] (by decide) (by decide) (by decide +kernel)
  revert this
  decide +kernel

/-! ## Examples -/

/-- Twelve rows. -/
def describeRows : List (Fl ℚ) := (List.range 12).map (fun i => .num (i : ℚ))

/-- `C176_column`: a column of twelve numbers. -/
example : HasRows 12 (.raw { raw := describeRows } : Column ℚ) ∧
    PyStore.describeCol (fun v => match v with
      | .num x => (toString x.floor).toList
      | .nan => "nan".toList) (.raw { raw := describeRows } : Column ℚ) = ok (.ok "FloatColumn([0,1,2,3,4,5,6,7,8,9 ...])".toList) :=
  ⟨.raw _ rfl, by decide +kernel⟩

/-- `C176_column`: a column of two strings. -/
example : HasRows 2 (Column.createString ["red", ""] : Column ℚ) ∧
    PyStore.describeCol (fun _ => []) (Column.createString ["red", ""] : Column ℚ) = ok (.ok "StringColumn([\"red\",\"\"])".toList) :=
  ⟨.str [["red", ""]] rfl (by decide), by decide +kernel⟩

/-- `C176_store`. -/
example : PyStore.describe (some ([("color", .str (StrCol.build [["a", "b"]])), ("y", .raw { raw := [.num 1, .num 2] }),
      ("team", .str (StrCol.build [["u", "u"]]))] : DataStore ℚ)) =
    ok "DataStore with 0 bucketized float, 1 raw float and 2 string columns, each with 2 rows.".toList := by decide +kernel

/-- `C177_strings_partial`: columns that meet its conditions. -/
example : HasRows 2 (Column.createString ["a", "b,c"] : Column ℚ) ∧
    PyStore.listCol (Column.createString ["a", "b,c"] : Column ℚ) = ok (.ok (["a", "b,c"].map Cell.str)) ∧ (∀ s ∈ ["a", "b,c"], '"' ∉ s.toList) ∧
    PyStore.describeCol (fun _ => []) (Column.createString ["a", "b,c"] : Column ℚ) ≠ PyStore.describeCol (fun _ => []) (Column.createString ["a", "b", "c"] : Column ℚ) :=
  ⟨.str [["a", "b,c"]] rfl (by decide), by decide +kernel, by decide +kernel, by decide +kernel⟩

end Gbdt
