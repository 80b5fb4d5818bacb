import Verif.Lemmas.TwinTrain
import Verif.Props.OtherStore
import Verif.Props.PyStore

/-!
# Two data sets that are the same up to the order and the repetition of rows: columns and stores
-/

set_option autoImplicit false
set_option linter.unusedSectionVars false

namespace Gbdt
open Outcome

/-! ## Bucketized columns -/

section buckets
variable {A : Type} [LinearOrder A]

theorem FMap.sorted_ext : ∀ {m m' : FMap A}, FMap.Sorted m → FMap.Sorted m' → (∀ p, p ∈ m ↔ p ∈ m') → m = m'
  | [], [], _, _, _ => rfl
  | [], q :: m', _, _, h => absurd ((h q).mpr (by simp)) (by simp)
  | p :: m, [], _, _, h => absurd ((h p).mp (by simp)) (by simp)
  | p :: m, q :: m', h1, h2, h => by
    unfold FMap.Sorted at h1 h2
    rw [List.pairwise_cons] at h1 h2
    have hpq : p = q := by
      rcases List.mem_cons.mp ((h p).mp (by simp)) with e | e
      · exact e
      · rcases List.mem_cons.mp ((h q).mpr (by simp)) with e' | e'
        · exact e'.symm
        · exact absurd (h2.1 p e) (not_lt.mpr (h1.1 q e').le)
    subst hpq
    rw [FMap.sorted_ext h1.2 h2.2]
    intro x
    constructor
    · intro hx
      rcases List.mem_cons.mp ((h x).mp (List.mem_cons_of_mem _ hx)) with e | e
      · subst e; exact absurd (h1.1 _ hx) (lt_irrefl _)
      · exact e
    · intro hx
      rcases List.mem_cons.mp ((h x).mpr (List.mem_cons_of_mem _ hx)) with e | e
      · subst e; exact absurd (h2.1 _ hx) (lt_irrefl _)
      · exact e

theorem Bkts.map_unique {fmax : A} {S : List A} {M M' : FMap A} (h : Bkts fmax S M) (h' : Bkts fmax S M') : M = M' :=
  FMap.sorted_ext h.sorted h'.sorted (fun p => by rw [h.mem p.1 p.2, h'.mem p.1 p.2])

theorem histogram_perm {l l' : List (Fl A)} (h : l.Perm l') : histogram l = histogram l' :=
  FMap.sorted_ext (histogram_spec l).1 (histogram_spec l').1 (fun p => by
    rw [show p = (p.1, p.2) from rfl, mem_histogram, mem_histogram, h.count_eq])

theorem limitsOf_perm (nb : Nat) {l l' : List (Fl A)} (h : l.Perm l') : limitsOf nb l = limitsOf nb l' := by
  simp only [limitsOf, lcapOf, heavyCount, histogram_perm h, h.length_eq]

theorem strict_ext {l l' : List A} (h : l.Pairwise (· < ·)) (h' : l'.Pairwise (· < ·)) (hm : ∀ a, a ∈ l ↔ a ∈ l') : l = l' := by
  have := FMap.sorted_ext (m := l.map (fun a => (a, 0))) (m' := l'.map (fun a => (a, 0)))
    (by unfold FMap.Sorted; rw [List.pairwise_map]; exact h) (by unfold FMap.Sorted; rw [List.pairwise_map]; exact h')
    (by simp [hm])
  have := congrArg (List.map Prod.fst) this
  simpa [Function.comp_def] using this

theorem limitsOf_small {nb : Nat} {l l' : List (Fl A)} (h : l.length < 2 * nb) (h' : l'.length < 2 * nb)
    (hm : ∀ x, x ∈ l ↔ x ∈ l') : limitsOf nb l = limitsOf nb l' :=
  strict_ext (limits_sorted (histogram_spec l).1 _ _) (limits_sorted (histogram_spec l').1 _ _) (fun _ =>
    ⟨fun ha => limitsOf_all h' ((hm _).mp (limitsOf_mem ha)), fun ha => limitsOf_all h ((hm _).mpr (limitsOf_mem ha))⟩)

theorem Placed.mins_unique {fmax : A} {S : List A} {M : FMap A} {raw raw' : List (Fl A)} {codes codes' : List Nat}
    {mins mins' : List (Fl A)} (h : Placed fmax S M raw codes mins) (h' : Placed fmax S M raw' codes' mins')
    (hm : ∀ x, x ∈ raw ↔ x ∈ raw') : mins = mins' := by
  refine List.ext_getElem? (fun i => ?_)
  cases i with
  | zero => rw [h.zero, h'.zero]
  | succ t =>
    cases ha : (S ++ [fmax])[t]? with
    | none =>
      have hl : S.length + 1 ≤ t := by simpa using ha
      rw [List.getElem?_eq_none (by rw [h.len]; omega), List.getElem?_eq_none (by rw [h'.len]; omega)]
    | some a =>
      obtain ⟨m, a1, a2, a3, a4⟩ := h.mn t a ha
      obtain ⟨m', b1, b2, b3, b4⟩ := h'.mn t a ha
      rw [a1, b1]
      congr 2
      refine le_antisymm ?_ ?_
      · rcases b4 with rfl | ⟨b4, b5⟩
        · exact a2
        · exact a3 m' ((hm _).mpr b4) b5
      · rcases a4 with rfl | ⟨a4, a5⟩
        · exact b2
        · exact b3 m ((hm _).mp a4) a5

/-- A column from one block: all values decide on the buckets. -/
theorem build_single {fmax : A} {nb : Nat} {vals : List (Fl A)} {c : BktCol A} (hn : vals.length + 2 < 4294967296)
    (hnb : nb < 4294967296) (hok : BktCol.build fmax nb [vals] = ok c) : ∃ M, Ready fmax c vals (limitsOf nb vals) M := by
  have hb : Buffering ({ nb := nb, buffer := vals } : BktCol A) vals := ⟨rfl, rfl, rfl, rfl⟩
  obtain ⟨hub, hcase⟩ := buildBuckets_cases fmax _ _ hb hn hnb
  have e : BktCol.build fmax nb [vals] =
      (if vals.length > 100 * nb then ({ nb := nb, buffer := vals } : BktCol A).buildBuckets fmax
        else ok ({ nb := nb, buffer := vals } : BktCol A)) >>= fun c => c.finalize fmax := by
    unfold BktCol.build BktCol.adds BktCol.add
    simp only [BktCol.new, ne_eq, not_true_eq_false, if_false, Bool.false_eq_true, List.length_nil, if_true,
      List.nil_append]
    by_cases hg : vals.length > 100 * nb
    · simp only [hg, if_true]
      cases BktCol.buildBuckets fmax (({ nb := nb, buffer := vals } : BktCol A)) <;> rfl
    · simp only [hg, if_false]
      rfl
  have hfin : (({ nb := nb, buffer := vals } : BktCol A).finalize fmax) =
      (({ nb := nb, buffer := vals } : BktCol A).buildBuckets fmax >>= fun c1 =>
        ok { c1 with bucketMap := [], ints := c1.ints.finalize }) := by
    unfold BktCol.finalize
    simp
  have hbase : ({ nb := nb, buffer := vals } : BktCol A).nb = nb := rfl
  rw [hbase] at hub hcase
  by_cases hbad : nb = 0 ∨ heavyCount nb vals + 1 = nb
  · rw [(build_one_block fmax nb vals hn hnb).1.mpr hbad] at hok
    cases hok
  · rw [not_or] at hbad
    obtain ⟨c', h1, h2, h3⟩ := hcase hbad.1 hbad.2
    rw [e] at hok
    split at hok
    · rw [h1, ok_bind] at hok
      obtain ⟨codes, hp, hst⟩ := h2.placed
      have hne : c'.maxs.length ≠ 0 := by rw [h2.maxs]; simp
      unfold BktCol.finalize at hok
      rw [if_neg (by simp [h2.status]), if_neg (by simp [hst.1]), if_neg hne] at hok
      simp only [pure_eq, ok_bind, Outcome.ok.injEq] at hok
      subst hok
      exact ⟨_, h2.finalize⟩
    · rw [ok_bind, hfin, h1, ok_bind, Outcome.ok.injEq] at hok
      subst hok
      exact ⟨_, h2.finalize⟩

/-- Bucketized columns of data sets that correspond. -/
theorem twin_bkt {σ : Nat → Nat} {fmax : A} {nb : Nat} {v1 v2 : List (Fl A)} {b1 b2 : BktCol A}
    (hn1 : v1.length + 2 < 4294967296) (hn2 : v2.length + 2 < 4294967296) (hnb : nb < 4294967296)
    (h1 : BktCol.build fmax nb [v1] = ok b1) (h2 : BktCol.build fmax nb [v2] = ok b2)
    (hlim : limitsOf nb v1 = limitsOf nb v2) (hm : ∀ x, x ∈ v1 ↔ x ∈ v2) (hv : ∀ j < v2.length, v2[j]? = v1[σ j]?) :
    TwinCol σ v1.length v2.length (.bkt b1) (.bkt b2) := by
  obtain ⟨M1, r1⟩ := build_single hn1 hnb h1
  obtain ⟨M2, r2⟩ := build_single hn2 hnb h2
  rw [← hlim] at r2
  have hM := r1.bkts.map_unique r2.bkts
  subst hM
  refine .bkt b1 b2 (by rw [r1.maxs, r2.maxs]) (r2.placed.mins_unique r1.placed (fun x => (hm x).symm)) ⟨?_⟩
  refine ⟨_, _, r1.data, r2.data, by simp, by simp, ?_, ?_, ?_⟩
  · intro j hj
    rw [List.getElem?_map, List.getElem?_map, hv j hj]
  · intro k hk
    obtain ⟨x, _, rfl⟩ := List.mem_map.mp hk
    rw [r1.maxInt]
    exact r1.bkts.code_lt x
  · intro k hk
    obtain ⟨x, _, rfl⟩ := List.mem_map.mp hk
    rw [r1.maxInt]
    exact r1.bkts.code_lt x

end buckets

/-! ## String columns -/

/-- The different strings in the order in which they first appear. -/
def firstSeen (l : List String) : List String := l.foldl (fun acc s => if s ∈ acc then acc else acc ++ [s]) []

theorem firstSeen_after (m : String) (l : List String) : ∀ acc : List String,
    l.foldl (fun acc s => if s ∈ acc then acc else acc ++ [s]) (m :: acc.filter (· ≠ m)) =
      m :: (l.foldl (fun acc s => if s ∈ acc then acc else acc ++ [s]) acc).filter (· ≠ m) := by
  induction l with
  | nil => intro acc; rfl
  | cons s l ih =>
    intro acc
    rw [List.foldl_cons, List.foldl_cons, ← ih]
    congr 1
    by_cases hs : s ∈ acc
    · rw [if_pos hs, if_pos]
      by_cases e : s = m
      · simp [e]
      · exact List.mem_cons_of_mem _ (List.mem_filter.mpr ⟨hs, by simpa using e⟩)
    · rw [if_neg hs, List.filter_append]
      by_cases e : s = m
      · subst e
        rw [if_pos (by simp)]
        simp
      · rw [if_neg]
        · simp [e]
        · intro h
          rcases List.mem_cons.mp h with h | h
          · exact e h
          · exact hs (List.mem_filter.mp h).1

theorem StrCol.Fed.strings_add {c : StrCol} {raw : List String} (h : StrCol.Fed c raw) (b : List String)
    (hs : raw.length + b.length < 4294967296) :
    (c.add b).strings = b.foldl (fun acc s => if s ∈ acc then acc else acc ++ [s]) c.strings := by
  unfold StrCol.add
  simp only [h.status, ne_eq, not_true_eq_false, if_false]
  induction b generalizing c raw with
  | nil => rfl
  | cons s b ih =>
    simp only [List.length_cons] at hs
    have h1 := h.addOne s (by omega)
    rw [List.foldl_cons, List.foldl_cons, ih h1 (by simp; omega)]
    congr 1
    unfold StrCol.addOne
    cases hf : c.indices.find s with
    | none =>
      rw [if_neg]
      intro hm
      obtain ⟨k, hk⟩ := List.mem_iff_getElem?.mp hm
      rw [(h.find s k).mpr hk] at hf
      cases hf
    | some k => rw [if_pos (List.mem_of_getElem? ((h.find s k).mp hf))]

/-- The table of strings of a column: the marker for missing strings, and the others as they first appear. -/
theorem StrCol.strings_build (vals : List String) (h : vals.length + 1 < 4294967296) :
    (StrCol.build [vals]).strings = "__missing__" :: (firstSeen vals).filter (· ≠ "__missing__") := by
  have hf := StrCol.fed_new.add vals (by simp only [List.length_nil]; omega)
  have e : (StrCol.build [vals]).strings = (StrCol.new.add vals).strings := by
    show ((StrCol.new.add vals).finalize).strings = _
    unfold StrCol.finalize
    simp [hf.status, hf.notFin]
  rw [e, StrCol.fed_new.strings_add vals (by simp only [List.length_nil]; omega)]
  exact firstSeen_after "__missing__" vals []

/-- String columns of data sets that correspond. -/
theorem twin_str {A : Type} {σ : Nat → Nat} {v1 v2 : List String} (hn1 : v1.length + 1 < 4294967296) (hn2 : v2.length + 1 < 4294967296)
    (hfs : firstSeen v2 = firstSeen v1) (hv : ∀ j < v2.length, v2[j]? = v1[σ j]?) :
    TwinCol σ v1.length v2.length (.str (StrCol.build [v1]) : Column A) (.str (StrCol.build [v2])) := by
  have d1 := StrCol.done_build [v1] (by simpa using hn1)
  have d2 := StrCol.done_build [v2] (by simpa using hn2)
  rw [List.flatten_singleton] at d1 d2
  have hs : (StrCol.build [v2]).strings = (StrCol.build [v1]).strings := by
    rw [StrCol.strings_build v1 hn1, StrCol.strings_build v2 hn2, hfs]
  have hcat : (StrCol.build [v2]).catIndex = (StrCol.build [v1]).catIndex := by
    funext s
    have hfind : (StrCol.build [v2]).indices.find s = (StrCol.build [v1]).indices.find s := by
      refine Option.ext (fun k => ?_)
      rw [d1.find, d2.find, hs]
    simp only [StrCol.catIndex, hfind]
  obtain ⟨l1, a1, a2⟩ := d1.codes
  obtain ⟨l2, b1, b2⟩ := d2.codes
  have hl1 : l1.length = v1.length := by simpa using congrArg List.length a2
  have hl2 : l2.length = v2.length := by simpa using congrArg List.length b2
  have hmax : (StrCol.build [v1]).maxInt = (StrCol.build [v1]).strings.length := u32_of_lt (by have := d1.len; omega)
  have hlt1 : ∀ k ∈ l1, k < (StrCol.build [v1]).strings.length := by
    intro k hk
    have : (StrCol.build [v1]).strings[k]? ∈ v1.map some := by rw [← a2]; exact List.mem_map.mpr ⟨k, hk, rfl⟩
    obtain ⟨s, _, hs⟩ := List.mem_map.mp this
    exact (List.getElem?_eq_some_iff.mp hs.symm).1
  have hlt2 : ∀ k ∈ l2, k < (StrCol.build [v1]).strings.length := by
    intro k hk
    have : (StrCol.build [v2]).strings[k]? ∈ v2.map some := by rw [← b2]; exact List.mem_map.mpr ⟨k, hk, rfl⟩
    obtain ⟨s, _, hs'⟩ := List.mem_map.mp this
    rw [← hs]
    exact (List.getElem?_eq_some_iff.mp hs'.symm).1
  refine .str _ _ hs hcat ⟨l1, l2, a1, b1, hl1, hl2, ?_, by rw [hmax]; exact hlt1, by rw [hmax]; exact hlt2⟩
  intro j hj
  have hj2 : j < l2.length := by omega
  have e2 : l2[j]? = some l2[j] := List.getElem?_eq_getElem hj2
  have e3 := congrArg (fun l : List (Option String) => l[j]?) b2
  simp only [List.getElem?_map, e2, Option.map_some] at e3
  have e4 := congrArg (fun l : List (Option String) => l[σ j]?) a2
  simp only [List.getElem?_map] at e4
  rw [hv j hj] at e3
  rw [← e3] at e4
  cases hc : l1[σ j]? with
  | none => rw [hc] at e4; cases e4
  | some k =>
    rw [hc, Option.map_some, Option.some.injEq, hs] at e4
    have hk := hlt1 k (List.mem_of_getElem? hc)
    have hk2 := hlt2 _ (List.getElem_mem hj2)
    rw [List.getElem?_eq_getElem hk, List.getElem?_eq_getElem hk2, Option.some.injEq] at e4
    rw [e2, (List.Nodup.getElem_inj_iff d1.nodup).mp e4]

/-! ## Stores -/

section stores
variable {A : Type} [LinearOrder A]

/-- Position `j` of the second list has what position `σ j` of the first one has. -/
def Rowwise {α : Type} (σ : Nat → Nat) (l l' : List α) : Prop := ∀ j < l'.length, l'[j]? = l[σ j]?

/-- The rows of the second data set are rows of the first, in columns of the same names, and strings appear in the same order. -/
structure Dict.Along (σ : Nat → Nat) (d d' : Dict A) : Prop where
  bucketized : List.Forall₂ (fun p q => q.1 = p.1 ∧ Rowwise σ p.2 q.2) d.bucketized d'.bucketized
  strs : List.Forall₂ (fun p q => q.1 = p.1 ∧ Rowwise σ p.2 q.2 ∧ firstSeen q.2 = firstSeen p.2) d.strs d'.strs
  raw : List.Forall₂ (fun p q => q.1 = p.1 ∧ Rowwise σ p.2 q.2) d.raw d'.raw

/-- Columns of the two stores: as for training, and with corresponding raw numbers. -/
def StoreCol (σ : Nat → Nat) (n n' : Nat) (c c' : Column A) : Prop :=
  TwinCol σ n n' c c' ∧ ∀ r r', c = .raw r → c' = .raw r' → r'.raw.length = n' ∧ Rowwise σ r.raw r'.raw

theorem Rowwise.mem {α : Type} {σ : Nat → Nat} {l l' : List α} (h : Rowwise σ l l') (onto : ∀ i < l.length, ∃ j < l'.length, σ j = i)
    (x : α) : x ∈ l ↔ x ∈ l' := by
  constructor
  · intro hx
    obtain ⟨i, hi, rfl⟩ := List.mem_iff_getElem.mp hx
    obtain ⟨j, hj, rfl⟩ := onto i hi
    exact List.mem_of_getElem? ((h j hj).trans (List.getElem?_eq_getElem hi))
  · intro hx
    obtain ⟨j, hj, rfl⟩ := List.mem_iff_getElem.mp hx
    exact List.mem_of_getElem? ((h j hj).symm.trans (List.getElem?_eq_getElem hj))

theorem PyStore.strings_str (l : List String) : PyStore.strings (l.map (Cell.str (A := A))) = l := by
  induction l with
  | nil => rfl
  | cons a l ih => rw [List.map_cons, PyStore.strings, ih]

theorem forall₂_map_mem {α β γ δ : Type} {r : α → β → Prop} {q : γ → δ → Prop} {f : α → γ} {g : β → δ} :
    ∀ {l : List α} {l' : List β}, (∀ a ∈ l, ∀ b ∈ l', r a b → q (f a) (g b)) → List.Forall₂ r l l' →
      List.Forall₂ q (l.map f) (l'.map g)
  | _, _, _, .nil => .nil
  | _, _, hm, .cons h1 h2 => .cons (hm _ (List.mem_cons_self ..) _ (List.mem_cons_self ..) h1)
      (forall₂_map_mem (fun a ha b hb => hm a (List.mem_cons_of_mem _ ha) b (List.mem_cons_of_mem _ hb)) h2)

theorem forall₂_append' {α β : Type} {r : α → β → Prop} : ∀ {a c : List α} {b d : List β}, List.Forall₂ r a b → List.Forall₂ r c d →
    List.Forall₂ r (a ++ c) (b ++ d)
  | _, _, _, _, .nil, h => h
  | _, _, _, _, .cons h1 h2, h => .cons h1 (forall₂_append' h2 h)

theorem forall₂_left {α β : Type} {r : α → β → Prop} : ∀ {a : List α} {b : List β}, List.Forall₂ r a b → ∀ x ∈ a, ∃ y ∈ b, r x y
  | _, _, .cons h1 h2, x, hx => by
    rcases List.mem_cons.mp hx with rfl | hx
    · exact ⟨_, List.mem_cons_self .., h1⟩
    · obtain ⟨y, hy, h⟩ := forall₂_left h2 x hx
      exact ⟨y, List.mem_cons_of_mem _ hy, h⟩

theorem forall₂_right {α β : Type} {r : α → β → Prop} : ∀ {a : List α} {b : List β}, List.Forall₂ r a b → ∀ y ∈ b, ∃ x ∈ a, r x y
  | _, _, .cons h1 h2, x, hx => by
    rcases List.mem_cons.mp hx with rfl | hx
    · exact ⟨_, List.mem_cons_self .., h1⟩
    · obtain ⟨y, hy, h⟩ := forall₂_right h2 x hx
      exact ⟨y, List.mem_cons_of_mem _ hy, h⟩

/-- The columns that are added correspond. -/
theorem Dict.Along.cols {σ : Nat → Nat} {d d' : Dict A} (h : d.Along σ d') {n n' : Nat} (hd : d.Rows n) (hd' : d'.Rows n')
    (hn : n < 2 ^ 31) (hn' : n' < 2 ^ 31) {fmax : A} {nb : Nat} (hnb : nb < 2 ^ 32)
    (onto : ∀ i < n, ∃ j < n', σ j = i)
    (hlim : ∀ l l' : List (Fl A), l.length = n → l'.length = n' → Rowwise σ l l' → limitsOf nb l = limitsOf nb l') :
    List.Forall₂ (fun l l' => l'.1 = l.1 ∧ l'.2.1 = l.2.1 ∧ ∀ c c', PyStore.createCol fmax nb l.2.1 l.2.2 = ok c →
      PyStore.createCol fmax nb l'.2.1 l'.2.2 = ok c' → StoreCol σ n n' c c') d.cols d'.cols := by
  unfold Dict.cols
  refine forall₂_append' (forall₂_map_mem ?_ h.bucketized) (forall₂_append' (forall₂_map_mem ?_ h.strs) (forall₂_map_mem ?_ h.raw))
  · rintro p hp q hq ⟨h1, h2⟩
    refine ⟨h1, rfl, ?_⟩
    intro c c' hc hc'
    simp only [PyStore.createCol, PyStore.numbers_num, Column.createBucketized] at hc hc'
    obtain ⟨b, hb, hc⟩ := bind_eq_ok.mp hc
    obtain ⟨b', hb', hc'⟩ := bind_eq_ok.mp hc'
    rw [pure_eq, Outcome.ok.injEq] at hc hc'
    subst hc hc'
    have l1 := hd.bucketized p hp
    have l2 := hd'.bucketized q hq
    refine ⟨?_, fun r r' hr => by cases hr⟩
    rw [← l1, ← l2]
    exact twin_bkt (by omega) (by omega) (by omega) hb hb' (hlim _ _ l1 l2 h2) (h2.mem (by rw [l1, l2]; exact onto)) h2
  · rintro p hp q hq ⟨h1, h2, h3⟩
    refine ⟨h1, rfl, ?_⟩
    intro c c' hc hc'
    simp only [PyStore.createCol, PyStore.strings_str, Column.createString, Outcome.ok.injEq] at hc hc'
    subst hc hc'
    have l1 := hd.strs p hp
    have l2 := hd'.strs q hq
    refine ⟨?_, fun r r' hr => by cases hr⟩
    rw [← l1, ← l2]
    exact twin_str (by omega) (by omega) h3 h2
  · rintro p hp q hq ⟨h1, h2⟩
    refine ⟨h1, rfl, ?_⟩
    intro c c' hc hc'
    simp only [PyStore.createCol, PyStore.numbers_num, Column.createRaw, Outcome.ok.injEq] at hc hc'
    subst hc hc'
    refine ⟨.raw _ _, ?_⟩
    intro r r' hr hr'
    cases hr
    cases hr'
    have e : ∀ l : List (Fl A), (RawCol.add {} l).finalize.raw = l := by
      intro l
      simp [RawCol.add, RawCol.finalize]
    rw [e, e]
    exact ⟨hd'.raw q hq, h2⟩

/-- The stores from two dictionaries whose rows correspond. -/
theorem Dict.Along.stores {σ : Nat → Nat} {d d' : Dict A} (h : d.Along σ d') {n n' : Nat} (hd : d.Rows n) (hd' : d'.Rows n')
    (hn : n < 2 ^ 31) (hn' : n' < 2 ^ 31) {fmax : A} {nb : Nat} (hnb : nb < 2 ^ 32)
    (onto : ∀ i < n, ∃ j < n', σ j = i)
    (hlim : ∀ l l' : List (Fl A), l.length = n → l'.length = n' → Rowwise σ l l' → limitsOf nb l = limitsOf nb l')
    {place place' : DataStore A → DataStore A} (hplace : ∀ l, (place l).Perm l) (hplace' : ∀ l, (place' l).Perm l)
    {t t' : DataStore A} (ht : d.store fmax nb place = ok (.ok (some t))) (ht' : d'.store fmax nb place' = ok (.ok (some t'))) :
    t.numRows = ok n ∧ t'.numRows = ok n' ∧ (t.map Prod.fst).Nodup ∧ (t'.map Prod.fst).Nodup ∧
      ∀ name, Option.Rel (StoreCol σ n n') (t.getColumn name) (t'.getColumn name) := by
  obtain ⟨a1, a2, _, a3, a4⟩ := addAll_created (fmax := fmax) hnb hplace hn hd.cols.1 hd.cols.2 ht
  obtain ⟨b1, b2, _, b3, b4⟩ := addAll_created (fmax := fmax) hnb hplace' hn' hd'.cols.1 hd'.cols.2 ht'
  refine ⟨a1, b1, a2, b2, ?_⟩
  have hc := h.cols hd hd' hn hn' (fmax := fmax) hnb onto hlim
  intro name
  cases h1 : t.getColumn name with
  | some c =>
    obtain ⟨l, hl, rfl, hl2⟩ := a3 name c h1
    obtain ⟨l', hl', e1, _, e3⟩ := forall₂_left hc l hl
    obtain ⟨c', k1, _, k3⟩ := b4 l' hl'
    rw [e1] at k1
    rw [k1]
    exact .some (e3 c c' hl2 k3)
  | none =>
    cases h2 : t'.getColumn name with
    | none => exact .none
    | some c' =>
      obtain ⟨l', hl', rfl, hl2⟩ := b3 name c' h2
      obtain ⟨l, hl, e1, _, e3⟩ := forall₂_right hc l' hl'
      obtain ⟨c, k1, _, k3⟩ := a4 l hl
      rw [← e1, h1] at k1
      cases k1

theorem StoreCol.type {σ : Nat → Nat} {n n' : Nat} {c c' : Column A} (h : StoreCol σ n n' c c') : c'.type = c.type := by
  obtain ⟨h, _⟩ := h
  cases h <;> rfl

/-- The columns of each type are listed alike when all columns are. -/
theorem namesOf_twin {σ : Nat → Nat} {n n' : Nat} {t t' : DataStore A} (hk : (t.map Prod.fst).Nodup) (hk' : (t'.map Prod.fst).Nodup)
    (hnames : t'.map Prod.fst = t.map Prod.fst) (hc : ∀ name, Option.Rel (StoreCol σ n n') (t.getColumn name) (t'.getColumn name))
    (ty : ColType) : t'.namesOf ty = t.namesOf ty := by
  have key : ∀ (s : DataStore A), (s.map Prod.fst).Nodup →
      s.namesOf ty = (s.map Prod.fst).filter (fun name => (s.getColumn name).map Column.type == some ty) := by
    intro s hs
    rw [DataStore.namesOf, List.filter_map]
    congr 1
    refine List.filter_congr (fun p hp => ?_)
    simp only [Function.comp, (DataStore.get_some hs p.1 p.2).mpr hp, Option.map_some]
    rfl
  rw [key t hk, key t' hk', hnames]
  refine List.filter_congr (fun name _ => ?_)
  have := hc name
  generalize t.getColumn name = a at this
  generalize t'.getColumn name = b at this
  cases this with
  | none => rfl
  | some h => simp only [Option.map_some, h.type]

end stores

/-! ## Training -/

section train
variable {K A : Type} [Field K] [LinearOrder K] [IsStrictOrderedRing K] [LinearOrder A] [ThrOps A]

/-- The weights that training uses. -/
def weightsOf (mc : Machine K A) (w : List (Fl A)) : Nat → K := if w = [] then fun _ => mc.ofNat 1 else vecFn mc w

theorem twinCols_of {σ : Nat → Nat} {n n' : Nat} {t t' : DataStore A}
    (h : ∀ name, Option.Rel (StoreCol σ n n') (t.getColumn name) (t'.getColumn name)) :
    TwinCols σ n n' t.getColumn t'.getColumn := by
  intro name
  have := h name
  generalize t.getColumn name = a at this
  generalize t'.getColumn name = b at this
  cases this with
  | none => exact .none
  | some h => exact .some h.1

/-- What `train` needs holds for the second store if it does for the first. -/
theorem PyInput.twin {mc : Machine K A} {t t' : DataStore A} {n n' : Nat} {c : Config K} {base : Option (List (Tree K A))} {nt nt' : Int}
    (hi : PyInput mc t n c base nt) (hs : GoodStore n' t') (hn' : n' < 2 ^ 31) (hnt' : 0 < nt') {σ : Nat → Nat}
    (hnames : t'.map Prod.fst = t.map Prod.fst)
    (h : ∀ name, Option.Rel (StoreCol σ n n') (t.getColumn name) (t'.getColumn name)) : PyInput mc t' n' c base nt' where
  machine := hi.machine
  store := hs
  rowCount := hn'
  columnCount := by
    have := congrArg List.length hnames
    simp only [List.length_map] at this
    rw [this]
    exact hi.columnCount
  loss := hi.loss
  exampleRate := hi.exampleRate
  featureRate := hi.featureRate
  threads := hnt'
  group := by
    refine hi.group.imp_right ?_
    rintro ⟨col, hcol⟩
    obtain ⟨c2, k1, k2⟩ := (twinCols_of h).of_some hcol
    cases k2 with
    | str c1 c2 _ _ _ => exact ⟨c2, k1⟩
  base := by
    refine ⟨?_, fun tr htr => (twinCols_of h).scorable (hi.base.scorable tr htr)⟩
    intro name hname
    obtain ⟨c, hc⟩ := Option.ne_none_iff_exists'.mp (hi.base.features name hname)
    obtain ⟨c2, k1, _⟩ := (twinCols_of h).of_some hc
    rw [k1]
    simp

theorem vecFn_rowwise (mc : Machine K A) {σ : Nat → Nat} {l l' : List (Fl A)} (h : Rowwise σ l l') {j : Nat} (hj : j < l'.length) :
    vecFn mc l' j = vecFn mc l (σ j) := by
  simp only [vecFn, List.getD_eq_getElem?_getD, h j hj]

/-- Training on stores whose columns correspond. -/
theorem pyTrain_twin {mc : Machine K A} {t t' : DataStore A} {n n' : Nat} {c : Config K} {base : Option (List (Tree K A))} {nt nt' : Int}
    (hi : PyInput mc t n c base nt) (hi' : PyInput mc t' n' c base nt') {σ : Nat → Nat}
    (hnames : t'.map Prod.fst = t.map Prod.fst) (hr : t.numRows = ok n) (hr' : t'.numRows = ok n')
    (hcols : ∀ name, Option.Rel (StoreCol σ n n') (t.getColumn name) (t'.getColumn name))
    (lt : ∀ j < n', σ j < n) (onto : ∀ i < n, ∃ j < n', σ j = i) (y y' w w' : List (Fl A)) (features : List String) (seed : Int)
    (hy : (y = [] ∧ y' = []) ∨ (y.length = n ∧ y'.length = n' ∧ Rowwise σ y y'))
    (hw : w = [] ∨ w.length = n) (hw' : w' = [] ∨ w'.length = n')
    (hbal : Bal σ (weightsOf mc w) (weightsOf mc w') (List.range n) (List.range n'))
    (hall : ∀ k, Dbl.ltb (mc.draw seed k) (c.exampleRate.getD (mc.ofNat 1)) = true)
    (hpos : n = n' ∨ ∀ k, Dbl.ltb (mc.draw seed k) (c.featureRate.getD (mc.ofNat 1)) = true) :
    pyTrain mc (some t) c y features w base seed nt = pyTrain mc (some t') c y' features w' base seed nt' := by
  unfold pyTrain
  have hno : ∀ ty, namesOfType (some t') ty = namesOfType (some t) ty := fun ty =>
    namesOf_twin hi.store.names hi'.store.names hnames hcols ty
  simp only [hno]
  split
  · rfl
  · generalize hfs : (namesOfType (some t) .string).filter (fun n => features.contains n) ++
      (namesOfType (some t) .bucketized).filter (fun n => features.contains n) = fs
    generalize hc' : ({ c with
      floatFeature := (namesOfType (some t) .bucketized).filter (fun n => features.contains n)
      catFeature := (namesOfType (some t) .string).filter (fun n => features.contains n) } : Config K) = c'
    have hi1 : PyInput mc t n c' base nt := by
      subst hc'
      exact ⟨hi.machine, hi.store, hi.rowCount, hi.columnCount, hi.loss, hi.exampleRate, hi.featureRate, hi.threads, hi.group, hi.base⟩
    have hi2 : PyInput mc t' n' c' base nt' := by
      subst hc'
      exact ⟨hi'.machine, hi'.store, hi'.rowCount, hi'.columnCount, hi'.loss, hi'.exampleRate, hi'.featureRate, hi'.threads, hi'.group,
        hi'.base⟩
    have hall' : ∀ k, Dbl.ltb (mc.draw seed k) (c'.train mc (mc.ofNat 1)).exampleRate = true := by subst hc'; exact hall
    have hpos' : n = n' ∨ ∀ k, Dbl.ltb (mc.draw seed k) (c'.train mc (mc.ofNat 1)).featureRate = true := by subst hc'; exact hpos
    have right : ∀ (s : DataStore A) (m : Nat) (l : List (Fl A)), s.numRows = ok m → l = [] ∨ l.length = m →
        wrongLength (some s) l = ok false := by
      intro s m l hs hl
      unfold wrongLength
      split
      · rfl
      · next hne =>
        rw [PyStore.len, hs, ok_bind, hl.resolve_left hne]
        simp
    have hy1 : y = [] ∨ y.length = n := hy.imp And.left And.left
    have hy2 : y' = [] ∨ y'.length = n' := hy.imp And.right (fun h => h.2.1)
    unfold trainPyFull
    rw [right t n y hr hy1, right t' n' y' hr' hy2, right t n w hr hw, right t' n' w' hr' hw']
    simp only [ok_bind, Bool.false_eq_true, if_false]
    have htarget : (∃ e, trainPyTargets mc (some t) c' y = ok (.error e) ∧ trainPyTargets mc (some t') c' y' = ok (.error e)) ∨
        (trainPyTargets mc (some t) c' y = ub ∧ trainPyTargets mc (some t') c' y' = ub) ∨
        ∃ yf yf', trainPyTargets mc (some t) c' y = ok (.ok yf) ∧ trainPyTargets mc (some t') c' y' = ok (.ok yf') ∧
          ∀ j < n', yf' j = yf (σ j) := by
      have hraise : ∀ e : Code, (∃ x, raise e (.ub : PyRes (Nat → K)) = ok (.error x)) ∨ raise e (.ub : PyRes (Nat → K)) = ub := by
        intro e
        unfold raise
        split
        · exact Or.inl ⟨_, rfl⟩
        · exact Or.inr rfl
      have hboth : ∀ e : Code, ∀ a b : PyRes (Nat → K), a = raise e .ub → b = raise e .ub →
          (∃ x, a = ok (.error x) ∧ b = ok (.error x)) ∨ (a = ub ∧ b = ub) ∨ ∃ yf yf', a = ok (.ok yf) ∧ b = ok (.ok yf') ∧
            ∀ j < n', yf' j = yf (σ j) := by
        rintro e a b rfl rfl
        rcases hraise e with ⟨x, hx⟩ | hx
        · exact Or.inl ⟨x, hx, hx⟩
        · exact Or.inr (Or.inl ⟨hx, hx⟩)
      by_cases hn0 : y = []
      · have hn1 : y' = [] := by
          rcases hy with ⟨_, h⟩ | ⟨h1, h2, _⟩
          · exact h
          · subst hn0
            rw [List.length_nil] at h1
            subst h1
            by_contra hne
            have : 0 < n' := by rw [← h2]; exact List.length_pos_iff.mpr hne
            exact absurd (lt 0 this) (Nat.not_lt_zero _)
        subst hn0 hn1
        unfold trainPyTargets
        simp only [ne_eq, not_true_eq_false, if_false]
        by_cases ht : c'.targetColumn = ""
        · simp only [ht, if_true]
          exact hboth .invalidArgument _ _ rfl rfl
        · simp only [if_neg ht]
          have hcol := hcols c'.targetColumn
          unfold DataStore.getRaw
          generalize hh : t.getColumn c'.targetColumn = a at hcol
          generalize t'.getColumn c'.targetColumn = b at hcol
          cases hcol with
          | none => exact hboth .invalidArgument _ _ rfl rfl
          | some hc =>
            obtain ⟨h1, h2⟩ := hc
            cases h1 with
            | str c1 c2 _ _ _ => exact hboth .invalidArgument _ _ rfl rfl
            | bkt c1 c2 _ _ _ => exact hboth .invalidArgument _ _ rfl rfl
            | raw c1 c2 =>
              obtain ⟨h3, h4⟩ := h2 c1 c2 rfl rfl
              exact Or.inr (Or.inr ⟨_, _, rfl, rfl, fun j hj => vecFn_rowwise mc h4 (by omega)⟩)
      · obtain ⟨h1, h2, h3⟩ := hy.resolve_left (fun h => hn0 h.1)
        have hn1 : y' ≠ [] := by
          rintro rfl
          have : 0 < n := by rw [← h1]; exact List.length_pos_iff.mpr hn0
          obtain ⟨j, hj, _⟩ := onto 0 this
          rw [List.length_nil] at h2
          omega
        refine Or.inr (Or.inr ⟨_, _, by rw [trainPyTargets, if_pos hn0], by rw [trainPyTargets, if_pos hn1],
          fun j hj => vecFn_rowwise mc h3 (by omega)⟩)
    rcases htarget with ⟨e, a1, a2⟩ | ⟨a1, a2⟩ | ⟨yf, yf', a1, a2, hyf⟩
    · simp only [a1, a2, PyRes.andThen]
    · simp only [a1, a2, PyRes.andThen]
    · rw [a1, a2]
      have hW : ∀ l : List (Fl A), (if l = [] then (fun _ => mc.ofNat 1 : Nat → K) else vecFn mc l) = weightsOf mc l := fun _ => rfl
      simp only [PyRes.andThen, Option.getD_some, hW]
      obtain ⟨binary, lossFn, hwl⟩ := withLoss_mkPoint_all mc hi1.loss
      unfold trainPyRun
      simp only [hwl]
      split
      · rfl
      · rw [hr, hr', ok_bind, ok_bind]
        have hlen : ∀ s : DataStore A, s.length < 2 ^ 31 → namesOfType (some s) .string = namesOfType (some t) .string →
            namesOfType (some s) .bucketized = namesOfType (some t) .bucketized → (mc.listing fs).length < 2 ^ 31 := by
          intro s hs e1 e2
          rw [(hi.machine.listing fs).length_eq, ← hfs, ← e1, ← e2]
          exact lt_of_le_of_lt (features_length s features) hs
        have htw : TwinTrain σ (mkEnv mc t n (weightsOf mc w) seed nt) (mkEnv mc t' n' (weightsOf mc w') seed nt')
            (mkPoint mc nt (weightsOf mc w) yf binary lossFn) (mkPoint mc nt' (weightsOf mc w') yf' binary lossFn)
            (c'.train mc (mc.ofNat 1)) :=
          { sort := rfl, top := rfl, toInt := rfl, ofNat := rfl, draw := rfl, rnd32 := rfl, diverged := rfl
            lt := lt
            onto := onto
            cols := twinCols_of hcols
            loss := ⟨rfl, rfl, rfl, rfl, rfl, rfl, hi1.threads, hi2.threads, hyf, hbal⟩
            w1 := rfl, w2 := rfl
            all := hall'
            pos := hpos' }
        have hmain := htw.trainGBDT (names := mc.listing fs) (base := base)
          (fun hc => hi1.trainStore _ seed (hlen t hi.columnCount rfl rfl) hc)
          (fun hc => hi2.trainStore _ seed (hlen t' hi'.columnCount (hno _) (hno _)) hc) 0
        refine (OutRel.bind (q := fun a b => a = b) hmain ?_).eq
        rintro r1 r2 ⟨h1, h2⟩
        rw [h1, h2]
        cases (if r2.code = .ok then (ok (.ok r2.forest) : PyRes (List (Tree K A))) else raise r2.code (ok (.ok r2.forest))) with
        | ok x => exact .ok rfl
        | ub => exact .ub
        | fatal => exact .fatal

end train

end Gbdt
