import Verif.Lemmas.FMap
import Verif.Lemmas.StringColumn

/-! Lemmas on bucket construction and on placing values into buckets. -/

set_option linter.unusedSectionVars false

set_option autoImplicit false

namespace Gbdt

variable {A : Type} [LinearOrder A]

/-! ## Uniform binning -/

/-- The limits `UniformBinning` pushes, as plain numbers. -/
def bins (cap : Nat) : FMap A → Nat → Option A → List A
  | [], run, u => if run > 0 then u.toList else []
  | (k, n) :: m, run, _ =>
    if run + n ≥ cap then k :: bins cap m 0 (some k) else bins cap m (run + n) (some k)

/-- NaN for no number. -/
def Fl.ofOption : Option A → Fl A
  | none => .nan
  | some a => .num a

omit [LinearOrder A] in
theorem uniformBinningLoop_eq (cap : Nat) (m : FMap A) (run : Nat) (u : Option A) (acc : List (Fl A))
    (h : run > 0 → u.isSome) :
    uniformBinningLoop cap m run (Fl.ofOption u) acc = acc ++ (bins cap m run u).map Fl.num := by
  induction m generalizing run u acc with
  | nil =>
    unfold uniformBinningLoop bins
    split
    · rename_i hr
      obtain ⟨a, rfl⟩ := Option.isSome_iff_exists.mp (h hr)
      simp [Fl.ofOption]
    · simp
  | cons p m ih =>
    obtain ⟨k, n⟩ := p
    unfold uniformBinningLoop bins
    have e : (Fl.num k : Fl A) = Fl.ofOption (some k) := rfl
    split
    · rw [e, ih 0 (some k) _ (by simp)]
      simp [Fl.ofOption]
    · rw [e, ih _ (some k) _ (by simp)]

/-- The limit waiting to be pushed. -/
def pending (run : Nat) (u : Option A) : List A := if run > 0 then u.toList else []

omit [LinearOrder A] in
theorem bins_sublist (cap : Nat) (m : FMap A) (run : Nat) (u : Option A) :
    (bins cap m run u).Sublist (pending run u ++ m.map Prod.fst) := by
  induction m generalizing run u with
  | nil => simp [bins, pending]
  | cons p m ih =>
    obtain ⟨k, n⟩ := p
    unfold bins
    split
    · have := ih 0 (some k)
      simp only [pending, Nat.lt_irrefl, gt_iff_lt, if_false, List.nil_append] at this
      exact (List.Sublist.cons_cons k this).trans (List.sublist_append_right _ _)
    · have := ih (run + n) (some k)
      refine this.trans (List.Sublist.trans ?_ (List.sublist_append_right _ _))
      unfold pending
      split
      · simp
      · simp

theorem bins_cover (cap : Nat) (m : FMap A) (run : Nat) (u : Option A) (hs : FMap.Sorted m)
    (hp : ∀ p ∈ m, 0 < p.2) (hu : ∀ a ∈ u, ∀ p ∈ m, a < p.1) :
    ∀ a ∈ pending run u ++ m.map Prod.fst, ∃ s ∈ bins cap m run u, a ≤ s := by
  induction m generalizing run u with
  | nil => intro a ha; exact ⟨a, by simpa [bins, pending] using ha, le_refl a⟩
  | cons p m ih =>
    obtain ⟨k, n⟩ := p
    have hs' : FMap.Sorted m := (List.pairwise_cons.mp hs).2
    have hlt : ∀ q ∈ m, k < q.1 := (List.pairwise_cons.mp hs).1
    have hp' : ∀ p ∈ m, 0 < p.2 := fun q hq => hp q (List.mem_cons_of_mem _ hq)
    have hn : 0 < n := hp (k, n) (by simp)
    have hk : ∀ a ∈ some k, ∀ p ∈ m, a < p.1 := by
      intro a ha q hq
      simp only [Option.mem_def, Option.some.injEq] at ha
      rw [← ha]; exact hlt q hq
    have hle : ∀ a ∈ pending run u, a ≤ k := by
      intro a ha
      unfold pending at ha
      split at ha
      · exact le_of_lt (hu a (by simpa using ha) (k, n) (by simp))
      · simp at ha
    intro a ha
    have hk' : ∃ s ∈ bins cap ((k, n) :: m) run u, k ≤ s := by
      unfold bins
      split
      · exact ⟨k, by simp, le_refl k⟩
      · exact ih (run + n) (some k) hs' hp' hk k (by simp [pending]; omega)
    rcases List.mem_append.mp ha with h | h
    · obtain ⟨s, h1, h2⟩ := hk'
      exact ⟨s, h1, le_trans (hle a h) h2⟩
    · rcases List.mem_cons.mp h with h | h
      · subst h; exact hk'
      · unfold bins
        split
        · obtain ⟨s, h1, h2⟩ := ih 0 (some k) hs' hp' hk a (List.mem_append_right _ h)
          exact ⟨s, List.mem_cons_of_mem _ h1, h2⟩
        · exact ih (run + n) (some k) hs' hp' hk a (List.mem_append_right _ h)

omit [LinearOrder A] in
theorem bins_length (cap : Nat) (hc : 1 ≤ cap) (m : FMap A) (run : Nat) (u : Option A) :
    cap * (bins cap m run u).length + 1 ≤ run + (m.map Prod.snd).sum + cap := by
  induction m generalizing run u with
  | nil =>
    unfold bins
    split
    · cases u <;> simp <;> omega
    · simp; omega
  | cons p m ih =>
    obtain ⟨k, n⟩ := p
    unfold bins
    split
    · have := ih 0 (some k)
      simp only [List.length_cons, List.map_cons, List.sum_cons, Nat.mul_add, Nat.mul_one]
      omega
    · have := ih (run + n) (some k)
      simp only [List.map_cons, List.sum_cons]
      omega

/-! ## The list of bucket limits -/

omit [LinearOrder A] in
theorem nums_map (l : List A) : Fl.nums (l.map Fl.num) = some l := by
  induction l with
  | nil => rfl
  | cons a l ih => simp [Fl.nums, ih]

/-- The finite bucket limits that `BuildBuckets` computes, in order, given the two capacities. -/
def limits (h : FMap A) (cap lcap : Nat) : List A :=
  ((BktCol.heavy h cap).map Prod.fst ++ bins lcap (BktCol.light h cap) 0 none).insertionSort (· ≤ ·)

theorem sortTail_eq (h : FMap A) (cap lcap : Nat) :
    sortTail (uniformBinning (BktCol.light h cap) lcap (Fl.nan :: (BktCol.heavy h cap).map (fun p => Fl.num p.1))) =
      .ok (Fl.nan :: (limits h cap lcap).map Fl.num) := by
  have e := uniformBinningLoop_eq lcap (BktCol.light h cap) 0 none
    (Fl.nan :: (BktCol.heavy h cap).map (fun p => Fl.num p.1)) (by simp)
  have e2 : uniformBinning (BktCol.light h cap) lcap (Fl.nan :: (BktCol.heavy h cap).map (fun p => Fl.num p.1)) =
      Fl.nan :: (((BktCol.heavy h cap).map Prod.fst ++ bins lcap (BktCol.light h cap) 0 none).map Fl.num) := by
    unfold uniformBinning
    rw [show (Fl.nan : Fl A) = Fl.ofOption none from rfl]
    rw [show (Fl.nan : Fl A) = Fl.ofOption none from rfl] at e
    rw [e]
    simp
  rw [e2]
  simp only [sortTail, nums_map, limits]

theorem limits_perm (h : FMap A) (cap lcap : Nat) :
    (limits h cap lcap).Perm ((BktCol.heavy h cap).map Prod.fst ++ bins lcap (BktCol.light h cap) 0 none) :=
  List.perm_insertionSort _ _

theorem limits_sorted {h : FMap A} (hs : FMap.Sorted h) (cap lcap : Nat) :
    (limits h cap lcap).Pairwise (· < ·) := by
  have h1 : (limits h cap lcap).Pairwise (fun a b => decide (a ≤ b) = true) := by
    simp only [decide_eq_true_eq]; unfold limits; exact List.pairwise_insertionSort _ _
  have hk : (h.map Prod.fst).Nodup := (List.Pairwise.imp (fun h => ne_of_lt h) (FMap.Sorted.keys_lt hs))
  have hb := bins_sublist lcap (BktCol.light h cap) 0 none
  simp only [pending, Nat.lt_irrefl, gt_iff_lt, if_false, List.nil_append] at hb
  have h2 : ((BktCol.heavy h cap).map Prod.fst ++ bins lcap (BktCol.light h cap) 0 none).Nodup := by
    rw [List.nodup_append]
    refine ⟨?_, ?_, ?_⟩
    · exact hk.sublist (List.Sublist.map _ List.filter_sublist)
    · exact hk.sublist (hb.trans (List.Sublist.map _ List.filter_sublist))
    · intro a ha b hb' hab
      subst hab
      have h3 : a ∈ (BktCol.light h cap).map Prod.fst := hb.subset hb'
      obtain ⟨p, hp, hpa⟩ := List.mem_map.mp ha
      obtain ⟨q, hq, hqa⟩ := List.mem_map.mp h3
      unfold BktCol.heavy at hp
      unfold BktCol.light at hq
      rw [List.mem_filter] at hp hq
      obtain ⟨pa, pn⟩ := p
      obtain ⟨qa, qn⟩ := q
      simp only at hpa hqa
      subst hpa
      subst hqa
      have : pn = qn := FMap.key_inj hs hp.1 hq.1
      subst this
      simp_all
  have h3 : (limits h cap lcap).Nodup := (limits_perm h cap lcap).nodup_iff.mpr h2
  exact List.Pairwise.imp₂ (fun a b hab hne => lt_of_le_of_ne (by simpa using hab) hne) h1 h3

theorem limits_mem {h : FMap A} {cap lcap : Nat} {a : A} (ha : a ∈ limits h cap lcap) : a ∈ h.map Prod.fst := by
  have hb := bins_sublist lcap (BktCol.light h cap) 0 none
  simp only [pending, Nat.lt_irrefl, gt_iff_lt, if_false, List.nil_append] at hb
  have := (limits_perm h cap lcap).mem_iff.mp ha
  rcases List.mem_append.mp this with h1 | h1
  · exact (List.Sublist.map _ List.filter_sublist).subset h1
  · exact (hb.trans (List.Sublist.map _ List.filter_sublist)).subset h1

theorem limits_cover {h : FMap A} (hs : FMap.Sorted h) (hp : ∀ p ∈ h, 0 < p.2) (cap lcap : Nat) {a : A}
    (ha : a ∈ h.map Prod.fst) : ∃ s ∈ limits h cap lcap, a ≤ s := by
  obtain ⟨p, hpm, rfl⟩ := List.mem_map.mp ha
  by_cases hc : p.2 ≥ cap
  · refine ⟨p.1, (limits_perm h cap lcap).mem_iff.mpr (List.mem_append_left _ ?_), le_refl _⟩
    exact List.mem_map_of_mem (List.mem_filter.mpr ⟨hpm, by simpa using hc⟩)
  · have hl : p ∈ BktCol.light h cap := List.mem_filter.mpr ⟨hpm, by simpa using hc⟩
    obtain ⟨s, h1, h2⟩ := bins_cover lcap (BktCol.light h cap) 0 none (FMap.Sorted.filter hs _)
      (fun q hq => hp q (List.mem_filter.mp hq).1) (by simp) p.1
      (List.mem_append_right _ (List.mem_map_of_mem hl))
    exact ⟨s, (limits_perm h cap lcap).mem_iff.mpr (List.mem_append_right _ h1), h2⟩

theorem limits_length (h : FMap A) (cap lcap : Nat) :
    (limits h cap lcap).length = (BktCol.heavy h cap).length + (bins lcap (BktCol.light h cap) 0 none).length := by
  rw [(limits_perm h cap lcap).length_eq]
  simp

/-- The limits are at most as many as there are distinct values. -/
theorem limits_length_le {h : FMap A} (cap lcap : Nat) : (limits h cap lcap).length ≤ h.length := by
  rw [limits_length]
  have hb := (bins_sublist lcap (BktCol.light h cap) 0 none).length_le
  simp only [pending, Nat.lt_irrefl, gt_iff_lt, if_false, List.nil_append, List.length_map] at hb
  have : (BktCol.heavy h cap).length + (BktCol.light h cap).length = h.length := by
    unfold BktCol.heavy BktCol.light
    rw [← List.countP_eq_length_filter, ← List.countP_eq_length_filter]
    have := List.length_eq_countP_add_countP (fun p : A × Nat => decide (p.2 ≥ cap)) (l := h)
    simp only [decide_eq_true_eq] at this
    rw [this]
    congr 1
    apply List.countP_congr
    simp
  omega

theorem length_le_total {m : FMap A} (hp : ∀ p ∈ m, 0 < p.2) : m.length ≤ FMap.total m := by
  induction m with
  | nil => simp
  | cons p m ih =>
    have := ih (fun q hq => hp q (List.mem_cons_of_mem _ hq))
    have h1 := hp p (by simp)
    simp only [FMap.total, List.map_cons, List.sum_cons, List.length_cons] at this ⊢
    omega

theorem mul_length_le_total {m : FMap A} (c : Nat) (hp : ∀ p ∈ m, c ≤ p.2) : c * m.length ≤ FMap.total m := by
  induction m with
  | nil => simp
  | cons p m ih =>
    have := ih (fun q hq => hp q (List.mem_cons_of_mem _ hq))
    have h1 := hp p (by simp)
    simp only [FMap.total, List.map_cons, List.sum_cons, List.length_cons, Nat.mul_add, Nat.mul_one] at this ⊢
    omega

end Gbdt
