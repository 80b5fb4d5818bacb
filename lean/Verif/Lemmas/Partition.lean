import Verif.Model.Split

/-!
# The partition loop
-/

set_option autoImplicit false

namespace Gbdt

open Outcome

theorem swapAt_mid (pre L R post : List Nat) (x : Nat) :
    ∃ R', swapAt (pre ++ L ++ R ++ x :: post) (pre.length + (L.length + R.length)) (pre.length + L.length)
      = ok (pre ++ (L ++ [x]) ++ R' ++ post) ∧ R'.Perm R := by
  cases R with
  | nil =>
    refine ⟨[], ?_, List.Perm.refl _⟩
    simp [swapAt, vecGet]
  | cons y R =>
    refine ⟨R ++ [y], ?_, by simp⟩
    simp only [swapAt]
    have h1 : vecGet (pre ++ L ++ y :: R ++ x :: post) (pre.length + (L.length + (y :: R).length)) = ok x := by
      rw [vecGet_eq_ok, List.getElem?_append_right (by simp)]
      simp
    have h2 : vecGet (pre ++ L ++ y :: R ++ x :: post) (pre.length + L.length) = ok y := by
      rw [vecGet_eq_ok]; simp
    rw [h1, ok_bind, h2, ok_bind]
    have h3 : (pre ++ L ++ y :: R ++ x :: post).set (pre.length + (L.length + (y :: R).length)) y
        = pre ++ L ++ y :: R ++ y :: post := by
      rw [List.set_append_right _ _ (by simp)]
      simp
    rw [h3]
    have h4 : (pre ++ L ++ y :: R ++ y :: post).set (pre.length + L.length) x = pre ++ L ++ x :: R ++ y :: post := by
      simp
    rw [h4]
    simp

theorem partLoop_spec (goLeft : Nat → Outcome Bool) (p : Nat → Bool) (pre post : List Nat) :
    ∀ (todo L R : List Nat), (∀ x ∈ todo, goLeft x = ok (p x)) →
    ∃ R', partLoop goLeft pre.length todo.length (L.length + R.length) L.length (pre ++ L ++ R ++ (todo ++ post))
        = ok ((L ++ todo.filter p).length, pre ++ (L ++ todo.filter p) ++ R' ++ post)
      ∧ R'.Perm (R ++ todo.filter (fun x => !p x)) := by
  intro todo
  induction todo with
  | nil => intro L R _; exact ⟨R, by simp [partLoop], by simp⟩
  | cons x xs ih =>
    intro L R h
    have hx : goLeft x = ok (p x) := h x (by simp)
    have hxs : ∀ y ∈ xs, goLeft y = ok (p y) := fun y hy => h y (by simp [hy])
    have hget : vecGet (pre ++ L ++ R ++ (x :: xs ++ post)) (pre.length + (L.length + R.length)) = ok x := by
      rw [vecGet_eq_ok, List.getElem?_append_right (by simp)]
      simp
    simp only [List.length_cons, partLoop]
    rw [hget, ok_bind, hx, ok_bind]
    cases hp : p x with
    | true =>
      obtain ⟨R1, hs, hperm⟩ := swapAt_mid pre L R (xs ++ post) x
      simp only [if_true]
      rw [List.cons_append, hs, ok_bind]
      obtain ⟨R', h1, h2⟩ := ih (L ++ [x]) R1 hxs
      refine ⟨R', ?_, ?_⟩
      · have hlen : (L ++ [x]).length + R1.length = L.length + R.length + 1 := by
          rw [hperm.length_eq]; simp; omega
        rw [hlen] at h1
        simpa [hp, List.filter_cons] using h1
      · simpa [hp, List.filter_cons] using h2.trans (List.Perm.append_right _ hperm)
    | false =>
      obtain ⟨R', h1, h2⟩ := ih L (R ++ [x]) hxs
      refine ⟨R', ?_, ?_⟩
      · simpa [hp, List.filter_cons, Nat.add_assoc] using h1
      · simpa [hp, List.filter_cons] using h2

theorem partitionSlice_spec (goLeft : Nat → Outcome Bool) (p : Nat → Bool) (pre samples post : List Nat)
    (h : ∀ x ∈ samples, goLeft x = ok (p x)) :
    ∃ R, partitionSlice goLeft pre.length samples.length (pre ++ samples ++ post)
        = ok ((samples.filter p).length, pre ++ samples.filter p ++ R ++ post)
      ∧ R.Perm (samples.filter (fun x => !p x)) := by
  simpa [partitionSlice] using partLoop_spec goLeft p pre post samples [] [] h

/-- Whenever the partition succeeds, the test did for every sample. -/
theorem partLoop_ok_inv (goLeft : Nat → Outcome Bool) (pre post : List Nat) :
    ∀ (todo L R : List Nat) r, partLoop goLeft pre.length todo.length (L.length + R.length) L.length
        (pre ++ L ++ R ++ (todo ++ post)) = ok r → ∀ x ∈ todo, ∃ b, goLeft x = ok b := by
  intro todo
  induction todo with
  | nil => intro L R r _; simp
  | cons x xs ih =>
    intro L R r hr
    have hget : vecGet (pre ++ L ++ R ++ (x :: xs ++ post)) (pre.length + (L.length + R.length)) = ok x := by
      rw [vecGet_eq_ok, List.getElem?_append_right (by simp)]
      simp
    simp only [List.length_cons, partLoop] at hr
    rw [hget, ok_bind, bind_eq_ok] at hr
    obtain ⟨b, hb, hr⟩ := hr
    cases b with
    | true =>
      obtain ⟨R1, hs, hperm⟩ := swapAt_mid pre L R (xs ++ post) x
      simp only [if_true] at hr
      rw [List.cons_append, hs, ok_bind] at hr
      have hlen : (L ++ [x]).length + R1.length = L.length + R.length + 1 := by
        rw [hperm.length_eq]; simp; omega
      have := ih (L ++ [x]) R1 r (by rw [hlen]; simpa using hr)
      intro y hy
      rcases List.mem_cons.mp hy with rfl | hy
      · exact ⟨_, hb⟩
      · exact this y hy
    | false =>
      have := ih L (R ++ [x]) r (by simpa [Nat.add_assoc] using hr)
      intro y hy
      rcases List.mem_cons.mp hy with rfl | hy
      · exact ⟨_, hb⟩
      · exact this y hy

theorem partitionSlice_ok_inv {goLeft : Nat → Outcome Bool} {pre samples post : List Nat} {r : Nat × List Nat}
    (h : partitionSlice goLeft pre.length samples.length (pre ++ samples ++ post) = ok r) :
    ∀ x ∈ samples, ∃ b, goLeft x = ok b :=
  partLoop_ok_inv goLeft pre post samples [] [] r (by simpa [partitionSlice] using h)

section
variable {D A : Type} [LinearOrder A]

/-- The test a column applies to a row (proof device). -/
def rowTest (c : Column A) (s : Split D A) : Nat → Outcome Bool :=
  match c with
  | .str c => match s.catSplit with
    | none => fun _ => .fatal
    | some cs => stringGoesLeft c cs
  | .bkt c => match s.floatSplit with
    | none => fun _ => .fatal
    | some fs => floatGoesLeft c fs
  | .raw _ => fun _ => .ok false

/-- The type of the split fits that of the column. -/
def Matches (c : Column A) (s : Split D A) : Prop :=
  match c with
  | .str _ => s.catSplit.isSome
  | .bkt _ => s.floatSplit.isSome
  | .raw _ => True

theorem partitionColumn_spec {c : Column A} {s : Split D A} (hm : Matches c s) (p : Nat → Bool)
    (pre samples post : List Nat) (h : ∀ x ∈ samples, rowTest c s x = ok (p x)) :
    ∃ R, partitionColumn c s pre.length samples.length (pre ++ samples ++ post)
        = ok ((samples.filter p).length, pre ++ samples.filter p ++ R ++ post)
      ∧ R.Perm (samples.filter (fun x => !p x)) := by
  cases c with
  | str c =>
    simp only [Matches, Option.isSome_iff_exists] at hm
    obtain ⟨cs, hc⟩ := hm
    simp only [rowTest, hc] at h
    simpa only [partitionColumn, hc] using partitionSlice_spec _ p pre samples post h
  | bkt c =>
    simp only [Matches, Option.isSome_iff_exists] at hm
    obtain ⟨cs, hc⟩ := hm
    simp only [rowTest, hc] at h
    simpa only [partitionColumn, hc] using partitionSlice_spec _ p pre samples post h
  | raw c =>
    have hp : ∀ x ∈ samples, p x = false := fun x hx => by
      have := h x hx
      simp only [rowTest, Outcome.ok.injEq] at this
      exact this.symm
    have e1 : samples.filter p = [] := by
      rw [List.filter_eq_nil_iff]; intro x hx; simp [hp x hx]
    have e2 : samples.filter (fun x => !p x) = samples := by
      rw [List.filter_eq_self]; intro x hx; simp [hp x hx]
    exact ⟨samples, by simp [partitionColumn, e1], by rw [e2]⟩

theorem partitionColumn_ok_inv {c : Column A} {s : Split D A} {pre samples post : List Nat} {r : Nat × List Nat}
    (h : partitionColumn c s pre.length samples.length (pre ++ samples ++ post) = ok r) :
    Matches c s ∧ ∀ x ∈ samples, ∃ b, rowTest c s x = ok b := by
  cases c with
  | str c =>
    cases hc : s.catSplit with
    | none => simp [partitionColumn, hc] at h
    | some cs =>
      simp only [partitionColumn, hc] at h
      refine ⟨by simp [Matches, hc], ?_⟩
      simpa only [rowTest, hc] using partitionSlice_ok_inv h
  | bkt c =>
    cases hc : s.floatSplit with
    | none => simp [partitionColumn, hc] at h
    | some cs =>
      simp only [partitionColumn, hc] at h
      refine ⟨by simp [Matches, hc], ?_⟩
      simpa only [rowTest, hc] using partitionSlice_ok_inv h
  | raw c => exact ⟨trivial, fun x _ => ⟨false, rfl⟩⟩

theorem partition_spec {c : Column A} {s : Split D A} (hm : Matches c s) (p : Nat → Bool)
    (samples : List Nat) (h : ∀ x ∈ samples, rowTest c s x = ok (p x)) :
    ∃ R, partition c s samples = ok (samples.filter p, R) ∧ R.Perm (samples.filter (fun x => !p x)) := by
  obtain ⟨R, h1, h2⟩ := partitionColumn_spec hm p [] samples [] h
  refine ⟨R, ?_, h2⟩
  simp only [List.length_nil, List.nil_append, List.append_nil] at h1
  simp only [partition, h1, ok_bind, pure_eq]
  simp

theorem partition_ok_inv {c : Column A} {s : Split D A} {samples : List Nat} {r : List Nat × List Nat}
    (h : partition c s samples = ok r) : Matches c s ∧ ∀ x ∈ samples, ∃ b, rowTest c s x = ok b := by
  simp only [partition, bind_eq_ok] at h
  obtain ⟨q, hq, _⟩ := h
  exact partitionColumn_ok_inv (pre := []) (post := []) (by simpa using hq)

end

theorem vecGet_frame {α : Type} (pre v post : List α) {i : Nat} (hi : i < v.length) :
    vecGet (pre ++ v ++ post) (pre.length + i) = vecGet v i := by
  rw [vecGet_lt hi, vecGet_eq_ok, List.append_assoc, List.getElem?_append_right (by omega),
    List.getElem?_append_left (by omega)]
  simp [hi]

theorem set_frame {α : Type} (pre v post : List α) {i : Nat} (hi : i < v.length) (x : α) :
    (pre ++ v ++ post).set (pre.length + i) x = pre ++ v.set i x ++ post := by
  rw [List.append_assoc, List.set_append_right _ _ (by omega), List.append_assoc, List.set_append_left _ _ (by omega)]
  simp

theorem swapAt_frame (pre v post : List Nat) {i j : Nat} (hi : i < v.length) (hj : j < v.length) :
    ∃ v', swapAt v i j = ok v' ∧ v'.length = v.length ∧
      swapAt (pre ++ v ++ post) (pre.length + i) (pre.length + j) = ok (pre ++ v' ++ post) := by
  refine ⟨(v.set i v[j]).set j v[i], ?_, by simp, ?_⟩
  · simp [swapAt, vecGet_lt hi, vecGet_lt hj]
  · rw [swapAt, vecGet_frame pre v post hi, vecGet_frame pre v post hj, vecGet_lt hi, vecGet_lt hj, ok_bind, ok_bind, pure_eq,
      set_frame pre v post hi, set_frame pre _ post (by simpa using hj)]

/-- What surrounds the slice does not matter to the loop and is not changed. -/
theorem partLoop_frame (g : Nat → Outcome Bool) (pre post : List Nat) : ∀ (fuel i left : Nat) (v : List Nat),
    i + fuel ≤ v.length → left ≤ i →
    partLoop g pre.length fuel i left (pre ++ v ++ post) =
      (partLoop g 0 fuel i left v >>= fun r => ok (r.1, pre ++ r.2 ++ post))
  | 0, i, left, v, _, _ => rfl
  | fuel + 1, i, left, v, h, hl => by
    have hi : i < v.length := by omega
    rw [partLoop, partLoop, vecGet_frame pre v post hi, Nat.zero_add, vecGet_lt hi, ok_bind, ok_bind]
    cases hg : g v[i] with
    | ok b =>
      cases b with
      | true =>
        obtain ⟨v', h1, h2, h3⟩ := swapAt_frame pre v post hi (j := left) (by omega)
        simp only [ok_bind, if_true, Nat.zero_add, h1, h3]
        exact partLoop_frame g pre post fuel (i + 1) (left + 1) v' (by omega) (by omega)
      | false =>
        simp only [ok_bind, Bool.false_eq_true, if_false]
        exact partLoop_frame g pre post fuel (i + 1) left v (by omega) (by omega)
    | ub => rfl
    | fatal => rfl

theorem partitionColumn_frame {D A : Type} [LinearOrder A] (c : Column A) (s : Split D A) (pre v post : List Nat) :
    partitionColumn c s pre.length v.length (pre ++ v ++ post) =
      (partitionColumn c s 0 v.length v >>= fun r => ok (r.1, pre ++ r.2 ++ post)) := by
  cases c with
  | str c =>
    simp only [partitionColumn]
    cases s.catSplit with
    | none => rfl
    | some cs => exact partLoop_frame _ pre post _ 0 0 v (by omega) (by omega)
  | bkt c =>
    simp only [partitionColumn]
    cases s.floatSplit with
    | none => rfl
    | some cs => exact partLoop_frame _ pre post _ 0 0 v (by omega) (by omega)
  | raw c => rfl

end Gbdt
