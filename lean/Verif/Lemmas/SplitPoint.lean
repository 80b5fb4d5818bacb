import Verif.Spec.Split

/-!
# The scan for the best split point
-/

set_option autoImplicit false
set_option linter.unusedSectionVars false

namespace Gbdt

variable {D : Type} [Dbl D]

/-- The threshold that a gain has to exceed. -/
def bar (cfg : SplitConfig D) (g : D) : D := Dbl.max g (Dbl.max cfg.minGain cfg.tol)

theorem lt_asymm' [StrictLt D] {a b : D} (h : Dbl.ltb a b = true) : Dbl.ltb b a = false := by
  cases h2 : Dbl.ltb b a with
  | false => rfl
  | true => have := StrictLt.trans a b a h h2; rw [StrictLt.irrefl] at this; cases this

theorem lt_of_max_lt [FpOrder D] {a b c : D} (hb : Dbl.eqb b b = true) (h : Dbl.ltb (Dbl.max a b) c = true) :
    Dbl.ltb a c = true ∧ Dbl.ltb b c = true := by
  unfold Dbl.max at h
  split at h
  · rename_i hab; exact ⟨StrictLt.trans _ _ _ hab h, h⟩
  · rename_i hab
    refine ⟨h, ?_⟩
    rcases FpOrder.cotrans a b c hb h with h1 | h1
    · exact absurd h1 hab
    · exact h1

theorem left_lt_of_max_lt [StrictLt D] {a b c : D} (h : Dbl.ltb (Dbl.max a b) c = true) : Dbl.ltb a c = true := by
  unfold Dbl.max at h
  split at h
  · rename_i hab; exact StrictLt.trans _ _ _ hab h
  · exact h

/-- A gain that passed the bar is its own bar. -/
theorem bar_of_passed [StrictLt D] {cfg : SplitConfig D} {old g : D} (h : Dbl.ltb (bar cfg old) g = true) :
    bar cfg g = g := by
  unfold bar at *
  generalize Dbl.max cfg.minGain cfg.tol = m at *
  unfold Dbl.max at *
  split
  · rename_i h1
    exfalso
    split at h
    · rw [lt_asymm' h] at h1; cases h1
    · rename_i h2
      exact h2 (StrictLt.trans _ _ _ h h1)
  · rfl

theorem candidate_false {cfg : SplitConfig D} {total : GD D} {missing : Option (GD D)} {data : List (GD D)} {k : Nat}
    {l r : GD D} {g : D} (h : Candidate cfg total missing data k false l r g) :
    l = prefixSum data k ∧ r = total.sub (prefixSum data k) := by
  obtain ⟨_, _, h, _⟩ := h
  simp only [cutSides, Bool.false_eq_true, if_false, Option.some.injEq, Prod.mk.injEq] at h
  exact ⟨h.1.symm, h.2.symm⟩

theorem candidate_true {cfg : SplitConfig D} {total : GD D} {missing : Option (GD D)} {data : List (GD D)} {k : Nat}
    {l r : GD D} {g : D} (h : Candidate cfg total missing data k true l r g) :
    ∃ m, missing = some m ∧ l = (prefixSum data k).sub m ∧ r = (total.sub (prefixSum data k)).add m := by
  obtain ⟨_, _, h, _⟩ := h
  simp only [cutSides, if_true, Option.map_eq_some_iff, Prod.mk.injEq] at h
  obtain ⟨m, h1, h2, h3⟩ := h
  exact ⟨m, h1, h2.symm, h3.symm⟩

/-- What one position of the scan computes. -/
theorem positionGain_spec [StrictLt D] (cfg : SplitConfig D) (total : GD D) (missing : Option (GD D))
    (data : List (GD D)) (k : Nat) (h1 : 1 ≤ k) (h2 : k < data.length) :
    let r := positionGain cfg total missing (prefixSum data k)
    ((∃ l q, Candidate cfg total missing data k r.2 l q r.1) ∨ r.1 = 0) ∧
    (∀ b l q g, Candidate cfg total missing data k b l q g → Dbl.ltb r.1 g = false) ∧
    (Dbl.eqb r.1 r.1 = true ∨ r.1 = 0 ∨ (∃ l q, Candidate cfg total missing data k false l q r.1) ∨
      ∃ x, Dbl.ltb x r.1 = true) := by
  intro r
  have hr : r = positionGain cfg total missing (prefixSum data k) := rfl
  unfold positionGain at hr
  dsimp only at hr
  have hF : ∀ l q g, Candidate cfg total missing data k false l q g →
      l = prefixSum data k ∧ q = total.sub (prefixSum data k) ∧
      Dbl.ltb cfg.minHessian (Dbl.min (prefixSum data k).h (total.sub (prefixSum data k)).h) = true ∧
      g = gainOf cfg.l2Lambda total (prefixSum data k) (total.sub (prefixSum data k)) := by
    intro l q g hc
    obtain ⟨e1, e2⟩ := candidate_false hc
    subst e1 e2
    exact ⟨rfl, rfl, hc.2.2.2.1, hc.2.2.2.2⟩
  have mkF : Dbl.ltb cfg.minHessian (Dbl.min (prefixSum data k).h (total.sub (prefixSum data k)).h) = true →
      Candidate cfg total missing data k false (prefixSum data k) (total.sub (prefixSum data k))
        (gainOf cfg.l2Lambda total (prefixSum data k) (total.sub (prefixSum data k))) := by
    intro h
    exact ⟨h1, h2, rfl, h, rfl⟩
  cases hm : missing with
  | none =>
    rw [hm] at hr
    dsimp only at hr
    have noT : ∀ l q g, ¬ Candidate cfg total none data k true l q g := by
      intro l q g hc
      obtain ⟨m, h, _⟩ := candidate_true hc
      cases h
    rw [hm] at hF mkF
    by_cases hl : Dbl.ltb cfg.minHessian (Dbl.min (prefixSum data k).h (total.sub (prefixSum data k)).h) = true
    · rw [gainOr, if_pos hl] at hr
      rw [hr]
      refine ⟨Or.inl ⟨_, _, mkF hl⟩, ?_, Or.inr (Or.inr (Or.inl ⟨_, _, mkF hl⟩))⟩
      intro b l q g hc
      cases b with
      | true => exact absurd hc (noT _ _ _)
      | false =>
        obtain ⟨_, _, _, e⟩ := hF _ _ _ hc
        rw [e]; exact StrictLt.irrefl _
    · rw [gainOr, if_neg hl] at hr
      rw [hr]
      refine ⟨Or.inr rfl, ?_, Or.inr (Or.inl rfl)⟩
      intro b l q g hc
      cases b with
      | true => exact absurd hc (noT _ _ _)
      | false => exact absurd (hF _ _ _ hc).2.2.1 hl
  | some m =>
    rw [hm] at hr
    rw [hm] at hF mkF
    have hT : ∀ l q g, Candidate cfg total (some m) data k true l q g →
        Dbl.ltb cfg.minHessian (Dbl.min ((prefixSum data k).sub m).h ((total.sub (prefixSum data k)).add m).h) = true ∧
        g = gainOf cfg.l2Lambda total ((prefixSum data k).sub m) ((total.sub (prefixSum data k)).add m) := by
      intro l q g hc
      obtain ⟨m', e, e1, e2⟩ := candidate_true hc
      cases e
      subst e1 e2
      exact ⟨hc.2.2.2.1, hc.2.2.2.2⟩
    have mkT : Dbl.ltb cfg.minHessian (Dbl.min ((prefixSum data k).sub m).h ((total.sub (prefixSum data k)).add m).h)
          = true →
        Candidate cfg total (some m) data k true ((prefixSum data k).sub m) ((total.sub (prefixSum data k)).add m)
          (gainOf cfg.l2Lambda total ((prefixSum data k).sub m) ((total.sub (prefixSum data k)).add m)) := by
      intro h
      exact ⟨h1, h2, rfl, h, rfl⟩
    dsimp only at hr
    by_cases hl : Dbl.ltb cfg.minHessian (Dbl.min (prefixSum data k).h (total.sub (prefixSum data k)).h) = true
    · have hg : gainOr cfg total (prefixSum data k) (total.sub (prefixSum data k)) 0 =
          gainOf cfg.l2Lambda total (prefixSum data k) (total.sub (prefixSum data k)) := by
        rw [gainOr, if_pos hl]; rfl
      rw [hg] at hr
      have hpos := mkF hl
      generalize gainOf cfg.l2Lambda total (prefixSum data k) (total.sub (prefixSum data k)) = g0 at hr hF hpos
      split at hr
      · rename_i hl1
        split at hr
        · rename_i hlt
          rw [hr]
          refine ⟨Or.inl ⟨_, _, mkT hl1⟩, ?_, Or.inr (Or.inr (Or.inr ⟨_, hlt⟩))⟩
          intro b l q g hc
          cases b with
          | true => obtain ⟨_, e⟩ := hT _ _ _ hc; rw [e]; exact StrictLt.irrefl _
          | false =>
            obtain ⟨_, _, _, e⟩ := hF _ _ _ hc
            rw [e]; exact lt_asymm' hlt
        · rename_i hnlt
          rw [hr]
          refine ⟨Or.inl ⟨_, _, hpos⟩, ?_, Or.inr (Or.inr (Or.inl ⟨_, _, hpos⟩))⟩
          intro b l q g hc
          cases b with
          | true =>
            obtain ⟨_, e⟩ := hT _ _ _ hc
            rw [e]; exact Bool.eq_false_iff.mpr hnlt
          | false => obtain ⟨_, _, _, e⟩ := hF _ _ _ hc; rw [e]; exact StrictLt.irrefl _
      · rename_i hl1
        rw [hr]
        refine ⟨Or.inl ⟨_, _, hpos⟩, ?_, Or.inr (Or.inr (Or.inl ⟨_, _, hpos⟩))⟩
        intro b l q g hc
        cases b with
        | true => exact absurd (hT _ _ _ hc).1 hl1
        | false => obtain ⟨_, _, _, e⟩ := hF _ _ _ hc; rw [e]; exact StrictLt.irrefl _
    · have hg : gainOr cfg total (prefixSum data k) (total.sub (prefixSum data k)) 0 = 0 := by
        rw [gainOr, if_neg hl]
      rw [hg] at hr
      split at hr
      · rename_i hl1
        split at hr
        · rename_i hlt
          rw [hr]
          refine ⟨Or.inl ⟨_, _, mkT hl1⟩, ?_, Or.inr (Or.inr (Or.inr ⟨_, hlt⟩))⟩
          intro b l q g hc
          cases b with
          | true => obtain ⟨_, e⟩ := hT _ _ _ hc; rw [e]; exact StrictLt.irrefl _
          | false => exact absurd (hF _ _ _ hc).2.2.1 hl
        · rename_i hnlt
          rw [hr]
          refine ⟨Or.inr rfl, ?_, Or.inr (Or.inl rfl)⟩
          intro b l q g hc
          cases b with
          | true =>
            obtain ⟨_, e⟩ := hT _ _ _ hc
            rw [e]; exact Bool.eq_false_iff.mpr hnlt
          | false => exact absurd (hF _ _ _ hc).2.2.1 hl
      · rename_i hl1
        rw [hr]
        refine ⟨Or.inr rfl, ?_, Or.inr (Or.inl rfl)⟩
        intro b l q g hc
        cases b with
        | true => exact absurd (hT _ _ _ hc).1 hl1
        | false => exact absurd (hF _ _ _ hc).2.2.1 hl

/-- No gain of a left-placed candidate at this position is NaN. -/
def NotNaNAt (cfg : SplitConfig D) (total : GD D) (missing : Option (GD D)) (data : List (GD D)) (k : Nat) : Prop :=
  ∀ l q g, Candidate cfg total missing data k false l q g → Dbl.eqb g g = true

/-- The state of the scan before position `n`. -/
structure ScanInv (cfg : SplitConfig D) (total : GD D) (missing : Option (GD D)) (data : List (GD D)) (n : Nat)
    (sp : SplitPoint D) : Prop where
  none : sp.leftPoint = none → sp.gain = 0 ∧ sp.missingOnRight = false
  some : ∀ p, sp.leftPoint = some p → (∃ l q, Candidate cfg total missing data (p + 1) sp.missingOnRight l q sp.gain) ∧
    Dbl.ltb 0 sp.gain = true ∧ ∃ old, Dbl.ltb (bar cfg old) sp.gain = true
  best : ∀ k b l q g, k < n → Candidate cfg total missing data k b l q g → NotNaNAt cfg total missing data k →
    Dbl.ltb (bar cfg sp.gain) g = false

variable [FpOrder D]

theorem bar_trans {cfg : SplitConfig D} {old g x : D} (h : Dbl.ltb (bar cfg old) g = true)
    (h2 : Dbl.ltb (bar cfg old) x = false) : Dbl.ltb (bar cfg g) x = false := by
  rw [bar_of_passed h]
  rw [Bool.eq_false_iff] at h2 ⊢
  exact fun h3 => h2 (StrictLt.trans _ _ _ h h3)

theorem zero_lt_of_bar {cfg : SplitConfig D} {sp : SplitPoint D} {x : D}
    (hz : sp.gain = 0 ∨ Dbl.ltb 0 sp.gain = true) (h : Dbl.ltb (bar cfg sp.gain) x = true) : Dbl.ltb 0 x = true := by
  have := left_lt_of_max_lt h
  rcases hz with hz | hz
  · rwa [hz] at this
  · exact StrictLt.trans _ _ _ hz this

theorem scan_step {cfg : SplitConfig D} {total : GD D} {missing : Option (GD D)} {data : List (GD D)} {n : Nat}
    {sp : SplitPoint D} (h1 : 1 ≤ n) (h2 : n < data.length) (hi : ScanInv cfg total missing data n sp) :
    ScanInv cfg total missing data (n + 1)
      (keepBetter cfg n (positionGain cfg total missing (prefixSum data n)) sp) := by
  obtain ⟨a, b, c⟩ := positionGain_spec cfg total missing data n h1 h2
  generalize hr : positionGain cfg total missing (prefixSum data n) = r at a b c
  have hz : sp.gain = 0 ∨ Dbl.ltb 0 sp.gain = true := by
    cases hl : sp.leftPoint with
    | none => exact Or.inl (hi.none hl).1
    | some p => exact Or.inr (hi.some p hl).2.1
  have hnan : NotNaNAt cfg total missing data n → Dbl.eqb r.1 r.1 = true := by
    intro hn
    rcases c with c | c | ⟨l, q, c⟩ | ⟨x, c⟩
    · exact c
    · rw [c]; exact FpOrder.zero_not_nan
    · exact hn _ _ _ c
    · exact (FpOrder.not_nan _ _ c).2
  have key : ∀ (s' : D), Dbl.ltb (bar cfg s') r.1 = false → ∀ k bb l q g, k < n + 1 →
      (k < n → Candidate cfg total missing data k bb l q g → NotNaNAt cfg total missing data k →
        Dbl.ltb (bar cfg s') g = false) →
      Candidate cfg total missing data k bb l q g → NotNaNAt cfg total missing data k →
      Dbl.ltb (bar cfg s') g = false := by
    intro s' hs k bb l q g hk hold hc hn
    rcases Nat.lt_succ_iff_lt_or_eq.mp hk with hk | rfl
    · exact hold hk hc hn
    · have h3 := b _ _ _ _ hc
      rw [Bool.eq_false_iff] at hs h3 ⊢
      intro h4
      rcases FpOrder.cotrans _ r.1 _ (hnan hn) h4 with h5 | h5
      · exact hs h5
      · exact h3 h5
  unfold keepBetter
  split
  · rename_i hacc
    change Dbl.ltb (bar cfg sp.gain) r.1 = true at hacc
    refine ⟨fun h => by simp at h, ?_, ?_⟩
    · intro p hp
      simp only [Option.some.injEq] at hp
      subst hp
      have hpos := zero_lt_of_bar hz hacc
      refine ⟨?_, hpos, _, hacc⟩
      dsimp only
      rw [Nat.sub_add_cancel h1]
      rcases a with a | a
      · exact a
      · rw [a, StrictLt.irrefl] at hpos; cases hpos
    · intro k bb l q g hk hc hn
      refine key r.1 ?_ k bb l q g hk ?_ hc hn
      · rw [bar_of_passed hacc]; exact StrictLt.irrefl _
      · intro hk' hc' hn'
        exact bar_trans hacc (hi.best k bb l q g hk' hc' hn')
  · rename_i hrej
    change ¬ Dbl.ltb (bar cfg sp.gain) r.1 = true at hrej
    refine ⟨hi.none, hi.some, ?_⟩
    intro k bb l q g hk hc hn
    exact key sp.gain (Bool.eq_false_iff.mpr hrej) k bb l q g hk (hi.best k bb l q g) hc hn

theorem scanPoints_inv {cfg : SplitConfig D} {total : GD D} {missing : Option (GD D)} (data : List (GD D)) :
    ∀ (rest done : List (GD D)) (sp : SplitPoint D), data = done ++ rest →
    ScanInv cfg total missing data done.length sp →
    ScanInv cfg total missing data data.length
      (scanPoints cfg total missing done.length (prefixSum data done.length) rest sp) := by
  intro rest
  induction rest with
  | nil => intro done sp e hi; subst e; simpa [scanPoints] using hi
  | cons d ds ih =>
    intro done sp e hi
    have hsum : (prefixSum data done.length).add d = prefixSum data (done ++ [d]).length := by
      subst e
      simp [prefixSum, List.take_append, List.take_of_length_le]
    have hlt : done.length < data.length := by subst e; simp
    simp only [scanPoints]
    rw [hsum]
    have e' : data = (done ++ [d]) ++ ds := by rw [e]; simp
    have hl : (done ++ [d]).length = done.length + 1 := by simp
    have := ih (done ++ [d]) (if done.length = 0 then sp else
      keepBetter cfg done.length (positionGain cfg total missing (prefixSum data done.length)) sp) e' ?_
    · rw [hl] at this ⊢; exact this
    · rw [hl]
      split
      · rename_i h0
        refine ⟨hi.none, hi.some, ?_⟩
        intro k b l q g hk hc hn
        have := hc.1
        omega
      · exact scan_step (by omega) hlt hi

theorem findBestSplitPoint_inv (cfg : SplitConfig D) (total : GD D) (missing : Option (GD D)) (data : List (GD D)) :
    ScanInv cfg total missing data data.length (findBestSplitPoint cfg total missing data) := by
  have := scanPoints_inv (cfg := cfg) (total := total) (missing := missing) data data []
    { leftPoint := none, missingOnRight := false, gain := 0 } rfl
    ⟨fun _ => ⟨rfl, rfl⟩, fun p hp => by simp at hp, fun k b l q g hk => by simp at hk⟩
  simpa [findBestSplitPoint, prefixSum] using this

end Gbdt
