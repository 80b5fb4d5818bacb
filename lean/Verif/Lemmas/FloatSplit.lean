import Verif.Lemmas.Histogram
import Verif.Lemmas.SplitPoint
import Verif.Lemmas.Partition
import Verif.Lemmas.BucketRows

/-!
# Float splits
-/

set_option autoImplicit false
set_option linter.unusedSectionVars false

namespace Gbdt

open Outcome

variable {D A : Type} [Dbl D] [LinearOrder A]

/-- What splitting needs to know about a bucketized column: `codes` are the rows' codes. -/
structure BktWF (c : BktCol A) (codes : List Nat) : Prop where
  data : c.ints.data = ok codes
  lt : ∀ k ∈ codes, k < c.maxInt
  pos : 0 < c.maxInt
  max0 : c.maxs[0]? = some .nan
  limits : ∀ k ∈ codes, k ≠ 0 → ∃ lo hi, c.mins[k]? = some (.num lo) ∧ c.maxs[k]? = some (.num hi) ∧ lo ≤ hi
  min1 : ∃ m, c.mins[1]? = some (.num m) ∧ ∀ k ∈ codes, k ≠ 0 → ∀ hi, c.maxs[k]? = some (.num hi) → m ≤ hi
  order : ∀ k1 ∈ codes, ∀ k2 ∈ codes, k1 ≠ 0 → k1 < k2 → ∀ hi lo, c.maxs[k1]? = some (.num hi) →
    c.mins[k2]? = some (.num lo) → hi < lo

/-- A column built from numbers that are not `+inf` is well formed. -/
theorem bktWF_build {fmax : A} {nb : Nat} {blocks : List (List (Fl A))} {c : BktCol A}
    (hn : blocks.flatten.length + 2 < 2 ^ 32) (hnb : nb < 2 ^ 32) (hok : BktCol.build fmax nb blocks = ok c)
    (hfin : ∀ v, Fl.num v ∈ blocks.flatten → v ≤ fmax) :
    ∃ codes, BktWF c codes ∧ codes.length = blocks.flatten.length := by
  obtain ⟨buf, rest, M, e, hr, _, _, r⟩ := build_ok hn hnb hok
  have hcode : ∀ k, k ∈ blocks.flatten.map (codeOf M) → k ≠ 0 →
      ∃ (i : Nat) (v : A), blocks.flatten[i]? = some (Fl.num v) ∧ codeOf M (.num v) = k := by
    intro k hk h0
    obtain ⟨x, hx, rfl⟩ := List.mem_map.mp hk
    obtain ⟨i, hi⟩ := List.mem_iff_getElem?.mp hx
    cases x with
    | nan => exact absurd ((r.bkts.code_eq_zero .nan).mpr rfl) h0
    | num v => exact ⟨i, v, hi, rfl⟩
  have hmax : ∀ {i : Nat} {v : A} {k : Fl A}, blocks.flatten[i]? = some (Fl.num v) → c.rowMax i = ok k → c.maxs[codeOf M (.num v)]? = some k := by
    intro i v k hi hk
    unfold BktCol.rowMax at hk
    rw [r.code hi, ok_bind] at hk
    exact vecGet_eq_ok.mp hk
  have hmin : ∀ {i : Nat} {v : A} {k : Fl A}, blocks.flatten[i]? = some (Fl.num v) → c.rowMin i = ok k → c.mins[codeOf M (.num v)]? = some k := by
    intro i v k hi hk
    unfold BktCol.rowMin at hk
    rw [r.code hi, ok_bind] at hk
    exact vecGet_eq_ok.mp hk
  have hS : ∀ a ∈ limitsOf nb buf, a ≤ fmax := by
    intro a ha
    apply hfin
    rw [e]
    exact List.mem_append_left _ (limitsOf_mem ha)
  refine ⟨blocks.flatten.map (codeOf M), ?_, List.length_map _⟩
  refine ⟨r.data, ?_, by rw [r.maxInt]; omega, by rw [r.maxs]; rfl, ?_, ?_, ?_⟩
  · intro k hk
    obtain ⟨x, _, rfl⟩ := List.mem_map.mp hk
    rw [r.maxInt]
    exact r.bkts.code_lt x
  · intro k hk h0
    obtain ⟨i, v, hi, rfl⟩ := hcode k hk h0
    obtain ⟨hi', m, _, h1, h2, h3, _⟩ := r.row hi
    exact ⟨m, hi', hmin hi h2, hmax hi h1, h3⟩
  · obtain ⟨a, ha⟩ : ∃ a, (limitsOf nb buf ++ [fmax])[0]? = some a := by
      cases limitsOf nb buf with
      | nil => exact ⟨_, rfl⟩
      | cons a l => exact ⟨_, rfl⟩
    obtain ⟨_, m, h1, h2, _⟩ := r.bucket ha
    refine ⟨m, vecGet_eq_ok.mp h1, ?_⟩
    intro k hk h0 hi hmk
    obtain ⟨i, v, hv, rfl⟩ := hcode k hk h0
    obtain ⟨x, m', hx, g1, _⟩ := r.row hv
    have := hmax hv g1
    rw [hmk] at this
    cases this
    have hmem := r.bkts.key_mem hx
    refine h2.trans ?_
    -- the first limit is the smallest
    have hincr := r.bkts.incr
    cases hl : limitsOf nb buf with
    | nil =>
      rw [hl] at ha hmem
      simp only [List.nil_append, List.getElem?_cons_zero, Option.some.injEq] at ha
      simp only [List.nil_append, List.mem_singleton] at hmem
      rw [← ha, hmem]
    | cons b l =>
      rw [hl] at ha hmem hincr
      simp only [List.cons_append, List.getElem?_cons_zero, Option.some.injEq] at ha
      subst ha
      rw [List.pairwise_cons] at hincr
      simp only [List.cons_append, List.mem_cons, List.mem_append, List.not_mem_nil, or_false] at hmem
      rcases hmem with rfl | hmem | rfl
      · exact le_rfl
      · exact le_of_lt (hincr.1 _ hmem)
      · exact hS _ (by rw [hl]; simp)
  · intro k1 hk1 k2 hk2 h0 hlt hi lo e1 e2
    obtain ⟨i, v, hv, rfl⟩ := hcode k1 hk1 h0
    obtain ⟨j, w, hw, rfl⟩ := hcode k2 hk2 (by omega)
    obtain ⟨k, m, hk, h1, h2, h3, h4, h5, _⟩ := r.row hv
    obtain ⟨k', m', hk', h1', h2', h3', h4', h5', _, h7', h8'⟩ := r.row hw
    have hkfmax := (h5 (hfin v (List.mem_of_getElem? hv))).2.1
    have hkc : codeOf M (.num k) = codeOf M (.num v) :=
      r.bkts.unique (r.bkts.entry_key (r.bkts.key_mem hk)) hk
    have := hmax hv h1
    rw [e1] at this; cases this
    have := hmin hw h2'
    rw [e2] at this; cases this
    by_contra hcon
    have hle : lo ≤ hi := not_lt.mp hcon
    have hmono := r.bkts.code_mono hle hkfmax
    rcases h8' with h8 | ⟨_, h8⟩
    · subst h8
      have hkc' : codeOf M (.num lo) = codeOf M (.num w) :=
        r.bkts.unique (r.bkts.entry_key (r.bkts.key_mem hk')) hk'
      omega
    · omega

/-- Where the rows of a code go. -/
def codeLeft (c : BktCol A) (f : FloatSplit A) (k : Nat) : Bool :=
  if k = 0 then !f.missingToRight else match c.maxs[k]? with
    | some x => Fl.lt x f.threshold
    | none => false

/-- The same test, for a row. -/
def rowLeft (codes : List Nat) (q : Nat → Bool) (i : Nat) : Bool :=
  match codes[i]? with
  | some c => q c
  | none => false

theorem floatGoesLeft_code {c : BktCol A} {codes : List Nat} (wf : BktWF c codes) (f : FloatSplit A) {i : Nat}
    (hi : i < codes.length) : floatGoesLeft c f i = ok (rowLeft codes (codeLeft c f) i) := by
  have hcode : c.ints.code i = ok codes[i] := by
    rw [IntCol.code, wf.data, ok_bind, vecGet_lt hi]
  have hget := List.getElem?_eq_getElem hi
  have hmem : codes[i] ∈ codes := List.getElem_mem hi
  unfold floatGoesLeft IntCol.missing rowLeft
  rw [hcode, hget]
  simp only [ok_bind, pure_eq]
  by_cases h0 : codes[i] = 0
  · rw [h0]
    cases hb : f.missingToRight <;> simp [codeLeft, hb]
  · obtain ⟨lo, hi', _, hmax, _⟩ := wf.limits _ hmem h0
    have hrow : c.rowMax i = ok (.num hi') := by
      rw [BktCol.rowMax, hcode, ok_bind, BktCol.bucketMax]
      exact vecGet_eq_ok.mpr hmax
    simp [h0, codeLeft, hmax, hrow]

theorem partition_float {c : BktCol A} {codes : List Nat} (wf : BktWF c codes) (s : Split D A) (f : FloatSplit A)
    (hs : s.floatSplit = some f) (samples : List Nat) (hin : ∀ i ∈ samples, i < codes.length) :
    ∃ R, partition (.bkt c) s samples = ok (samples.filter (rowLeft codes (codeLeft c f)), R) ∧
      R.Perm (samples.filter (fun i => !rowLeft codes (codeLeft c f) i)) := by
  refine partition_spec (by simp [Matches, hs]) _ samples ?_
  intro i hi
  simp only [rowTest, hs]
  exact floatGoesLeft_code wf f (hin i hi)

/-- The values scanned. -/
def valuesOf (codes : List Nat) (n : Nat) (x : Nat → GD D) (samples : List Nat) : List Nat :=
  (List.range n).filter (fun k => countsBin (binOf codes x samples k))

/-- The data of missing values. -/
def missingOf (codes : List Nat) (x : Nat → GD D) (samples : List Nat) : Option (GD D) :=
  if !Dbl.eqb (binOf codes x samples 0).g 0 || !Dbl.eqb (binOf codes x samples 0).h 0
    then some (binOf codes x samples 0) else none

theorem values_sorted (codes : List Nat) (n : Nat) (x : Nat → GD D) (samples : List Nat) :
    (valuesOf codes n x samples).Pairwise (· < ·) :=
  List.Pairwise.filter _ List.pairwise_lt_range

theorem mem_values {codes : List Nat} {n : Nat} {x : Nat → GD D} {samples : List Nat} {k : Nat} :
    k ∈ valuesOf codes n x samples ↔ k < n ∧ countsBin (binOf codes x samples k) = true := by
  simp [valuesOf]

variable [FpOrder D]

theorem values_occur {codes : List Nat} {n : Nat} {x : Nat → GD D} {samples : List Nat} {k : Nat}
    (h : k ∈ valuesOf codes n x samples) : (∃ i ∈ samples, codes[i]? = some k) ∧ k ∈ codes := by
  obtain ⟨i, hi, hk⟩ := exists_sample_of_counts (mem_values.mp h).2
  exact ⟨⟨i, hi, hk⟩, List.mem_of_getElem? hk⟩

/-- The threshold found between two codes that occur. -/
theorem thresholdOf_ok [ThrOps A] {c : BktCol A} {codes : List Nat} (wf : BktWF c codes) {lc rc : Nat}
    (hl : lc ∈ codes) (hr : rc ∈ codes) (hlt : lc < rc) :
    ∃ t, thresholdOf c lc rc = ok t ∧
      (lc = 0 → ∃ m, c.mins[1]? = some (.num m) ∧ t = ThrOps.below m) ∧
      (lc ≠ 0 → ∃ hi lo, c.maxs[lc]? = some (.num hi) ∧ c.mins[rc]? = some (.num lo) ∧ t = ThrOps.mid hi lo) := by
  obtain ⟨lo, hi, e1, e2, _⟩ := wf.limits rc hr (by omega)
  have hmin : c.bucketMin rc = ok (.num lo) := vecGet_eq_ok.mpr e1
  obtain ⟨m, hm, _⟩ := wf.min1
  have hm' : c.bucketMin 1 = ok (.num m) := vecGet_eq_ok.mpr hm
  by_cases h0 : lc = 0
  · subst h0
    have hmax : c.bucketMax 0 = ok .nan := vecGet_eq_ok.mpr wf.max0
    refine ⟨ThrOps.below m, ?_, fun _ => ⟨m, hm, rfl⟩, fun h => absurd rfl h⟩
    simp [thresholdOf, hmax, hmin, hm']
  · obtain ⟨lo', hi', e1', e2', _⟩ := wf.limits lc hl h0
    have hmax : c.bucketMax lc = ok (.num hi') := vecGet_eq_ok.mpr e2'
    refine ⟨ThrOps.mid hi' lo, ?_, fun h => absurd h h0, fun _ => ⟨hi', lo, e2', e1, rfl⟩⟩
    simp [thresholdOf, hmax, hmin]

theorem pairwise_get_lt {l : List Nat} (h : l.Pairwise (· < ·)) {i j : Nat} {a b : Nat} (hij : i < j)
    (ha : l[i]? = some a) (hb : l[j]? = some b) : a < b := by
  obtain ⟨hi, rfl⟩ := List.getElem?_eq_some_iff.mp ha
  obtain ⟨hj, rfl⟩ := List.getElem?_eq_some_iff.mp hb
  exact List.pairwise_iff_getElem.mp h i j hi hj hij

/-- What `FindBestFloatSplit` returns. -/
theorem findBestFloatSplit_eq [ThrOps A] {c : BktCol A} {codes : List Nat} (wf : BktWF c codes) (w : Nat → D)
    (grads : List (GD D)) (samples : List Nat) (cfg : SplitConfig D) (total : GD D)
    (hin : ∀ i ∈ samples, i < codes.length ∧ i < grads.length) :
    let x := weighted w grads
    let values := valuesOf codes c.maxInt x samples
    let sp := findBestSplitPoint cfg total (missingOf codes x samples) (values.map (binOf codes x samples))
    (sp.leftPoint = none ∧ findBestFloatSplit c w grads samples cfg total = ok none) ∨
    ∃ p lc rc t, sp.leftPoint = some p ∧ values[p]? = some lc ∧ values[p + 1]? = some rc ∧
      thresholdOf c lc rc = ok t ∧
      findBestFloatSplit c w grads samples cfg total =
        ok (some { gain := sp.gain, floatSplit := some ⟨t, sp.missingOnRight⟩ }) := by
  intro x values sp
  obtain ⟨h, hh, hi⟩ := histogramOf_spec (codes := codes) (n := c.maxInt) (w := w) (grads := grads)
    (samples := samples) (by
      intro i hi
      have := hin i hi
      exact ⟨this.2, _, List.getElem?_eq_getElem this.1, wf.lt _ (List.getElem_mem this.1)⟩)
  have hv : nonZeroValues h = values := nonZeroValues_eq hi
  have hd : histData h values = ok (values.map (binOf codes x samples)) :=
    histData_eq hi _ (fun k hk => (mem_values.mp hk).1)
  have hm : missingData h = ok (missingOf codes x samples) := missingData_eq hi wf.pos
  have hrun : findBestFloatSplit c w grads samples cfg total = (match sp.leftPoint with
      | none => pure none
      | some p => do
        let lc ← Outcome.vecGet values p
        let rc ← Outcome.vecGet values (p + 1)
        let t ← thresholdOf c lc rc
        pure (some { gain := sp.gain, floatSplit := some ⟨t, sp.missingOnRight⟩ })) := by
    unfold findBestFloatSplit
    rw [wf.data, ok_bind, hh, ok_bind]
    dsimp only
    rw [hv, hd, ok_bind, hm, ok_bind]
    rfl
  cases hl : sp.leftPoint with
  | none =>
    rw [hl] at hrun
    exact Or.inl ⟨rfl, hrun⟩
  | some p =>
    obtain ⟨⟨l, q, hc⟩, _⟩ := (findBestSplitPoint_inv cfg total (missingOf codes x samples)
      (values.map (binOf codes x samples))).some p hl
    have hlen : p + 1 < values.length := by have := hc.2.1; simpa using this
    have e1 := List.getElem?_eq_getElem (l := values) (i := p) (by omega)
    have e2 := List.getElem?_eq_getElem hlen
    have m1 := values_occur (List.mem_of_getElem? e1)
    have m2 := values_occur (List.mem_of_getElem? e2)
    obtain ⟨t, ht, _⟩ := thresholdOf_ok wf m1.2 m2.2 (pairwise_get_lt (values_sorted _ _ _ _) (Nat.lt_succ_self p) e1 e2)
    refine Or.inr ⟨p, _, _, t, rfl, e1, e2, ht, ?_⟩
    rw [hrun, hl]
    dsimp only
    rw [vecGet_lt (by omega : p < values.length), ok_bind, vecGet_lt hlen, ok_bind, ht, ok_bind]
    rfl

/-- How a found split routes the values scanned. -/
theorem codeLeft_values [ThrOps A] {c : BktCol A} {codes : List Nat} (wf : BktWF c codes) (hthr : ThrSeparates c)
    {values : List Nat} (hsort : values.Pairwise (· < ·)) (hocc : ∀ v ∈ values, v ∈ codes) {p lc rc : Nat} {t : Fl A}
    {b : Bool} (e1 : values[p]? = some lc) (e2 : values[p + 1]? = some rc) (ht : thresholdOf c lc rc = ok t) :
    (∀ v ∈ values.take (p + 1), codeLeft c ⟨t, b⟩ v = if v = 0 then !b else true) ∧
    (∀ v ∈ values.drop (p + 1), codeLeft c ⟨t, b⟩ v = false) := by
  have m1 := hocc _ (List.mem_of_getElem? e1)
  have m2 := hocc _ (List.mem_of_getElem? e2)
  have hlr := pairwise_get_lt hsort (Nat.lt_succ_self p) e1 e2
  obtain ⟨t', ht', hA, hB⟩ := thresholdOf_ok wf m1 m2 hlr
  rw [ht] at ht'
  cases ht'
  have hle1 : ∀ v ∈ values.take (p + 1), v ≤ lc := by
    intro v hv
    obtain ⟨j, hj⟩ := List.mem_iff_getElem?.mp hv
    rw [List.getElem?_take] at hj
    split at hj
    · rename_i hjp
      rcases Nat.lt_or_ge j p with h | h
      · exact le_of_lt (pairwise_get_lt hsort h hj e1)
      · have : j = p := by omega
        subst this
        rw [e1] at hj; cases hj; exact le_rfl
    · cases hj
  have hle2 : ∀ v ∈ values.drop (p + 1), rc ≤ v := by
    intro v hv
    obtain ⟨j, hj⟩ := List.mem_iff_getElem?.mp hv
    rw [List.getElem?_drop] at hj
    cases j with
    | zero => rw [Nat.add_zero, e2] at hj; cases hj; exact le_rfl
    | succ j => exact le_of_lt (pairwise_get_lt hsort (by omega) e2 hj)
  obtain ⟨loR, hiR, r1, r2, r3⟩ := wf.limits rc m2 (by omega)
  -- limits of the codes from rc on are not below the minimum of rc
  have hR : ∀ v ∈ values.drop (p + 1), ∃ hi, c.maxs[v]? = some (.num hi) ∧ loR ≤ hi := by
    intro v hv
    have hmem := hocc v (List.mem_of_mem_drop hv)
    have := hle2 v hv
    obtain ⟨lo, hi, f1, f2, f3⟩ := wf.limits v hmem (by omega)
    refine ⟨hi, f2, ?_⟩
    rcases Nat.lt_or_ge rc v with h | h
    · exact r3.trans ((le_of_lt (wf.order rc m2 v hmem (by omega) h _ _ r2 f1)).trans f3)
    · have : v = rc := by omega
      subst this
      rw [r2] at f2; cases f2; exact r3
  by_cases h0 : lc = 0
  · obtain ⟨m, hm, rfl⟩ := hA h0
    obtain ⟨t, htb, htm⟩ := hthr.below m (vecGet_eq_ok.mpr hm)
    obtain ⟨m', hm', hmin⟩ := wf.min1
    rw [hm] at hm'; cases hm'
    refine ⟨fun v hv => ?_, fun v hv => ?_⟩
    · have : v = 0 := by have := hle1 v hv; omega
      simp [codeLeft, this]
    · have hge := hle2 v hv
      obtain ⟨hi, f, _⟩ := hR v hv
      have hmi := hmin v (hocc v (List.mem_of_mem_drop hv)) (by omega) hi f
      have hv0 : v ≠ 0 := by omega
      simp [codeLeft, hv0, f, htb, htm.trans hmi]
  · obtain ⟨hi, lo, g1, g2, rfl⟩ := hB h0
    rw [r1] at g2; cases g2
    obtain ⟨t, hmid, ht1, ht2⟩ := hthr.mid codes wf.data lc m1 rc m2 hi loR (vecGet_eq_ok.mpr g1) (vecGet_eq_ok.mpr r1) (wf.order lc m1 rc m2 h0 hlr _ _ g1 r1)
    refine ⟨fun v hv => ?_, fun v hv => ?_⟩
    · by_cases hv0 : v = 0
      · simp [codeLeft, hv0]
      · have hmem := hocc v (List.mem_of_mem_take hv)
        obtain ⟨lo', hi', f1, f2, f3⟩ := wf.limits v hmem hv0
        have hle := hle1 v hv
        have : hi' ≤ hi := by
          rcases hle.lt_or_eq with h | h
          · obtain ⟨lo'', hi'', f1', f2', f3'⟩ := wf.limits lc m1 h0
            rw [g1] at f2'; cases f2'
            exact (le_of_lt (wf.order v hmem lc m1 hv0 h _ _ f2 f1')).trans f3'
          · subst h; rw [g1] at f2; cases f2; exact le_rfl
        simp [codeLeft, hv0, f2, hmid, lt_of_le_of_lt this ht1]
    · have hge := hle2 v hv
      obtain ⟨hi', f, hlo⟩ := hR v hv
      have hv0 : v ≠ 0 := by omega
      simp [codeLeft, hv0, f, hmid, ht2.trans hlo]

end Gbdt
