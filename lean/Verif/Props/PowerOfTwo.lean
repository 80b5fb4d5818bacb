import Verif.Lemmas.PowerOfTwo
import Verif.Props.Scaling

/-!
# C196: multiplying features by powers of two, in binary32
-/

set_option autoImplicit false

namespace Gbdt

open Outcome

attribute [local instance] binary32Thr

/-- A float multiplied by `2 ^ k`, without rounding; infinities stay. -/
def F32.times (k : ℤ) : F32 → F32
  | none => none
  | some none => some none
  | some (some q) => F32.fin (2 ^ k * q)

/-- A float that is not so large or so small that multiplying by `2 ^ k` or adding two of them needs care. -/
def TimesEasy (k : ℤ) (v : F32) : Prop := ∃ q : ℚ, v = F32.fin q ∧ EasyFloat q ∧ EasyFloat (2 ^ k * q)

/-- A finite float that is finite, and not `FLT_MAX`, after multiplying by `2 ^ k`, too. -/
def TimesFinite (k : ℤ) (v : F32) : Prop := ∃ q : ℚ, v = F32.fin q ∧ q < 2 ^ 128 - 2 ^ 104 ∧ 2 ^ k * q < 2 ^ 128 - 2 ^ 104

/-- Finite numbers, not below all numbers of training if one is missing in training. -/
def FloatRange (raw : List (Fl F32)) : Set F32 := {v | (∃ q, v = F32.fin q) ∧ (Fl.nan ∈ raw → ∃ a, Fl.num a ∈ raw ∧ a ≤ v)}

theorem F32.times_fin (k : ℤ) (q : ℚ) : F32.times k (F32.fin q) = F32.fin (2 ^ k * q) := rfl

theorem times_lt (k : ℤ) {a b : F32} (ha : ∃ q, a = F32.fin q) (hb : ∃ q, b = F32.fin q) : F32.times k a < F32.times k b ↔ a < b := by
  obtain ⟨p, rfl⟩ := ha
  obtain ⟨q, rfl⟩ := hb
  rw [F32.times_fin, F32.times_fin, F32.fin_lt, F32.fin_lt, mul_lt_mul_iff_right₀ (twos k)]

theorem EasyFloat.small {q : ℚ} (h : EasyFloat q) : q < 2 ^ 128 - 2 ^ 104 := by
  have h1 := (abs_lt.mp h.2).2
  have : (2 : ℚ) ^ 127 ≤ 2 ^ 128 - 2 ^ 104 := by norm_num
  linarith

theorem EasyFloat.abs_small {q : ℚ} (h : EasyFloat q) : |q| ≤ 2 ^ 128 - 2 ^ 104 := by
  have h1 := h.2
  have : (2 : ℚ) ^ 127 ≤ 2 ^ 128 - 2 ^ 104 := by norm_num
  linarith

/-- In binary32, a power of two may be used. -/
theorem scales_times (k : ℤ) {raw : List (Fl F32)} (hv : ∀ v, Fl.num v ∈ raw → TimesEasy k v) :
    Scales F32.max (F32.times k) (FloatRange raw) raw where
  incr a ha b hb h := (times_lt k ha.1 hb.1).mpr h
  values v h := by
    obtain ⟨q, rfl, h1, h2⟩ := hv v h
    exact ⟨⟨⟨q, rfl⟩, fun _ => ⟨_, h, le_refl _⟩⟩, F32.fin_lt.mpr h1.small, F32.fin_lt.mpr h2.small⟩
  mid a b ha hb _ v hv' := by
    obtain ⟨p, rfl, p1, p2⟩ := hv a ha
    obtain ⟨q, rfl, q1, q2⟩ := hv b hb
    obtain ⟨t, h1, h2⟩ := mid_scaled p1 q1 p2 q2
    show Fl.lt (.num v) (binary32Thr.mid _ _) = Fl.lt (.num (F32.times k v)) (binary32Thr.mid (F32.times k _) (F32.times k _))
    rw [h1, F32.times_fin, F32.times_fin, h2]
    show decide (v < F32.fin t) = decide (F32.times k v < F32.fin (2 ^ k * t))
    refine decide_eq_decide.mpr ?_
    rw [← F32.times_fin, times_lt k hv'.1 ⟨t, rfl⟩]
  low hn a ha hmin v hv' := by
    obtain ⟨p, rfl, p1, p2⟩ := hv a ha
    obtain ⟨x, hx, hxv⟩ := hv'.2 hn
    obtain ⟨q, rfl⟩ := hv'.1
    have hle : p ≤ q := F32.fin_le.mp ((hmin x hx).trans hxv)
    obtain ⟨m, e1, e2⟩ := below_not_larger p1.binary p1.abs_small
    obtain ⟨m', e1', e2'⟩ := below_not_larger p2.binary p2.abs_small
    show Fl.lt (.num (F32.fin q)) (binary32Thr.below _) = Fl.lt (.num (F32.times k (F32.fin q))) (binary32Thr.below (F32.times k _))
    rw [e1, F32.times_fin, F32.times_fin, e1']
    show decide (F32.fin q < m) = decide (F32.fin (2 ^ k * q) < m')
    rw [decide_eq_false (not_lt.mpr (e2.trans (F32.fin_le.mpr hle))),
      decide_eq_false (not_lt.mpr (e2'.trans (F32.fin_le.mpr (mul_le_mul_of_nonneg_left hle (twos k).le))))]

/-- **C196.** With floats as they are in the computer (rounding, overflow, thresholds computed in `float` and `double`) and any arithmetic of scores:
if every numeric feature is multiplied by a power of two of its own, in training and in the data to predict for, all predictions stay as they are, for
every loss, sampling and configuration; exceptions too.  The numbers in training must be 0 or from `2 ^ -125` to below `2 ^ 127` in magnitude before and after, the
numbers to predict for finite; where numbers are missing in training, none to predict for may be below all of training (`C117_refuted`). -/
theorem C196_power_of_two {D : Type} [Dbl D] [FpOrder D] (mc : Machine D F32) (k : String → ℤ)
    {d e : Dict F32} {n m : Nat} (hd : d.Rows n) (hn : n < 2 ^ 31) (he : e.Rows m) (hm : m < 2 ^ 31) {nb nb' : Nat} (hnb : nb < 2 ^ 32)
    (hnb' : nb' < 2 ^ 32) (hv : ∀ p ∈ d.bucketized, ∀ v, Fl.num v ∈ p.2 → TimesEasy (k p.1) v)
    (hv' : ∀ p ∈ e.bucketized, ∀ v, Fl.num v ∈ p.2 → TimesFinite (k p.1) v)
    (hlow : ∀ p ∈ d.bucketized, Fl.nan ∈ p.2 → ∀ q ∈ e.bucketized, q.1 = p.1 → ∀ v, Fl.num v ∈ q.2 → ∃ a, Fl.num a ∈ p.2 ∧ a ≤ v)
    {place1 place2 place3 place4 : DataStore F32 → DataStore F32} (hp1 : ∀ l, (place1 l).Perm l) (hp2 : ∀ l, (place2 l).Perm l)
    (hp3 : ∀ l, (place3 l).Perm l) (hp4 : ∀ l, (place4 l).Perm l) {t t' s s' : DataStore F32}
    (ht : d.store F32.max nb place1 = ok (.ok (some t)))
    (ht' : (d.scaled (fun name => F32.times (k name)) (fun _ => id)).store F32.max nb place2 = ok (.ok (some t')))
    (hs1 : e.store F32.max nb' place3 = ok (.ok (some s)))
    (hs2 : (e.scaled (fun name => F32.times (k name)) (fun _ => id)).store F32.max nb' place4 = ok (.ok (some s')))
    (hnames : t'.map Prod.fst = t.map Prod.fst) (c : Config D) (y w : List (Fl F32)) (features : List String) (seed nt nt' : Int) :
    (pyTrain mc (some t) c y features w none seed nt).andThen (fun f => pyPredict (some s) f nt') =
      (pyTrain mc (some t') c y features w none seed nt).andThen (fun f => pyPredict (some s') f nt') := by
  have hone : ∀ p ∈ d.bucketized, ∀ q ∈ d.bucketized, q.1 = p.1 → q = p := fun p hp q hq e =>
    List.inj_on_of_nodup_map (List.nodup_append.mp hd.names).1 hq hp e
  refine C115_predictions mc (V := fun name => {v | (∃ q, v = F32.fin q) ∧ ∀ p ∈ d.bucketized, p.1 = name → v ∈ FloatRange p.2}) (ψ := fun _ => id)
    (fun _ => ⟨fun _ _ h => h, rfl⟩) ?_ hd hn he hm hnb hnb' ?_ ?_ hp1 hp2 hp3 hp4 ht ht' hs1 hs2 hnames c y w features seed nt nt'
  · intro name a ha b hb h
    exact (times_lt _ ha.1 hb.1).mpr h
  · intro p hp
    have hV : {v | (∃ q, v = F32.fin q) ∧ ∀ q ∈ d.bucketized, q.1 = p.1 → v ∈ FloatRange q.2} = FloatRange p.2 := by
      refine Set.ext (fun v => ⟨fun h => h.2 p hp rfl, fun h => ⟨h.1, fun q hq e => ?_⟩⟩)
      rw [hone p hp q hq e]
      exact h
    rw [hV]
    exact scales_times _ (hv p hp)
  · intro q hq v hm'
    obtain ⟨x, rfl, h1, h2⟩ := hv' q hq v hm'
    exact ⟨⟨⟨x, rfl⟩, fun p hp e => ⟨⟨x, rfl⟩, fun hn => hlow p hp hn q hq e.symm _ hm'⟩⟩, F32.fin_lt.mpr h1, F32.fin_lt.mpr h2⟩

/-! ## An example -/

/-- Data with floats: one third (rounded), a missing number, a large one. -/
def floatDict : Dict F32 where
  bucketized := [("size", [.num (F32.fin (11184811 / 2 ^ 25)), .nan, .num (F32.fin 7), .num (F32.fin (2 ^ 100)), .num (F32.fin 7)])]
  strs := [("color", ["b", "a", "b", "c", "a"])]
  raw := [("y", [.num (F32.fin 1), .num (F32.fin 2), .num (F32.fin 6), .num (F32.fin 3), .num (F32.fin 8)])]

/-- Other data with floats. -/
def otherFloats : Dict F32 where
  bucketized := [("size", [.num (F32.fin 6), .nan, .num (F32.fin (2 ^ 110))])]
  strs := [("color", ["c", "zz", "b"])]

/-- The store that is made. -/
def Dict.floatStore (d : Dict F32) : DataStore F32 := match d.store F32.max 6 id with | .ok (.ok (some t)) => t | _ => []

theorem Dict.floatStore_eq {d : Dict F32} (h : (match d.store F32.max 6 id with | .ok (.ok (some _)) => true | _ => false) = true) :
    d.store F32.max 6 id = ok (.ok (some d.floatStore)) := by
  unfold Dict.floatStore
  revert h
  generalize d.store F32.max 6 id = r
  intro h
  match r, h with
  | .ok (.ok (some _)), _ => rfl

/-- Sizes divided by 1024, for every arithmetic, configuration and seed. -/
example {D : Type} [Dbl D] [FpOrder D] (mc : Machine D F32) (c : Config D) (seed : Int) :
    (pyTrain mc (some floatDict.floatStore) c [] ["size", "color"] [] none seed 2).andThen (fun f => pyPredict (some otherFloats.floatStore) f 1) =
      (pyTrain mc (some (floatDict.scaled (fun _ => F32.times (-10)) (fun _ => id)).floatStore) c [] ["size", "color"] [] none seed 2).andThen
        (fun f => pyPredict (some (otherFloats.scaled (fun _ => F32.times (-10)) (fun _ => id)).floatStore) f 1) := by
  refine C196_power_of_two mc (fun _ => -10) (n := 5) (m := 3)
    ⟨by decide, by decide, by decide, by decide⟩ (by decide) ⟨by decide, by decide, by decide, by decide⟩ (by decide)
    (nb := 6) (nb' := 6) (by decide) (by decide) ?_ ?_ ?_ (place1 := id) (place2 := id)
    (place3 := id) (place4 := id) (fun _ => List.Perm.refl _) (fun _ => List.Perm.refl _) (fun _ => List.Perm.refl _)
    (fun _ => List.Perm.refl _) (Dict.floatStore_eq (by decide +kernel)) (Dict.floatStore_eq (by decide +kernel))
    (Dict.floatStore_eq (by decide +kernel)) (Dict.floatStore_eq (by decide +kernel)) (by decide +kernel) _ _ _ _ _ _ _
  · intro p hp v hv
    rw [List.mem_singleton.mp hp] at hv
    simp only [List.mem_cons, List.not_mem_nil, or_false, Fl.num.injEq, reduceCtorEq, false_or] at hv
    rcases hv with rfl | rfl | rfl | rfl
    · exact ⟨_, rfl, ⟨⟨11184811, -25, by norm_num, by norm_num, by norm_num⟩, by norm_num⟩, ⟨11184811, -35, by norm_num, by norm_num, by norm_num⟩, by norm_num⟩
    · exact ⟨_, rfl, ⟨⟨7, 0, by norm_num, by norm_num, by norm_num⟩, by norm_num⟩, ⟨7, -10, by norm_num, by norm_num, by norm_num⟩, by norm_num⟩
    · exact ⟨_, rfl, ⟨⟨1, 100, by norm_num, by norm_num, by norm_num⟩, by norm_num⟩, ⟨1, 90, by norm_num, by norm_num, by norm_num⟩, by norm_num⟩
    · exact ⟨_, rfl, ⟨⟨7, 0, by norm_num, by norm_num, by norm_num⟩, by norm_num⟩, ⟨7, -10, by norm_num, by norm_num, by norm_num⟩, by norm_num⟩
  · intro p hp v hv
    rw [List.mem_singleton.mp hp] at hv
    simp only [List.mem_cons, List.not_mem_nil, or_false, Fl.num.injEq, reduceCtorEq, false_or] at hv
    rcases hv with rfl | rfl
    · exact ⟨_, rfl, by norm_num, by norm_num⟩
    · exact ⟨_, rfl, by norm_num, by norm_num⟩
  · intro p hp _ q hq _ v hv
    rw [List.mem_singleton.mp hp]
    rw [List.mem_singleton.mp hq] at hv
    simp only [List.mem_cons, List.not_mem_nil, or_false, Fl.num.injEq, reduceCtorEq, false_or] at hv
    refine ⟨F32.fin (11184811 / 2 ^ 25), by simp, ?_⟩
    rcases hv with rfl | rfl
    · exact F32.fin_le.mpr (by norm_num)
    · exact F32.fin_le.mpr (by norm_num)

end Gbdt
