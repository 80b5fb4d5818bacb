import Verif.Model.Stopwatch
import Mathlib.Tactic.Linarith
import Mathlib.Tactic.Positivity
import Mathlib.Tactic.FieldSimp
import Mathlib.Tactic.NormNum
import Mathlib.Algebra.Order.Field.Rat
import Mathlib.Data.Rat.Floor

/-!
# C55 and C79: durations

Specification: `readParts` reads a text like `2d3h4m5.6s` as numbers with units, `lasts` adds them up.
-/

set_option autoImplicit false

namespace Gbdt

open Outcome

/-- Reads a digit and `s`, after `n` seconds and the point. -/
def readSeconds (n : Nat) : List Char → Option (List (Nat × Char))
  | [x, 's'] => if x.isDigit then some [(10 * n + (x.toNat - '0'.toNat), 's')] else none
  | _ => none

/-- Reads numbers followed by `d`, `h` or `m`; at the end possibly seconds with one digit after the point, which are read as
tenths.  `cur` is the number read so far. -/
def readParts (cur : Option Nat) : List Char → Option (List (Nat × Char))
  | [] => if cur = none then some [] else none
  | c :: rest =>
    if c.isDigit then readParts (some (10 * cur.getD 0 + (c.toNat - '0'.toNat))) rest
    else match cur with
      | none => none
      | some n =>
        if c = 'd' ∨ c = 'h' ∨ c = 'm' then (readParts none rest).map ((n, c) :: ·)
        else if c = '.' then readSeconds n rest
        else none

/-- A unit in tenths of a second. -/
def unitTenths : Char → Nat
  | 'd' => 864000
  | 'h' => 36000
  | 'm' => 600
  | _ => 1

/-- The duration in tenths of a second. -/
def lasts (parts : List (Nat × Char)) : Nat := (parts.map (fun p => p.1 * unitTenths p.2)).sum

theorem readParts_cons (cur : Option Nat) (c : Char) (rest : List Char) : readParts cur (c :: rest) =
    if c.isDigit then readParts (some (10 * cur.getD 0 + (c.toNat - '0'.toNat))) rest
    else match cur with
      | none => none
      | some n =>
        if c = 'd' ∨ c = 'h' ∨ c = 'm' then (readParts none rest).map ((n, c) :: ·)
        else if c = '.' then readSeconds n rest
        else none := by rw [readParts.eq_def]

theorem readParts_digits (n : Nat) (rest : List Char) : readParts none (Nat.toDigits 10 n ++ rest) = readParts (some n) rest := by
  have key : ∀ (l : List Char) (cur : Option Nat), (∀ c ∈ l, c.isDigit = true) → l ≠ [] →
      readParts cur (l ++ rest) = readParts (some (Nat.ofDigitChars 10 l (cur.getD 0))) rest := by
    intro l
    induction l with
    | nil => intro cur _ h; exact absurd rfl h
    | cons c l ih =>
      intro cur hd _
      rw [List.cons_append, readParts_cons, if_pos (hd c (by simp)), Nat.ofDigitChars_cons]
      cases l with
      | nil => simp
      | cons c' l => rw [ih _ (fun x hx => hd x (by simp [hx])) (by simp)]; rfl
  rw [key _ none (fun c hc => Nat.isDigit_of_mem_toDigits (by decide) (by decide) hc) (by simp)]
  simp

theorem readParts_unit (n : Nat) (u : Char) (hu : u = 'd' ∨ u = 'h' ∨ u = 'm') (rest : List Char) :
    readParts none (showInt n ++ [u] ++ rest) = (readParts none rest).map ((n, u) :: ·) := by
  have : showInt n = Nat.toDigits 10 n := by simp [showInt]
  rw [this, List.append_assoc, readParts_digits]
  rcases hu with rfl | rfl | rfl <;> simp [readParts_cons]

theorem readParts_tenths (t : Nat) : readParts none (showTenths t ++ ['s']) = some [(t, 's')] := by
  unfold showTenths
  rw [List.append_assoc, readParts_digits]
  have hd : (Nat.digitChar (t % 10)).isDigit = true := by
    have : ∀ k, k < 10 → (Nat.digitChar k).isDigit = true := by decide
    exact this _ (Nat.mod_lt _ (by decide))
  have hv : (Nat.digitChar (t % 10)).toNat - 48 = t % 10 := by
    have : ∀ k, k < 10 → (Nat.digitChar k).toNat - 48 = k := by decide
    exact this _ (Nat.mod_lt _ (by decide))
  show readParts (some (t / 10)) ['.', Nat.digitChar (t % 10), 's'] = _
  rw [readParts_cons, if_neg (by decide)]
  show (if Char.isDigit (Nat.digitChar (t % 10)) = true then
    some [(10 * (t / 10) + ((Nat.digitChar (t % 10)).toNat - 48), 's')] else none) = _
  rw [if_pos hd, hv]
  congr 3
  omega

section
variable {K : Type} [Field K] [LinearOrder K] [IsStrictOrderedRing K] [FloorRing K]

/-- Printing with one digit after the point rounds to a nearest number of tenths. -/
def RoundsTenths (tenths : K → Nat) : Prop := ∀ x, 0 ≤ x → |(tenths x : K) - 10 * x| ≤ 1 / 2

/-- The parts of a duration without those that are zero. -/
theorem showPart (n : Int) (k : Nat) (hk : n = k) (u : Char) (hu : u = 'd' ∨ u = 'h' ∨ u = 'm') (rest : List Char)
    {parts : List (Nat × Char)} (h : readParts none rest = some parts) :
    readParts none ((if n = 0 then [] else showInt n ++ [u]) ++ rest) =
      some ((if k = 0 then [] else [(k, u)]) ++ parts) := by
  subst hk
  by_cases hz : k = 0
  · simp [hz, h]
  · rw [if_neg (by omega), if_neg hz, readParts_unit k u hu, h]
    rfl

/-- **C55.** Durations from a second to 68 years: what is printed reads as days, hours (1 to 23), minutes (1 to 59) and
seconds (at most 60.0), some left out, in this order; the duration that it names is within 0.05 s of the true one, and so
are the seconds. -/
theorem C55_reads {tenths : K → Nat} (ht : RoundsTenths tenths) {ms : K} (h1 : 1000 ≤ ms) (h2 : ms < 2147483648000) :
    ∃ text parts, formatTime tenths ms = ok text ∧ readParts none text = some parts ∧
      |(lasts parts : K) / 10 - ms / 1000| ≤ 1 / 20 ∧ (parts.map (·.2)).Sublist ['d', 'h', 'm', 's'] ∧
      ∀ n, ((n, 'd') ∈ parts → 0 < n) ∧ ((n, 'h') ∈ parts → 0 < n ∧ n < 24) ∧ ((n, 'm') ∈ parts → 0 < n ∧ n < 60) ∧
        ((n, 's') ∈ parts → n ≤ 600 ∧ ∀ k : Nat, 60000 * (k : K) ≤ ms → ms < 60000 * (k : K) + 60000 →
          |(n : K) / 10 - (ms / 1000 - 60 * (k : K))| ≤ 1 / 20) := by
  have hs : 0 ≤ ms / 1000 / 60 := by positivity
  obtain ⟨n, hn⟩ : ∃ n : Nat, ⌊ms / 1000 / 60⌋ = n := ⟨_, (Int.toNat_of_nonneg (Int.floor_nonneg.mpr hs)).symm⟩
  have hlo : (n : K) ≤ ms / 1000 / 60 := by
    have := Int.floor_le (ms / 1000 / 60)
    rw [hn] at this
    exact_mod_cast this
  have hhi : ms / 1000 / 60 < n + 1 := by
    have := Int.lt_floor_add_one (ms / 1000 / 60)
    rw [hn] at this
    exact_mod_cast this
  have hbound : 60 * n ≤ 2147483647 := by
    have : ((60 * n : Nat) : K) < (2147483648 : Nat) := by
      push_cast
      linarith
    have := Nat.cast_lt.mp this
    omega
  have hint : toInt32 (ms / 1000 / 60) = ok (n : Int) := by
    unfold toInt32
    rw [if_neg (not_lt.mpr hs), hn]
    simp only
    rw [if_pos (by omega)]
  have hsec0 : 0 ≤ ms / 1000 - 60 * (n : K) := by linarith
  have hsec1 : ms / 1000 - 60 * (n : K) < 60 := by linarith
  -- the rounded seconds
  obtain ⟨secs, hread, hval, hsecs⟩ : ∃ secs : List (Nat × Char), readParts none (if ms / 1000 - 60 * (n : K) < 1 / 20 then []
      else showTenths (tenths (ms / 1000 - 60 * (n : K))) ++ ['s']) = some secs ∧
      |(lasts secs : K) / 10 - (ms / 1000 - 60 * (n : K))| ≤ 1 / 20 ∧ (secs = [] ∨ ∃ t, t ≤ 600 ∧ secs = [(t, 's')]) := by
    by_cases hc : ms / 1000 - 60 * (n : K) < 1 / 20
    · refine ⟨[], by rw [if_pos hc]; rfl, ?_, Or.inl rfl⟩
      rw [abs_le]
      constructor <;> simp [lasts] <;> linarith
    · have hx := ht _ hsec0
      rw [abs_le] at hx
      refine ⟨[(tenths (ms / 1000 - 60 * (n : K)), 's')], by rw [if_neg hc, readParts_tenths], ?_, Or.inr ⟨_, ?_, rfl⟩⟩
      · rw [abs_le]
        constructor <;> simp [lasts, unitTenths] <;> linarith
      · have : ((tenths (ms / 1000 - 60 * (n : K)) : Nat) : K) < (601 : Nat) := by
          push_cast
          linarith
        have := Nat.cast_lt.mp this
        omega
  have ediv : (n : Int).tdiv 60 = (n / 60 : Nat) := by
    rw [Int.tdiv_eq_ediv_of_nonneg (by omega)]
    omega
  have ediv2 : ((n / 60 : Nat) : Int).tdiv 24 = (n / 60 / 24 : Nat) := by
    rw [Int.tdiv_eq_ediv_of_nonneg (by omega)]
    omega
  refine ⟨(if ((n / 60 / 24 : Nat) : Int) = 0 then [] else showInt ((n / 60 / 24 : Nat) : Int) ++ ['d']) ++
    (if ((n / 60 : Nat) : Int) - 24 * ((n / 60 / 24 : Nat) : Int) = 0 then [] else
      showInt (((n / 60 : Nat) : Int) - 24 * ((n / 60 / 24 : Nat) : Int)) ++ ['h']) ++
    (if (n : Int) - ((n / 60 : Nat) : Int) * 60 = 0 then [] else showInt ((n : Int) - ((n / 60 : Nat) : Int) * 60) ++ ['m']) ++
    (if ms / 1000 - 60 * (n : K) < 1 / 20 then [] else showTenths (tenths (ms / 1000 - 60 * (n : K))) ++ ['s']),
    (if n / 60 / 24 = 0 then [] else [(n / 60 / 24, 'd')]) ++ ((if n / 60 % 24 = 0 then [] else
        [(n / 60 % 24, 'h')]) ++ ((if n % 60 = 0 then [] else [(n % 60, 'm')]) ++ secs)), ?_, ?_, ?_⟩
  · unfold formatTime
    rw [if_neg (not_lt.mpr h1)]
    have hcast : (((60 * (n : Int)) : Int) : K) = 60 * (n : K) := by push_cast; rfl
    simp only [hint, ok_bind, ediv, ediv2, if_pos (show 60 * (n : Int) ≤ 2147483647 by omega), pure_eq, hcast]
  · rw [List.append_assoc, List.append_assoc]
    exact showPart _ (n / 60 / 24) (by omega) 'd' (by simp) _ (showPart _ (n / 60 % 24) (by omega) 'h' (by simp) _
      (showPart _ (n % 60) (by omega) 'm' (by simp) _ hread))
  · have hl : (lasts ((if n / 60 / 24 = 0 then [] else [(n / 60 / 24, 'd')]) ++ ((if n / 60 % 24 = 0 then [] else
        [(n / 60 % 24, 'h')]) ++ ((if n % 60 = 0 then [] else [(n % 60, 'm')]) ++ secs)))) = 600 * n + lasts secs := by
      have hif : ∀ (k : Nat) (u : Char), lasts (if k = 0 then [] else [(k, u)]) = k * unitTenths u := by
        intro k u
        split
        · next h => rw [h]; simp [lasts]
        · simp [lasts]
      have happ : ∀ a b, lasts (a ++ b) = lasts a + lasts b := by
        intro a b
        simp [lasts]
      rw [happ, happ, happ, hif, hif, hif]
      simp only [unitTenths]
      omega
    refine ⟨?_, ?_, ?_⟩
    · rw [hl]
      rw [abs_le] at hval ⊢
      push_cast
      constructor <;> linarith
    · rcases hsecs with rfl | ⟨t, _, rfl⟩ <;> split <;> split <;> split <;> simp
    · intro k
      have e1 : n / 60 % 24 < 24 := Nat.mod_lt _ (by decide)
      have e2 : n % 60 < 60 := Nat.mod_lt _ (by decide)
      refine ⟨?_, ?_, ?_, ?_⟩
      iterate 3 (rcases hsecs with rfl | ⟨t, ht6, rfl⟩ <;> split <;> split <;> split <;> simp <;> omega)
      intro hk
      have hk : (k, 's') ∈ secs := by
        revert hk
        split <;> split <;> split <;> simp
      rcases hsecs with rfl | ⟨t, ht6, rfl⟩
      · cases hk
      · simp only [List.mem_singleton, Prod.mk.injEq, and_true] at hk
        subst hk
        refine ⟨ht6, fun j hj hj' => ?_⟩
        have hnj : n = j := by
          have a1 : (n : K) < (j + 1 : Nat) := by push_cast; linarith
          have a2 : (j : K) < (n + 1 : Nat) := by push_cast; linarith
          have b1 := Nat.cast_lt.mp a1
          have b2 := Nat.cast_lt.mp a2
          omega
        subst hnj
        simpa [lasts, unitTenths] using hval

/-- **C55.** Durations of less than a second are printed as whole milliseconds, rounded down. -/
theorem C55_milliseconds (tenths : K → Nat) {ms : K} (h0 : 0 ≤ ms) (h1 : ms < 1000) :
    ∃ n : Nat, (n : K) ≤ ms ∧ ms < n + 1 ∧ formatTime tenths ms = ok (Nat.toDigits 10 n ++ ['m', 's']) := by
  obtain ⟨n, hn⟩ : ∃ n : Nat, ⌊ms⌋ = n := ⟨_, (Int.toNat_of_nonneg (Int.floor_nonneg.mpr h0)).symm⟩
  have hlo : (n : K) ≤ ms := by
    have := Int.floor_le ms
    rw [hn] at this
    exact_mod_cast this
  have hhi : ms < n + 1 := by
    have := Int.lt_floor_add_one ms
    rw [hn] at this
    exact_mod_cast this
  refine ⟨n, hlo, hhi, ?_⟩
  have hb : n < 1000 := by
    have : (n : K) < (1000 : Nat) := by
      push_cast
      linarith
    exact Nat.cast_lt.mp this
  unfold formatTime toInt32
  rw [if_pos h1]
  simp only [if_neg (not_lt.mpr h0), hn]
  rw [if_pos (by omega), ok_bind, pure_eq]
  simp [showInt]

/-- **C79, full statement.** The seconds shown are less than 60. -/
def C79_full (tenths : K → Nat) : Prop :=
  ∀ (ms : K) (text : List Char) (parts : List (Nat × Char)), 1000 ≤ ms → formatTime tenths ms = ok text →
    readParts none text = some parts → ∀ n, (n, 's') ∈ parts → n < 600

/-- **C79 (partial).** The seconds shown are less than 60 if the seconds past the last whole minute are less than 59.95.
Missing: the last 50 milliseconds of every minute, where it is false (`C79_refuted`). -/
theorem C79_partial {tenths : K → Nat} (ht : RoundsTenths tenths) {ms : K} (h1 : 1000 ≤ ms) (h2 : ms < 2147483648000)
    {k : Nat} (hk : 60000 * (k : K) ≤ ms) (hk' : ms < 60000 * (k : K) + 59950) :
    ∃ text parts, formatTime tenths ms = ok text ∧ readParts none text = some parts ∧
      ∀ n, (n, 's') ∈ parts → n < 600 := by
  obtain ⟨text, parts, e1, e2, e3, e4, e5⟩ := C55_reads ht h1 h2
  refine ⟨text, parts, e1, e2, fun n hn => ?_⟩
  have := ((e5 n).2.2.2 hn).2 k hk (by linarith)
  rw [abs_le] at this
  have hx : (n : K) < (600 : Nat) := by
    push_cast
    linarith
  exact Nat.cast_lt.mp hx

end

/-- Rounding to tenths, half up. -/
def ratTenths (x : ℚ) : Nat := (10 * x + 1 / 2).floor.toNat

theorem ratTenths_rounds : RoundsTenths ratTenths := by
  intro x hx
  have h1 : (0 : Int) ≤ (10 * x + 1 / 2).floor := by
    rw [Rat.le_floor_iff]
    push_cast
    linarith
  have h2 : (((10 * x + 1 / 2).floor.toNat : Nat) : ℚ) = (((10 * x + 1 / 2).floor : Int) : ℚ) := by
    have := Int.toNat_of_nonneg h1
    exact_mod_cast congrArg (Int.cast (R := ℚ)) this
  have h3 : (((10 * x + 1 / 2).floor : Int) : ℚ) ≤ 10 * x + 1 / 2 := Int.floor_le (10 * x + 1 / 2)
  have h4 : 10 * x + 1 / 2 < (((10 * x + 1 / 2).floor : Int) : ℚ) + 1 := Int.lt_floor_add_one (10 * x + 1 / 2)
  unfold ratTenths
  rw [h2, abs_le]
  constructor <;> linarith

/-- **C79 is false.** 59.97 seconds are printed as `60.0s`. -/
theorem C79_refuted : formatTime ratTenths (59970 : ℚ) = ok "60.0s".toList ∧ ¬ C79_full ratTenths := by
  have h : formatTime ratTenths (59970 : ℚ) = ok "60.0s".toList := by decide +kernel
  refine ⟨h, fun hf => ?_⟩
  have := hf 59970 _ [(600, 's')] (by decide +kernel) h (by decide +kernel) 600 (by simp)
  omega

example : formatTime ratTenths (604800021 : ℚ) = ok "7d".toList ∧ formatTime ratTenths (6003432 : ℚ) = ok "1h40m3.4s".toList ∧
    formatTime ratTenths (123 : ℚ) = ok "123ms".toList ∧
    readParts none "1h40m3.4s".toList = some [(1, 'h'), (40, 'm'), (34, 's')] := by decide +kernel

end Gbdt
