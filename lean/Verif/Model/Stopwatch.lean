import Verif.Base
import Mathlib.Algebra.Order.Floor.Ring
import Mathlib.Algebra.Order.Floor.Semiring

/-!
# Model of `StopWatch::MSecsToFormattedString` (`stopwatch.cc:35-52`)

Arithmetic on doubles is exact.  Text is a list of characters.
-/

set_option autoImplicit false

namespace Gbdt

open Outcome

section
variable {K : Type} [Field K] [LinearOrder K] [FloorRing K]

/-- `int(x)` for a double `x` (`stopwatch.cc:37, 41`): rounds towards zero; undefined if the result does not fit. -/
def toInt32 (x : K) : Outcome Int :=
  let n : Int := if x < 0 then ⌈x⌉ else ⌊x⌋
  if -2147483648 ≤ n ∧ n ≤ 2147483647 then ok n else ub

/-- `{0}` of an `int`. -/
def showInt (n : Int) : List Char :=
  if n < 0 then '-' :: Nat.toDigits 10 n.natAbs else Nat.toDigits 10 n.natAbs

/-- `{0:.1f}` of a non-negative double (`stopwatch.cc:51`), rounded to `t` tenths. -/
def showTenths (t : Nat) : List Char := Nat.toDigits 10 (t / 10) ++ ['.', Nat.digitChar (t % 10)]

/-- `StopWatch::MSecsToFormattedString` (`stopwatch.cc:35-52`).  `tenths` is the rounding of `{0:.1f}`.  The product
`60 * mins` (`stopwatch.cc:42`) is one of `int`s and undefined if it does not fit. -/
def formatTime (tenths : K → Nat) (ms : K) : Outcome (List Char) :=
  if ms < 1000 then do
    let n ← toInt32 ms
    pure (showInt n ++ ['m', 's'])
  else do
    let seconds := ms / 1000
    let mins ← toInt32 (seconds / 60)
    let product ← (if 60 * mins ≤ 2147483647 then ok (60 * mins) else ub)
    let seconds1 := seconds - (product : K)
    let hrs := mins.tdiv 60
    let mins1 := mins - hrs * 60
    let days := hrs.tdiv 24
    let hrs1 := hrs - 24 * days
    pure ((if days = 0 then [] else showInt days ++ ['d']) ++ (if hrs1 = 0 then [] else showInt hrs1 ++ ['h']) ++
      (if mins1 = 0 then [] else showInt mins1 ++ ['m']) ++
      (if seconds1 < 1 / 20 then [] else showTenths (tenths seconds1) ++ ['s']))

end

end Gbdt
