import Verif.Spec.Ieee
import Verif.Model.Text
import Mathlib.Data.Int.Log

/-!
# Model of the text of score files

`WriteScoreFile` (`evaluation.cc:40-55`) prints scores with `<<`, which is `%g` of C with six significant digits;
`predict_at_checkpoints` of the Python package (`gbdt/_forest.py:26-29`) reads them with `float`.
-/

set_option autoImplicit false

namespace Gbdt

/-- The six digits and the exponent of the first of them with which `%g` prints a positive number (`evaluation.cc:50`): the number is
rounded to six digits, ties to even; if that makes it the next power of ten, the exponent goes up. -/
def sixDigits (q : ℚ) : ℕ × ℤ :=
  let e := Int.log 10 q
  let x := q * 10 ^ (5 - e)
  let m := roundDiv x.num.natAbs x.den
  if m = 1000000 then (100000, e + 1) else (m, e)

/-- The six digits as characters (`evaluation.cc:50`). -/
def sixChars (m : ℕ) : Text :=
  [m / 100000 % 10, m / 10000 % 10, m / 1000 % 10, m / 100 % 10, m / 10 % 10, m % 10].map Nat.digitChar

/-- `%g` leaves out zeros at the end of the fraction (`evaluation.cc:50`). -/
def dropZeros (t : Text) : Text := (t.reverse.dropWhile (· == '0')).reverse

/-- `%g` leaves out the point if there is no fraction (`evaluation.cc:50`). -/
def withFraction (whole frac : Text) : Text :=
  if dropZeros frac = [] then whole else whole ++ '.' :: dropZeros frac

/-- The exponent has at least two digits (`evaluation.cc:50`). -/
def exponentDigits (n : ℕ) : Text := if n < 10 then ['0', Nat.digitChar n] else Nat.toDigits 10 n

/-- `out_file << score` (`evaluation.cc:50`) for a positive score: `%g` with six digits, which uses an exponent for numbers below
`0.0001` or from `1000000` on. -/
def showPositive (q : ℚ) : Text :=
  let m := (sixDigits q).1
  let x := (sixDigits q).2
  if -4 ≤ x ∧ x < 6 then
    if 0 ≤ x then withFraction ((sixChars m).take (x.toNat + 1)) ((sixChars m).drop (x.toNat + 1))
    else withFraction ['0'] (List.replicate (-x - 1).toNat '0' ++ sixChars m)
  else
    withFraction ((sixChars m).take 1) ((sixChars m).drop 1) ++ 'e' :: (if x < 0 then '-' else '+') :: exponentDigits x.natAbs

/-- `out_file << score` (`evaluation.cc:50`).  The signs of zero and of NaN are not modelled. -/
def showScore : F64 → Text
  | .nan => ['n', 'a', 'n']
  | .inf false => ['i', 'n', 'f']
  | .inf true => ['-', 'i', 'n', 'f']
  | .num q => if q = 0 then ['0'] else if q < 0 then '-' :: showPositive (-q) else showPositive q

/-- The loop of `WriteScoreFile` (`evaluation.cc:47-51`): a line feed before every score but the first.  The stream is assumed to
accept everything. -/
def scoreText : List F64 → Text
  | [] => []
  | [s] => showScore s
  | s :: ss => showScore s ++ '\n' :: scoreText ss

/-- A string of decimal digits as a number, part of `float` (`gbdt/_forest.py:28`). -/
def decimal (t : Text) : ℕ := t.foldl (fun n c => 10 * n + (c.toNat - 48)) 0

/-- The digits of an exponent, part of `float` (`gbdt/_forest.py:28`). -/
def readNatural (t : Text) : Option ℕ := if t ≠ [] ∧ t.all Char.isDigit then some (decimal t) else none

/-- The exponent, part of `float` (`gbdt/_forest.py:28`). -/
def readExponent : Text → Option ℤ
  | [] => some 0
  | c :: s =>
    if c = 'e' ∨ c = 'E' then
      match s with
      | [] => none
      | d :: ds =>
        if d = '-' then (readNatural ds).map (fun (n : ℕ) => -(n : ℤ))
        else if d = '+' then (readNatural ds).map (fun (n : ℕ) => (n : ℤ))
        else (readNatural (d :: ds)).map (fun (n : ℕ) => (n : ℤ))
    else none

/-- The fraction with its point, and what follows, part of `float` (`gbdt/_forest.py:28`). -/
def readFraction : Text → Text × Text
  | [] => ([], [])
  | c :: r => if c = '.' then (r.takeWhile Char.isDigit, r.dropWhile Char.isDigit) else ([], c :: r)

/-- The exact value of a decimal number without a sign, part of `float` (`gbdt/_forest.py:28`). -/
def readUnsigned (t : Text) : Option ℚ :=
  let whole := t.takeWhile Char.isDigit
  let f := readFraction (t.dropWhile Char.isDigit)
  if whole ++ f.1 = [] then none
  else (readExponent f.2).map (fun x => (decimal (whole ++ f.1) : ℚ) * 10 ^ (x - (f.1.length : ℤ)))

/-- `float(line)` without the sign (`gbdt/_forest.py:28`).  Python accepts more spellings (capitals, `infinity`, underscores), which `<<` never
writes. -/
def readMagnitude (near : ℚ → F64) (t : Text) : Option F64 :=
  if t = ['n', 'a', 'n'] then some .nan
  else if t = ['i', 'n', 'f'] then some (.inf false)
  else (readUnsigned t).map near

/-- `float(line)` (`gbdt/_forest.py:28`); `near` is the double that stands for a number. -/
def readFloat (near : ℚ → F64) (line : Text) : Option F64 :=
  match trim line with
  | [] => none
  | c :: s =>
    if c = '-' then (readMagnitude near s).map F64.neg
    else if c = '+' then readMagnitude near s
    else readMagnitude near (c :: s)

/-- What `float` makes of one printed score (`evaluation.cc:50`, `gbdt/_forest.py:28`): the function that `predictAtCheckpoints` has as a
parameter. -/
def printedDouble (s : F64) : F64 := (readFloat F64.round (showScore s)).getD .nan

/-- `[float(line) for line in open(...) if line.strip()]` (`gbdt/_forest.py:28-29`); `none` stands for the `ValueError` of `float`. -/
def readScores (near : ℚ → F64) (text : Text) : Option (List F64) :=
  ((getLines text).filter (fun l => !(trim l).isEmpty)).mapM (readFloat near)

end Gbdt
