import Verif.Model.ScoreText

/-!
# Model of the text of numbers in JSON (`json_utils.cc:48-67`)

protobuf writes finite doubles with 15 significant digits and, if these are not read as the same double, with 17 (`SimpleDtoa`); floats with 6 and then with
8 or 9, depending on its version (`SimpleFtoa`).  Both use `%g` of C.
-/

set_option autoImplicit false

namespace Gbdt

/-- The `n` digits and the exponent of the first of them with which `%.ng` prints a positive number (protobuf, called in `json_utils.cc:53-55`): as `sixDigits`. -/
def someDigits (n : ℕ) (q : ℚ) : ℕ × ℤ :=
  let e := Int.log 10 q
  let x := q * 10 ^ ((n : ℤ) - 1 - e)
  let m := roundDiv x.num.natAbs x.den
  if m = 10 ^ n then (10 ^ (n - 1), e + 1) else (m, e)

/-- `%.ng` of a positive number (protobuf, called in `json_utils.cc:53-55`). -/
def showDigits (n : ℕ) (q : ℚ) : Text :=
  let ds := Nat.toDigits 10 (someDigits n q).1
  let x := (someDigits n q).2
  if -4 ≤ x ∧ x < n then
    if 0 ≤ x then withFraction (ds.take (x.toNat + 1)) (ds.drop (x.toNat + 1))
    else withFraction ['0'] (List.replicate (-x - 1).toNat '0' ++ ds)
  else
    withFraction (ds.take 1) (ds.drop 1) ++ 'e' :: (if x < 0 then '-' else '+') :: exponentDigits x.natAbs

/-- `%.ng` (protobuf, called in `json_utils.cc:53-55`).  The sign of zero is not modelled. -/
def showNumber (n : ℕ) (q : ℚ) : Text := if q = 0 then ['0'] else if q < 0 then '-' :: showDigits n (-q) else showDigits n q

/-- The exact value of the text of a number (protobuf, called in `json_utils.cc:61-62`). -/
def readNumber : Text → Option ℚ
  | [] => none
  | c :: s => if c = '-' then (readUnsigned s).map (fun x => -x) else readUnsigned (c :: s)

/-- `SimpleDtoa` of protobuf (called in `json_utils.cc:53-55`): 15 digits, or 17. -/
def writeDouble (q : ℚ) : Text := if (readNumber (showNumber 15 q)).map F64.round = some (.num q) then showNumber 15 q else showNumber 17 q

/-- `SimpleFtoa` of protobuf (called in `json_utils.cc:53-55`): 6 digits, or `n`. -/
def writeSingle (n : ℕ) (q : ℚ) : Text :=
  if (readNumber (showNumber 6 q)).map (fun x => F64.round32 (.num x)) = some (.num q) then showNumber 6 q else showNumber n q

end Gbdt
