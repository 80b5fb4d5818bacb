import Verif.Model.Json
import Verif.Model.Text

/-!
# A reader of JSON text (RFC 8259)

Used as a specification: it says what a text means, whoever wrote it.  An object is the list of its entries, as in `Model/Json.lean`.
-/

set_option autoImplicit false

namespace Gbdt

/-- White space (RFC 8259, section 2). -/
def jsonSpace (c : Char) : Bool := c = ' ' || c = '\t' || c = '\n' || c = '\r'

/-- Text after white space. -/
def skipSpace (t : Text) : Text := t.dropWhile jsonSpace

/-- The value of a hexadecimal digit. -/
def hexValue (c : Char) : Option Nat :=
  if '0' ≤ c ∧ c ≤ '9' then some (c.toNat - 48)
  else if 'a' ≤ c ∧ c ≤ 'f' then some (c.toNat - 87)
  else if 'A' ≤ c ∧ c ≤ 'F' then some (c.toNat - 55)
  else none

/-- Four hexadecimal digits. -/
def readHex : Text → Option (Nat × Text)
  | a :: b :: c :: d :: r => do
    let w ← hexValue a
    let x ← hexValue b
    let y ← hexValue c
    let z ← hexValue d
    some (4096 * w + 256 * x + 16 * y + z, r)
  | _ => none

/-- The second half of a surrogate pair, after the first half `hi`. -/
def readLowHalf (hi : Nat) : Text → Option (Char × Text)
  | '\\' :: 'u' :: r => match readHex r with
    | none => none
    | some (lo, r1) => if 0xDC00 ≤ lo ∧ lo < 0xE000 then some (Char.ofNat (0x10000 + (hi - 0xD800) * 0x400 + (lo - 0xDC00)), r1) else none
  | _ => none

/-- The character whose code follows; a character outside the basic plane is given by two halves (RFC 8259, section 7). -/
def readCode (r : Text) : Option (Char × Text) :=
  match readHex r with
  | none => none
  | some (n, r1) =>
    if 0xD800 ≤ n ∧ n < 0xDC00 then readLowHalf n r1
    else if 0xDC00 ≤ n ∧ n < 0xE000 then none
    else some (Char.ofNat n, r1)

/-- What follows a backslash (RFC 8259, section 7). -/
def readEscape : Text → Option (Char × Text)
  | [] => none
  | c :: r =>
    if c = '"' ∨ c = '\\' ∨ c = '/' then some (c, r)
    else if c = 'b' then some (Char.ofNat 8, r)
    else if c = 'f' then some (Char.ofNat 12, r)
    else if c = 'n' then some ('\n', r)
    else if c = 'r' then some ('\r', r)
    else if c = 't' then some ('\t', r)
    else if c = 'u' then readCode r
    else none

/-- A string, after its first quotation mark; the number bounds its characters. -/
def readStringBody : Nat → Text → Option (Text × Text)
  | 0, _ => none
  | _ + 1, [] => none
  | n + 1, c :: r =>
    if c = '"' then some ([], r)
    else if c = '\\' then do
      let (x, r1) ← readEscape r
      let (s, r2) ← readStringBody n r1
      some (x :: s, r2)
    else if c.toNat < 32 then none
    else do
      let (s, r1) ← readStringBody n r
      some (c :: s, r1)

/-- The characters of numbers. -/
def jsonNumChar (c : Char) : Bool := c.isDigit || c = '-' || c = '+' || c = '.' || c = 'e' || c = 'E'

mutual
/-- A value; the number bounds the nesting and the number of elements. -/
def readValue {N : Type} (readNum : Text → Option N) : Nat → Text → Option (Json N × Text)
  | 0, _ => none
  | n + 1, t => match skipSpace t with
    | [] => none
    | c :: r =>
      if c = '[' then (readElements readNum n true r).map (fun p => (.arr p.1, p.2))
      else if c = '{' then (readEntries readNum n true r).map (fun p => (.obj p.1, p.2))
      else if c = '"' then (readStringBody (r.length + 1) r).map (fun p => (.str (String.ofList p.1), p.2))
      else if c = 'n' then (if r.take 3 = ['u', 'l', 'l'] then some (.null, r.drop 3) else none)
      else if c = 't' then (if r.take 3 = ['r', 'u', 'e'] then some (.bool true, r.drop 3) else none)
      else if c = 'f' then (if r.take 4 = ['a', 'l', 's', 'e'] then some (.bool false, r.drop 4) else none)
      else if jsonNumChar c then (readNum ((c :: r).takeWhile jsonNumChar)).map (fun x => (.num x, (c :: r).dropWhile jsonNumChar))
      else none
/-- The elements of an array up to the bracket that ends it; `first` if none has been read. -/
def readElements {N : Type} (readNum : Text → Option N) : Nat → Bool → Text → Option (JsonList N × Text)
  | 0, _, _ => none
  | n + 1, first, t => match skipSpace t with
    | [] => none
    | c :: r =>
      if c = ']' then some (.nil, r)
      else do
        let t1 ← if first then some (c :: r) else if c = ',' then some r else none
        let (x, r1) ← readValue readNum n t1
        let (l, r2) ← readElements readNum n false r1
        some (.cons x l, r2)
/-- The entries of an object up to the brace that ends it. -/
def readEntries {N : Type} (readNum : Text → Option N) : Nat → Bool → Text → Option (JsonFields N × Text)
  | 0, _, _ => none
  | n + 1, first, t => match skipSpace t with
    | [] => none
    | c :: r =>
      if c = '}' then some (.nil, r)
      else do
        let t1 ← if first then some (c :: r) else if c = ',' then some r else none
        match skipSpace t1 with
        | '"' :: r1 => do
          let (k, r2) ← readStringBody (r1.length + 1) r1
          match skipSpace r2 with
          | ':' :: r3 => do
            let (x, r4) ← readValue readNum n r3
            let (l, r5) ← readEntries readNum n false r4
            some (.cons (String.ofList k) x l, r5)
          | _ => none
        | _ => none
end

/-- The value of a text. -/
def readJson {N : Type} (readNum : Text → Option N) (t : Text) : Option (Json N) :=
  match readValue readNum (t.length + 1) t with
  | some (j, r) => if skipSpace r = [] then some j else none
  | none => none

end Gbdt
