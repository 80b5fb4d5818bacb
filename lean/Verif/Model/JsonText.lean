import Verif.Model.Json
import Verif.Model.Text

/-!
# Model of the text of JSON that is written (`json_utils.cc:48-56`)

`BinaryToJsonString` of protobuf writes without white space (`JsonObjectWriter` with an empty indent string) and escapes strings by `JsonEscaping`.
-/

set_option autoImplicit false

namespace Gbdt

/-- Four hexadecimal digits of a number below 65536 (protobuf's `JsonEscaping`, called in `json_utils.cc:53-55`). -/
def hexFour (n : Nat) : Text :=
  [Nat.digitChar (n / 4096), Nat.digitChar (n / 256 % 16), Nat.digitChar (n / 16 % 16), Nat.digitChar (n % 16)]

/-- `\u` and the code of the character; two halves for a character outside the basic plane (protobuf's `JsonEscaping`, called in `json_utils.cc:53-55`). -/
def unicodeEscape (c : Char) : Text :=
  if c.toNat < 0x10000 then '\\' :: 'u' :: hexFour c.toNat
  else '\\' :: 'u' :: (hexFour (0xD800 + (c.toNat - 0x10000) / 0x400) ++ ('\\' :: 'u' :: hexFour (0xDC00 + (c.toNat - 0x10000) % 0x400)))

/-- A character in a string (protobuf's `JsonEscaping`, called in `json_utils.cc:53-55`).  Simplified: which characters beyond ASCII are written by their
code (invisible ones are) is the parameter `hidden`. -/
def jsonChar (hidden : Char → Bool) (c : Char) : Text :=
  if c = '"' then ['\\', '"']
  else if c = '\\' then ['\\', '\\']
  else if c = Char.ofNat 8 then ['\\', 'b']
  else if c = Char.ofNat 12 then ['\\', 'f']
  else if c = '\n' then ['\\', 'n']
  else if c = '\r' then ['\\', 'r']
  else if c = '\t' then ['\\', 't']
  else if c.toNat < 32 ∨ c = '<' ∨ c = '>' ∨ c.toNat = 127 ∨ hidden c = true then unicodeEscape c
  else [c]

/-- A string or a key with its quotation marks (`json_utils.cc:53-55`). -/
def jsonString (hidden : Char → Bool) (s : String) : Text := '"' :: (s.toList.flatMap (jsonChar hidden) ++ ['"'])

mutual
/-- A value (`json_utils.cc:53-55`); `showNum` is how numbers are written. -/
def Json.text {N : Type} (hidden : Char → Bool) (showNum : N → Text) : Json N → Text
  | .null => ['n', 'u', 'l', 'l']
  | .bool true => ['t', 'r', 'u', 'e']
  | .bool false => ['f', 'a', 'l', 's', 'e']
  | .num x => showNum x
  | .str s => jsonString hidden s
  | .arr l => '[' :: l.text hidden showNum true
  | .obj l => '{' :: l.text hidden showNum true
/-- The elements of an array and the bracket that ends it (`json_utils.cc:53-55`); `first` if there is none before. -/
def JsonList.text {N : Type} (hidden : Char → Bool) (showNum : N → Text) : JsonList N → Bool → Text
  | .nil, _ => [']']
  | .cons x l, first => (if first then [] else [',']) ++ (x.text hidden showNum ++ l.text hidden showNum false)
/-- The entries of an object and the brace that ends it (`json_utils.cc:53-55`). -/
def JsonFields.text {N : Type} (hidden : Char → Bool) (showNum : N → Text) : JsonFields N → Bool → Text
  | .nil, _ => ['}']
  | .cons k x l, first =>
    (if first then [] else [',']) ++ (jsonString hidden k ++ (':' :: (x.text hidden showNum ++ l.text hidden showNum false)))
end

end Gbdt
