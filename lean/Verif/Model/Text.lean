import Verif.Base

/-!
# Model of the string helpers

Text is a list of characters (`std::string` is a sequence of bytes; nothing here depends on the alphabet).
Lengths are assumed to fit `int`.
-/

set_option autoImplicit false

namespace Gbdt

/-- `std::string` contents. -/
abbrev Text := List Char

/-- `s.find(delim)`: the first position at which `delim` occurs (`utils.cc:73`). -/
def Text.find (delim : Text) : Text → Option Nat
  | [] => if delim = [] then some 0 else none
  | c :: s => if delim.isPrefixOf (c :: s) then some 0 else (Text.find delim s).map (· + 1)

/-- The loop of `SplitStringUsing` (`utils.cc:70-80`), on the part of the string from `start_pos` on.  `fuel` bounds
the number of iterations; `none` means that the loop has not ended within it. -/
def splitLoop (delim : Text) : Nat → Text → List Text → Option (List Text)
  | 0, _, _ => none
  | fuel + 1, rest, words =>
    match Text.find delim rest with
    | some p => splitLoop delim fuel (rest.drop (p + delim.length)) (words ++ [rest.take p])
    | none => some (words ++ [rest])

/-- `strings::split` (`utils.cc:64-87`).  A string of `n` characters is allowed `n + 1` iterations, which a
non-empty delimiter never exceeds. -/
def split (s delim : Text) : Option (List Text) :=
  if s = [] then some [] else splitLoop delim (s.length + 1) s []

/-- `JoinStrings` (`utils_inl.h:31-41`). -/
def joinLoop (delim : Text) : List Text → Bool → Text → Text
  | [], _, out => out
  | w :: ws, first, out => joinLoop delim ws false ((if first then out else out ++ delim) ++ w)

/-- `JoinStrings` (`utils_inl.h:31-41`). -/
def join (ws : List Text) (delim : Text) : Text := joinLoop delim ws true []

/-- The part of `ReadLine` after `getline` (`utils.cc:108`): trailing line-feed and carriage-return characters go. -/
def chomp (l : Text) : Text := (l.reverse.dropWhile (fun c => c == '\n' || c == '\r')).reverse

/-- The successive results of `std::getline` on a stream holding `s`, until `eof()` (`utils.cc:107`,
`tsv_block.cc:60`, `flatfiles_data_store.cc:89, 102`): the pieces between line-feeds, the last one possibly empty. -/
def getLines : Text → List Text
  | [] => [[]]
  | c :: s =>
    if c = '\n' then [] :: getLines s
    else match getLines s with
      | [] => [[c]]
      | l :: ls => (c :: l) :: ls

/-- The results of `ReadLine` until `eof()` (`utils.cc:105-110`). -/
def readLines (s : Text) : List Text := (getLines s).map chomp

/-- `isspace` in the C locale (`utils.h:36, 40`). -/
def isSpace (c : Char) : Bool :=
  c == ' ' || c == '\t' || c == '\n' || c == '\r' || c == Char.ofNat 11 || c == Char.ofNat 12

/-- `TrimWhiteSpace` (`utils.h:35-47`). -/
def trim (s : Text) : Text := ((s.dropWhile isSpace).reverse.dropWhile isSpace).reverse

/-- `strings::HasPrefix` (`utils.cc:95-97`): `std::mismatch` reads `prefix.size()` characters of `s` as long as they
agree; reading one character past the end gives the terminator (as in practice), past that is undefined. -/
def hasPrefix (s : Text) : Text → Outcome Bool
  | [] => .ok true
  | p :: ps => match s with
    | [] => if p = Char.ofNat 0 then (if ps = [] then .ok true else .ub) else .ok false
    | c :: cs => if c = p then hasPrefix cs ps else .ok false

end Gbdt
