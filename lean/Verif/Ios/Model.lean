import Verif.Str.Model

/-!
# Model of `operator>>(std::istream&, String&)` and `getline(std::istream&, String&)`

The stream: the bytes not yet read, and its state bits.  `std::istream` is modelled as the C++ standard
describes it ([istream.formatted], [istream.unformatted]), for a stream buffer that takes back the byte just
read.  Appending to the String is modelled by its value (the text fits into memory).  Bytes from 128 on are
not whitespace (C locale).
-/

namespace Bdlib.Ios
open Bdlib Bdlib.Str

structure IStream where
  unread : Bytes
  eof : Bool
  fail : Bool
  deriving DecidableEq

/-- Whitespace of the C locale. -/
def isspace (c : UInt8) : Bool := c = 32 ∨ (9 ≤ c ∧ c ≤ 13)

/-- `is.get(ch)`: with `ch` as before if nothing can be read. -/
def get (is : IStream) (ch : UInt8) : IStream × UInt8 :=
  if is.eof ∨ is.fail then ({ is with fail := true }, ch)
  else match is.unread with
    | [] => ({ is with eof := true, fail := true }, ch)
    | c :: r => ({ is with unread := r }, c)

/-- `is.putback(ch)`. -/
def putback (is : IStream) (ch : UInt8) : IStream :=
  if is.fail then { is with eof := false, fail := true } else { is with eof := false, unread := ch :: is.unread }

/-- `is >> ch`: skips whitespace first. -/
def getChar (is : IStream) (ch : UInt8) : IStream × UInt8 :=
  if is.eof ∨ is.fail then ({ is with fail := true }, ch)
  else match is.unread.dropWhile isspace with
    | [] => ({ unread := [], eof := true, fail := true }, ch)
    | c :: r => ({ is with unread := r }, c)

/-- The loop of `operator>>` (`String.cpp` 161-165).  `n` bounds the iterations; `none`: not enough. -/
def tokenLoop : (n : Nat) → IStream → UInt8 → Bytes → Option (IStream × UInt8 × Bytes)
  | 0, _, _, _ => none
  | n + 1, is, ch, string =>
    let string := string ++ [ch]
    let (is, ch) := get is ch
    if ¬ is.fail ∧ ¬ isspace ch then tokenLoop n is ch string else some (is, ch, string)

/-- `operator>>` (`String.cpp` 154-173). -/
def extract (n : Nat) (is : IStream) : Option (IStream × Bytes) :=
  let (is, ch) := getChar is 0
  if ¬ is.fail then
    match tokenLoop n is ch [] with
    | none => none
    | some (is, ch, string) => some (if isspace ch then putback is ch else is, string)
  else some (is, [])

/-- The loop of `getline` (`String.cpp` 180-181). -/
def lineLoop : (n : Nat) → IStream → UInt8 → Bytes → Option (IStream × Bytes)
  | 0, _, _, _ => none
  | n + 1, is, ch, string =>
    let (is, ch) := get is ch
    if ¬ is.fail ∧ ch ≠ 10 then lineLoop n is ch (string ++ [ch]) else some (is, string)

/-- `getline` (`String.cpp` 175-184). -/
def getline (n : Nat) (is : IStream) : Option (IStream × Bytes) := lineLoop n is 0 []

/-- `while (getline(is, s)) lines << s;` in a program that uses the library. -/
def readLines : (n : Nat) → IStream → Option (IStream × List Bytes)
  | 0, _ => none
  | n + 1, is => match getline (is.unread.length + 1) is with
    | none => none
    | some (is, s) => if is.fail then some (is, []) else match readLines n is with
      | none => none
      | some (is, ls) => some (is, s :: ls)

/-- `while (is >> s) tokens << s;` in a program that uses the library. -/
def readTokens : (n : Nat) → IStream → Option (IStream × List Bytes)
  | 0, _ => none
  | n + 1, is => match extract (is.unread.length + 1) is with
    | none => none
    | some (is, s) => if is.fail then some (is, []) else match readTokens n is with
      | none => none
      | some (is, ls) => some (is, s :: ls)

end Bdlib.Ios
