/-!
# Specification: base 64 (RFC 4648, section 4)

A group of three bytes is the 24-bit number they form, most significant byte first, written in four
digits of six bits.  A last group of one or two bytes is filled with zero bits; only the digits that
carry data are written, followed by `=` up to four characters.
-/

namespace Bdlib.Spec

/-- The four base-64 digits of a group. -/
def digits (a b c : UInt8) : List Nat :=
  let n := a.toNat * 65536 + b.toNat * 256 + c.toNat
  [n / 262144 % 64, n / 4096 % 64, n / 64 % 64, n % 64]

/-- RFC 4648 with the given alphabet. -/
def rfc4648 (alphabet : Nat → UInt8) : List UInt8 → List UInt8
  | a :: b :: c :: rest => (digits a b c).map alphabet ++ rfc4648 alphabet rest
  | [a, b] => ((digits a b 0).take 3).map alphabet ++ ['='.toUInt8]
  | [a] => ((digits a 0 0).take 2).map alphabet ++ ['='.toUInt8, '='.toUInt8]
  | [] => []

end Bdlib.Spec
