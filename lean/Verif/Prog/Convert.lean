import Verif.Prog.Model
import Verif.B64.Model

/-!
# Making other things of Strings: programs on the memory machine

Copies to C buffers and `std::string`, the const versions of `chomp` and `trim`, base64, and case-insensitive search with
its temporaries.
-/

namespace Bdlib.Rca
open Bdlib Bdlib.Spec Bdlib.Str

/-- `copy(dst, n)` (`String.cpp` 99-106) into a buffer that holds `dst`: what it returns, and what the buffer holds
afterwards.  Undefined if the buffer is too short.  (`memcpy` of 0 bytes from the null pointer of an empty String is
taken as harmless.) -/
def copyP (o n : Nat) (dst : Bytes) : SM (Nat × Bytes) := do
  let v ← contents o
  let slen := min n v.length
  if slen ≤ dst.length then return (slen, v.take slen ++ dst.drop slen) else M.undef

/-- `dup()` (`String.h` 249-254); `fits`: does `new char[length() + 1]` succeed?  The new buffer is returned; its cells
start out as `junk`. -/
def dupP (o : Nat) (fits : Bool) (junk : Nat → UInt8) : SM Bytes := do
  let v ← contents o
  if fits then do
    let ret := (List.range (v.length + 1)).map junk
    let ret := v ++ ret.drop v.length
    return ret.set v.length 0
  else M.raise .badAlloc

/-- `operator std::string()` (`String.h` 256-258). -/
def toStdP (o : Nat) : SM Bytes := contents o

/-- `chomp() const` (`String.h` 298): a copy is chomped and copied out. -/
def chompedP (cfg : Cfg UInt8) (o : Nat) : SM Nat :=
  withLocal cfg (copyCtor o) fun t => do
    chompP t
    copyCtor t

/-- `trim() const` (`String.h` 310). -/
def trimmedP (cfg : Cfg UInt8) (L : Libc) (fuel o : Nat) : SM Nat :=
  withLocal cfg (copyCtor o) fun t => do
    trimP L fuel t
    copyCtor t

/-- `base64Encode(string, charset)` (`base64.cpp` 103-109); reading behind the contents is undefined. -/
def base64EncodeP (cfg : Cfg UInt8) (o : Nat) (charset : Option Bytes) : SM Nat := do
  let v ← contents o
  let e ← liftE (B64.base64Encode v [] charset)
  strCtor cfg 0 e

/-- `base64Decode(string, charset)` (`base64.cpp` 167-173); reading behind the contents is undefined. -/
def base64DecodeP (cfg : Cfg UInt8) (o : Nat) (charset : Option Bytes) : SM Nat := do
  let v ← contents o
  let e ← liftE (B64.base64Decode v [] charset)
  strCtor cfg 0 e

/-- The two functions above with their C buffer (`base64.cpp` 103-109, 167-173): `malloc`, convert, construct the String,
`free`.  `fits`: does `malloc` succeed?  (A null pointer is written through, 116, 155.)  The second component is the number
of blocks that are still allocated when the call is over. -/
def viaMalloc (cfg : Cfg UInt8) (fits : Bool) (o : Nat) (conv : Bytes → Eff Bytes) (s : St UInt8) : Res UInt8 Nat × Nat :=
  match (do let v ← contents o; liftE (conv v) : SM Bytes) s with
  | .ok e t =>
    if fits then
      match strCtor cfg 0 e t with
      | .ok n t' => (.ok n t', 0)
      | .throw x t' => (.throw x t', 1)
      | .ub => (.ub, 1)
    else (.ub, 0)
  | .throw x t => (.throw x t, 1)
  | .ub => (.ub, 0)

/-- `base64Encode` (`base64.cpp` 103-109). -/
def base64EncodeH (cfg : Cfg UInt8) (fits : Bool) (o : Nat) (charset : Option Bytes) : St UInt8 → Res UInt8 Nat × Nat :=
  viaMalloc cfg fits o fun v => B64.base64Encode v [] charset

/-- `base64Decode` (`base64.cpp` 167-173). -/
def base64DecodeH (cfg : Cfg UInt8) (fits : Bool) (o : Nat) (charset : Option Bytes) : St UInt8 → Res UInt8 Nat × Nat :=
  viaMalloc cfg fits o fun v => B64.base64Decode v [] charset

/-- `std::transform(..., std::back_inserter(o), ::toupper)` (`String.cpp` 294-295): one `push_back` per character. -/
def upperInto (cfg : Cfg UInt8) (L : Libc) (o : Nat) : Bytes → SM Unit
  | [] => return ()
  | c :: w => do
    append cfg o (L.toupper c)
    upperInto cfg L o w

/-- The common part of `ifind` and `rifind` (`String.cpp` 293-295, 300-302): `f this_upper str_upper` is returned. -/
def upperBoth (cfg : Cfg UInt8) (L : Libc) (o r : Nat) (f : Nat → Nat → SM Nat) : SM Nat := do
  let n ← length r
  withLocal cfg (sizeCtor cfg n) fun su => do
    let m ← length o
    withLocal cfg (sizeCtor cfg m) fun tu => do
      upperInto cfg L su (← contents r)
      upperInto cfg L tu (← contents o)
      f tu su

/-- `rfind(str, lpos)` (`String.cpp` 306-317). -/
def rfindP (L : Libc) (o r lpos : Nat) : SM Nat := do
  let v ← contents o
  let w ← contents r
  liftE (Str.rfind L v w lpos)

/-- `ifind(str)` (`String.cpp` 292-297). -/
def ifindP (cfg : Cfg UInt8) (L : Libc) (o r : Nat) : SM Nat := upperBoth cfg L o r fun tu su => findP L tu su

/-- `rifind(str, lpos)` (`String.cpp` 299-304): `lpos` is not used. -/
def rifindP (cfg : Cfg UInt8) (L : Libc) (o r : Nat) (_lpos : Nat) : SM Nat := upperBoth cfg L o r fun tu su => rfindP L tu su 0

end Bdlib.Rca
