import Verif.Str.Model

/-!
# Model of `base64.cpp`

* Input memory is the list of bytes readable from the pointer on; it may be longer than the `len` bytes
  that count.  Reading beyond it is undefined.
* The destination is written strictly in order, so it is represented by the bytes written so far and the
  size of the allocation; writing beyond it is undefined.
* `charset` and `charset_index` elements are `char`; products are stored in `char`s, so arithmetic is
  modulo 256 and -1 is 255.  (`-1 << 2`, evaluated for characters outside the set, is undefined in C++11
  to C++17 but two's complement everywhere; it is modelled as the latter.)
* `malloc` is assumed to succeed (its result is not checked, `base64.cpp` 115, 153).
-/

namespace Bdlib.B64
open Bdlib Bdlib.Str

/-- `*buf++ = c` in a buffer of `cap` bytes. -/
def put (cap : Nat) (out : Bytes) (c : UInt8) : Eff Bytes := if out.length < cap then .ret (out ++ [c]) else .ub

/-- `PADDING_CHAR` (`base64.cpp` 37). -/
def pad : UInt8 := 61

/-- The loop of `b64enc_buf` (`base64.cpp` 70-83): `i` is how far `data` has advanced, `len` is `*len`. -/
def encLoop (cs data : Bytes) (cap : Nat) : Nat → Nat → Nat → Bytes → Eff (Nat × Nat × Bytes)
  | 0, _, _, _ => .more
  | fuel + 1, i, len, out =>
    if len ≥ 3 then do
      let d0 ← rd data i
      let out ← put cap out (← rd cs ((d0.toNat &&& 0xfc) >>> 2))
      let d1 ← rd data (i + 1)
      let out ← put cap out (← rd cs (((d0.toNat &&& 0x03) <<< 4) ||| ((d1.toNat &&& 0xf0) >>> 4)))
      let d2 ← rd data (i + 2)
      let out ← put cap out (← rd cs (((d1.toNat &&& 0x0f) <<< 2) ||| ((d2.toNat &&& 0xc0) >>> 6)))
      let out ← put cap out (← rd cs (d2.toNat &&& 0x3f))
      encLoop cs data cap fuel (i + 3) (len - 3) out
    else .ret (i, len, out)

/-- The end of `b64enc_buf` (`base64.cpp` 86-98). -/
def encTail (cs data : Bytes) (cap i len : Nat) (out : Bytes) : Eff Bytes :=
  if len > 0 then do
    let d0 ← rd data i
    let out ← put cap out (← rd cs ((d0.toNat &&& 0xfc) >>> 2))
    if len = 1 then
      let out ← put cap out (← rd cs ((d0.toNat &&& 0x03) <<< 4))
      let out ← put cap out pad
      put cap out pad
    else
      let d1 ← rd data (i + 1)
      let out ← put cap out (← rd cs (((d0.toNat &&& 0x03) <<< 4) ||| ((d1.toNat &&& 0xf0) >>> 4)))
      let out ← put cap out (← rd cs ((d1.toNat &&& 0x0f) <<< 2))
      put cap out pad
  else .ret out

/-- `b64enc_buf` (`base64.cpp` 39-101): what is written to `dest`; its length is the new `*len`. -/
def encBuf (cs data : Bytes) (len cap : Nat) : Eff Bytes := do
  let (i, len, out) ← encLoop cs data cap (len + 1) 0 len []
  encTail cs data cap i len out

/-- `b64enc` (`base64.cpp` 111-120). -/
def enc (cs data : Bytes) (len : Nat) : Eff Bytes := do
  let dlen := (len + 2) / 3 * 4
  let out ← encBuf cs data len (dlen + 1)
  let _ ← put (dlen + 1) out 0
  return out

/-- `b64_charset` (`base64.h` 38). -/
def stdCharset : Bytes :=
  [65, 66, 67, 68, 69, 70, 71, 72, 73, 74, 75, 76, 77, 78, 79, 80, 81, 82, 83, 84, 85, 86, 87, 88, 89, 90,
   97, 98, 99, 100, 101, 102, 103, 104, 105, 106, 107, 108, 109, 110, 111, 112, 113, 114, 115, 116, 117, 118, 119, 120,
   121, 122, 48, 49, 50, 51, 52, 53, 54, 55, 56, 57, 43, 47, 0]

/-- `base64Encode(string, charset)` (`base64.cpp` 103-109); `slack` is what is readable behind the
contents.  `none` is the null charset. -/
def base64Encode (v slack : Bytes) (charset : Option Bytes) : Eff Bytes :=
  enc (charset.getD stdCharset) (v ++ slack) v.length

/-- The loop of `b64dec_buf` (`base64.cpp` 132-145), once per block. -/
def decLoop (ix data : Bytes) (cap : Nat) : Nat → Nat → Bytes → Eff Bytes
  | 0, _, out => .ret out
  | blocks + 1, i, out => do
    let x0 ← rd ix (← rd data i).toNat
    let x1 ← rd ix (← rd data (i + 1)).toNat
    let out ← put cap out ((x0 <<< 2) + ((x1 &&& 0x30) >>> 4))
    let d2 ← rd data (i + 2)
    if d2 ≠ pad then
      let x2 ← rd ix d2.toNat
      let out ← put cap out (((x1 &&& 0x0f) <<< 4) + ((x2 &&& 0x3c) >>> 2))
      let d3 ← rd data (i + 3)
      if d3 ≠ pad then
        let out ← put cap out (((x2 &&& 0x03) <<< 6) + (← rd ix d3.toNat))
        decLoop ix data cap blocks (i + 4) out
      else decLoop ix data cap blocks (i + 4) out
    else decLoop ix data cap blocks (i + 4) out

/-- The number of 4-byte blocks (`base64.cpp` 125, 152). -/
def blocksOf (len : Nat) : Nat := len / 4 + if len % 4 ≠ 0 then 1 else 0

/-- `b64dec_buf` (`base64.cpp` 122-148). -/
def decBuf (ix data : Bytes) (len cap : Nat) : Eff Bytes := decLoop ix data cap (blocksOf len) 0 []

/-- `b64_indexes` (`base64.h` 39-56); -1 is 255. -/
def stdIndexes : Bytes :=
  [255, 255, 255, 255, 255, 255, 255, 255, 255, 255, 255, 255, 255, 255, 255, 255,
   255, 255, 255, 255, 255, 255, 255, 255, 255, 255, 255, 255, 255, 255, 255, 255,
   255, 255, 255, 255, 255, 255, 255, 255, 255, 255, 255, 62, 255, 255, 255, 63,
   52, 53, 54, 55, 56, 57, 58, 59, 60, 61, 255, 255, 255, 255, 255, 255,
   255, 0, 1, 2, 3, 4, 5, 6, 7, 8, 9, 10, 11, 12, 13, 14,
   15, 16, 17, 18, 19, 20, 21, 22, 23, 24, 25, 255, 255, 255, 255, 255,
   255, 26, 27, 28, 29, 30, 31, 32, 33, 34, 35, 36, 37, 38, 39, 40,
   41, 42, 43, 44, 45, 46, 47, 48, 49, 50, 51, 255, 255, 255, 255, 255]
  ++ List.replicate 128 255

/-- `for (i = 0; i < 64; ++i) charset_index[int(charset[i])] = i;` (`base64.cpp` 158-159), `k` more times.
A plain `char` above 127 is negative: the store is outside the array. -/
def fillIndex (cs : Bytes) : Nat → Nat → Bytes → Eff Bytes
  | 0, _, ix => .ret ix
  | k + 1, i, ix => do
    let c ← rd cs i
    if c.toNat < 128 then fillIndex cs k (i + 1) (ix.set c.toNat (UInt8.ofNat i)) else .ub

/-- The index table used (`base64.cpp` 155-162, 127-129). -/
def indexFor : Option Bytes → Eff Bytes
  | some cs => fillIndex cs 64 0 (List.replicate 256 255)
  | none => .ret stdIndexes

/-- `b64dec` (`base64.cpp` 150-165). -/
def dec (charset : Option Bytes) (data : Bytes) (len : Nat) : Eff Bytes := do
  let dlen := blocksOf len * 3
  let ix ← indexFor charset
  let out ← decBuf ix data len (dlen + 1)
  let _ ← put (dlen + 1) out 0
  return out

/-- `base64Decode(string, charset)` (`base64.cpp` 167-173). -/
def base64Decode (v slack : Bytes) (charset : Option Bytes) : Eff Bytes := dec charset (v ++ slack) v.length

end Bdlib.B64
