import Verif.Str.Model

/-!
# Model of `Cstrings.cpp`

A pointer argument is represented by the list of bytes that may be accessed through it.  `dst` and `src`
of `strlcpy`/`strlcat` do not overlap.
-/

namespace Bdlib.Cstr
open Bdlib Bdlib.Str

/-- Storing a byte. -/
def wr (v : Bytes) (i : Nat) (c : UInt8) : Eff Bytes := if i < v.length then .ret (v.set i c) else .ub

/-- `strlen`: index of the first NUL at or after `i`. -/
def nulFrom (src : Bytes) : Nat → Nat → Eff Nat
  | 0, _ => .ub
  | k + 1, i => do
    if (← rd src i) = 0 then return i else nulFrom src k (i + 1)

/-- `strlen(3)`. -/
def strlen (src : Bytes) : Eff Nat := nulFrom src src.length 0

/-- `do { if ((*d++ = *s++) == 0) break; } while (--n != 0);` (`Cstrings.cpp` 46-49): `i` is both `d - dst`
and `s - src`.  Result: `n`, `i`, `dst`. -/
def cpyLoop (src : Bytes) : Nat → Nat → Bytes → Eff (Nat × Nat × Bytes)
  | 0, i, dst => .ret (0, i, dst)
  | n + 1, i, dst => do
    let c ← rd src i
    let dst ← wr dst i c
    if c = 0 then return (n + 1, i + 1, dst) else cpyLoop src n (i + 1) dst

/-- `strlcpy` (`Cstrings.cpp` 38-61): the value returned and the new contents of `dst`. -/
def strlcpy (dst src : Bytes) (siz : Nat) : Eff (Nat × Bytes) := do
  let (n, i, dst) ← cpyLoop src (siz - 1) 0 dst
  if n = 0 then
    let dst ← if siz ≠ 0 then wr dst i 0 else .ret dst
    -- `while (*s++);`
    let e ← nulFrom src (src.length - i) i
    return (e + 1 - 1, dst)
  else return (i - 1, dst)

/-- `while (*d != '\0' && n-- != 0) d++;` (`Cstrings.cpp` 78-79) -/
def catEnd (dst : Bytes) : Nat → Nat → Eff Nat
  | n, d => do
    let c ← rd dst d
    if c = 0 then return d
    else match n with
      | 0 => return d
      | n + 1 => catEnd dst n (d + 1)

/-- The copying loop of `strlcat` (`Cstrings.cpp` 85-91), at most `k` iterations.  Result: `d`, `s`,
`dst`. -/
def catLoop (src : Bytes) : Nat → Nat → Nat → Nat → Bytes → Eff (Nat × Nat × Bytes)
  | 0, _, _, _, _ => .ub
  | k + 1, s, d, n, dst => do
    let c ← rd src s
    if c = 0 then return (d, s, dst)
    else if n ≠ 1 then
      let dst ← wr dst d c
      catLoop src k (s + 1) (d + 1) (n - 1) dst
    else catLoop src k (s + 1) d n dst

/-- `strlcat` (`Cstrings.cpp` 69-95). -/
def strlcat (dst src : Bytes) (siz : Nat) : Eff (Nat × Bytes) := do
  let dlen ← catEnd dst siz 0
  let n := siz - dlen
  if n = 0 then
    let l ← strlen src
    return (dlen + l, dst)
  else
    let (d, s, dst) ← catLoop src src.length 0 dlen n dst
    let dst ← wr dst d 0
    return (dlen + s, dst)

/-- `memcpy(target, entry, len)` at the beginning of a buffer. -/
def memcpy (target entry : Bytes) (len : Nat) : Eff Bytes := do
  let xs ← rdN entry 0 len
  if len ≤ target.length then return xs ++ target.drop len else .ub

/-- `strdup` (`Cstrings.cpp` 112-120): the new allocation.  `calloc` (133-141) ends the process if there is
no memory. -/
def strdup (entry : Bytes) : Eff Bytes := do
  let len ← strlen entry
  let target := List.replicate (len + 1) (0 : UInt8)
  let target ← wr target len 0
  memcpy target entry len

/-- `strldup` (`Cstrings.cpp` 122-131). -/
def strldup (entry : Bytes) (maxlen : Nat) : Eff Bytes := do
  let slen ← strlen entry
  let len := if slen < maxlen then slen else maxlen
  let target := List.replicate (len + 1) (0 : UInt8)
  let target ← wr target len 0
  memcpy target entry len

/-! ## `str_redup`: a heap -/

/-- Allocated blocks; released ones are `none`. -/
abbrev Heap := List (Option Bytes)

/-- Bytes readable through a pointer into a block. -/
def Heap.from (h : Heap) (p : Nat × Nat) : Eff Bytes :=
  match h[p.1]? with
  | some (some b) => if p.2 ≤ b.length then .ret (b.drop p.2) else .ub
  | _ => .ub

/-- `free(p)` for the start of a block. -/
def Heap.free (h : Heap) (a : Nat) : Eff Heap :=
  match h[a]? with
  | some (some _) => .ret (h.set a none)
  | _ => .ub

/-- `realloc(p, len)` (`Cstrings.cpp` 143-151, `::realloc`): keeps the contents; the block stays where it
is or (`moves`) a new one is made and the old one released.  `junk`: contents of added bytes. -/
def Heap.realloc (h : Heap) (moves : Bool) (junk : UInt8) (p : Option Nat) (len : Nat) : Eff (Nat × Heap) :=
  match p with
  | none => .ret (h.length, h ++ [some (List.replicate len junk)])
  | some a =>
    match h[a]? with
    | some (some b) =>
      let b' := b.take len ++ List.replicate (len - b.length) junk
      if moves then .ret (h.length, h.set a none ++ [some b']) else .ret (a, h.set a (some b'))
    | _ => .ub

/-- `str_redup(&str, newstr)` (`Cstrings.cpp` 97-110): the new `*str` and the heap.  `memcpy` is undefined
if source and destination are in the same block (they then overlap, as the destination is all of it). -/
def strRedup (h : Heap) (moves : Bool) (junk : UInt8) (str : Option Nat) (newstr : Option (Nat × Nat)) :
    Eff (Option Nat × Heap) :=
  match newstr with
  | none => do
    let h ← match str with
      | some a => h.free a
      | none => .ret h
    return (none, h)
  | some p => do
    let len := (← strlen (← h.from p)) + 1
    let (a, h) ← h.realloc moves junk str len
    let src ← h.from p
    if a = p.1 then .ub
    else
      let b ← memcpy (← h.from (a, 0)) src len
      return (some a, h.set a (some b))

end Bdlib.Cstr
