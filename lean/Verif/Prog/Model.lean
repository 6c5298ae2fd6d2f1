import Verif.Prog.Logic
import Verif.Str.Model

/-!
# Compound functions as programs on the memory machine

The functions of `String.cpp` that are made of calls of the array interface, with their temporaries, copies
and destructors, on objects that may share storage with any other object.  Returned objects are built in
place, temporaries passed by value are elided where the language allows it.  Searching and comparing read the
contents in place; the searches themselves are those of `Str/Model.lean`.  `L` is the C library.
-/

namespace Bdlib.Rca
open Bdlib Bdlib.Spec Bdlib.Str

section
variable {T : Type}

/-- What the pointers `constBuf(0)` and `constBuf(length())` delimit (`ReferenceCountedArray.h` 301-310). -/
def contents (o : Nat) : M T (List T) := do
  let n ← length o
  readRange o 0 n

/-- A computation on contents that were read. -/
def liftE {α : Type} : Eff α → M T α
  | .ret a => pure a
  | .exc e => M.raise e
  | .ub => M.undef
  | .more => M.undef

/-- Do the windows of the two objects start at the same address? -/
def sameAddr (a b : Obj) : Bool :=
  match a.ref, b.ref with
  | none, none => true
  | some x, some y => decide (x = y ∧ a.offset = b.offset)
  | _, _ => false

/-- Are the elements of the two objects at the same address?  (`cbegin() == str.cbegin()`, `String.cpp` 47;
`constBuf() == array.constBuf()`, `Array.h` 193) -/
def sameStart (o r : Nat) : M T Bool := do
  let a ← getObj o
  let b ← getObj r
  return sameAddr a b

/-- `operator+(String string1, const String& string2)` (`String.h` 537-540) with an lvalue on the left: the
parameter is a copy, the return value is moved out of it. -/
def plus (cfg : Cfg T) (o r : Nat) : M T Nat :=
  withLocal cfg (copyCtor o) fun t => do
    appendRca cfg t r npos
    moveCtor cfg t

/-- Postfix `++` (`String.h` 487-491). -/
def postInc (cfg : Cfg T) (o : Nat) : M T Nat := building cfg (copyCtor o) fun _ => dropFront o 1

/-- Postfix `--` (`String.h` 504-508). -/
def postDec (cfg : Cfg T) (o : Nat) : M T Nat := building cfg (copyCtor o) fun _ => popBack o

/-- A signed argument passed as `size_t`. -/
def toSize (i : Int) : Nat := (i % (two64 : Int)).toNat

/-- `s(start, len) = t` (`ReferenceCountedArray.h` 197-200, `String.h` 336-338). -/
def sliceAssign (cfg : Cfg T) (o : Nat) (start len : Int) (r : Nat) : M T Unit := replaceRca cfg o (toSize start) r (toSize len)

/-- `s(start, len) = t(start', len')` (`ReferenceCountedArray.h` 186-189): the right side is made a String
first. -/
def sliceAssignSlice (cfg : Cfg T) (o : Nat) (start len : Int) (r : Nat) (start' len' : Int) : M T Unit :=
  withLocal cfg (substring r start' len') fun t => replaceMove cfg o (toSize start) t (toSize len)

/-- `s(start, len) = std::move(t)` (`ReferenceCountedArray.h` 206-209). -/
def sliceAssignMove (cfg : Cfg T) (o : Nat) (start len : Int) (r : Nat) : M T Unit := replaceMove cfg o (toSize start) r (toSize len)

/-- `a[i] = b[j]` (`ReferenceCountedArray.h` 877-880). -/
def crefAssign (cfg : Cfg T) (o i r j : Nat) : M T Unit := do
  match ← read r j with
  | some x => write cfg o i x
  | none => M.undef

end

abbrev SM := M UInt8

/-- `compare(str, n = npos)` (`String.cpp` 42-56). -/
def compareP (L : Libc) (o r : Nat) : SM Int := do
  let same ← sameStart o r
  let v ← contents o
  let w ← contents r
  liftE (Str.compare L same v w)

/-- `operator==` (`String.h` 543-547). -/
def eqP (L : Libc) (o r : Nat) : SM Bool := do
  if (← length o) = (← length r) then return decide ((← compareP L o r) = 0) else return false

/-- `find(str)` (`ReferenceCountedArray.h` 811-815, `String.cpp` 270-290). -/
def findP (L : Libc) (o r : Nat) : SM Nat := do
  let v ← contents o
  let w ← contents r
  liftE (Str.find L v w)

/-- One step of `chomp`: `if (length() && (*this)[length() - 1] == c) --(*this);` (`String.cpp` 257-258) -/
def chompOneP (o : Nat) (c : UInt8) : SM Unit := do
  let n ← length o
  if n ≠ 0 then
    if (← read o (n - 1)) = some c then popBack o else return ()
  else return ()

/-- `chomp` (`String.cpp` 256-260). -/
def chompP (o : Nat) : SM Unit := do
  chompOneP o 10
  chompOneP o 13

/-- `while (length() && isspace((*this)[0])) { ++offset; subLength(1); }` (`String.cpp` 264); on a String that
is not empty the body is `*this += size_t(1)`.  At most `fuel` iterations. -/
def ltrimP (L : Libc) (o : Nat) : Nat → SM Unit
  | 0 => M.undef
  | fuel + 1 => do
    if (← length o) ≠ 0 then
      match ← read o 0 with
      | some c => if L.isspace c then do dropFront o 1; ltrimP L o fuel else return ()
      | none => M.undef
    else return ()

/-- `while (length() && isspace((*this)[length() - 1])) subLength(1);` (`String.cpp` 266); the body is that of
`pop_back`. -/
def rtrimP (L : Libc) (o : Nat) : Nat → SM Unit
  | 0 => M.undef
  | fuel + 1 => do
    let n ← length o
    if n ≠ 0 then
      match ← read o (n - 1) with
      | some c => if L.isspace c then do popBack o; rtrimP L o fuel else return ()
      | none => M.undef
    else return ()

/-- `trim` (`String.cpp` 262-268). -/
def trimP (L : Libc) (fuel o : Nat) : SM Unit := do
  ltrimP L o fuel
  rtrimP L o fuel

/-- `newsplit` (`String.cpp` 351-369). -/
def newsplitP (cfg : Cfg UInt8) (o : Nat) (delim : UInt8) : SM Nat := do
  if (← length o) = 0 then ctor
  else do
    let v ← contents o
    let pos ← liftE (findItem v delim)
    let pos := if pos = npos then v.length else pos
    building cfg (substring o 0 pos) fun _ => do
      let v ← contents o
      dropFront o ((if delim = 32 then skipRun v pos (v.length - pos) else pos) + 1)

/-- `for (i = 0; i < times; ++i) newString += *this;` (`String.cpp` 240-241) -/
def mulLoopP (cfg : Cfg UInt8) (o new : Nat) : Nat → SM Unit
  | 0 => return ()
  | k + 1 => do
    appendRca cfg new o npos
    mulLoopP cfg o new k

/-- `operator*(times)` (`String.cpp` 238-243). -/
def mulP (cfg : Cfg UInt8) (o : Nat) (times : Int) : SM Nat := do
  let n ← length o
  building cfg (sizeCtor cfg ((n * times) % (two64 : Int)).toNat) fun new => mulLoopP cfg o new times.toNat

/-- The loop of `sub` (`String.cpp` 323-328), at most `fuel` iterations.  `search_str(0, pos)` is a temporary
that is appended as an rvalue. -/
def subLoopP (cfg : Cfg UInt8) (L : Libc) (str new search repl : Nat) (limit : Int) : Nat → Int → SM Unit
  | 0, _ => M.undef
  | fuel + 1, cnt => do
    let pos ← findP L str search
    if pos = npos then return ()
    else do
      withLocal cfg (substring str 0 pos) fun t => appendMove cfg new t npos
      appendRca cfg new repl npos
      dropFront str (pos + (← length search))
      if limit ≠ -1 ∧ cnt + 1 = limit then return ()
      else subLoopP cfg L str new search repl limit fuel (if limit ≠ -1 then cnt + 1 else cnt)

/-- `sub(search, replacement, limit)` (`String.cpp` 319-334). -/
def subP (cfg : Cfg UInt8) (L : Libc) (fuel o search repl : Nat) (limit : Int) : SM Nat := do
  let n ← length o
  building cfg (sizeCtor cfg n) fun new =>
    withLocal cfg (copyCtor o) fun str => do
      subLoopP cfg L str new search repl limit fuel 0
      if (← length str) ≠ 0 then appendRca cfg new str npos else return ()

/-- The loop of `subst` (`String.cpp` 338-340). -/
def substLoopP (cfg : Cfg UInt8) (L : Libc) (fuel new : Nat) : List (Nat × Nat) → SM Unit
  | [] => return ()
  | (k, r) :: kvs => do
    withLocal cfg (subP cfg L fuel new k r (-1)) fun t => moveAssign cfg new t
    substLoopP cfg L fuel new kvs

/-- `subst(hashes)` (`String.cpp` 336-342); `kvs` lists the map's Strings in its iteration order. -/
def substP (cfg : Cfg UInt8) (L : Libc) (fuel o : Nat) (kvs : List (Nat × Nat)) : SM Nat :=
  building cfg (copyCtor o) fun new => substLoopP cfg L fuel new kvs

/-- The loop of `split` (`String.cpp` 205-220); `acc` are the pieces.  For the
Array that holds them see `Nest/Text.lean`. -/
def splitLoopP (L : Libc) (o delim : Nat) (cap : Nat) : Nat → Nat → List Nat → SM (Nat × List Nat)
  | 0, _, _ => M.undef
  | fuel + 1, it, acc => do
    if ¬ acc.length < cap then return (it, acc)
    else do
      let v ← contents o
      let d ← contents delim
      let it := trimIt v d it
      if it ≥ v.length then return (it, acc)
      else do
        let pos ← liftE (find_ L v d it)
        let pos := if pos = npos then v.length - it else pos
        let piece ← substring o it pos
        splitLoopP L o delim cap fuel (it + pos + d.length) (acc ++ [piece])

/-- `split(delim, limit)` (`String.cpp` 192-236). -/
def splitP (cfg : Cfg UInt8) (L : Libc) (fuel o delim limit : Nat) : SM (List Nat) := do
  if (← length o) = 0 then return []
  else if limit = 1 then return [← copyCtor o]
  else withLocal cfg (charCtor cfg 0 32) fun _ => do
    let (it, acc) ← splitLoopP L o delim (sub64 limit 1) fuel 0 []
    if limit ≠ npos then do
      let v ← contents o
      let d ← contents delim
      let rest ← substring o (trimIt v d it) (-1)
      return acc ++ [rest]
    else return acc

/-- Sum of the lengths (`Array.h` 161-162). -/
def totalP : List Nat → SM Nat
  | [] => return 0
  | o :: os => do return (← length o) + (← totalP os)

/-- `'"' + x + '"'` (`Array.h` 170): the character becomes a String, which is moved into the next sum. -/
def quotedP (cfg : Cfg UInt8) (o : Nat) : SM Nat :=
  building cfg (charCtor cfg 0 34) fun t => do
    appendRca cfg t o npos
    withLocal cfg (charCtor cfg 0 34) fun q => appendRca cfg t q npos

/-- `if (i != 0) str += delim;` (`Array.h` 167-168) -/
def joinSepP (cfg : Cfg UInt8) (delim str : Nat) (first : Bool) : SM Unit :=
  if first then pure () else appendRca cfg str delim npos

/-- `if (quoted) str += '"' + (*this)[i] + '"'; else str += (*this)[i];` (`Array.h` 169-173) -/
def joinOneP (cfg : Cfg UInt8) (quoted : Bool) (str o : Nat) : SM Unit :=
  if quoted then withLocal cfg (quotedP cfg o) fun t => appendMove cfg str t npos
  else appendRca cfg str o npos

/-- The loop of `join` (`Array.h` 166-174); `first` is `i == 0`. -/
def joinLoopP (cfg : Cfg UInt8) (delim : Nat) (quoted : Bool) (str : Nat) : List Nat → Bool → SM Unit
  | [], _ => return ()
  | o :: os, first => do
    joinSepP cfg delim str first
    joinOneP cfg quoted str o
    joinLoopP cfg delim quoted str os false

/-- `join(delim, quoted)` (`Array.h` 153-176) of the Strings `os`. -/
def joinP (cfg : Cfg UInt8) (os : List Nat) (delim : Nat) (quoted : Bool) : SM Nat := do
  if os.length = 0 then ctor
  else do
    let d ← length delim
    let t ← totalP os
    let size := sub64 (os.length * d) 1 + (if quoted then os.length * 2 else 0) + t
    building cfg (sizeCtor cfg (size % two64)) fun str => joinLoopP cfg delim quoted str os true

end Bdlib.Rca
