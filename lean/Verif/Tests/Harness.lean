import Verif.Prog.Convert
import Verif.Prog.ArrayOps
import Verif.Prog.Plain
import Verif.Str.Witness
import Verif.Rca.Witness

/-!
# The project's own unit tests, run on the model

`/repo/src/tests` holds the expectations the authors wrote down.  The modules in this directory write these test functions
as programs of the model, call by call, and check that every assertion of them holds in it.  This says nothing about all
inputs (it is a test, not one of the properties): it is evidence that the definitions the theorems are about do what the
code does.  This file has what the test functions share.
-/

namespace Bdlib.Tests
open Bdlib Bdlib.Spec Bdlib.Rca Bdlib.Str

open Lean in
/-- The bytes of a C string literal. -/
macro:max "b!" s:str : term => do
  let xs := s.getString.toUTF8.toList.map fun b => Syntax.mkNumLit (toString b.toNat)
  `(([$(xs.toArray),*] : List UInt8))

/-- The tests are built with `CPPUNIT_VERSION` defined: objects that were moved from are reset
(`ReferenceCountedArray.h` 446-450, 549-553). -/
def cfg : Cfg UInt8 where
  nul := some 0
  slack := 0
  junk := fun _ _ => 170
  moved := id
  scale := fun n => n + n / 2
  allocOk := fun _ _ => true
  resetMoved := true
  hasher := fun x => x.toUInt64
  wipe := fun _ i => i.toUInt8

/-- The C library of the machine the tests run on. -/
def lib : Libc := glibc

/-- An assertion of a test. -/
def expect (b : Bool) : SM Unit := if b then pure () else M.undef

/-- An operand: a named String or a temporary, destroyed at the end of the expression. -/
inductive Src where
  | obj (o : Nat)
  | tmp (mk : SM Nat)

instance : Coe Nat Src := ⟨.obj⟩

/-- An expression with the operand. -/
def Src.use {α : Type} (s : Src) (f : Nat → SM α) : SM α :=
  match s with
  | .obj o => f o
  | .tmp mk => withLocal cfg mk f

/-- `"..."` where a String is wanted (`String.h` 100-107). -/
def lit (xs : Bytes) : Src := .tmp (cstrCtor cfg 0 xs)
/-- `'c'` where a String is wanted (`String.h` 131-135). -/
def chr (c : UInt8) : Src := .tmp (charCtor cfg 0 c)
/-- `String(p, n)` (`String.h` 117-122). -/
def strN (xs : Bytes) : Src := .tmp (strCtor cfg 0 xs)
/-- `String()` (`String.h` 87). -/
def empty : Src := .tmp ctor
/-- `s(start, len)` as a String, `s.substring(start, len)` (`String.h` 323-333). -/
def sub (s : Src) (start : Int) (len : Int := -1) : Src := .tmp (s.use fun o => substring o start len)
/-- `s + t` (`String.h` 537-540). -/
def cat (s t : Src) : Src :=
  .tmp (t.use fun r => withLocal cfg (match s with | .obj o => copyCtor o | .tmp mk => mk) fun p => do
    appendRca cfg p r npos
    moveCtor cfg p)
/-- `s * n` (`String.cpp` 238-243). -/
def times (s : Src) (n : Int) : Src := .tmp (s.use fun o => mulP cfg o n)
/-- `s.sub(search, replacement, limit)` (`String.cpp` 319-334). -/
def subst1 (s search repl : Src) (limit : Int := -1) : Src :=
  .tmp (s.use fun o => search.use fun k => repl.use fun r => subP cfg lib 100 o k r limit)
/-- `newsplit(s)` (`String.h` 392-394). -/
def newsplit (o : Nat) : Src := .tmp (newsplitP cfg o 32)
/-- `base64Encode(s)` (`base64.cpp` 103-109). -/
def b64e (s : Src) : Src := .tmp (s.use fun o => base64EncodeP cfg o none)
/-- `base64Decode(s)` (`base64.cpp` 167-173). -/
def b64d (s : Src) : Src := .tmp (s.use fun o => base64DecodeP cfg o none)

/-- `String x = s;` -/
def decl : Src → SM Nat
  | .obj o => copyCtor o
  | .tmp mk => mk
/-- `x = s` (`ReferenceCountedArray.h` 524-556). -/
def assign (o : Nat) : Src → SM Unit
  | .obj r => copyAssign o r
  | .tmp mk => withLocal cfg mk fun t => moveAssign cfg o t
/-- `x = "..."` (`String.h` 159-162). -/
def set (o : Nat) (xs : Bytes) : SM Unit := assignCstr cfg 0 o xs
/-- `x += s`, `x.append(s)` (`String.h` 444-451). -/
def add (o : Nat) : Src → SM Unit
  | .obj r => appendRca cfg o r npos
  | .tmp mk => withLocal cfg mk fun t => appendMove cfg o t npos
/-- `x.insert(pos, s)` (`ReferenceCountedArray.h` 1090-1162). -/
def insert (o pos : Nat) : Src → SM Unit
  | .obj r => insertRca cfg o pos r
  | .tmp mk => withLocal cfg mk fun t => insertMove cfg o pos t
/-- `x.insert(pos, "...", n)` (`String.cpp` 117-130). -/
def insertS (o pos : Nat) (xs : Bytes) (n : Nat := npos) : SM Unit := insertC cfg o pos (xs.take n) (decide (n = 0))
/-- `x += "..."`, `x.append("...", n)` (`String.h` 433-437). -/
def addS (o : Nat) (xs : Bytes) (n : Nat := npos) : SM Unit := do insertS o (← length o) xs n
/-- `x.replace(pos, s)` (`ReferenceCountedArray.h` 1241-1297). -/
def replace (o pos : Nat) : Src → SM Unit
  | .obj r => replaceRca cfg o pos r npos
  | .tmp mk => withLocal cfg mk fun t => replaceMove cfg o pos t npos
/-- `x.replace(pos, "...", n)` (`String.cpp` 138-152). -/
def replaceS (o pos : Nat) (xs : Bytes) (n : Nat := npos) : SM Unit := replaceC cfg o pos (xs.take n) (decide (n = 0))
/-- `x(start, len) = s` (`ReferenceCountedArray.h` 186-209). -/
def setSlice (o : Nat) (start len : Int) : Src → SM Unit
  | .obj r => sliceAssign cfg o start len r
  | .tmp mk => withLocal cfg mk fun t => sliceAssignMove cfg o start len t

/-- `CPPUNIT_ASSERT_STRING_EQUAL("...", s)` -/
def is (s : Src) (xs : Bytes) : SM Unit := s.use fun o => do expect ((← contents o) == xs)
/-- `CPPUNIT_ASSERT_STRING_EQUAL(s, t)` -/
def same (s t : Src) : SM Unit := s.use fun o => t.use fun r => do expect (← eqP lib o r)
/-- `CPPUNIT_ASSERT_EQUAL(n, s.length())` -/
def len (s : Src) (n : Nat) : SM Unit := s.use fun o => do expect ((← length o) == n)
/-- `CPPUNIT_ASSERT_EQUAL(n, s.rcount())` -/
def rc (o : Nat) (n : Int) : SM Unit := do expect ((← rcount o) == n)
/-- `CPPUNIT_ASSERT_GREATEREQUAL(n, s.capacity())` -/
def capGe (o n : Nat) : SM Unit := do expect (decide (n ≤ (← capacity o)))
/-- `CPPUNIT_ASSERT_STRING_EQUAL("...", s.c_str())`: the C string. -/
def cs (s : Src) (xs : Bytes) : SM Unit := s.use fun o => do expect ((← cStr cfg 0 o).takeWhile (· != 0) == xs)
/-- `CPPUNIT_ASSERT_THROW(m, std::out_of_range)` -/
def throws {α : Type} (m : SM α) : SM Unit := fun s =>
  match m s with
  | .throw .outOfRange t => .ok () t
  | _ => .ub
/-- `CPPUNIT_ASSERT_NO_THROW(m)` -/
def quiet {α : Type} (m : SM α) : SM Unit := do let _ ← m
/-- `s[i]` as a character. -/
def charIs (o i : Nat) (c : UInt8) : SM Unit := do expect ((← read o i) == some c)
/-- An expected number. -/
def gives {α : Type} [BEq α] (m : SM α) (x : α) : SM Unit := do expect ((← m) == x)

/-- Did the test end without a failed assertion, an exception or undefined behaviour? -/
def passes {T α : Type} (t : M T α) : Bool :=
  match t {} with
  | .ok _ _ => true
  | _ => false

end Bdlib.Tests
