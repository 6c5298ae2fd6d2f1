import Verif.Tests.Harness
import Verif.Nest.Spec
import Verif.Nest.Text

/-!
# `tests/ArrayTest.cpp` and `splitTest` of `tests/StringTest.cpp` on the model

Left out: the part of `hashTest` with hash tables, compile-time assertions, and the two assertions in `indexTest` that use
`str_b[1]` and `str_c[1]` where `(*str_b)[1]` is meant (they read behind an object).
-/

namespace Bdlib.Tests.ArrayTest
open Bdlib Bdlib.Spec Bdlib.Rca Bdlib.Str Bdlib.Tests
open Bdlib.Nest (Conf P World withString buildArray)

/-! ## What the test functions share -/

def conf : Conf := ⟨cfg, fun n => n + n / 2, fun _ _ => true⟩

/-- An assertion. -/
def expectP (b : Bool) : P Unit := if b then pure () else P.undef

/-- A String outside arrays made by code of `String`. -/
def str (m : SM Nat) : P Nat := P.strs m
/-- `"..."` where a String is wanted. -/
def litP (xs : Bytes) : P Nat := str (cstrCtor cfg 0 xs)
/-- `a.push_back("...")`, `a << "..."`: the String is a temporary. -/
def push (a : Nat) (xs : Bytes) : P Unit := withString conf (litP xs) fun t => Nest.appendMove conf a t
/-- The bytes of a String. -/
def bytesIs (t : Nat) (xs : Bytes) : P Unit := do expectP ((← P.strs (contents t)) == xs)
/-- `CPPUNIT_ASSERT_STRING_EQUAL("...", a.pop())` -/
def popIs (a : Nat) (xs : Bytes) : P Unit := withString conf (Nest.pop conf a) fun t => bytesIs t xs
/-- `CPPUNIT_ASSERT_STRING_EQUAL(s, a.pop())` -/
def popEq (a s : Nat) : P Unit := withString conf (Nest.pop conf a) fun t => do expectP (← P.strs (eqP lib s t))
/-- `CPPUNIT_ASSERT_STRING_EQUAL("...", a[i])` -/
def elemIs (a i : Nat) (xs : Bytes) : P Unit := do bytesIs (← Nest.cell a i) xs
/-- `CPPUNIT_ASSERT_EQUAL(n, a.size())` -/
def sizeIs (a n : Nat) : P Unit := do expectP ((← P.arrs (Rca.length a)) == n)
/-- `a.capacity() >= n` -/
def capacityGe (a n : Nat) : P Unit := do expectP (decide (n ≤ (← P.arrs (Rca.capacity a))))
/-- `a.rcount()` -/
def rcA (a : Nat) (n : Int) : P Unit := do expectP ((← P.arrs (Rca.rcount a)) == n)
/-- `s.rcount()` -/
def rcS (s : Nat) (n : Int) : P Unit := do expectP ((← P.strs (Rca.rcount s)) == n)
/-- `a[i].rcount()` -/
def rcE (a i : Nat) (n : Int) : P Unit := do rcS (← Nest.cell a i) n
/-- `static_cast<String>(a[i]).rcount()`, `String(a[i]).rcount()`: of a copy. -/
def rcCopy (a i : Nat) (n : Int) : P Unit := withString conf (Nest.get a i) fun t => rcS t n
/-- `a.rptr() == b.rptr()` -/
def ptrA (a b : Nat) (same : Bool := true) : P Unit := do
  expectP (((← P.arrs (getObj a)).ref == (← P.arrs (getObj b)).ref) == same)
/-- `s.rptr() == t.rptr()` -/
def ptrS (s t : Nat) (same : Bool := true) : P Unit := do
  expectP (((← P.strs (getObj s)).ref == (← P.strs (getObj t)).ref) == same)
/-- `a[i].rptr() == b[j].rptr()` -/
def ptrE (a i b j : Nat) (same : Bool := true) : P Unit := do ptrS (← Nest.cell a i) (← Nest.cell b j) same
/-- `s.rptr() == a[i].rptr()` -/
def ptrSE (s a i : Nat) (same : Bool := true) : P Unit := do ptrS s (← Nest.cell a i) same
/-- `CPPUNIT_ASSERT_STRING_EQUAL("...", a.join("...", quoted))` -/
def joinIs (a : Nat) (xs : Bytes) (d : Bytes := b!" ") (quoted : Bool := false) : P Unit :=
  withString conf (litP d) fun t => withString conf (Nest.join conf a t quoted) fun s => bytesIs s xs
/-- `a = <temporary>` -/
def setTmp (a : Nat) (mk : P Nat) : P Unit := do
  let t ← mk
  Nest.moveAssign conf a t
  Nest.destroy conf t
/-- `a = <temporary const Array>`: the call operator on a `const Array`, and postfix `++` and `--`. -/
def setConst (a : Nat) (mk : P Nat) : P Unit := do
  let t ← mk
  Nest.copyAssign conf a t
  Nest.destroy conf t
/-- The Strings of an initializer list. -/
def lits : List Bytes → P (List Nat)
  | [] => return []
  | x :: xs => do
    let t ← litP x
    let ts ← lits xs
    return t :: ts
/-- `Array<String>{"...", ...}` -/
def ofList (xs : List Bytes) : P Nat := do
  let ts ← lits xs
  let a ← Nest.listCtor conf ts
  Nest.deletes conf ts
  return a
/-- `a[i] = "..."` -/
def setElem (a i : Nat) (xs : Bytes) : P Unit := withString conf (litP xs) fun t => Nest.writeMove conf a i t
/-- `CPPUNIT_ASSERT_ARRAY_EQUAL(a, b)` -/
def sameA (a b : Nat) : P Unit := do expectP (← Nest.eq lib a b)
/-- Nothing is left of a memory. -/
def clean {T : Type} (s : St T) : Bool := s.heap.all (·.isNone) && s.objs.all (·.isNone)
/-- Does the test end without a failed assertion, an exception or undefined behaviour? -/
def passesP (t : P Unit) : Bool :=
  match t {} with
  | .ok _ _ => true
  | _ => false
/-- Does it, with everything destroyed at the end? -/
def ok (t : P Unit) : Bool :=
  match t {} with
  | .ok _ w => clean w.strs && clean w.arrs
  | _ => false

/-- `std::copy(first, last, std::inserter(a, std::next(a.begin(), i)))`: `insert(const_iterator, const item&)` for each
(`ReferenceCountedArray.h` 1029-1033); with `i = size()` as `std::back_inserter` does. -/
def insertEach (a : Nat) : Nat → List Nat → P Unit
  | _, [] => return ()
  | i, h :: hs => do
    Nest.getOwnCopy conf a
    Nest.insertItem conf a i h
    Nest.getOwnCopy conf a
    insertEach a (i + 1) hs
/-- The same with move iterators. -/
def insertEachMove (a : Nat) : Nat → List Nat → P Unit
  | _, [] => return ()
  | i, h :: hs => do
    Nest.getOwnCopy conf a
    Nest.insertItemMove conf a i h
    Nest.getOwnCopy conf a
    insertEachMove a (i + 1) hs
/-- The constructor from two iterators (`ReferenceCountedArray.h` 563-571). -/
def ofRange (hs : List Nat) (move : Bool) : P Nat := do
  let a ← Nest.sizeCtor conf hs.length
  Nest.aboutToModify conf a hs.length
  if move then insertEachMove a 0 hs else insertEach a 0 hs
  Nest.getOwnCopy conf a
  return a
/-- The Strings in an array. -/
def elems (a : Nat) : P (List Nat) := do Nest.cells a 0 (← P.arrs (Rca.length a))
/-- `array1 + array2` (`Array.h` 257-260). -/
def plus (a b : Nat) : P Nat := do
  let p ← P.arrs (Rca.copyCtor a)
  Nest.appendArr conf p b npos
  let r ← P.arrs (Rca.moveCtor conf.hnd p)
  Nest.destroy conf p
  return r
/-- Postfix `++` on an rvalue (`Array.h` 279-282): the initializer list holds a copy of what `shift` returned. -/
def postIncMove (mk : P Nat) : P Nat := do
  let t ← mk
  let r ← withString conf (Nest.shift conf t) fun s => withString conf (Nest.newMove conf s) fun s' => Nest.listCtor conf [s']
  Nest.destroy conf t
  return r
/-- Postfix `--` on an rvalue (`Array.h` 301-304). -/
def postDecMove (mk : P Nat) : P Nat := do
  let t ← mk
  let r ← withString conf (Nest.pop conf t) fun s => withString conf (Nest.newMove conf s) fun s' => Nest.listCtor conf [s']
  Nest.destroy conf t
  return r
/-- `s = <temporary>.pop()`, `s = <temporary>.shift()` (`Array.h` 118-122, 135-139) with the index of the element. -/
def takeFrom (mk : P Nat) (i s : Nat) : P Unit := do
  let t ← mk
  withString conf (do Nest.newMove conf (← Nest.cell t i)) fun u => P.strs (Rca.moveAssign cfg s u)
  Nest.destroy conf t
/-- `s = <temporary String>` -/
def setS (s : Nat) (mk : P Nat) : P Unit := withString conf mk fun u => P.strs (Rca.moveAssign cfg s u)

/-- The arrays of the fixture. -/
abbrev A : Nat := 0
abbrev B : Nat := 1

/-- `setUp` (`tests/ArrayTest.cpp` 40-48). -/
def setUp : P Unit := do
  let _ ← P.arrs Rca.ctor
  let _ ← Nest.sizeCtor conf 20

/-- `tearDown` (`tests/ArrayTest.cpp` 50-56) with the local arrays and Strings of the test. -/
def tearDown (more ss : List Nat := []) : P Unit := do
  (A :: B :: more).forM (Nest.destroy conf)
  Nest.deletes conf ss

/-! ## The tests -/

/-- `sizeTest` (`tests/ArrayTest.cpp` 58-67) -/
def sizeTest : P Unit := do
  setUp
  sizeIs A 0
  sizeIs B 0
  capacityGe B 20
  tearDown

example : ok sizeTest = true := by decide +kernel

/-- `push_popTest` (`tests/ArrayTest.cpp` 69-155) -/
def push_popTest : P Unit := do
  setUp
  push A b!"Test1"
  sizeIs A 1
  push A b!"Test2"
  sizeIs A 2
  capacityGe A 2
  popIs A b!"Test2"
  popIs A b!"Test1"
  sizeIs A 0
  capacityGe A 2
  let foo ← litP b!"Test2"
  Nest.append conf A foo
  popIs A b!"Test2"
  bytesIs foo b!"Test2"
  sizeIs A 0
  Nest.appendMove conf A foo
  popIs A b!"Test2"
  bytesIs foo b!""
  sizeIs A 0
  let a ← litP b!"Testa"
  let b ← litP b!"Testb"
  let c ← Nest.newCopy b
  Nest.append conf A a
  Nest.append conf A a
  Nest.delete conf (← Nest.pop conf A)
  Nest.append conf A b
  Nest.append conf A a
  Nest.append conf A b
  Nest.append conf A b
  sizeIs A 5
  let res ← Nest.pop conf A
  expectP (← P.strs (eqP lib b res))
  sizeIs A 4
  P.strs (addS b b!"changed")
  Nest.popTo conf A res
  sizeIs A 3
  expectP (← P.strs (eqP lib c res))
  P.strs (Rca.dropBack b 7)
  popEq A a
  sizeIs A 2
  popEq A b
  sizeIs A 1
  popEq A a
  sizeIs A 0
  push A b!"1"
  push A b!"2"
  push A b!"3"
  push A b!"4"
  joinIs A b!"1 2 3 4"
  let hm ← str Rca.ctor
  setS hm (Nest.pop conf A)
  joinIs A b!"1 2 3"
  bytesIs hm b!"4"
  sizeIs A 3
  setS hm (Nest.shift conf A)
  joinIs A b!"2 3"
  bytesIs hm b!"1"
  sizeIs A 2
  takeFrom (ofList [b!"Test0", b!"Test1"]) 1 hm
  bytesIs hm b!"Test1"
  takeFrom (ofList [b!"Test0", b!"Test1"]) 0 hm
  bytesIs hm b!"Test0"
  setTmp A (P.arrs Rca.ctor)
  push A b!"Test"
  push A b!"1 2 3"
  push A b!"Last 1"
  joinIs A b!"\"Test\" \"1 2 3\" \"Last 1\"" b!" " true
  tearDown [] [foo, a, b, c, res, hm]

example : ok push_popTest = true := by decide +kernel

/-- `arrayConsTest` (`tests/ArrayTest.cpp` 157-166, the part with Strings) -/
def arrayConsTest : P Unit := do
  setUp
  let ts ← lits [b!"2Test1", b!"2Test2", b!"2Test3"]
  let C ← Nest.listCtor conf (ts.take 2)
  sizeIs C 2
  popIs C b!"2Test2"
  sizeIs C 1
  popIs C b!"2Test1"
  sizeIs C 0
  tearDown [C] ts

example : ok arrayConsTest = true := by decide +kernel

/-- `joinTest` (`tests/ArrayTest.cpp` 263-274) -/
def joinTest : P Unit := do
  setUp
  push A b!"Test1"
  push A b!"Test2"
  push A b!"Test3"
  joinIs A b!"Test1 Test2 Test3"
  sizeIs A 3
  popIs A b!"Test3"
  popIs A b!"Test2"
  popIs A b!"Test1"
  sizeIs A 0
  tearDown

example : ok joinTest = true := by decide +kernel

/-- `compareTest` (`tests/ArrayTest.cpp` 276-286) -/
def compareTest : P Unit := do
  setUp
  push A b!"Test1"
  push A b!"Test2"
  push B b!"Test1"
  expectP !(← Nest.eq lib A B)
  push B b!"Test2"
  expectP (← Nest.eq lib A B)
  tearDown

example : ok compareTest = true := by decide +kernel

/-- `findTest` (`tests/ArrayTest.cpp` 288-295) -/
def findTest : P Unit := do
  setUp
  push A b!"Test1"
  push A b!"Test2"
  withString conf (litP b!"Test3") fun t => do expectP ((← Nest.find lib A t) == npos)
  withString conf (litP b!"Test1") fun t => do expectP ((← Nest.find lib A t) == 0)
  withString conf (litP b!"Test2") fun t => do expectP ((← Nest.find lib A t) == 1)
  tearDown

example : ok findTest = true := by decide +kernel

/-- `indexTest` (`tests/ArrayTest.cpp` 297-565; assertions about the counting variables alone are left out) -/
def indexTest : P Unit := do
  setUp
  let C ← Nest.sizeCtor conf 20
  push A b!"Test1"
  push A b!"Test2"
  elemIs A 0 b!"Test1"
  elemIs A 1 b!"Test2"
  Nest.copyAssign conf B A
  Nest.copyAssign conf C A
  rcA A 3
  rcA B 3
  rcA C 3
  ptrA A B
  ptrA A C
  ptrE A 1 B 1
  ptrE B 1 C 1
  let a ← litP b!"Test5"
  let b ← Nest.newCopy a
  ptrS a b
  Nest.write conf A 1 a
  ptrS a b
  ptrSE a A 1
  ptrSE b A 1
  ptrE B 1 C 1
  ptrA B C
  rcA A 1
  rcA B 2
  rcS a 3
  rcS b 3
  ptrSE a A 1
  elemIs A 0 b!"Test1"
  elemIs A 1 b!"Test5"
  rcA A 1
  rcA B 2
  expectP (← P.strs (eqP lib a b))
  rcS a 3
  rcCopy A 1 4
  rcE A 1 3
  rcA A 1
  rcA B 2
  rcCopy A 1 4
  rcS a 3
  rcA A 1
  rcA B 2
  elemIs B 0 b!"Test1"
  elemIs B 1 b!"Test2"
  rcA A 1
  rcA B 2
  rcE B 1 1
  rcCopy B 1 2
  rcA A 1
  rcA B 2
  rcS a 3
  let d ← Nest.get B 1
  bytesIs d b!"Test2"
  ptrA B C
  ptrE B 1 C 1
  ptrSE d C 1
  rcCopy B 1 3
  rcS d 2
  rcCopy B 1 3
  Nest.delete conf d
  let c ← Nest.get B 1
  elemIs B 1 b!"Test2"
  elemIs C 1 b!"Test2"
  bytesIs c b!"Test2"
  ptrA B C
  ptrE B 1 C 1
  ptrSE c C 1
  rcCopy B 1 3
  rcS c 2
  Nest.write conf B 1 a
  ptrA B C false
  ptrSE a B 1
  ptrSE c C 1
  bytesIs c b!"Test2"
  rcS c 2
  rcS a 4
  rcS b 4
  ptrSE a A 1
  ptrSE a B 1
  ptrSE a C 1 false
  rcA A 1
  rcA B 1
  rcA C 1
  expectP !(← P.strs (eqP lib (← Nest.cell B 1) (← Nest.cell C 1)))
  bytesIs c b!"Test2"
  elemIs C 1 b!"Test2"
  elemIs B 1 b!"Test5"
  rcS b 4
  rcCopy A 1 5
  rcS a 4
  rcCopy B 1 5
  rcS a 4
  rcCopy A 1 5
  rcCopy B 1 5
  rcS a 4
  Nest.copyAssign conf C B
  rcA A 1
  rcA B 2
  rcA C 2
  ptrA B C
  rcS a 4
  rcS b 4
  rcCopy A 1 5
  rcCopy B 1 5
  ptrSE a B 1
  ptrSE b B 1
  ptrE B 1 A 1
  ptrE B 1 C 1
  let e ← litP b!"StringE"
  let _ ← Nest.modify conf B 1 fun t => .copyAssign t e
  rcA A 1
  rcA B 1
  rcA C 1
  ptrA B C false
  rcS a 4
  rcS b 4
  rcCopy A 1 5
  rcS e 2
  rcCopy B 1 3
  rcE B 1 2
  ptrSE e B 1
  ptrSE a B 1 false
  ptrE B 1 A 1 false
  ptrE B 1 C 1 false
  ptrE A 1 C 1
  tearDown [C] [a, b, c, e]

example : ok indexTest = true := by decide +kernel

/-- `subArrayTest` (`tests/ArrayTest.cpp` 567-605) -/
def subArrayTest : P Unit := do
  setUp
  [b!"Test0", b!"Test1", b!"Test2", b!"Test3", b!"Test4", b!"Test5", b!"Test6", b!"Test7"].forM (push A)
  let C ← P.arrs Rca.ctor
  Nest.copyAssign conf C A
  setTmp B (Nest.subarray A 0 2)
  sameA C A
  sizeIs A 8
  sizeIs B 2
  elemIs B 0 b!"Test0"
  elemIs B 1 b!"Test1"
  popIs B b!"Test1"
  elemIs B 0 b!"Test0"
  sizeIs B 1
  let inplaceTest ← P.arrs Rca.ctor
  [b!"TEST0", b!"TEST1", b!"TEST2", b!"TEST3"].forM (push inplaceTest)
  Nest.copyAssign conf B A
  Nest.replaceArr conf B 0 inplaceTest 2
  let expectedResults ← P.arrs (Rca.copyCtor A)
  setElem expectedResults 0 b!"TEST0"
  setElem expectedResults 1 b!"TEST1"
  sizeIs A 8
  sizeIs B 8
  sameA B expectedResults
  tearDown [C, inplaceTest, expectedResults]

example : ok subArrayTest = true := by decide +kernel

/-- `resizeTest` (`tests/ArrayTest.cpp` 607-615. Something is left at the end: `resize(n, value)` constructs over the elements that are there (C79)) -/
def resizeTest : P Unit := do
  setUp
  let foo ← litP b!"foo"
  P.arrs (Rca.clear A)
  Nest.resizeFill conf A 5 foo
  sizeIs A 5
  elemIs A 0 b!"foo"
  rcS foo 6
  tearDown [] [foo]

example : passesP resizeTest = true := by decide +kernel

/-- `hashTest` (`tests/ArrayTest.cpp` 617-644, the part without hash tables) -/
def hashTest : P Unit := do
  setUp
  let C ← P.arrs Rca.ctor
  push A b!"test"
  push A b!"test2"
  push B b!"test"
  push B b!"test2"
  Nest.copyAssign conf C B
  expectP ((← Nest.hash conf A) == (← Nest.hash conf B))
  expectP ((← Nest.hash conf A) == (← Nest.hash conf C))
  expectP ((← Nest.hash conf B) == (← Nest.hash conf C))
  P.arrs (Rca.clear A)
  P.arrs (Rca.clear B)
  push A b!"test"
  push A b!"test1"
  push B b!"test"
  Nest.copyAssign conf C B
  expectP ((← Nest.hash conf A) != (← Nest.hash conf B))
  expectP ((← Nest.hash conf A) != (← Nest.hash conf C))
  expectP ((← Nest.hash conf B) == (← Nest.hash conf C))
  P.arrs (Rca.clear B)
  setTmp B (Nest.subarray A 0 1)
  expectP ((← Nest.hash conf A) != (← Nest.hash conf B))
  setTmp B (Nest.subarray A 0 2)
  expectP ((← Nest.hash conf A) == (← Nest.hash conf B))
  Nest.copyAssign conf B A
  tearDown [C]

example : ok hashTest = true := by decide +kernel

/-- `operatorsTest` (`tests/ArrayTest.cpp` 675-728) -/
def operatorsTest : P Unit := do
  setUp
  push A b!"1"
  push A b!"2"
  push B b!"3"
  push B b!"4"
  let C ← P.arrs Rca.ctor
  setTmp C (plus A B)
  joinIs C b!"1 2 3 4"
  sizeIs C 4
  P.arrs (Rca.arrDropFront C 1)
  joinIs C b!"2 3 4"
  sizeIs C 3
  setElem B 0 b!"5"
  setElem B 1 b!"6"
  Nest.appendArr conf C B npos
  joinIs C b!"2 3 4 5 6"
  sizeIs C 5
  setConst B (P.arrs (postDecA conf.hnd C))
  joinIs B b!"6"
  joinIs C b!"2 3 4 5"
  sizeIs B 1
  sizeIs C 4
  P.arrs (Rca.popBack C)
  joinIs C b!"2 3 4"
  sizeIs C 3
  P.arrs (Rca.arrDropFront C 1)
  joinIs C b!"3 4"
  sizeIs C 2
  setConst B (P.arrs (postIncA conf.hnd C))
  sizeIs C 1
  joinIs B b!"3"
  joinIs C b!"4"
  setTmp B (postIncMove (ofList [b!"Test0", b!"Test1"]))
  sizeIs B 1
  joinIs B b!"Test0"
  setTmp B (postDecMove (ofList [b!"Test0", b!"Test1"]))
  sizeIs B 1
  joinIs B b!"Test1"
  tearDown [C]

example : ok operatorsTest = true := by decide +kernel

/-- `initializerTest` (`tests/ArrayTest.cpp` 739-746, the part with Strings) -/
def initializerTest : P Unit := do
  setUp
  let ts ← lits [b!"0", b!"1", b!"2", b!"3"]
  Nest.assignList conf A ts
  Nest.deletes conf ts
  sizeIs A 4
  elemIs A 0 b!"0"
  elemIs A 1 b!"1"
  elemIs A 2 b!"2"
  elemIs A 3 b!"3"
  tearDown

example : ok initializerTest = true := by decide +kernel

/-- `iteratorTest` (`tests/ArrayTest.cpp` 748-894; the first loop only reads) -/
def iteratorTest : P Unit := do
  setUp
  [b!"1", b!"2", b!"3", b!"4"].forM (push A)
  Nest.getOwnCopy conf A
  elemIs A 0 b!"1"
  elemIs A 1 b!"2"
  elemIs A 2 b!"3"
  elemIs A 3 b!"4"
  let C ← P.arrs Rca.ctor
  Nest.copyAssign conf B A
  Nest.copyAssign conf C B
  rcA A 3
  rcA B 3
  rcA C 3
  (← elems A).forM (Nest.append conf C)
  rcA A 2
  rcA B 2
  rcA C 1
  sizeIs C 8
  elemIs C 0 b!"1"
  elemIs C 1 b!"2"
  elemIs C 2 b!"3"
  elemIs C 3 b!"4"
  elemIs C 4 b!"1"
  elemIs C 5 b!"2"
  elemIs C 6 b!"3"
  elemIs C 7 b!"4"
  Nest.copyAssign conf B A
  Nest.copyAssign conf C B
  rcA A 3
  rcA B 3
  rcA C 3
  insertEach C 1 (← elems A)
  rcA A 2
  rcA B 2
  rcA C 1
  sizeIs C 8
  elemIs C 0 b!"1"
  elemIs C 1 b!"1"
  elemIs C 2 b!"2"
  elemIs C 3 b!"3"
  elemIs C 4 b!"4"
  elemIs C 5 b!"2"
  elemIs C 6 b!"3"
  elemIs C 7 b!"4"
  Nest.copyAssign conf C A
  P.arrs (Rca.clear A)
  [b!"A", b!"B", b!"C", b!"D"].forM (push A)
  Nest.copyAssign conf B A
  rcA A 2
  rcA B 2
  rcA C 1
  (← elems A).forM (Nest.insertItem conf C 0)
  rcA A 2
  rcA B 2
  rcA C 1
  sizeIs C 8
  elemIs C 0 b!"D"
  elemIs C 1 b!"C"
  elemIs C 2 b!"B"
  elemIs C 3 b!"A"
  elemIs C 4 b!"1"
  elemIs C 5 b!"2"
  elemIs C 6 b!"3"
  elemIs C 7 b!"4"
  let D ← ofRange (← elems C) false
  sameA C D
  sizeIs C 8
  elemIs C 0 b!"D"
  elemIs C 1 b!"C"
  elemIs C 2 b!"B"
  elemIs C 3 b!"A"
  elemIs C 4 b!"1"
  elemIs C 5 b!"2"
  elemIs C 6 b!"3"
  elemIs C 7 b!"4"
  let v_a ← lits [b!"A", b!"B", b!"C", b!"D"]
  let E ← ofRange v_a true
  elemIs E 0 b!"A"
  elemIs E 1 b!"B"
  elemIs E 2 b!"C"
  elemIs E 3 b!"D"
  sizeIs E 4
  v_a.forM (bytesIs · b!"")
  P.arrs (Rca.clear A)
  [b!"A", b!"B", b!"C", b!"D"].forM (push A)
  Nest.getOwnCopy conf A
  let F ← ofRange (← elems A) true
  elemIs F 0 b!"A"
  elemIs F 1 b!"B"
  elemIs F 2 b!"C"
  elemIs F 3 b!"D"
  sizeIs F 4
  rcE A 0 0
  elemIs A 0 b!""
  elemIs A 1 b!""
  elemIs A 2 b!""
  elemIs A 3 b!""
  sizeIs A 4
  setElem A 0 b!"what"
  elemIs F 0 b!"A"
  elemIs A 0 b!"what"
  tearDown [C, D, E, F] v_a

example : ok iteratorTest = true := by decide +kernel

/-- `list = s.split(delim, limit)` -/
def splitTo (s l : Nat) (d : Bytes) (limit : Nat := npos) : P Unit :=
  withString conf (litP d) fun t => setTmp l (Nest.split conf lib 100 s t limit)

/-- `splitTest` (`tests/StringTest.cpp` 1875-1969) -/
def splitTest : P Unit := do
  let a ← str Rca.ctor
  let l ← P.arrs Rca.ctor
  P.strs (set a b!"1 2 3 4")
  splitTo a l b!" " 
  sizeIs l 4
  popIs l b!"4"
  sizeIs l 3
  popIs l b!"3"
  sizeIs l 2
  popIs l b!"2"
  sizeIs l 1
  popIs l b!"1"
  sizeIs l 0
  bytesIs a b!"1 2 3 4"
  P.strs (set a b!"1 2 3 4")
  splitTo a l b!" " 4
  sizeIs l 4
  popIs l b!"4"
  sizeIs l 3
  popIs l b!"3"
  sizeIs l 2
  popIs l b!"2"
  sizeIs l 1
  popIs l b!"1"
  sizeIs l 0
  bytesIs a b!"1 2 3 4"
  P.strs (set a b!"1 2 3 4")
  splitTo a l b!" " 3
  sizeIs l 3
  popIs l b!"3 4"
  sizeIs l 2
  popIs l b!"2"
  sizeIs l 1
  popIs l b!"1"
  sizeIs l 0
  bytesIs a b!"1 2 3 4"
  P.strs (set a b!"1 2 3 4")
  splitTo a l b!" " 2
  sizeIs l 2
  popIs l b!"2 3 4"
  sizeIs l 1
  popIs l b!"1"
  sizeIs l 0
  bytesIs a b!"1 2 3 4"
  P.strs (set a b!"1 2 3 4")
  splitTo a l b!" " 1
  sizeIs l 1
  popIs l b!"1 2 3 4"
  sizeIs l 0
  bytesIs a b!"1 2 3 4"
  P.strs (set a b!"  1   2   3   4  ")
  splitTo a l b!" " 
  sizeIs l 4
  popIs l b!"4"
  sizeIs l 3
  popIs l b!"3"
  sizeIs l 2
  popIs l b!"2"
  sizeIs l 1
  popIs l b!"1"
  sizeIs l 0
  bytesIs a b!"  1   2   3   4  "
  P.strs (set a b!"  1   2   3   4  ")
  splitTo a l b!" " 2
  sizeIs l 2
  popIs l b!"2   3   4  "
  sizeIs l 1
  popIs l b!"1"
  sizeIs l 0
  bytesIs a b!"  1   2   3   4  "
  P.strs (set a b!"1--2--3--4")
  splitTo a l b!"--" 
  sizeIs l 4
  popIs l b!"4"
  sizeIs l 3
  popIs l b!"3"
  sizeIs l 2
  popIs l b!"2"
  sizeIs l 1
  popIs l b!"1"
  sizeIs l 0
  bytesIs a b!"1--2--3--4"
  Nest.destroy conf l
  Nest.delete conf a

example : ok splitTest = true := by decide +kernel

/-! ## `Array<int>` -/

def cfgI : Cfg Int where
  nul := none
  slack := 0
  junk := fun _ _ => 12345
  moved := id
  scale := fun n => n + n / 2
  allocOk := fun _ _ => true
  resetMoved := true
  hasher := fun x => x.toNat.toUInt64
  wipe := fun _ _ => 0

def expectI (b : Bool) : M Int Unit := if b then pure () else M.undef
def sizeI (o n : Nat) : M Int Unit := do expectI ((← length o) == n)
def rcI (o : Nat) (n : Int) : M Int Unit := do expectI ((← rcount o) == n)
def popI (o : Nat) (x : Int) : M Int Unit := do expectI ((← pop cfgI o) == some x)
def atI (o i : Nat) (x : Int) : M Int Unit := do expectI ((← read o i) == some x)
/-- `CPPUNIT_ASSERT_THROW(m, std::out_of_range)` -/
def throwsI {α : Type} (m : M Int α) : M Int Unit := fun s =>
  match m s with
  | .throw .outOfRange t => .ok () t
  | _ => .ub
def okI (t : M Int Unit) : Bool :=
  match t {} with
  | .ok _ s => clean s
  | _ => false
/-- 0, 1, ... 9 -/
def ten : List Int := (List.range 10).map Int.ofNat
/-- Lengths and reference counts of `int_a` to `int_d`. -/
def state (xs : List (Nat × Int)) : M Int Unit := (xs.zip (List.range 4)).forM fun x => do
  sizeI x.2 x.1.1
  rcI x.2 x.1.2

/-- `arrayConsTest` (`tests/ArrayTest.cpp` 168-177, the part with numbers) -/
def arrayConsTestI : M Int Unit := do
  let d ← listCtor cfgI [1, 2, 0]
  sizeI d 3
  popI d 0
  sizeI d 2
  popI d 2
  sizeI d 1
  popI d 1
  sizeI d 0
  destroy cfgI d

example : okI arrayConsTestI = true := by decide +kernel

/-- `clearTest` (`tests/ArrayTest.cpp` 179-188) -/
def clearTest : M Int Unit := do
  let a ← ctor
  ten.forM (append cfgI a)
  sizeI a 10
  clear a
  sizeI a 0
  throwsI (at' a 0)
  destroy cfgI a

example : okI clearTest = true := by decide +kernel

/-- `refTest` (`tests/ArrayTest.cpp` 191-261) -/
def refTest : M Int Unit := do
  let a ← ctor
  let b ← ctor
  let c ← ctor
  ten.forM (append cfgI a)
  state [(10, 1)]
  copyAssign b a
  state [(10, 2), (10, 2)]
  let d ← ctor
  copyAssign d a
  copyAssign c a
  state [(10, 4), (10, 4), (10, 4), (10, 4)]
  append cfgI b 99
  state [(10, 3), (11, 1), (10, 3), (10, 3)]
  ten.reverse.forM (popI a)
  state [(0, 3), (11, 1), (10, 3), (10, 3)]
  popI b 99
  (ten.drop 1).reverse.forM (popI b)
  state [(0, 3), (1, 1), (10, 3), (10, 3)]
  copyAssign b c
  state [(0, 4), (10, 4), (10, 4), (10, 4)]
  [a, b, c, d].forM (destroy cfgI)

example : okI refTest = true := by decide +kernel

/-- `initializerTest` (`tests/ArrayTest.cpp` 730-737, the part with numbers) -/
def initializerTestI : M Int Unit := do
  let a ← listCtor cfgI [0, 1, 2, 3]
  sizeI a 4
  atI a 0 0
  atI a 1 1
  atI a 2 2
  atI a 3 3
  destroy cfgI a

example : okI initializerTestI = true := by decide +kernel

end Bdlib.Tests.ArrayTest
