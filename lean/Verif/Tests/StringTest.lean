import Verif.Tests.Harness
import Verif.Props.C107

/-!
# `tests/StringTest.cpp` on the model

Every test function but `printfTest` (`vsnprintf` is not modelled) and `splitTest` (`Tests/ArrayTest.lean`).  Left out
within the functions: assertions about `std::string` alone, compile-time assertions, and the random data of `base64Test`.
-/

namespace Bdlib.Tests.StringTest
open Bdlib Bdlib.Spec Bdlib.Rca Bdlib.Str Bdlib.Tests

/-- The objects of the fixture. -/
abbrev a : Nat := 0
abbrev b : Nat := 1
abbrev c : Nat := 2
abbrev d : Nat := 3
abbrev e : Nat := 4
abbrev f : Nat := 5
abbrev g : Nat := 6
abbrev h : Nat := 7
abbrev cstring : Bytes := b!"Some static cstring to play with"

/-- `setUp` (`tests/StringTest.cpp` 46-58). -/
def setUp : SM Unit := do
  let _ ← ctor
  let _ ← cstrCtor cfg 0 b!"blah"
  let _ ← copyCtor b
  let _ ← cstrCtor cfg 0 cstring
  let _ ← copyCtor d
  let _ ← strCtor cfg 0 (cstring.take 11)
  let _ ← charCtor cfg 0 120
  let _ ← sizeCtor cfg 35

/-- `tearDown` (`tests/StringTest.cpp` 60-65). -/
def tearDown : SM Unit := [a, b, c, d, e, f, g, h].forM (destroy cfg)

/-- `s.compare("...", n)` (`String.cpp` 78-96). -/
def compareS (o : Nat) (xs : Bytes) (n : Nat := npos) : SM Int := do
  let v ← contents o
  liftE (if n = npos then compareC v (xs ++ [0]) else compareCN v (xs ++ [0]) n)

/-- `tolower` of the C locale. -/
def tolower (x : UInt8) : UInt8 := if 65 ≤ x ∧ x ≤ 90 then x + 32 else x

/-- `s.rptr() == t.rptr()` -/
def same? (o r : Nat) : SM Bool := do return (← getObj o).ref == (← getObj r).ref

/-- Some of the bytes 0 to 254. -/
def bytes : Bytes := [0, 1, 2, 9, 10, 13, 32, 48, 97, 127, 128, 129, 200, 252, 253, 254]

/-- `n` characters from `'a'` on. -/
def alphabet (n : Nat) : Bytes := (List.range n).map fun k => (97 + k).toUInt8

/-- `lengthTest` (`tests/StringTest.cpp` 66-79). -/
def lengthTest : SM Unit := do
  setUp
  len a 0
  len b 4
  gives (length b) (← length c)
  len d cstring.length
  gives (length d) (← length e)
  len f 11
  len g 1
  len h 0
  gives (do return decide ((← length g) ≠ 0)) true
  tearDown

example : passes lengthTest = true := by decide +kernel

/-- `clearTest` (`tests/StringTest.cpp` 81-103). -/
def clearTest : SM Unit := do
  setUp
  set b b!"test"
  assign a b
  len b 4
  clear b
  len b 0
  gives (do return decide ((← length b) = 0)) true
  set b b!"TEST1234"
  len b 8
  gives (do return decide ((← length b) = 0)) false
  clear b
  len b 0
  gives (do return decide ((← length b) = 0)) true
  len a 4
  clear a
  len a 0
  gives (do return decide ((← length a) = 0)) true
  tearDown

example : passes clearTest = true := by decide +kernel

/-- `capacityTest` (`tests/StringTest.cpp` 106-119). -/
def capacityTest : SM Unit := do
  setUp
  capGe b 4
  gives (capacity b) (← capacity c)
  capGe d cstring.length
  gives (capacity d) (← capacity e)
  capGe f 11
  capGe g 1
  capGe h 35
  assign a empty
  capGe a 0
  tearDown

example : passes capacityTest = true := by decide +kernel

/-- `compareTest` (`tests/StringTest.cpp` 121-153). -/
def compareTest : SM Unit := do
  setUp
  gives (compareS b b!"blah") 0
  gives (compareS b b!"" 0) 0
  gives (compareS b b!"Q" 0) 0
  gives (compareS b b!"b" 1) 0
  gives (compareS b b!"bQ" 1) 0
  gives (compareS b b!"bl" 2) 0
  gives (compareS b b!"blQ" 2) 0
  gives (compareS b b!"bla" 3) 0
  gives (compareS b b!"blaQ" 3) 0
  gives (compareS b b!"blah" 4) 0
  gives (compareS b b!"blahQ" 4) 0
  gives (do return decide ((← compareS b b!"bla" 4) > 0)) true
  gives (do return decide ((← compareS b b!"blahQ" 5) < 0)) true
  gives (compareS b b!"blahQ" 4) 0
  gives (compareS d cstring) 0
  gives (compareS f cstring 11) 0
  gives (do return decide ((← compareS f cstring) < 0)) true
  gives (do return decide ((← compareP lib d f) > 0)) true
  gives (compareP lib b c) 0
  gives ((lit b!"abc").use fun x => (lit b!"def").use fun y => do return decide ((← compareP lib x y) < 0)) true
  gives ((lit b!"abc").use fun x => (lit b!"abcdef").use fun y => do return decide ((← compareP lib x y) < 0)) true
  set a b!"fool"
  assign b a
  gives ((sub b 0 3).use fun t => do return decide ((← compareP lib a t) > 0)) true
  gives ((sub b 0 3).use fun t => do liftE (compareN lib (← sameStart a t) (← contents a) (← contents t) 3)) 0
  tearDown

example : passes compareTest = true := by decide +kernel

/-- `refTest` (`tests/StringTest.cpp` 155-207). -/
def refTest : SM Unit := do
  setUp
  set a b!"Test 1 2 3"
  rc a 1
  assign b a
  rc a 2
  rc b 2
  assign c b
  rc a 3
  rc b 3
  rc c 3
  set c b!"test"
  rc a 2
  rc b 2
  rc c 1
  clear c
  rc a 2
  rc b 2
  assign b c
  rc a 1
  rc b 2
  rc c 2
  assign b a
  rc a 2
  rc b 2
  assign b (chr 99)
  rc a 1
  rc b 1
  assign b a
  set c b!"test"
  rc a 2
  rc b 2
  rc c 1
  let my_string_ ← moveCtor cfg a
  rc my_string_ 2
  rc a 0
  rc b 2
  rc c 1
  moveAssign cfg d my_string_
  rc d 2
  rc my_string_ 0
  rc a 0
  rc b 2
  rc c 1
  tearDown

example : passes refTest = true := by decide +kernel

/-- `swapTest` (`tests/StringTest.cpp` 209-219). -/
def swapTest : SM Unit := do
  setUp
  set a b!"this is a"
  set b b!"THIS IS B"
  Rca.swap a b
  is a b!"THIS IS B"
  is b b!"this is a"
  tearDown

example : passes swapTest = true := by decide +kernel

/-- `equalTest` (`tests/StringTest.cpp` 221-237). -/
def equalTest : SM Unit := do
  setUp
  same b c
  same b (lit b!"blah")
  is b b!"blah"
  same d (lit cstring)
  is d cstring
  same e (lit cstring)
  is e cstring
  same g (chr 120)
  same (chr 120) g
  same g (lit b!"x")
  is g b!"x"
  gives (eqP lib b c) true
  gives (do return decide ((← length a) = 0)) true
  gives (do return decide ((← length b) = 0)) false
  tearDown

example : passes equalTest = true := by decide +kernel

/-- `setTest` (`tests/StringTest.cpp` 239-273). -/
def setTest : SM Unit := do
  setUp
  set a b!"blah"
  is a b!"blah"
  same a b
  is d cstring
  set h cstring
  is h cstring
  same d h
  set a b!"  "
  is a b!"  "
  assign b (chr 32)
  is b b!" "
  is c b!"blah"
  assign b c
  same c b
  is b b!"blah"
  assign b b
  same c b
  is b b!"blah"
  let foo_ ← strCtor cfg 0 b!"test"
  is foo_ b!"test"
  len foo_ 4
  assignStd cfg 0 foo_ b!"blah"
  is foo_ b!"blah"
  len foo_ 4
  assignStd cfg 0 foo_ b!"test\x00h"
  same (strN b!"test\x00h") foo_
  len foo_ 6
  tearDown

example : passes setTest = true := by decide +kernel

/-- `c_strTest` (`tests/StringTest.cpp` 275-344). -/
def c_strTest : SM Unit := do
  setUp
  len b 4
  capGe b 5
  charIs b 0 98
  charIs b 1 108
  charIs b 2 97
  charIs b 3 104
  charIs b 4 0
  cs b b!"blah"
  cs c b!"blah"
  cs d cstring
  cs e cstring
  gives (cStr cfg 0 f) (cstring.take 11 ++ [0])
  set f b!"TESTING 1 2 3 4"
  gives (toStdP f) b!"TESTING 1 2 3 4"
  Rca.write cfg f 2 115
  cs f b!"TEsTING 1 2 3 4"
  Rca.write cfg f 2 83
  assign a (sub f 2 5)
  cs a b!"STING"
  gives (dupP a true fun _ => 170) (b!"STING" ++ [0])
  cs (lit b!"TEST") b!"TEST"
  set c b!"something"
  reservePub cfg c 16
  assign a (sub c 0 ((← length c) - 1))
  dropFront a 3
  assign b a
  cs c b!"something"
  cs a b!"ethin"
  cs b b!"ethin"
  assign b (sub a 0 4)
  cs c b!"something"
  cs b b!"ethi"
  cs a b!"ethin"
  dropFront b 1
  addS b b!"foo"
  cs c b!"something"
  cs b b!"thifoo"
  cs a b!"ethin"
  assign b c
  dropFront b 1
  addS b b!"foo"
  cs c b!"something"
  cs b b!"omethingfoo"
  cs a b!"ethin"
  assign b c
  dropBack b 2
  dropFront b 2
  cs c b!"something"
  cs b b!"methi"
  cs a b!"ethin"
  tearDown

example : passes c_strTest = true := by decide +kernel

/-- `hasIndexTest` (`tests/StringTest.cpp` 346-380). -/
def hasIndexTest : SM Unit := do
  setUp
  throws (at' a 0)
  throws (at' a 1)
  quiet (at' b 3)
  throws (at' b 4)
  quiet (at' f 10)
  throws (at' f 11)
  set a b!"test"
  resize cfg a 0
  quiet (Rca.read a 0)
  throws (at' a 0)
  throws (at' a 1)
  len a 0
  quiet (insertItem cfg a 0 99)
  resize cfg a 0
  throws (insertItem cfg a 1 99)
  resize cfg a 0
  quiet (replaceItem cfg a 0 99)
  resize cfg a 0
  throws (replaceItem cfg a 1 99)
  resize cfg a 0
  quiet (Rca.write cfg a 0 99)
  throws (at' a 0)
  resize cfg a 0
  quiet (Rca.write cfg a 1 99)
  throws (at' a 0)
  throws (at' a 1)
  quiet (Rca.read a 0)
  quiet (Rca.read a 1)
  tearDown

example : passes hasIndexTest = true := by decide +kernel

/-- `charAtTest` (`tests/StringTest.cpp` 382-389). -/
def charAtTest : SM Unit := do
  setUp
  gives (at' b 0) (some 98)
  gives (at' b 3) (some 104)
  throws (at' b 4)
  gives (at' d 5) cstring[5]?
  gives (at' g 0) (some 120)
  tearDown

example : passes charAtTest = true := by decide +kernel

/-- `indexTest` (`tests/StringTest.cpp` 391-428). -/
def indexTest : SM Unit := do
  setUp
  charIs b 0 98
  charIs b 3 104
  gives (Rca.read d 5) cstring[5]?
  charIs g 0 120
  set a b!"This is a test"
  assign b a
  Rca.write cfg b 0 116
  Rca.write cfg b 1 72
  crefAssign cfg b 2 b 1
  (Src.tmp (copyCtor a)).use fun t => crefAssign cfg b 3 t 0
  crefAssign cfg b 5 a 6
  charIs a 6 115
  Rca.write cfg b 7 97
  crefAssign cfg b 6 b 7
  charIs b 6 97
  charIs b 7 97
  crefAssign cfg b 7 a 0
  crefAssign cfg b 6 b 7
  crefAssign cfg b 6 b 6
  crefAssign cfg b 6 b 6
  is a b!"This is a test"
  is b b!"tHHT sTTa test"
  let _constString_ ← decl (lit b!"THIS CANNOT BE MODIFIED")
  tearDown

example : passes indexTest = true := by decide +kernel

/-- `iteratorTest` (`tests/StringTest.cpp` 430-531). -/
def iteratorTest : SM Unit := do
  setUp
  set b b!"this is just a TEST"
  assign a b
  (List.range 19).forM fun i => do
      match ← Rca.read a i with
      | some x => Rca.write cfg a i (lib.toupper x)
      | none => M.undef
  is a b!"THIS IS JUST A TEST"
  is b b!"this is just a TEST"
  (List.range 18).forM fun i => do
      match ← Rca.read a i with
      | some x => do
        Rca.write cfg b (i + 1) (tolower x)
        crefAssign cfg a i b (i + 1)
      | none => M.undef
  is a b!"this is just a tesT"
  is b b!"tthis is just a tes"
  let foo1_ ← ctor
  let foo2_ ← ctor
  set a b!"Test original string here which should not be modified"
  assign b a
  assign foo2_ a
  assign foo1_ foo2_
  is a b!"Test original string here which should not be modified"
  is foo1_ b!"Test original string here which should not be modified"
  rc foo1_ 4
  rc foo2_ 4
  rc a 4
  rc b 4
  b!"a long std::string is here".forM fun x => append cfg foo1_ x
  is a b!"Test original string here which should not be modified"
  is foo1_ b!"Test original string here which should not be modifieda long std::string is here"
  rc foo1_ 1
  gives (same? a foo1_) false
  rc foo2_ 3
  rc a 3
  rc b 3
  is foo2_ b!"Test original string here which should not be modified"
  getOwnCopy cfg foo2_
  insertLoop cfg foo2_ 4 b!"a long std::string is here"
  is a b!"Test original string here which should not be modified"
  is foo2_ b!"Testa long std::string is here original string here which should not be modified"
  rc foo1_ 1
  gives (same? a foo1_) false
  rc foo2_ 1
  gives (same? a foo2_) false
  gives (same? foo1_ foo2_) false
  rc a 2
  rc b 2
  assignStd cfg 0 foo1_ b!"test 123"
  assign b foo1_
  assign a b
  assignStd cfg 0 foo2_ b!"blah"
  getOwnCopy cfg foo1_
  insertRange cfg foo1_ 1 ((← contents foo2_).drop 1)
  is a b!"test 123"
  is b b!"test 123"
  is foo2_ b!"blah"
  is foo1_ b!"tlahest 123"
  set a b!"test 123"
  assign b a
  let nfoo_ ← rangeCtor cfg (← contents a)
  same a nfoo_
  rc a 2
  rc nfoo_ 1
  set a b!"begin"
  set b b!" end"
  insertRange cfg a (← length a) (← contents b)
  is a b!"begin end"
  is b b!" end"
  set a b!"foo 123"
  getOwnCopy cfg a
  let movefoo_ ← rangeCtor cfg (← contents a)
  is movefoo_ b!"foo 123"
  rc movefoo_ 1
  tearDown

example : passes iteratorTest = true := by decide +kernel

/-- `stl_iteratorTest` (`tests/StringTest.cpp` 533-540). -/
def stl_iteratorTest : SM Unit := do
  setUp
  set a b!"abcdefghijk"
  set b b!"cfghkijabde"
  quiet (onElements cfg false b (insertionSort fun x y => x < y))
  same a b
  tearDown

example : passes stl_iteratorTest = true := by decide +kernel

/-- `stl_reverse_iteratorTest` (`tests/StringTest.cpp` 542-549). -/
def stl_reverse_iteratorTest : SM Unit := do
  setUp
  set a b!"kjihgfedcba"
  set b b!"cfghkijabde"
  quiet (onReversed cfg false b (insertionSort fun x y => x < y))
  same a b
  tearDown

example : passes stl_reverse_iteratorTest = true := by decide +kernel

/-- `stl_const_iteratorTest` (`tests/StringTest.cpp` 551-555). -/
def stl_const_iteratorTest : SM Unit := do
  setUp
  let test_ ← decl (lit b!"cfghkijabde")
  is (.tmp (do strCtor cfg 0 [(← contents test_).foldl max 0])) b!"k"
  tearDown

example : passes stl_const_iteratorTest = true := by decide +kernel

/-- `appendTest` (`tests/StringTest.cpp` 557-591): of the bytes 0 to 254 only some are appended one by one. -/
def appendTest : SM Unit := do
  setUp
  append cfg a 97
  cs a b!"a"
  addS a b!"bcd"
  is a b!"abcd"
  addS a b!"test" 0
  is a b!"abcd"
  addS f (cstring.drop 11) 21
  same d f
  add c b
  is c b!"blahblah"
  append cfg c 32
  add c c
  is c b!"blahblah blahblah "
  addS c b!"  "
  add c b
  is c b!"blahblah blahblah   blah"
  let tmp_ ← sizeCtor cfg bytes.length
  bytes.forM fun x => append cfg tmp_ x
  len tmp_ bytes.length
  let tmp2_ ← decl (strN bytes)
  same tmp2_ tmp_
  gives (length tmp_) (← length tmp2_)
  tearDown

example : passes appendTest = true := by decide +kernel

/-- `insertTest` (`tests/StringTest.cpp` 593-635). -/
def insertTest : SM Unit := do
  setUp
  throws (insertItem cfg a 1 97)
  throws (at' a 0)
  insertItem cfg a 0 98
  quiet (at' a 0)
  is a b!"b"
  throws (at' a 1)
  insertS b 2 b!"BLAH"
  is b b!"blBLAHah"
  is c b!"blah"
  insertS b 3 b!"TEST" 0
  is b b!"blBLAHah"
  is c b!"blah"
  set a b!"0123456789"
  insertS a 3 b!"TEST" 1
  is a b!"012T3456789"
  set a b!"0123456789"
  (lit b!"T").use fun t => insertMoveN cfg a 3 t 1
  is a b!"012T3456789"
  set a b!"0123456789"
  insert a 3 (lit b!"Testinglong")
  is a b!"012Testinglong3456789"
  let x_ ← decl (lit b!"Testinglong")
  set a b!"0123456789"
  insert a 3 x_
  is a b!"012Testinglong3456789"
  insertS b 3 b!"TEST" 1
  is b b!"blBTLAHah"
  is c b!"blah"
  set a b!"this is some long string,this is some long string,this is some long string,this is some long string,this is some long string,this is some long string,this is some long string,this is some long string,this is some long string,this is some long string"
  assign c a
  assign a (sub c 10)
  assign b (cat (lit b!"THIS IS SOME") a)
  insertS a 0 b!"THIS IS SOME"
  is a b!"THIS IS SOMEme long string,this is some long string,this is some long string,this is some long string,this is some long string,this is some long string,this is some long string,this is some long string,this is some long string,this is some long string"
  dropFront a (← length a)
  insertS a 0 b!"SOME TEST"
  is a b!"SOME TEST"
  tearDown

example : passes insertTest = true := by decide +kernel

/-- `replaceTest` (`tests/StringTest.cpp` 637-737). -/
def replaceTest : SM Unit := do
  setUp
  quiet (replaceS a 0 b!"bla")
  len a 3
  set a b!""
  throws (replaceS a 1 b!"bla")
  throws (at' a 0)
  replaceItem cfg b 1 120
  is b b!"bxah"
  replaceS b 0 b!"ququ"
  is b b!"ququ"
  len b 4
  is c b!"blah"
  is g b!"x"
  len g 1
  quiet (at' g 0)
  throws (at' g 1)
  throws (replaceS g 2 b!"ml")
  quiet (replaceS g 1 b!"ml")
  is g b!"xml"
  len g 3
  quiet (at' g 0)
  quiet (at' g 1)
  quiet (at' g 2)
  throws (at' g 3)
  set a b!"1 2 3"
  assign b (subst1 a (lit b!" ") (lit b!", "))
  is a b!"1 2 3"
  is b b!"1, 2, 3"
  set a b!"1 2 3"
  assign b (subst1 a (lit b!" ") (lit b!","))
  is a b!"1 2 3"
  is b b!"1,2,3"
  set a b!"1 2 3"
  assign b (subst1 a (lit b!"a") (lit b!","))
  is a b!"1 2 3"
  is b b!"1 2 3"
  set a b!"a1 2 3"
  assign b (subst1 a (lit b!"a") (lit b!","))
  is a b!"a1 2 3"
  is b b!",1 2 3"
  set a b!"a1 2 3a"
  assign b (subst1 a (lit b!"a") (lit b!","))
  is a b!"a1 2 3a"
  is b b!",1 2 3,"
  set a b!"1 2 3a"
  assign b (subst1 a (lit b!"a") (lit b!","))
  is a b!"1 2 3a"
  is b b!"1 2 3,"
  set a b!"1 2 3aa"
  assign b (subst1 a (lit b!"a") (lit b!","))
  is a b!"1 2 3aa"
  is b b!"1 2 3,,"
  set a b!"aa1 2 3aa"
  assign b (subst1 a (lit b!"a") (lit b!","))
  is a b!"aa1 2 3aa"
  is b b!",,1 2 3,,"
  set a b!"aa1 2 a 3aa"
  assign b (subst1 a (lit b!"a") (lit b!","))
  is a b!"aa1 2 a 3aa"
  is b b!",,1 2 , 3,,"
  set a b!"aa1 2 a 3aa"
  assign b (subst1 a (lit b!"a") (lit b!",") 1)
  is a b!"aa1 2 a 3aa"
  is b b!",a1 2 a 3aa"
  set a b!"aa1 2 a 3aa"
  assign b (subst1 a (lit b!"a") (lit b!",") 2)
  is a b!"aa1 2 a 3aa"
  is b b!",,1 2 a 3aa"
  set a b!"aa1 2 a 3aa"
  assign b (subst1 a (lit b!"a") (lit b!"AAA"))
  is a b!"aa1 2 a 3aa"
  is b b!"AAAAAA1 2 AAA 3AAAAAA"
  set a b!"aa1 2 a 3aa"
  assign b (subst1 a (lit b!"aa") (lit b!","))
  is a b!"aa1 2 a 3aa"
  is b b!",1 2 a 3,"
  set a b!"aa1 2 aaaa 3aa"
  assign b (subst1 a (lit b!"aa") (lit b!","))
  is a b!"aa1 2 aaaa 3aa"
  is b b!",1 2 ,, 3,"
  assign a empty
  (subst1 a (lit b!"\"") (lit b!"\\\"")).use fun t => do set b ((← cStr cfg 0 t).takeWhile (· != 0))
  is a b!""
  same a b
  tearDown

example : passes replaceTest = true := by decide +kernel

/-- `chompTest` (`tests/StringTest.cpp` 739-786). -/
def chompTest : SM Unit := do
  setUp
  set a b!"testing123"
  chompP a
  is a b!"testing123"
  set a b!"testing123\n"
  chompP a
  is a b!"testing123"
  set a b!"testing123\n\n"
  chompP a
  is a b!"testing123\n"
  set a b!"testing123\r"
  chompP a
  is a b!"testing123"
  set a b!"testing123\r"
  chompP a
  is a b!"testing123"
  set a b!"testing123\r\n"
  chompP a
  is a b!"testing123"
  set a b!"testing123\n\r\n"
  chompP a
  is a b!"testing123\n"
  set a b!"testing123\n\r\n\r"
  chompP a
  is a b!"testing123\n\r\n"
  set a b!"testing123\n\r\n\r\n"
  chompP a
  is a b!"testing123\n\r\n"
  set a b!"testing123\n\r\n\r\n"
  chompP a
  is a b!"testing123\n\r\n"
  let cstr_ ← decl (lit b!"testing123\r\n")
  is (.tmp (chompedP cfg cstr_)) b!"testing123"
  len cstr_ 12
  len (.tmp (chompedP cfg cstr_)) 10
  tearDown

example : passes chompTest = true := by decide +kernel

/-- `trimTest` (`tests/StringTest.cpp` 788-816). -/
def trimTest : SM Unit := do
  setUp
  set a b!"   testing123   "
  trimP lib 100 a
  len a 10
  trimP lib 100 a
  is a b!"testing123"
  set a b!"   \ttesting123\n   \r"
  trimP lib 100 a
  is a b!"testing123"
  len a 10
  set a b!"   	\ntesting123   \t"
  trimP lib 100 a
  is a b!"testing123"
  len a 10
  set a b!"   \n\n\n\ttesting123\x0b   "
  trimP lib 100 a
  is a b!"testing123"
  len a 10
  set a b!"\n\n\n\t  \x0b   "
  trimP lib 100 a
  is a b!""
  len a 0
  let cstr_ ← decl (lit b!"   \t\x0ctesting123\r\n")
  is (.tmp (trimmedP cfg lib 100 cstr_)) b!"testing123"
  len cstr_ 17
  len (.tmp (trimmedP cfg lib 100 cstr_)) 10
  tearDown

example : passes trimTest = true := by decide +kernel

/-- `findTest` (`tests/StringTest.cpp` 818-849). -/
def findTest : SM Unit := do
  setUp
  set a b!"This is some long string"
  len a 24
  charIs a 0 84
  gives (findA a 84) 0
  gives (findA a 104) 1
  gives (findA a 105) 2
  gives (findA a 115) 3
  gives (findA a 108) 13
  gives ((lit b!"long").use fun r => findP lib a r) 13
  gives ((lit b!"string").use fun r => findP lib a r) 18
  gives ((lit b!"").use fun r => findP lib b r) 0
  gives ((lit b!"blah").use fun r => findP lib b r) 0
  gives ((lit b!"lah").use fun r => findP lib b r) 1
  gives ((lit b!"ah").use fun r => findP lib b r) 2
  gives ((lit b!"h").use fun r => findP lib b r) 3
  gives ((lit b!"blahf").use fun r => findP lib b r) npos
  gives ((lit b!"blah").use fun r => do liftE (Str.findFrom lib (← contents b) (← contents r) 1)) npos
  gives ((lit b!"blah").use fun r => do liftE (Str.findFrom lib (← contents b) (← contents r) 0)) 0
  gives ((lit b!"lah").use fun r => do liftE (Str.findFrom lib (← contents b) (← contents r) 0)) 1
  gives ((lit b!"lah").use fun r => do liftE (Str.findFrom lib (← contents b) (← contents r) 1)) 0
  gives ((lit b!"ah").use fun r => do liftE (Str.findFrom lib (← contents b) (← contents r) 0)) 2
  gives ((lit b!"ah").use fun r => do liftE (Str.findFrom lib (← contents b) (← contents r) 1)) 1
  gives ((lit b!"ah").use fun r => do liftE (Str.findFrom lib (← contents b) (← contents r) 2)) 0
  gives ((lit b!"z").use fun r => findP lib a r) npos
  gives ((lit b!"notfound").use fun r => findP lib a r) npos
  tearDown

example : passes findTest = true := by decide +kernel

/-- `ifindTest` (`tests/StringTest.cpp` 851-856). -/
def ifindTest : SM Unit := do
  setUp
  set a b!"This is some long string"
  gives ((lit b!"stRIng").use fun r => ifindP cfg lib a r) 18
  gives ((lit b!"stRIng").use fun r => findP lib a r) npos
  tearDown

example : passes ifindTest = true := by decide +kernel

/-- `rifindTest` (`tests/StringTest.cpp` 858-863). -/
def rifindTest : SM Unit := do
  setUp
  set a b!"This is some long string"
  gives ((lit b!"stRIng").use fun r => rifindP cfg lib a r 0) 18
  gives ((lit b!"stRIng").use fun r => rfindP lib a r 0) npos
  tearDown

example : passes rifindTest = true := by decide +kernel

/-- `rfindTest` (`tests/StringTest.cpp` 864-887). -/
def rfindTest : SM Unit := do
  setUp
  set a b!"Filename.tcl"
  gives ((lit b!"").use fun r => rfindP lib a r 0) ((← length a) - 1)
  gives (rfindA a 101) 7
  gives ((lit b!"e").use fun r => rfindP lib a r 0) 7
  gives (rfindA a 46) 8
  gives (rfindA a 116) 9
  gives (rfindA a 99) 10
  gives (rfindA a 108) 11
  gives ((lit b!"tcl").use fun r => rfindP lib a r 0) 9
  gives ((lit b!".tcl").use fun r => rfindP lib a r 0) 8
  gives ((lit b!"File").use fun r => rfindP lib a r 0) 0
  gives ((lit b!"Filename.tcl").use fun r => rfindP lib a r 0) 0
  gives ((lit b!"z").use fun r => rfindP lib a r 0) npos
  gives ((lit b!"Filename.tclBLA").use fun r => rfindP lib a r 0) npos
  gives ((lit b!"Filename.tck").use fun r => rfindP lib a r 0) npos
  gives ((lit b!".tcl").use fun r => do rfindP lib a r ((← length a) - 4)) 8
  set a b!"test.tcl.rb"
  gives ((lit b!".tcl").use fun r => do rfindP lib a r ((← length a) - 4)) npos
  tearDown

example : passes rfindTest = true := by decide +kernel

/-- `newsplitTest` (`tests/StringTest.cpp` 889-937). -/
def newsplitTest : SM Unit := do
  setUp
  let sentence_ ← decl (lit b!"WORD1 WORD2 WORD3 WORD4 WORD5")
  let w1_ ← decl (newsplit sentence_)
  is sentence_ b!"WORD2 WORD3 WORD4 WORD5"
  is w1_ b!"WORD1"
  let w2_ ← decl (newsplit sentence_)
  is sentence_ b!"WORD3 WORD4 WORD5"
  is w2_ b!"WORD2"
  let w3_ ← decl (newsplit sentence_)
  is sentence_ b!"WORD4 WORD5"
  is w3_ b!"WORD3"
  let w4_ ← decl (newsplit sentence_)
  is sentence_ b!"WORD5"
  is w4_ b!"WORD4"
  let w5_ ← decl (newsplit sentence_)
  is w5_ b!"WORD5"
  is sentence_ b!""
  len sentence_ 0
  len w5_ 5
  let w6_ ← decl (newsplit sentence_)
  is w6_ b!""
  is sentence_ b!""
  len sentence_ 0
  len w6_ 0
  set a b!"This  is      a  test  "
  is (newsplit a) b!"This"
  is a b!"is      a  test  "
  is (newsplit a) b!"is"
  is a b!"a  test  "
  is (newsplit a) b!"a"
  is a b!"test  "
  is (newsplit a) b!"test"
  is a b!""
  is (newsplit a) b!""
  tearDown

example : passes newsplitTest = true := by decide +kernel

/-- `concatTest` (`tests/StringTest.cpp` 939-949). -/
def concatTest : SM Unit := do
  setUp
  assign a (cat (cat b (lit b!" ")) b)
  is a b!"blah blah"
  assign a (cat b a)
  is a b!"blahblah blah"
  destroy cfg a
  let a2 ← ctor
  assign a2 (cat b a2)
  is a2 b!"blah"
  [a2, b, c, d, e, f, g, h].forM (destroy cfg)

example : passes concatTest = true := by decide +kernel

/-- `incDecTest` (`tests/StringTest.cpp` 951-969). -/
def incDecTest : SM Unit := do
  setUp
  set a b!"test"
  is a b!"test"
  let old_ ← decl (.tmp (postInc cfg a))
  is old_ b!"test"
  is a b!"est"
  len a 3
  dropFront a 1
  is a b!"st"
  len a 2
  assign old_ (.tmp (postDec cfg a))
  is old_ b!"st"
  is a b!"s"
  len a 1
  popBack a
  is a b!""
  len a 0
  tearDown

example : passes incDecTest = true := by decide +kernel

/-- `incDecEqualTest` (`tests/StringTest.cpp` 971-1102): `* 500` is shortened to `* 5`. -/
def incDecEqualTest : SM Unit := do
  setUp
  set a b!"test word"
  assign b a
  dropFront a 5
  is b b!"test word"
  len b 9
  is a b!"word"
  len a 4
  set b b!"blah"
  clear a
  addS a b!"longtest"
  len a 8
  len b 4
  is a b!"longtest"
  dropBack a 3
  len a 5
  is a b!"longt"
  dropFront a 4
  is a b!"t"
  len a 1
  is b b!"blah"
  len b 4
  assign a (cat a b)
  is a b!"tblah"
  len a 5
  reservePub cfg a 30
  set b b!"blah"
  set a b!"longtest"
  dropBack a 3
  dropFront a 4
  is a b!"t"
  len a 1
  add a b
  is a b!"tblah"
  len a 5
  replaceS a 0 b!"test"
  is a b!"testh"
  len a 5
  insertS a 1 b!"TEST"
  is a b!"tTESTesth"
  len a 9
  insert a 2 (lit b!"BLAH")
  is a b!"tTBLAHESTesth"
  len a 13
  replace a 2 (lit b!"blah")
  is a b!"tTblahESTesth"
  len a 13
  replaceItem cfg a 2 66
  is a b!"tTBlahESTesth"
  len a 13
  insertItem cfg a 5 67
  is a b!"tTBlaChESTesth"
  len a 14
  set a b!"someword"
  dropFront a 4
  is a b!"word"
  len a 4
  add a (times (lit b!"test1234") 20)
  is a b!"wordtest1234test1234test1234test1234test1234test1234test1234test1234test1234test1234test1234test1234test1234test1234test1234test1234test1234test1234test1234test1234"
  len a 164
  assign b a
  dropFront b 4
  is b b!"test1234test1234test1234test1234test1234test1234test1234test1234test1234test1234test1234test1234test1234test1234test1234test1234test1234test1234test1234test1234"
  len b 160
  clear a
  clear a
  add b (times (lit b!"test") 5)
  is b ((List.replicate 20 b!"test1234").flatten ++ (List.replicate 5 b!"test").flatten)
  len b 180
  set a b!"test"
  dropFront a 10
  len a 0
  is a b!""
  set a b!"test"
  dropBack a 10
  len a 0
  is a b!""
  set a b!"tblah"
  set b b!"blah"
  add d (cat d d)
  is d (cstring ++ cstring ++ cstring)
  add b a
  assign c (cat c a)
  is b b!"blahtblah"
  is c b!"blahtblah"
  same c b
  set a b!""
  dropFront a 4
  dropBack a 4
  len a 0
  set a b!" \r\n"
  assign b (sub a 0 1)
  len b 1
  len a 3
  cs b b!" "
  len b 1
  len a 3
  dropFront a 2
  dropFront a 1
  len b 1
  len a 0
  cs a b!""
  tearDown

example : passes incDecEqualTest = true := by decide +kernel

/-- `initializerTest` (`tests/StringTest.cpp` 1104-1120). -/
def initializerTest : SM Unit := do
  setUp
  let blah_ ← listCtor cfg b!"blah"
  len blah_ 4
  rc blah_ 1
  is blah_ b!"blah"
  let blah1_ ← decl (lit b!"blah")
  len blah1_ 4
  rc blah1_ 1
  is blah1_ b!"blah"
  assignList cfg blah1_ b!"fooba\x00r"
  len blah1_ 7
  rc blah1_ 1
  same (strN b!"fooba\x00r") blah1_
  tearDown

example : passes initializerTest = true := by decide +kernel

/-- `operatorStarTest` (`tests/StringTest.cpp` 1123-1132). -/
def operatorStarTest : SM Unit := do
  setUp
  set a b!"Test! "
  assign b (times a 3)
  is b b!"Test! Test! Test! "
  let mytest_ ← decl (lit b!"Test! ")
  assign b (times mytest_ 3)
  is b b!"Test! Test! Test! "
  tearDown

example : passes operatorStarTest = true := by decide +kernel

/-- `copyTest` (`tests/StringTest.cpp` 1134-1193). -/
def copyTest : SM Unit := do
  setUp
  set a b!"test 12345"
  assign b (strN (List.replicate 30 88))
  let (_, buf) ← copyP a 30 (List.replicate 30 88)
  replace b 0 a
  len a 10
  is a b!"test 12345"
  len b 30
  is b buf
  set a b!"test 12345"
  assign b (strN (List.replicate 30 88))
  let (_, buf) ← copyP a npos (List.replicate 30 88)
  replace b 0 a
  len b 30
  is b buf
  set a b!"test 12345"
  assign b (strN (List.replicate 30 88))
  let (_, buf) ← (sub a 5).use fun t => copyP t 30 (List.replicate 30 88)
  replace b 0 (sub a 5)
  len b 30
  is b buf
  set a b!"Testing 12345"
  let (n, buf) ← copyP a 4 (List.replicate 30 0)
  is a b!"Testing 12345"
  expect (n == 4 && buf.takeWhile (· != 0) == b!"Test")
  set a b!"Testing 12345"
  let (n, buf) ← copyP a 1000 (List.replicate 30 0)
  is a b!"Testing 12345"
  expect (n == 13 && buf.takeWhile (· != 0) == b!"Testing 12345")
  set a b!"test 1234"
  assign a a
  is a b!"test 1234"
  set a b!"test 1234"
  moveAssign cfg a a
  is a b!"test 1234"
  tearDown

example : passes copyTest = true := by decide +kernel

/-- `base64Test` (`tests/StringTest.cpp` 1217-1336): of the lengths 0 to 99 only those up to 9, of the bytes 0 to 254 only some, and without the random data. -/
def base64Test : SM Unit := do
  setUp
  set b b!"b"
  assign c b
  assign a (b64e b)
  gives (eqP lib a c) false
  gives (do liftE (eqC (← contents a) (b!"b" ++ [0]))) false
  is a b!"Yg=="
  assign b (b64d a)
  same c b
  is b b!"b"
  set b b!"bl"
  assign c b
  assign a (b64e b)
  gives (eqP lib a c) false
  gives (do liftE (eqC (← contents a) (b!"bl" ++ [0]))) false
  is a b!"Ymw="
  assign b (b64d a)
  same c b
  is b b!"bl"
  set b b!"bla"
  assign c b
  assign a (b64e b)
  gives (eqP lib a c) false
  gives (do liftE (eqC (← contents a) (b!"bla" ++ [0]))) false
  is a b!"Ymxh"
  assign b (b64d a)
  same c b
  is b b!"bla"
  set b b!"blah"
  assign c b
  assign a (b64e b)
  gives (eqP lib a c) false
  gives (do liftE (eqC (← contents a) (b!"blah" ++ [0]))) false
  is a b!"YmxhaA=="
  assign b (b64d a)
  same c b
  is b b!"blah"
  assign d (b64e d)
  assign d (b64d d)
  is d cstring
  let eff_ ← decl f
  assign f (b64e f)
  assign f (b64d f)
  same f eff_
  (List.range 10).forM fun i => do
      let tmpbuf ← decl (b64e (lit (alphabet i)))
      let decoded ← decl (b64d tmpbuf)
      is decoded (alphabet i)
      len decoded i
      destroy cfg decoded
      destroy cfg tmpbuf
  let tmp_ ← decl empty
  set tmp_ b!"this is 26 characters long"
  assign tmp_ (b64e tmp_)
  assign tmp_ (b64d tmp_)
  is tmp_ b!"this is 26 characters long"
  set tmp_ b!"this is 29 characters long ok"
  assign tmp_ (b64e tmp_)
  assign tmp_ (b64d tmp_)
  is tmp_ b!"this is 29 characters long ok"
  set tmp_ b!""
  reservePub cfg tmp_ bytes.length
  bytes.forM fun x => append cfg tmp_ x
  let save_ ← decl tmp_
  assign tmp_ (b64e tmp_)
  assign tmp_ (b64d tmp_)
  len tmp_ bytes.length
  same save_ tmp_
  tearDown

example : passes base64Test = true := by decide +kernel

/-- Part 1 of `substringTest`. -/
def substringTest1 : SM Unit := do
  set a b!"Why hello there!"
  rc a 1
  let substring_ ← decl (sub a 4 5)
  rc a 2
  rc substring_ 2
  is a b!"Why hello there!"
  charIs substring_ 0 104
  is substring_ b!"hello"
  addS substring_ b!" bryan"
  rc a 1
  rc substring_ 1
  is a b!"Why hello there!"
  is substring_ b!"hello bryan"
  set a b!"there goes my reference!"
  is a b!"there goes my reference!"
  is substring_ b!"hello bryan"
  set a b!"there goes my reference!"
  is a b!"there goes my reference!"
  assign substring_ (sub a 6 4)
  set a b!"now it is really gone"
  is substring_ b!"goes"
  set a b!"0123456789"
  assign substring_ (sub a 5 5)
  is substring_ b!"56789"
  let substring2_ ← decl (sub substring_ 0 5)
  is substring_ b!"56789"
  is substring2_ b!"56789"
  assign substring2_ (sub substring_ 0 5)
  let substring3_ ← decl (sub substring2_ 1 4)
  is substring_ b!"56789"
  is substring2_ b!"56789"
  is substring3_ b!"6789"
  set a b!"abcdefgh"
  assign substring_ (sub a 3 (-2))
  is a b!"abcdefgh"
  is substring_ b!"def"
  assign substring_ (sub a (-3) 2)
  is substring_ b!"fg"
  assign substring_ (sub a (-1) 1)
  is substring_ b!"h"
  assign substring_ (sub a (-1) 5)
  is substring_ b!"h"
  assign substring_ (sub a 0 30)
  is substring_ b!"abcdefgh"
  len (sub a 0) (← length a)
  is (sub a 0) b!"abcdefgh"
  cs (sub a 0) b!"abcdefgh"
  is (sub a 0) b!"abcdefgh"
  let s1_ ← decl (sub a 0)
  let s2_ ← decl (sub a 1)
  cs s1_ b!"abcdefgh"
  cs s2_ b!"bcdefgh"
  is a b!"abcdefgh"
  is (sub (sub a 0) 0) b!"abcdefgh"
  assign substring_ (sub a 0)
  is substring_ b!"abcdefgh"
  is (sub a 0) b!"abcdefgh"
  is (sub substring_ 0) b!"abcdefgh"
  is (sub substring_ 1) b!"bcdefgh"
  is (sub a 1) b!"bcdefgh"
  dropFront substring_ 1
  is substring_ b!"bcdefgh"
  is a b!"abcdefgh"
  is (sub substring_ 0) b!"bcdefgh"
  is (sub a 0) b!"abcdefgh"
  is (sub substring_ 1) b!"cdefgh"
  is (sub a 1) b!"bcdefgh"
  is (sub a 0 3) b!"abc"
  gives ((sub a 0 3).use fun t => do liftE (eqC (← contents t) (b!"abc" ++ [0]))) true
  is a b!"abcdefgh"
  len (sub a 0 3) 3
  cs (sub a 0 3) b!"abc"
  is a b!"abcdefgh"
  let foo_ ← decl (sub a 1)
  replaceS foo_ 0 b!"blah"
  is (sub a 1) b!"bcdefgh"
  is foo_ b!"blahfgh"
  set a b!"This is a test"
  assign substring_ (sub a (-4) 4)
  is a b!"This is a test"
  len a 14
  is substring_ b!"test"
  assign substring2_ substring_
  is substring_ b!"test"
  is substring2_ b!"test"
  is a b!"This is a test"
  set a b!"this is just a TEST"
  assign substring_ (sub a 0 4)
  is a b!"this is just a TEST"
  len a 19
  (List.range 19).forM fun i => do
      match ← Rca.read a i with
      | some x => Rca.write cfg a i (lib.toupper x)
      | none => M.undef
  is a b!"THIS IS JUST A TEST"
  is substring_ b!"this"
  set a b!"this is just a TEST"
  assign substring_ (sub a 0 4)
  (List.range 4).forM fun i => do
      match ← Rca.read substring_ i with
      | some x => Rca.write cfg substring_ i (lib.toupper x)
      | none => M.undef
  is a b!"this is just a TEST"
  is substring_ b!"THIS"

/-- Part 2 of `substringTest`. -/
def substringTest2 : SM Unit := do
  let replace_ ← decl empty
  assign b a
  set replace_ b!"THIS"
  setSlice a 0 4 replace_
  is a b!"THIS is just a TEST"
  is replace_ b!"THIS"
  is b b!"this is just a TEST"
  set a b!"this is just a TEST"
  assign b a
  set replace_ b!"THAT"
  setSlice a 0 4 (lit b!"THAT")
  is a b!"THAT is just a TEST"
  is replace_ b!"THAT"
  is b b!"this is just a TEST"
  set a b!"this is just a TEST"
  assign b a
  setSlice a 0 4 (sub b 15 4)
  is a b!"TEST is just a TEST"
  is b b!"this is just a TEST"
  set a b!"this is just a TEST"
  assign b a
  setSlice a 0 4 (sub a 15 4)
  is a b!"TEST is just a TEST"
  is b b!"this is just a TEST"
  set a b!"this is just a TEST"
  assign b a
  setSlice b 1 4 (sub a 15 4)
  setSlice a 0 4 (sub b 1 4)
  is a b!"TEST is just a TEST"
  is b b!"tTESTis just a TEST"
  let constString_ ← decl (lit b!"THIS CANNOT BE MODIFIED")
  assign a (sub constString_ 0 4)
  let constSlice_ ← decl (sub constString_ 0 4)
  let slice_ ← decl (sub constString_ 0 4)
  is constString_ b!"THIS CANNOT BE MODIFIED"
  same a slice_
  same a constSlice_
  is a b!"THIS"
  rc constString_ 4
  rc slice_ 4
  rc constSlice_ 4
  rc a 4
  setSlice a 1 1 (lit b!"h")
  is constString_ b!"THIS CANNOT BE MODIFIED"
  same constSlice_ slice_
  is a b!"ThIS"
  rc constString_ 3
  rc slice_ 3
  rc constSlice_ 3
  rc a 1
  is (sub a 0) b!"ThIS"
  is (sub a 1 1) b!"h"
  cs (sub a 0) b!"ThIS"

/-- Part 3 of `substringTest`. -/
def substringTest3 : SM Unit := do
  set a b!"tESt TEST2 test3 TEST4"
  assign b (sub a 0 4)
  assign e (sub b 1 2)
  assign c (sub a 5 5)
  assign d (sub a 11 5)
  is a b!"tESt TEST2 test3 TEST4"
  is b b!"tESt"
  is e b!"ES"
  is c b!"TEST2"
  is d b!"test3"
  cs a b!"tESt TEST2 test3 TEST4"
  cs b b!"tESt"
  cs e b!"ES"
  cs c b!"TEST2"
  cs d b!"test3"
  is a b!"tESt TEST2 test3 TEST4"
  is b b!"tESt"
  is e b!"ES"
  is c b!"TEST2"
  is d b!"test3"
  set a b!"does arbitrary inserting and replacing work with substrings?"
  len a 60
  assign b (sub a 5 9)
  is b b!"arbitrary"
  is a b!"does arbitrary inserting and replacing work with substrings?"
  len a 60
  len b 9
  assign c (sub a 15 9)
  is b b!"arbitrary"
  is a b!"does arbitrary inserting and replacing work with substrings?"
  is c b!"inserting"
  len a 60
  len b 9
  len c 9
  assign d a
  dropFront d 20
  is d b!"ting and replacing work with substrings?"
  is b b!"arbitrary"
  is a b!"does arbitrary inserting and replacing work with substrings?"
  is c b!"inserting"
  len a 60
  len b 9
  len c 9
  len d 40
  addS b b!" words"
  is d b!"ting and replacing work with substrings?"
  is b b!"arbitrary words"
  is a b!"does arbitrary inserting and replacing work with substrings?"
  is c b!"inserting"
  len a 60
  len b 15
  len c 9
  len d 40
  add b c
  is d b!"ting and replacing work with substrings?"
  is b b!"arbitrary wordsinserting"
  is a b!"does arbitrary inserting and replacing work with substrings?"
  is c b!"inserting"
  len a 60
  len b 24
  len c 9
  len d 40
  addS d b!"test"
  cs b b!"arbitrary wordsinserting"
  is d b!"ting and replacing work with substrings?test"
  is b b!"arbitrary wordsinserting"
  is a b!"does arbitrary inserting and replacing work with substrings?"
  is c b!"inserting"
  len a 60
  len b 24
  len c 9
  len d 44

/-- Part 4 of `substringTest`. -/
def substringTest4 : SM Unit := do
  dropBack c 1
  dropFront c 5
  addS c b!"aaaaaaaaaaaaaaaaaaaaaaaaaaaaaaaaaaaaaaaaaaaaaaaaaaaaaaaaaaaaaaaaaaaaaaaaaaaaaaaaaaaaaaaaaaaaaaaaaaaa"
  dropBack c 1
  addS c b!"test"
  dropFront c 1
  is d b!"ting and replacing work with substrings?test"
  is b b!"arbitrary wordsinserting"
  is a b!"does arbitrary inserting and replacing work with substrings?"
  is c b!"inaaaaaaaaaaaaaaaaaaaaaaaaaaaaaaaaaaaaaaaaaaaaaaaaaaaaaaaaaaaaaaaaaaaaaaaaaaaaaaaaaaaaaaaaaaaaaaaaaaatest"
  len a 60
  len b 24
  len c 105
  len d 44
  assign e (sub d 5)
  is e b!"and replacing work with substrings?test"
  len e 39
  is d b!"ting and replacing work with substrings?test"
  is b b!"arbitrary wordsinserting"
  is a b!"does arbitrary inserting and replacing work with substrings?"
  is c b!"inaaaaaaaaaaaaaaaaaaaaaaaaaaaaaaaaaaaaaaaaaaaaaaaaaaaaaaaaaaaaaaaaaaaaaaaaaaaaaaaaaaaaaaaaaaaaaaaaaaatest"
  len a 60
  len b 24
  len c 105
  len d 44
  assign e (sub d 5)
  assign f e
  add e (times d 20)
  is f b!"and replacing work with substrings?test"
  is e b!"and replacing work with substrings?testting and replacing work with substrings?testting and replacing work with substrings?testting and replacing work with substrings?testting and replacing work with substrings?testting and replacing work with substrings?testting and replacing work with substrings?testting and replacing work with substrings?testting and replacing work with substrings?testting and replacing work with substrings?testting and replacing work with substrings?testting and replacing work with substrings?testting and replacing work with substrings?testting and replacing work with substrings?testting and replacing work with substrings?testting and replacing work with substrings?testting and replacing work with substrings?testting and replacing work with substrings?testting and replacing work with substrings?testting and replacing work with substrings?testting and replacing work with substrings?test"
  len e 919
  gives (do return decide ((← capacity e) > (← capacity d))) true
  is d b!"ting and replacing work with substrings?test"
  is b b!"arbitrary wordsinserting"
  is a b!"does arbitrary inserting and replacing work with substrings?"
  is c b!"inaaaaaaaaaaaaaaaaaaaaaaaaaaaaaaaaaaaaaaaaaaaaaaaaaaaaaaaaaaaaaaaaaaaaaaaaaaaaaaaaaaaaaaaaaaaaaaaaaaatest"
  len a 60
  len b 24
  len c 105
  len d 44
  let big_ ← decl (lit b!"aaaaaaaaaaaaaaaaaaaaaaaaaaaaaaaaaaaaaaaaaaaaaaaaaaaaaaaaaaaaaaaaaaaaaaaaaaaaaaaaaaaaaaaaaaaaaaaaaaaaaaaaaaaaaaaaaaaaaaa,aaaaaaaaaa")
  capGe big_ 130
  len big_ 130
  let sub_ ← decl (sub big_ 120 10)
  addS big_ b!"blah"
  capGe sub_ 130
  len sub_ 10
  cs sub_ b!"aaaaaaaaaa"
  capGe sub_ 11
  capGe sub_ 130
  len sub_ 10
  is sub_ b!"aaaaaaaaaa"
  set a b!"a b c d"
  assign b (sub a 0)
  assign c (sub a 2)
  is a b!"a b c d"
  is b b!"a b c d"
  is c b!"b c d"

/-- `substringTest` (`tests/StringTest.cpp` 1387-1777). -/
def substringTest : SM Unit := do
  setUp
  substringTest1
  substringTest2
  substringTest3
  substringTest4
  tearDown

example : passes substringTest = true := by decide +kernel

/-- `substringOutOfRangeResizeTest` (`tests/StringTest.cpp` 1779-1829). -/
def substringOutOfRangeResizeTest : SM Unit := do
  setUp
  set a b!"one two three"
  assign b (sub a 4 3)
  is a b!"one two three"
  len a 13
  is b b!"two"
  len b 3
  throws (at' b npos)
  quiet (at' b 0)
  quiet (at' b 1)
  quiet (at' b 2)
  throws (at' b 3)
  throws (at' b 4)
  resize cfg a 5
  is a b!"one t"
  len a 5
  is b b!"two"
  len b 3
  quiet (at' a 4)
  throws (at' a 5)
  quiet (at' b 0)
  quiet (at' b 1)
  quiet (at' b 2)
  throws (at' b 3)
  throws (at' b 4)
  assign c a
  gives (do return decide ((← rcount a) ≥ 2)) true
  resize cfg a 4
  is a b!"one "
  len a 4
  is b b!"two"
  len b 3
  quiet (at' a 3)
  throws (at' a 5)
  throws (at' a 4)
  quiet (at' b 0)
  quiet (at' b 1)
  quiet (at' b 2)
  throws (at' b 3)
  throws (at' b 4)
  is c b!"one t"
  len c 5
  quiet (at' c 4)
  throws (at' c 5)
  tearDown

example : passes substringOutOfRangeResizeTest = true := by decide +kernel

/-- `substringOutOfRangeResizeSubTest` (`tests/StringTest.cpp` 1831-1850). -/
def substringOutOfRangeResizeSubTest : SM Unit := do
  setUp
  set a b!"one two three"
  assign b (sub a 4 3)
  is a b!"one two three"
  len a 13
  is b b!"two"
  len b 3
  resizeFill cfg b 4 126
  is a b!"one two three"
  len a 13
  is b b!"two~"
  len b 4
  quiet (at' b 0)
  quiet (at' b 1)
  quiet (at' b 2)
  quiet (at' b 3)
  throws (at' b 4)
  tearDown

example : passes substringOutOfRangeResizeSubTest = true := by decide +kernel

/-- `substringOutOfRangeInsertTest` (`tests/StringTest.cpp` 1852-1873). -/
def substringOutOfRangeInsertTest : SM Unit := do
  setUp
  set a b!"one two three"
  assign b (sub a 4 3)
  is a b!"one two three"
  is b b!"two"
  Rca.write cfg a 5 116
  is a b!"one tto three"
  len a 13
  is b b!"two"
  len b 3
  quiet (at' a 4)
  quiet (at' a 5)
  quiet (at' a 6)
  throws (at' a 13)
  quiet (at' b 0)
  quiet (at' b 1)
  quiet (at' b 2)
  throws (at' b 3)
  throws (at' b 4)
  tearDown

example : passes substringOutOfRangeInsertTest = true := by decide +kernel

/-- `hashTest` (`tests/StringTest.cpp` 1970-1990). -/
def hashTest : SM Unit := do
  setUp
  set a b!"test"
  set b b!"test"
  assign c b
  gives (do return (← hash cfg a) == (← hash cfg b)) true
  gives (do return (← hash cfg a) == (← hash cfg c)) true
  gives (do return (← hash cfg b) == (← hash cfg c)) true
  set a b!"test1"
  set b b!"test"
  assign c b
  gives (do return (← hash cfg a) == (← hash cfg b)) false
  gives (do return (← hash cfg a) == (← hash cfg c)) false
  gives (do return (← hash cfg b) == (← hash cfg c)) true
  assign b (sub a 0 4)
  gives (do return (← hash cfg a) == (← hash cfg b)) false
  assign b (sub a 0 5)
  gives (do return (← hash cfg a) == (← hash cfg b)) true
  tearDown

example : passes hashTest = true := by decide +kernel

/-- `resizeTest` (`tests/StringTest.cpp` 1992-2048). -/
def resizeTest : SM Unit := do
  setUp
  set a b!"test012345"
  assign b a
  resize cfg a 4
  is a b!"test"
  is b b!"test012345"
  len a 4
  len b 10
  assign a b
  resizeFill cfg a 15 99
  is a b!"test012345ccccc"
  is b b!"test012345"
  len a 15
  len b 10
  assign a (sub b 4 5)
  is a b!"01234"
  resize cfg a 3
  is a b!"012"
  is b b!"test012345"
  len a 3
  len b 10
  assign a (sub b 4 5)
  is a b!"01234"
  resize cfg a 10
  len a 10
  gives (do return (← contents a) == b!"01234\x00\x00\x00\x00\x00") false
  resizeFill cfg a 5 0
  len a 5
  resizeFill cfg a 10 0
  len a 10
  same (strN b!"01234\x00\x00\x00\x00\x00") a
  is b b!"test012345"
  len a 10
  len b 10
  assign a (sub b 4 5)
  is a b!"01234"
  resizeFill cfg a 10 97
  is a b!"01234aaaaa"
  is b b!"test012345"
  len a 10
  len b 10
  assign a (sub b 4 5)
  is a b!"01234"
  resize cfg a 4
  resizeFill cfg a 10 113
  is a b!"0123qqqqqq"
  is b b!"test012345"
  len a 10
  len b 10
  tearDown

example : passes resizeTest = true := by decide +kernel

/-- `substTest` (`tests/StringTest.cpp` 2050-2070). -/
def substTest : SM Unit := do
  setUp
  set a b!"$this $is $a $test"
  let kvs ← [(b!"$this", b!"THIS"), (b!"$is", b!"IS"), (b!"$a", b!"A"), (b!"$test", b!"TEST")].mapM fun (k, v) => do
      return (← cstrCtor cfg 0 k, ← cstrCtor cfg 0 v)
  assign b (.tmp (substP cfg lib 100 a kvs))
  is a b!"$this $is $a $test"
  is b b!"THIS IS A TEST"
  addS a b!" $this"
  assign b (.tmp (substP cfg lib 100 a kvs))
  is a b!"$this $is $a $test $this"
  is b b!"THIS IS A TEST THIS"
  let kvs2 := kvs ++ [(← cstrCtor cfg 0 b!" ", ← cstrCtor cfg 0 b!",")]
  assign b (.tmp (substP cfg lib 100 a kvs2))
  is a b!"$this $is $a $test $this"
  is b b!"THIS,IS,A,TEST,THIS"
  tearDown

example : passes substTest = true := by decide +kernel


end Bdlib.Tests.StringTest
