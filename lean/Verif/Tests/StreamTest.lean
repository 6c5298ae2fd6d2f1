import Verif.Tests.Harness
import Verif.Prog.Stream
import Verif.Stm.Model

/-!
# `tests/StreamTest.cpp` on the model

Left out: `loadFileTest`, `writeFileFDTest` and `writeFileTest` on `/etc/services`; a file with a few lines takes its place
below.
-/

namespace Bdlib.Tests.StreamTest
open Bdlib Bdlib.Spec Bdlib.Rca Bdlib.Str Bdlib.Tests

/-- The positions of the two streams the tests move about in. -/
structure Pos where
  a : Nat := 0
  b : Nat := 0

/-- The fixture's streams `a` to `h` are the Strings 0 to 7. -/
abbrev a : Nat := 0
abbrev b : Nat := 1
abbrev g : Nat := 6
abbrev h : Nat := 7

/-- A call on a stream at position `p`; returns the position afterwards. -/
def on {α : Type} (m : PM α) (p : Nat) : SM (α × Nat) := fun s =>
  match m p s with
  | (.ok x s', q) => .ok (x, q) s'
  | (.throw e s', _) => .throw e s'
  | (.ub, _) => .ub
/-- `s.puts("...")`, `s << "..."` -/
def puts (o p : Nat) (xs : Bytes) : SM Nat := do return (← withLocal cfg (cstrCtor cfg 0 xs) fun t => on (putsMoveS cfg o t) p).2
/-- `s.seek(offset, whence)` -/
def seek (o p : Nat) (offset : Int) (w : Stm.Whence) : SM Nat := do return (← on (seekS o offset w) p).2
/-- Lines, one `puts` each. -/
def putAll (o p : Nat) : List Bytes → SM Nat
  | [] => return p
  | l :: ls => do putAll o (← puts o p l) ls

/-- `setUp` (`tests/StreamTest.cpp` 36-49).  For `Stream('x')` the constructor that takes a size is chosen. -/
def setUp : SM Unit := do
  let _ ← ctor
  let _ ← cstrCtor cfg 0 b!"blah"
  let _ ← copyCtor b
  let _ ← cstrCtor cfg 0 b!"Some static cstring to play with"
  let _ ← copyCtor 3
  let _ ← strCtor cfg 0 b!"Some static"
  let _ ← sizedS cfg 120
  let _ ← sizedS cfg 35

/-- `tearDown` (`tests/StreamTest.cpp` 51-56). -/
def tearDown : SM Unit := (List.range 8).forM (destroy cfg)

/-- Does the test end without a failed assertion, an exception or undefined behaviour, and with everything destroyed? -/
def ok (t : SM Unit) : Bool :=
  match t {} with
  | .ok _ s => s.heap.all (·.isNone) && s.objs.all (·.isNone)
  | _ => false

/-- `reserveTest` (`tests/StreamTest.cpp` 58-78) -/
def reserveTest : SM Unit := do
  setUp
  reserveS cfg a 2000
  capGe a 2048
  reserveS cfg b 10
  capGe b 1024
  capGe h 1024
  let _ ← puts g 0 (List.replicate 2049 99)
  capGe g 2048
  let _ ← puts b 0 (List.replicate 2049 99)
  capGe b 2048
  tearDown

example : ok reserveTest = true := by decide +kernel

/-- `tellTest` (`tests/StreamTest.cpp` 80-85) -/
def tellTest : SM Unit := do
  setUp
  gives (do return (← on PM.tell 0).1) 0
  tearDown

example : ok tellTest = true := by decide +kernel

/-- `seekTest` (`tests/StreamTest.cpp` 87-104) -/
def seekTest : SM Unit := do
  setUp
  let pa ← seek a 0 0 .fromEnd
  expect (pa == 0)
  let pb ← seek b 0 0 .fromEnd
  expect (pb == (← capacity b))
  let pb ← seek b pb 0 .set
  expect (pb == 0)
  let pb ← seek b pb 1 .set
  expect (pb == 1)
  let pb ← seek b pb 1 .fromEnd
  expect (pb == (← capacity b) - 1)
  tearDown

example : ok seekTest = true := by decide +kernel

/-- `putsTest` (`tests/StreamTest.cpp` 106-137) -/
def putsTest : SM Unit := do
  setUp
  let pb := 0
  let pa ← puts a 0 b!"This is a test of my buffer\n"
  let pa ← puts a pa b!"This is line 2, isn't it amazing?\n"
  is a b!"This is a test of my buffer\nThis is line 2, isn't it amazing?\n"
  len a 62
  let _ ← on (assignS cfg b a pa) pb
  let pa ← seek a pa 10 .set
  let _ ← puts a pa b!"look"
  is a b!"This is a look of my buffer\nThis is line 2, isn't it amazing?\n"
  len a 62
  expect (decide ((← capacity a) ≤ (← capacity b)))
  expect ((← length b) == (← length a))
  let _ ← on (clearS a) 0
  let _ ← on (clearS b) 0
  let pa ← puts a 0 b!"This is a test of my buffer\n"
  let pa ← puts a pa b!"This is line 2, isn't it amazing?\n"
  is a b!"This is a test of my buffer\nThis is line 2, isn't it amazing?\n"
  len a 62
  let _ ← on (assignS cfg b a pa) pb
  let pa ← seek a pa 10 .set
  let _ ← puts a pa b!"look"
  is a b!"This is a look of my buffer\nThis is line 2, isn't it amazing?\n"
  len a 62
  expect (decide ((← capacity a) ≤ (← capacity b)))
  expect ((← length b) == (← length a))
  tearDown

example : ok putsTest = true := by decide +kernel

/-- `truncateTest` (`tests/StreamTest.cpp` 139-154) -/
def truncateTest : SM Unit := do
  setUp
  let pa ← puts a 0 b!"This is a test of my buffer\n"
  let pa ← puts a pa b!"This is line 2, isn't it amazing?\n"
  let (_, pa) ← on (clearS a) pa
  len a 0
  is a b!""
  let pa ← puts a pa b!"This is a test of my buffer\n"
  let pa ← puts a pa b!"This is line 2, isn't it amazing?\n"
  let pa ← seek a pa 10 .set
  let _ ← on (truncateS cfg a) pa
  len a 10
  is a b!"This is a "
  tearDown

example : ok truncateTest = true := by decide +kernel

/-- `"This is line%2d\n"` -/
def line (n : Nat) : Bytes := b!"This is line" ++ (if n < 10 then [32] else [(48 + n / 10).toUInt8]) ++ [(48 + n % 10).toUInt8, 10]

example : line 7 = b!"This is line 7\n" := by decide
example : line 13 = b!"This is line13\n" := by decide

/-- The loop of `readTest`: `k` rounds, at the end nothing is left. -/
def readAll (k x p : Nat) : SM Nat := do
  match k with
  | 0 => do expect (!decide (p < (← length a))); return p
  | k + 1 =>
    expect (decide (p < (← length a)))
    let (t, q) ← on (readS cfg a 30 0) p
    expect (q == p + 30)
    is t (line (x + 1) ++ line (x + 2))
    destroy cfg t
    readAll k (x + 2) q

/-- The loop of `getlineTest`. -/
def getAll (k x p : Nat) : SM Nat := do
  match k with
  | 0 => do expect (!decide (p < (← length a))); return p
  | k + 1 =>
    expect (decide (p < (← length a)))
    let (t, q) ← on (getlineS cfg a none) p
    expect (q == p + 15)
    is t (line (x + 1))
    destroy cfg t
    getAll k (x + 1) q

/-- `readTest` (`tests/StreamTest.cpp` 156-199) -/
def readTest : SM Unit := do
  setUp
  let pa ← putAll a 0 ((List.range 14).map fun i => line (i + 1))
  let pa ← seek a pa 0 .set
  let pa ← readAll 7 0 pa
  let savelen := pa
  let pa ← seek a pa pa .set
  let pa ← puts a pa (line 15)
  let pa ← seek a pa savelen .set
  let (t, q) ← on (readS cfg a 30 0) pa
  expect (q == savelen + 15)
  is t (line 15)
  destroy cfg t
  tearDown

example : ok readTest = true := by decide +kernel

/-- `getlineTest` (`tests/StreamTest.cpp` 201-233) -/
def getlineTest : SM Unit := do
  setUp
  let pa ← putAll a 0 ((List.range 13).map fun i => line (i + 1))
  let pa ← seek a pa 0 .set
  let _ ← getAll 13 0 pa
  tearDown

example : ok getlineTest = true := by decide +kernel

/-! ## Files -/

open Stm in
/-- The lines `getline(1023)` returns until the stream is at its end. -/
def linesOf : Nat → Stream → Eff (List Bytes)
  | 0, _ => .ret []
  | k + 1, s =>
    if s.pos < s.str.length then do
      let (l, s) ← getline s (some 1023)
      let ls ← linesOf k s
      return l :: ls
    else .ret []

/-- A file. -/
def services : List Bytes := [b!"ftp 21/tcp\n", b!"\n", b!"# a comment\n", b!"ssh 22/tcp\n"]

open Stm in
/-- `loadFileTest` (`tests/StreamTest.cpp` 235-270) with both implementations, on the file above. -/
def loadFileTest (mmap : Bool) : Bool :=
  match loadFile mmap {} 0 (fun _ => 100) (some services.flatten) (Stm.empty 0) with
  | .ret (r, s) => r == 0 && s.str == services.flatten &&
    (match linesOf 10 s with
     | .ret ls => ls == services
     | _ => false)
  | _ => false

example : loadFileTest true = true ∧ loadFileTest false = true := by decide +kernel

open Stm in
/-- `writeFileFDTest` and `writeFileTest` (`tests/StreamTest.cpp` 273-363). -/
def writeFileTest (mmap : Bool) : Bool :=
  match loadFile mmap {} 0 (fun _ => 100) (some services.flatten) (Stm.empty 0) with
  | .ret (_, s) => (let (r, f) := writeFd mmap {} s ⟨[], 0⟩; r == 0 && f.bytes == services.flatten) &&
    (let (r, f) := writeFile mmap {} s none; r == 0 && f == some services.flatten)
  | _ => false

example : writeFileTest true = true ∧ writeFileTest false = true := by decide +kernel

end Bdlib.Tests.StreamTest
