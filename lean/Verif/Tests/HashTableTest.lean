import Verif.Tests.Harness
import Verif.Hash.Model

/-!
# `tests/HashTableTest.cpp` on the model

Each test is the sequence of its calls on the tables with `int` keys and of those on the tables with `String` keys, each with
the expected result.  Left out: that Strings given with `std::move` are empty afterwards.
-/

namespace Bdlib.Tests.HashTableTest
open Bdlib Bdlib.Hash Bdlib.Tests
open Bdlib.Str (Bytes)

/-- `HashTable<int, String>`; the tables start with one bucket and grow. -/
def ints : Types Nat Bytes := ⟨fun a b => a == b, id, [], fun n b => if n < b then none else some (2 * b + 1)⟩
/-- `HashTable<String, String>` -/
def texts : Types Bytes Bytes :=
  ⟨fun a b => a == b, fun v => v.foldl (fun h x => (33 * h + x.toNat) % 2147483648) 5381, [], fun n b => if n < b then none else some (2 * b + 1)⟩

/-- Is the result as expected? -/
def agrees {K V : Type} [BEq V] : Out K V → Option (Out K V) → Bool
  | _, none => true
  | .bool x, some (.bool y) => x == y
  | .nat x, some (.nat y) => x == y
  | .value x, some (.value y) => x == y
  | _, _ => false

/-- Do all calls give the expected results? -/
def passesT {K V : Type} [BEq V] (c : Types K V) (ops : List (Op K V × Option (Out K V))) : Bool :=
  let outs := (runs c (ops.map (·.1)) fun _ => UMap.empty 0).1
  outs.length == ops.length && (outs.zip (ops.map (·.2))).all fun x => agrees x.1 x.2

/-- `insertTest` (`tests/HashTableTest.cpp` 65-135), the tables with `int` keys. -/
def insertTest : List (Op Nat Bytes × Option (Out Nat Bytes)) := [
  (.size 0, some (.nat 0)),
  (.insert 0 1 b!"Blah", none),
  (.size 0, some (.nat 1)),
  (.insert 0 1 b!"Blah", none),
  (.size 0, some (.nat 1)),
  (.insert 0 2 b!"Blah", none),
  (.size 0, some (.nat 2)),
  (.insert 0 8 b!"Blah", none),
  (.size 0, some (.nat 3)),
  (.insert 0 4 b!"Blah", none),
  (.size 0, some (.nat 4)),
  (.insert 1 27 b!"Test", none),
  (.size 1, some (.nat 1)),
  (.copy 1 0, none),
  (.size 0, some (.nat 4)),
  (.size 1, some (.nat 4)),
  (.set 0 42 b!"42", none),
  (.size 0, some (.nat 5))]

example : passesT ints insertTest = true := by decide +kernel

/-- `insertTest` (`tests/HashTableTest.cpp` 65-135), the tables with `String` keys. -/
def insertTestS : List (Op Bytes Bytes × Option (Out Bytes Bytes)) := [
  (.size 0, some (.nat 0)),
  (.insert 0 b!"1" b!"Blah", none),
  (.size 0, some (.nat 1)),
  (.insert 0 b!"1" b!"Blah", none),
  (.size 0, some (.nat 1)),
  (.insert 0 b!"2" b!"Blah", none),
  (.size 0, some (.nat 2)),
  (.insert 0 b!"8" b!"Blah", none),
  (.size 0, some (.nat 3)),
  (.insert 0 b!"4" b!"Blah", none),
  (.size 0, some (.nat 4)),
  (.remove 0 b!"4", none),
  (.size 0, some (.nat 3)),
  (.insert 0 b!"4" b!"Blah", none),
  (.size 0, some (.nat 4)),
  (.index 0 b!"4", some (.value b!"Blah")),
  (.remove 0 b!"4", none),
  (.set 0 b!"4" b!"Blah", none),
  (.size 0, some (.nat 4)),
  (.index 0 b!"4", some (.value b!"Blah")),
  (.insert 1 b!"27" b!"Test", none),
  (.size 1, some (.nat 1)),
  (.copy 1 0, none),
  (.size 0, some (.nat 4)),
  (.size 1, some (.nat 4)),
  (.set 0 b!"hmmzz" b!"hmmm", none),
  (.size 0, some (.nat 5)),
  (.set 0 b!"7" b!"seven", none),
  (.size 0, some (.nat 6))]

example : passesT texts insertTestS = true := by decide +kernel

/-- `operatorTest` (`tests/HashTableTest.cpp` 137-159), the tables with `String` keys. -/
def operatorTestS : List (Op Bytes Bytes × Option (Out Bytes Bytes)) := [
  (.set 0 b!"one" b!"One", none),
  (.set 0 b!"two" b!"Two", none),
  (.set 0 b!"three" b!"Three", none),
  (.set 0 b!"four" b!"Four", none),
  (.set 0 b!"five" b!"Five", none),
  (.set 0 b!"six" b!"Six", none),
  (.move 2 0, none),
  (.size 2, some (.nat 6)),
  (.size 0, some (.nat 0)),
  (.new 3 0, none),
  (.move 3 2, none),
  (.size 3, some (.nat 6)),
  (.size 2, some (.nat 0)),
  (.copy 4 3, none),
  (.size 4, some (.nat 6)),
  (.size 3, some (.nat 6))]

example : passesT texts operatorTestS = true := by decide +kernel

/-- `containsTest` (`tests/HashTableTest.cpp` 161-225), the tables with `int` keys. -/
def containsTest : List (Op Nat Bytes × Option (Out Nat Bytes)) := [
  (.insert 0 1 b!"Blah", none),
  (.insert 0 1 b!"Bleck", none),
  (.insert 0 2 b!"Blah", none),
  (.insert 0 8 b!"Blah", none),
  (.insert 0 4 b!"Blah", none),
  (.contains 0 1, some (.bool true)),
  (.contains 0 3, some (.bool false)),
  (.contains 0 4, some (.bool true)),
  (.copy 1 0, none),
  (.contains 1 1, some (.bool true)),
  (.contains 1 3, some (.bool false)),
  (.contains 1 4, some (.bool true)),
  (.insert 1 5 b!"test", none),
  (.contains 1 5, some (.bool true)),
  (.contains 0 5, some (.bool false)),
  (.copy 1 0, none),
  (.contains 1 1, some (.bool true)),
  (.contains 1 3, some (.bool false)),
  (.contains 1 4, some (.bool true)),
  (.contains 1 5, some (.bool false)),
  (.contains 0 5, some (.bool false)),
  (.set 0 42 b!"42", none),
  (.size 0, some (.nat 5)),
  (.contains 0 42, some (.bool true))]

example : passesT ints containsTest = true := by decide +kernel

/-- `containsTest` (`tests/HashTableTest.cpp` 161-225), the tables with `String` keys. -/
def containsTestS : List (Op Bytes Bytes × Option (Out Bytes Bytes)) := [
  (.insert 0 b!"1" b!"Blah", none),
  (.insert 0 b!"1" b!"Bleck", none),
  (.insert 0 b!"2" b!"Blah", none),
  (.insert 0 b!"8" b!"Blah", none),
  (.insert 0 b!"4" b!"Blah", none),
  (.contains 0 b!"1", some (.bool true)),
  (.contains 0 b!"3", some (.bool false)),
  (.contains 0 b!"4", some (.bool true)),
  (.copy 1 0, none),
  (.contains 1 b!"1", some (.bool true)),
  (.contains 1 b!"3", some (.bool false)),
  (.contains 1 b!"4", some (.bool true)),
  (.insert 1 b!"5" b!"test", none),
  (.contains 1 b!"5", some (.bool true)),
  (.contains 0 b!"5", some (.bool false)),
  (.copy 1 0, none),
  (.contains 1 b!"1", some (.bool true)),
  (.contains 1 b!"3", some (.bool false)),
  (.contains 1 b!"4", some (.bool true)),
  (.contains 1 b!"5", some (.bool false)),
  (.contains 0 b!"5", some (.bool false)),
  (.set 0 b!"42" b!"42", none),
  (.size 0, some (.nat 5)),
  (.contains 0 b!"42", some (.bool true))]

example : passesT texts containsTestS = true := by decide +kernel

/-- `clearTest` (`tests/HashTableTest.cpp` 227-273), the tables with `int` keys. -/
def clearTest : List (Op Nat Bytes × Option (Out Nat Bytes)) := [
  (.insert 0 1 b!"Blah", none),
  (.insert 0 1 b!"Bleck", none),
  (.insert 0 2 b!"Blah", none),
  (.insert 0 8 b!"Blah", none),
  (.insert 0 4 b!"Blah", none),
  (.size 0, some (.nat 4)),
  (.clear 0, none),
  (.size 0, some (.nat 0)),
  (.isEmpty 0, some (.bool true)),
  (.insert 0 1 b!"Blah1", none),
  (.insert 0 2 b!"Blah2", none),
  (.insert 0 3 b!"Blah3", none),
  (.size 0, some (.nat 3)),
  (.contains 0 1, some (.bool true)),
  (.contains 0 2, some (.bool true)),
  (.contains 0 3, some (.bool true))]

example : passesT ints clearTest = true := by decide +kernel

/-- `clearTest` (`tests/HashTableTest.cpp` 227-273), the tables with `String` keys. -/
def clearTestS : List (Op Bytes Bytes × Option (Out Bytes Bytes)) := [
  (.insert 0 b!"1" b!"Blah", none),
  (.insert 0 b!"1" b!"Bleck", none),
  (.insert 0 b!"2" b!"Blah", none),
  (.insert 0 b!"8" b!"Blah", none),
  (.insert 0 b!"4" b!"Blah", none),
  (.size 0, some (.nat 4)),
  (.clear 0, none),
  (.size 0, some (.nat 0)),
  (.isEmpty 0, some (.bool true)),
  (.insert 0 b!"1" b!"Blah1", none),
  (.insert 0 b!"2" b!"Blah2", none),
  (.insert 0 b!"3" b!"Blah3", none),
  (.size 0, some (.nat 3)),
  (.contains 0 b!"1", some (.bool true)),
  (.contains 0 b!"2", some (.bool true)),
  (.contains 0 b!"3", some (.bool true))]

example : passesT texts clearTestS = true := by decide +kernel

/-- `getValueTest` (`tests/HashTableTest.cpp` 275-328), the tables with `int` keys. -/
def getValueTest : List (Op Nat Bytes × Option (Out Nat Bytes)) := [
  (.insert 0 1 b!"Blah1", none),
  (.getValue 0 1, some (.value b!"Blah1")),
  (.size 0, some (.nat 1)),
  (.insert 0 1 b!"Bleck", some (.bool false)),
  (.getValue 0 1, some (.value b!"Blah1")),
  (.size 0, some (.nat 1)),
  (.insert 0 2 b!"Blah2", none),
  (.getValue 0 1, some (.value b!"Blah1")),
  (.getValue 0 2, some (.value b!"Blah2")),
  (.size 0, some (.nat 2)),
  (.insert 0 8 b!"Blah8", none),
  (.getValue 0 1, some (.value b!"Blah1")),
  (.getValue 0 2, some (.value b!"Blah2")),
  (.getValue 0 8, some (.value b!"Blah8")),
  (.size 0, some (.nat 3)),
  (.insert 0 4 b!"Blah4", none),
  (.index 0 4, some (.value b!"Blah4")),
  (.index 0 1, some (.value b!"Blah1")),
  (.index 0 2, some (.value b!"Blah2")),
  (.getValue 0 8, some (.value b!"Blah8")),
  (.size 0, some (.nat 4)),
  (.index 0 58, some (.value b!"")),
  (.size 0, some (.nat 5)),
  (.copy 1 0, none),
  (.getValue 1 4, some (.value b!"Blah4")),
  (.getValue 1 1, some (.value b!"Blah1")),
  (.getValue 1 2, some (.value b!"Blah2")),
  (.getValue 1 8, some (.value b!"Blah8")),
  (.size 1, some (.nat 5)),
  (.size 0, some (.nat 5)),
  (.copy 2 0, none),
  (.getValue 2 4, some (.value b!"Blah4")),
  (.getValue 2 1, some (.value b!"Blah1")),
  (.getValue 2 2, some (.value b!"Blah2")),
  (.getValue 2 8, some (.value b!"Blah8")),
  (.size 2, some (.nat 5)),
  (.size 0, some (.nat 5)),
  (.set 0 42 b!"42", none),
  (.index 0 42, some (.value b!"42"))]

example : passesT ints getValueTest = true := by decide +kernel

/-- `removeTest` (`tests/HashTableTest.cpp` 346-385), the tables with `int` keys. -/
def removeTest : List (Op Nat Bytes × Option (Out Nat Bytes)) := [
  (.insert 0 1 b!"Blah", none),
  (.insert 0 1 b!"Bleck", none),
  (.insert 0 2 b!"Blah2", none),
  (.insert 0 8 b!"Blah8", none),
  (.insert 0 4 b!"Blah4", none),
  (.remove 0 8, none),
  (.getValue 0 58, some (.value b!"")),
  (.getValue 0 1, some (.value b!"Blah")),
  (.getValue 0 4, some (.value b!"Blah4")),
  (.getValue 0 2, some (.value b!"Blah2")),
  (.getValue 0 8, some (.value b!"")),
  (.remove 0 8, some (.bool false)),
  (.remove 0 4, none),
  (.getValue 0 1, some (.value b!"Blah")),
  (.getValue 0 2, some (.value b!"Blah2")),
  (.getValue 0 4, some (.value b!"")),
  (.remove 0 2, none),
  (.getValue 0 1, some (.value b!"Blah")),
  (.getValue 0 2, some (.value b!"")),
  (.remove 0 1, none),
  (.isEmpty 0, some (.bool true)),
  (.getValue 0 1, some (.value b!""))]

example : passesT ints removeTest = true := by decide +kernel

/-- `initializerTest` (`tests/HashTableTest.cpp` 387-394) -/
def initializerTest : List (Op Bytes Bytes × Option (Out Bytes Bytes)) := [
  (.newList 0 [(b!"One", [1]), (b!"Two", [2])], none),
  (.size 0, some (.nat 2)),
  (.index 0 b!"One", some (.value [1])),
  (.index 0 b!"Two", some (.value [2]))]

example : passesT texts initializerTest = true := by decide +kernel

/-- `iteratorTest` (`tests/HashTableTest.cpp` 396-447): the first loop meets each entry once and removes the first character of
each value; the second meets the changed values. -/
def iteratorTest : Bool :=
  let t := [((1 : Nat), b!"Blah"), (2, b!"Blah2"), (8, b!"Blah8"), (4, b!"Blah4")].foldl (fun t p => (Hash.insert ints t p.1 p.2).2) (UMap.empty 0)
  let u := t.entries.foldl (fun t p => t.assign ints p.1 (p.2.drop 1)) t
  t.entries.length == 4 && t.entries.contains (1, b!"Blah") && t.entries.contains (2, b!"Blah2") && t.entries.contains (8, b!"Blah8") &&
    t.entries.contains (4, b!"Blah4") &&
  u.entries.length == 4 && u.entries.contains (1, b!"lah") && u.entries.contains (2, b!"lah2") && u.entries.contains (8, b!"lah8") &&
    u.entries.contains (4, b!"lah4")

example : iteratorTest = true := by decide +kernel

end Bdlib.Tests.HashTableTest
