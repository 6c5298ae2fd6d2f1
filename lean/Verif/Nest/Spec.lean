import Verif.Nest.Model
import Verif.Rca.Reach

/-!
# Specification: a program using `String`s and `Array<String>`s

Two environments say what every string and every array holds; an array holds a list of strings, values like
any others.  The contract and the effect of a call on an array are those of `Spec/Values.lean` for elements
that are strings; calls that take or return an element say in addition what happens to the strings of the
program.  Nothing here mentions cells, buffers or the strings inside them.
-/

namespace Bdlib.Nest
open Bdlib Bdlib.Spec Bdlib.Rca

deriving instance DecidableEq for Slot

/-- What is known about a string, as an array element: it was moved from, or its value. -/
abbrev Elem := Slot UInt8

/-- `std::hash` of an element: the hash of the string (`String.h` 654-662); unknown for a string that was moved
from. -/
def elemHash (cfg : Cfg UInt8) : Elem → UInt64
  | .val v => UInt64.ofNat (djb (fun x => (cfg.hasher x).toNat) v)
  | _ => 0

/-- The parameters of arrays of strings, seen as values: a new element is the empty string; what remains of an
element that was moved from is what remains of any string. -/
def Conf.val (c : Conf) : Cfg Elem :=
  { nul := none, junk := fun _ _ => .val [], moved := fun _ => movedSlot c.str, scale := c.scale,
    allocOk := c.allocOk, resetMoved := c.str.resetMoved, hasher := elemHash c.str, wipe := fun _ _ => .val [] }

/-- Calls.  Strings and arrays are named by handles; `h` is a string of the program, never an element. -/
inductive Call where
  /-- a call on strings -/
  | str (op : Op UInt8)
  /-- a call on arrays that neither takes nor returns elements, see `Plain` -/
  | arr (op : Op Elem)
  | listCtor (hs : List Nat)
  | assignList (a : Nat) (hs : List Nat)
  | fillCtor (n h : Nat)
  | resizeFill (a n h : Nat)
  | write (a i h : Nat)
  | writeMove (a i h : Nat)
  | append (a h : Nat)
  | appendMove (a h : Nat)
  | insert (a pos h : Nat)
  | insertMove (a pos h : Nat)
  | replace (a pos h : Nat)
  | replaceMove (a pos h : Nat)
  /-- `String t(a[i])`, `String t(a.at(i))` -/
  | get (a i : Nat)
  | getAt (a i : Nat)
  /-- `String t(a.shift())`, `String t(a.pop())` -/
  | shift (a : Nat)
  | pop (a : Nat)
  /-- a string call on the element `begin()[i]`, alone or together with strings of the program -/
  | modify (a i : Nat) (op : Nat → Op UInt8)

/-- The array calls without elements. -/
def Plain : Op Elem → Prop
  | .ctor | .copyCtor _ | .moveCtor _ | .sizeCtor _ | .substring _ _ _ | .destroy _ | .copyAssign _ _
  | .moveAssign _ _ | .swap _ _ | .clear _ | .length _ | .begin _ | .reserve _ _ | .resize _ _ | .slice _ _ _
  | .appendRca _ _ _ | .appendMove _ _ _ | .insertRca _ _ _ | .insertRcaN _ _ _ _ | .insertMove _ _ _
  | .insertMoveN _ _ _ _ | .replaceRca _ _ _ _ | .replaceMove _ _ _ _ | .popBack _ | .arrDropFront _ _
  | .arrDropBack _ _ => True
  | _ => False

/-- What a call returns: about strings (a new string: `.s (.obj t)`) or about arrays. -/
inductive Ans where
  | s (x : Out UInt8)
  | a (x : Out Elem)

/-- How a call ends. -/
inductive Fin where
  | ret (x : Ans)
  | exc (e : Exc)

def ofStr : Outcome UInt8 → Fin
  | .ret x => .ret (.s x)
  | .exc e => .exc e

def ofArr : Outcome Elem → Fin
  | .ret x => .ret (.a x)
  | .exc e => .exc e

/-- The strings after a call that moved from `h`: nothing happened to `h` if the call failed. -/
def movedOut (c : Conf) (es : Env UInt8) (h : Nat) : Outcome Elem → Env UInt8
  | .ret _ => es.upd h (movedSlot c.str)
  | .exc _ => es

/-- Contract.  `ss o`, `sa o`: what `isShared()` answers for string or array `o`. -/
def Pre (c : Conf) (ss sa : Nat → Bool) (es : Env UInt8) (ea : Env Elem) : Call → Prop
  | .str op => Spec.Pre c.str ss es op
  | .arr op => Plain op ∧ Spec.Pre c.val sa ea op
  | .listCtor hs => ∀ h ∈ hs, es.Live h
  | .assignList a hs => ea.Live a ∧ ∀ h ∈ hs, es.Live h
  | .fillCtor _ h => es.Live h
  | .resizeFill a _ h => ea.Has a ∧ es.Live h
  | .write a i h | .writeMove a i h => Spec.Pre c.val sa ea (.write a i (es h)) ∧ es.Live h
  | .append a h | .appendMove a h => ea.Has a ∧ es.Live h
  | .insert a _ h | .insertMove a _ h => ea.Has a ∧ es.Live h
  | .replace a pos h | .replaceMove a pos h => Spec.Pre c.val sa ea (.replaceItem a pos (es h)) ∧ es.Live h
  | .get a i => Spec.Pre c.val sa ea (.read a i)
  | .getAt a _ => ea.Has a
  | .shift a | .pop a => ea.Has a ∧ ea.get a ≠ []
  | .modify a i op => ea.Has a ∧ i < (ea.get a).length ∧ ∀ t y sh, es t = .dead → (ea.get a)[i]? = some y →
      Spec.Pre c.str sh (es.upd t y) (op t) ∧ op t ≠ .destroy t

/-- A call returns an element: it becomes a string of the program under a handle that was not in use. -/
def Hands (c : Conf) (sa : Nat → Bool) (es : Env UInt8) (ea : Env Elem) (op : Op Elem) (out : Fin) (es' : Env UInt8)
    (ea' : Env Elem) : Prop :=
  (∃ t y, es t = .dead ∧ Spec.Post c.val sa ea op (.ret (.elem (some y))) ea' ∧ out = .ret (.s (.obj t)) ∧ es' = es.upd t y) ∨
    ∃ e, Spec.Post c.val sa ea op (.exc e) ea' ∧ out = .exc e ∧ es' = es

/-- A call takes strings as elements and leaves them alone. -/
def Copies (c : Conf) (sa : Nat → Bool) (es : Env UInt8) (ea : Env Elem) (op : Op Elem) (out : Fin) (es' : Env UInt8)
    (ea' : Env Elem) : Prop :=
  ∃ o, Spec.Post c.val sa ea op o ea' ∧ out = ofArr o ∧ es' = es

/-- A call takes a string as element and moves from it. -/
def Moves (c : Conf) (sa : Nat → Bool) (es : Env UInt8) (ea : Env Elem) (h : Nat) (op : Op Elem) (out : Fin)
    (es' : Env UInt8) (ea' : Env Elem) : Prop :=
  ∃ o, Spec.Post c.val sa ea op o ea' ∧ out = ofArr o ∧ es' = movedOut c es h o

/-- Effect of an in-contract call. -/
def Post (c : Conf) (ss sa : Nat → Bool) (es : Env UInt8) (ea : Env Elem) (call : Call) (out : Fin) (es' : Env UInt8)
    (ea' : Env Elem) : Prop :=
  match call with
  | .str op => ∃ o, Spec.Post c.str ss es op o es' ∧ out = ofStr o ∧ ea' = ea
  | .arr op => Copies c sa es ea op out es' ea'
  | .listCtor hs => Copies c sa es ea (.listCtor (hs.map es)) out es' ea'
  | .assignList a hs => Copies c sa es ea (.assignList a (hs.map es)) out es' ea'
  | .fillCtor n h => Copies c sa es ea (.fillCtor n (es h)) out es' ea'
  | .resizeFill a n h => Copies c sa es ea (.resizeFill a n (es h)) out es' ea'
  | .write a i h => Copies c sa es ea (.write a i (es h)) out es' ea'
  | .writeMove a i h => Moves c sa es ea h (.write a i (es h)) out es' ea'
  | .append a h => Copies c sa es ea (.append a (es h)) out es' ea'
  | .appendMove a h => Moves c sa es ea h (.append a (es h)) out es' ea'
  | .insert a pos h => Copies c sa es ea (.insertItem a pos (es h)) out es' ea'
  | .insertMove a pos h => Moves c sa es ea h (.insertItem a pos (es h)) out es' ea'
  | .replace a pos h => Copies c sa es ea (.replaceItem a pos (es h)) out es' ea'
  | .replaceMove a pos h => Moves c sa es ea h (.replaceItem a pos (es h)) out es' ea'
  | .get a i => Hands c sa es ea (.read a i) out es' ea'
  | .getAt a i => Hands c sa es ea (.at a i) out es' ea'
  | .shift a => Hands c sa es ea (.shift a) out es' ea'
  | .pop a => Hands c sa es ea (.pop a) out es' ea'
  | .modify a i op => (out = .exc .badAlloc ∧ es' = es ∧ ea' = if sa a then ea.upd a (.val []) else ea) ∨
      ∃ t y sh o e, es t = .dead ∧ (ea.get a)[i]? = some y ∧ Spec.Post c.str sh (es.upd t y) (op t) o e ∧ out = ofStr o ∧
        es' = e.upd t .dead ∧ ea' = ea.upd a (.val ((ea.get a).set i (e t)))

/-- Strings a call leaves behind that nobody will ever destroy: one for each element that `resize(len, value)` or
the fill constructor adds. -/
def wasted (ea : Env Elem) : Call → Fin → Nat
  | .fillCtor n _, .ret _ => n
  | .resizeFill a n _, .ret _ => n - (ea.get a).length
  | _, _ => 0

/-! ## The code behind the calls -/

/-- The modelled code behind the array calls without elements. -/
def runArr (c : Conf) : Op Elem → P (Out Elem)
  | .ctor => do let o ← P.arrs Rca.ctor; return .obj o
  | .copyCtor r => do let o ← P.arrs (Rca.copyCtor r); return .obj o
  | .moveCtor r => do let o ← P.arrs (Rca.moveCtor c.hnd r); return .obj o
  | .sizeCtor n => do let o ← sizeCtor c n; return .obj o
  | .substring r start len => do let o ← subarray r start len; return .obj o
  | .destroy o => do destroy c o; return .unit
  | .copyAssign o r => do copyAssign c o r; return .unit
  | .moveAssign o r => do moveAssign c o r; return .unit
  | .swap o r => do P.arrs (Rca.swap o r); return .unit
  | .clear o => do P.arrs (Rca.clear o); return .unit
  | .length o => do let n ← P.arrs (Rca.length o); return .num n
  | .begin o => do getOwnCopy c o; return .unit
  | .reserve o n => do reserve c o n id; return .unit
  | .resize o n => do resize c o n; return .unit
  | .slice o start len => do P.arrs (Rca.slice o start len); return .unit
  | .appendRca o r n => do appendArr c o r n; return .unit
  | .appendMove o r n => do appendArrMove c o r n; return .unit
  | .insertRca o pos r => do insertArr c o pos r; return .unit
  | .insertRcaN o pos r n => do insertArrN c o pos r n; return .unit
  | .insertMove o pos r => do insertArrMove c o pos r; return .unit
  | .insertMoveN o pos r n => do insertArrMoveN c o pos r n; return .unit
  | .replaceRca o pos r n => do replaceArr c o pos r n; return .unit
  | .replaceMove o pos r n => do replaceArrMove c o pos r n; return .unit
  | .popBack o => do P.arrs (Rca.popBack o); return .unit
  | .arrDropFront o n => do P.arrs (Rca.arrDropFront o n); return .unit
  | .arrDropBack o n => do P.arrs (Rca.arrDropBack o n); return .unit
  | _ => P.undef

/-- The modelled code behind each call. -/
def run (c : Conf) : Call → P Ans
  | .str op => do let x ← P.strs (Rca.run c.str op); return .s x
  | .arr op => do let x ← runArr c op; return .a x
  | .listCtor hs => do let o ← listCtor c hs; return .a (.obj o)
  | .assignList a hs => do assignList c a hs; return .a .unit
  | .fillCtor n h => do let o ← fillCtor c n h; return .a (.obj o)
  | .resizeFill a n h => do resizeFill c a n h; return .a .unit
  | .write a i h => do write c a i h; return .a .unit
  | .writeMove a i h => do writeMove c a i h; return .a .unit
  | .append a h => do append c a h; return .a .unit
  | .appendMove a h => do appendMove c a h; return .a .unit
  | .insert a pos h => do insertItem c a pos h; return .a .unit
  | .insertMove a pos h => do insertItemMove c a pos h; return .a .unit
  | .replace a pos h => do replaceItem c a pos h; return .a .unit
  | .replaceMove a pos h => do replaceItemMove c a pos h; return .a .unit
  | .get a i => do let t ← get a i; return .s (.obj t)
  | .getAt a i => do let t ← getAt a i; return .s (.obj t)
  | .shift a => do let t ← shift c a; return .s (.obj t)
  | .pop a => do let t ← pop c a; return .s (.obj t)
  | .modify a i op => do let x ← modify c a i op; return .s x

/-- How a call ended and the state it left, unless it was undefined. -/
def result : Res Ans → Option (Fin × World)
  | .ok x w => some (.ret x, w)
  | .throw e w => some (.exc e, w)
  | .ub => none

/-! ## What can be seen -/

/-- String object `t` holds what `y` says. -/
def Holds (w : World) (t : Nat) : Elem → Prop
  | .dead => False
  | .unspec => ∃ ob, w.strs.obj t = some ob
  | .val v => Shows w.strs t v

/-- Array `a` shows exactly the elements `xs` through `length()` and `a[i]`. -/
def ShowsArr (w : World) (a : Nat) (xs : List Elem) : Prop :=
  Rca.length a w.arrs = .ok xs.length w.arrs ∧
    ∀ i y, xs[i]? = some y → ∃ t, cell a i w = .ok t w ∧ Holds w t y

/-- Everything the environments know can be observed.  Once all strings and arrays of the program are destroyed,
no storage of arrays is left; exactly `lost` string objects are left; and no storage of strings except theirs. -/
structure Sees (w : World) (es : Env UInt8) (ea : Env Elem) (lost : Nat) : Prop where
  str : ∀ t, es t ≠ .dead → Holds w t (es t)
  arr : ∀ a, match ea a with
    | .dead => w.arrs.obj a = none
    | .unspec => ∃ ob, w.arrs.obj a = some ob
    | .val xs => ShowsArr w a xs
  tidy : (∀ t, es t = .dead) → (∀ a, ea a = .dead) →
    (∀ b, w.arrs.blk b = none) ∧
    (∃ L : List Nat, L.Nodup ∧ L.length = lost ∧ ∀ t, (∃ ob, w.strs.obj t = some ob) ↔ t ∈ L) ∧
    ∀ b B, w.strs.blk b = some B → ∃ t ob, w.strs.obj t = some ob ∧ ob.ref = some b

/-- For the next `n` calls, whichever the program makes (each within its contract): the call is defined, has the
effect the specification says, and everything can be observed as specified, also afterwards. -/
def Plays (c : Conf) : Nat → World → Env UInt8 → Env Elem → Nat → Prop
  | 0, w, es, ea, lost => Sees w es ea lost
  | n + 1, w, es, ea, lost => Sees w es ea lost ∧ ∀ call, Pre c (shared w.strs) (shared w.arrs) es ea call →
      ∃ out w' es' ea', result (run c call w) = some (out, w') ∧
        Post c (shared w.strs) (shared w.arrs) es ea call out es' ea' ∧
        Plays c n w' es' ea' (lost + wasted ea call out)

end Bdlib.Nest
