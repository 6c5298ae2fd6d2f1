import Verif.Deep.Algo
import Verif.Nest.Spec
import Verif.Spec.Strings
import Verif.Spec.Touch

/-!
# Specification: a program using `String`s and arrays nested to any depth

Depth 0 are the `String`s, depth `n + 1` the arrays whose elements are objects of depth `n`.  For every depth an
environment says what every object of the program at that depth holds; an array holds a list of what its elements
hold.  The contract and the effect of a call on an array are those of `Spec/Values.lean` for such elements; calls
that take or return an element say in addition what happens to the objects of the program at the depth below.
Nothing here mentions cells, buffers, sharing of storage between elements, or the objects inside arrays.
-/

namespace Bdlib.Deep
open Bdlib Bdlib.Spec Bdlib.Rca

/-- What an object of depth `n` is a sequence of: bytes, or what is known about objects one depth below. -/
def Ty : Nat → Type
  | 0 => UInt8
  | n + 1 => Slot (Ty n)

instance decTy : (n : Nat) → DecidableEq (Ty n)
  | 0 => inferInstanceAs (DecidableEq UInt8)
  | n + 1 => have := decTy n; inferInstanceAs (DecidableEq (Slot (Ty n)))

/-- The parameters of arrays, seen as arrays of values: a new element is empty; `mv` is what remains of an element
that was moved from, `θ` what `std::hash` makes of an element. -/
def Conf.val {T : Type} (c : Conf) (θ : Slot T → UInt64) (mv : Slot T) : Cfg (Slot T) :=
  { nul := none, junk := fun _ _ => .val [], moved := fun _ => mv, scale := c.scale,
    allocOk := c.allocOk, resetMoved := c.resetMoved, hasher := θ, wipe := fun _ _ => .val [] }

/-- What remains of an object that was moved from. -/
def left (p : Params) (n : Nat) : Slot (Ty n) := if p.str.resetMoved then .val [] else .unspec

/-- Everything is known about the object: neither it nor any element in it, at any depth, was moved from. -/
def Known : {n : Nat} → Slot (Ty n) → Prop
  | 0, y => ∃ v : List UInt8, y = .val v
  | n + 1, y => ∃ xs : List (Slot (Ty n)), y = .val xs ∧ ∀ x ∈ xs, Known x

/-- The hash of a string is computed from its bytes, that of an array from the hashes of its elements. -/
def hashOf (p : Params) : {n : Nat} → Slot (Ty n) → Nat
  | 0, .val v => djb (fun x : UInt8 => (p.str.hasher x).toNat) v
  | _ + 1, .val xs => djb (hashOf p) xs
  | _, _ => 0

/-- `std::hash` of an element of depth `n` (`String.h` 654-662, `Array.h` 353-360). -/
def code (p : Params) (n : Nat) (y : Slot (Ty n)) : UInt64 := UInt64.ofNat (hashOf p y)

/-- Arrays of elements of depth `n`, seen as arrays of values. -/
def vals (p : Params) (n : Nat) : Cfg (Slot (Ty n)) := (level p n).val (code p n) (left p n)

/-! ## Algorithms -/

/-- The order of a dictionary. -/
def before (v u : List UInt8) : Bool := decide (v < u)

/-- How a comparison comes out: `String`s are ordered by their bytes, as in a dictionary. -/
def Cmp.says : {n : Nat} → Cmp n → Slot (Ty n) → Slot (Ty n) → Bool
  | _, .eq, x, y => decide (x = y)
  | _, .less, .val v, .val u => before v u
  | _, .shorter, .val v, .val u => decide (v.length < u.length)
  | _, _, _, _ => false

/-- What may be compared: nothing that was moved from; for `<`, strings whose lengths differ by less than 2^31 (C24). -/
def Cmp.Ok : {n : Nat} → Cmp n → Slot (Ty n) → Slot (Ty n) → Prop
  | _, .eq, x, y => Known x ∧ Known y
  | _, .less, x, y => ∃ v u : List UInt8, x = .val v ∧ y = .val u ∧ v.length < u.length + 2147483648 ∧ u.length ≤ v.length + 2147483648
  | _, .shorter, x, y => ∃ v u, x = .val v ∧ y = .val u

/-- What an algorithm works on: the elements it was given, and objects of its own, the last one first. -/
structure Hand (T : Type) where
  elems : List (Slot T)
  temps : List (Slot T)

namespace Hand
variable {T : Type}

/-- There is such an object. -/
def Has (h : Hand T) : Place → Prop
  | .elem i => i < h.elems.length
  | .temp t => t < h.temps.length

def get (h : Hand T) : Place → Slot T
  | .elem i => h.elems[i]?.getD .dead
  | .temp t => h.temps[t]?.getD .dead

def put (h : Hand T) (d : Place) (x : Slot T) : Hand T :=
  match d with
  | .elem i => { h with elems := h.elems.set i x }
  | .temp t => { h with temps := h.temps.set t x }

/-- `mv` is what remains of an object that was moved from; an object moved to itself stays as it is. -/
def move (h : Hand T) (mv : Slot T) (d s : Place) : Hand T := if d = s then h else (h.put s mv).put d (h.get s)

def push (h : Hand T) (x : Slot T) : Hand T := { h with temps := x :: h.temps }
def pop (h : Hand T) : Hand T := { h with temps := h.temps.tail }

end Hand

/-- The algorithm stays between its iterators and compares what may be compared. -/
def Algo.Ok {n : Nat} (mv : Slot (Ty n)) : Algo n → Hand (Ty n) → Prop
  | .done _, _ | .raise _, _ => True
  | .move d s k, h => h.Has d ∧ h.Has s ∧ k.Ok mv (h.move mv d s)
  | .copy d s k, h => h.Has d ∧ h.Has s ∧ k.Ok mv (h.put d (h.get s))
  | .take s k, h => h.Has s ∧ k.Ok mv ((h.put s mv).push (h.get s))
  | .dup s k, h => h.Has s ∧ k.Ok mv (h.push (h.get s))
  | .drop k, h => h.temps ≠ [] ∧ k.Ok mv h.pop
  | .test q x y k, h => h.Has x ∧ h.Has y ∧ q.Ok (h.get x) (h.get y) ∧ (k (q.says (h.get x) (h.get y))).Ok mv h

/-- What the algorithm returns, and what it makes of a list of elements. -/
def Algo.effect {n : Nat} (mv : Slot (Ty n)) : Algo n → Hand (Ty n) → Outcome (Ty (n + 1)) × List (Slot (Ty n))
  | .done r, h => (.ret (.num r), h.elems)
  | .raise e, h => (.exc e, h.elems)
  | .move d s k, h => k.effect mv (h.move mv d s)
  | .copy d s k, h => k.effect mv (h.put d (h.get s))
  | .take s k, h => k.effect mv ((h.put s mv).push (h.get s))
  | .dup s k, h => k.effect mv (h.push (h.get s))
  | .drop k, h => k.effect mv h.pop
  | .test q x y k, h => (k (q.says (h.get x) (h.get y))).effect mv h

/-- The elements in the order in which an algorithm sees them. -/
def turned {T : Type} (rev : Bool) (l : List T) : List T :=
  match rev with
  | false => l
  | true => l.reverse

/-! ## What is known -/

/-- What the program knows about its objects of depth `0`, …, `n`. -/
def Envs : Nat → Type
  | 0 => Env UInt8
  | n + 1 => Envs n × Env (Slot (Ty n))

/-- Before any object was made. -/
def Envs.none : (n : Nat) → Envs n
  | 0 => Env.empty
  | n + 1 => (Envs.none n, Env.empty)

/-- The objects of the greatest depth. -/
def Envs.top : {n : Nat} → Envs n → Env (Ty n)
  | 0, e => e
  | _ + 1, E => E.2

def Envs.put : {n : Nat} → Envs n → Env (Ty n) → Envs n
  | 0, _, e => e
  | _ + 1, E, e => (E.1, e)

/-- Change what is known about one object of the greatest depth. -/
def Envs.upd {n : Nat} (E : Envs n) (o : Nat) (x : Slot (Ty n)) : Envs n := E.put (E.top.upd o x)

/-- No object is left at any depth. -/
def Envs.Gone : {n : Nat} → Envs n → Prop
  | 0, E => ∀ t, Envs.top (n := 0) E t = .dead
  | _ + 1, E => Envs.Gone E.1 ∧ ∀ a, E.2 a = .dead

/-- What `isShared()` answers, for the objects of every depth. -/
def Sh : Nat → Type
  | 0 => Nat → Bool
  | n + 1 => Sh n × (Nat → Bool)

/-- The array calls that neither take nor return elements. -/
def Plain {T : Type} : Op T → Prop
  | .ctor | .copyCtor _ | .moveCtor _ | .sizeCtor _ | .substring _ _ _ | .destroy _ | .copyAssign _ _
  | .moveAssign _ _ | .swap _ _ | .clear _ | .length _ | .begin _ | .reserve _ _ | .resize _ _ | .slice _ _ _
  | .appendRca _ _ _ | .appendMove _ _ _ | .insertRca _ _ _ | .insertRcaN _ _ _ _ | .insertMove _ _ _
  | .insertMoveN _ _ _ _ | .replaceRca _ _ _ _ | .replaceMove _ _ _ _ | .popBack _ | .arrDropFront _ _
  | .arrDropBack _ _ => True
  | _ => False

/-- Calls of a program with objects of depth `0`, …, `n`.  `a` and `b` are arrays of depth `n`, `h` is an object of
the program of the depth below, never an element. -/
inductive Call : Nat → Type where
  /-- a call on strings -/
  | str (op : Op UInt8) : Call 0
  /-- a call on objects of lesser depth -/
  | inner {n : Nat} (call : Call n) : Call (n + 1)
  /-- a call on arrays, see `Plain` -/
  | arr {n : Nat} (op : Op (Slot (Ty n))) : Call (n + 1)
  | listCtor {n : Nat} (hs : List Nat) : Call (n + 1)
  | assignList {n : Nat} (a : Nat) (hs : List Nat) : Call (n + 1)
  | write {n : Nat} (a i h : Nat) : Call (n + 1)
  | writeMove {n : Nat} (a i h : Nat) : Call (n + 1)
  | append {n : Nat} (a h : Nat) : Call (n + 1)
  | appendMove {n : Nat} (a h : Nat) : Call (n + 1)
  | insert {n : Nat} (a pos h : Nat) : Call (n + 1)
  | insertMove {n : Nat} (a pos h : Nat) : Call (n + 1)
  | replace {n : Nat} (a pos h : Nat) : Call (n + 1)
  | replaceMove {n : Nat} (a pos h : Nat) : Call (n + 1)
  /-- the same with the element `b[i]` of the `const` array `b`, which may be `a` itself -/
  | writeOf {n : Nat} (a j b i : Nat) : Call (n + 1)
  | appendOf {n : Nat} (a b i : Nat) : Call (n + 1)
  | insertOf {n : Nat} (a pos b i : Nat) : Call (n + 1)
  | replaceOf {n : Nat} (a pos b i : Nat) : Call (n + 1)
  /-- `T t(a[i])`, `T t(a.at(i))` -/
  | get {n : Nat} (a i : Nat) : Call (n + 1)
  | getAt {n : Nat} (a i : Nat) : Call (n + 1)
  /-- `T t(a.shift())`, `T t(a.pop())` -/
  | shift {n : Nat} (a : Nat) : Call (n + 1)
  | pop {n : Nat} (a : Nat) : Call (n + 1)
  /-- a call on the element `begin()[i]`, alone or together with objects of the program; the call may again be on
  an element of that element, and so on -/
  | modify {n : Nat} (a i : Nat) (f : Nat → Call n) : Call (n + 1)
  /-- a call that uses the element `a[i]` of the `const` array `a` as a `const` object -/
  | look {n : Nat} (a i : Nat) (f : Nat → Call n) : Call (n + 1)
  /-- `s == t` for strings -/
  | strEq (s t : Nat) : Call 0
  /-- `a == b` and `a.equals(b, k)` -/
  | eq {n : Nat} (a b : Nat) : Call (n + 1)
  | equals {n : Nat} (a b k : Nat) : Call (n + 1)
  /-- `a.find(x)`, `a.find(x, pos)` and `a.rfind(x)` -/
  | find {n : Nat} (a h : Nat) : Call (n + 1)
  | findFrom {n : Nat} (a h pos : Nat) : Call (n + 1)
  | rfind {n : Nat} (a h : Nat) : Call (n + 1)
  /-- `a.hash()` for arrays -/
  | hash {n : Nat} (a : Nat) : Call (n + 1)
  /-- `algorithm(a.begin(), a.end())` or, with `rev`, `algorithm(a.rbegin(), a.rend())` -/
  | algo {n : Nat} (rev back : Bool) (a : Nat) (f : Nat → Algo n) : Call (n + 1)

/-- The call is the destructor of object `t` of the greatest depth. -/
def Kills : {n : Nat} → Call n → Nat → Prop
  | _, .str op, t => op = .destroy t
  | _, .arr op, t => op = .destroy t
  | _, _, _ => False

/-- Calls that only look at their receiver. -/
def OnlyLooks {T : Type} : Op T → Prop
  | .length _ | .read _ _ | .at _ _ | .hash _ => True
  | _ => False

/-- Object `t` of the greatest depth is the receiver of the call or an argument it moves from, and the call is not one
of those that only look at it. -/
def Writes : {n : Nat} → Call n → Nat → Prop
  | _, .str op, t => op.Touches t ∧ ¬ OnlyLooks op
  | _, .arr op, t => op.Touches t ∧ ¬ OnlyLooks op
  | _, .assignList a _, t | _, .write a _ _, t | _, .writeMove a _ _, t | _, .append a _, t | _, .appendMove a _, t
  | _, .insert a _ _, t | _, .insertMove a _ _, t | _, .replace a _ _, t | _, .replaceMove a _ _, t
  | _, .writeOf a _ _ _, t | _, .appendOf a _ _, t | _, .insertOf a _ _ _, t | _, .replaceOf a _ _ _, t
  | _, .shift a, t | _, .pop a, t | _, .modify a _ _, t | _, .algo _ _ a _, t => t = a
  | _, .inner _, _ | _, .listCtor _, _ | _, .get _ _, _ | _, .getAt _ _, _ | _, .look _ _ _, _ | _, .strEq _ _, _
  | _, .eq _ _, _ | _, .equals _ _ _, _ | _, .find _ _, _ | _, .findFrom _ _ _, _ | _, .rfind _ _, _ | _, .hash _, _ => False

/-- What a call returns: about objects of the greatest depth or of lesser depth. -/
inductive Ans : Nat → Type where
  | here {n : Nat} (x : Out (Ty n)) : Ans n
  | inner {n : Nat} (x : Ans n) : Ans (n + 1)

/-- How a call ends. -/
inductive End (n : Nat) where
  | ret (x : Ans n)
  | exc (e : Exc)

def End.here {n : Nat} : Outcome (Ty n) → End n
  | .ret x => .ret (.here x)
  | .exc e => .exc e

def End.inner {n : Nat} : End n → End (n + 1)
  | .ret x => .ret (.inner x)
  | .exc e => .exc e

/-- The element `b[i]` exists, and `y` is what is known about it. -/
def Nth {T : Type} (e : Env (Slot T)) (b i : Nat) (y : Slot T) : Prop := ∃ v, e b = .val v ∧ v[i]? = some y

section
variable (p : Params)

/-- Contract.  `sh`: what `isShared()` answers.  An element of the receiver itself may be given to an insertion only while the
receiver shares its storage. -/
def Pre : {n : Nat} → Sh n → Envs n → Call n → Prop
  | _, sh, E, .str op => Spec.Pre p.str sh E op
  | _, sh, E, .inner call => Pre sh.1 E.1 call
  | n + 1, sh, E, .arr op => Plain op ∧ Spec.Pre (vals p n) sh.2 E.2 op
  | _, _, E, .listCtor hs => ∀ h ∈ hs, E.1.top.Live h
  | _, _, E, .assignList a hs => E.2.Live a ∧ ∀ h ∈ hs, E.1.top.Live h
  | n + 1, sh, E, .write a i h => Spec.Pre (vals p n) sh.2 E.2 (.write a i (E.1.top h)) ∧ E.1.top.Live h
  | n + 1, sh, E, .writeMove a i h => Spec.Pre (vals p n) sh.2 E.2 (.write a i (E.1.top h)) ∧ E.1.top.Live h
  | _, _, E, .append a h => E.2.Has a ∧ E.1.top.Live h
  | _, _, E, .appendMove a h => E.2.Has a ∧ E.1.top.Live h
  | _, _, E, .insert a _ h => E.2.Has a ∧ E.1.top.Live h
  | _, _, E, .insertMove a _ h => E.2.Has a ∧ E.1.top.Live h
  | n + 1, sh, E, .replace a pos h => Spec.Pre (vals p n) sh.2 E.2 (.replaceItem a pos (E.1.top h)) ∧ E.1.top.Live h
  | n + 1, sh, E, .replaceMove a pos h => Spec.Pre (vals p n) sh.2 E.2 (.replaceItem a pos (E.1.top h)) ∧ E.1.top.Live h
  | n + 1, sh, E, .writeOf a j b i => ∃ y, Nth E.2 b i y ∧ Spec.Pre (vals p n) sh.2 E.2 (.write a j y)
  | _, sh, E, .appendOf a b i => E.2.Has a ∧ (∃ y, Nth E.2 b i y) ∧ (b ≠ a ∨ sh.2 a = true)
  | _, sh, E, .insertOf a _ b i => E.2.Has a ∧ (∃ y, Nth E.2 b i y) ∧ (b ≠ a ∨ sh.2 a = true)
  | n + 1, sh, E, .replaceOf a pos b i => ∃ y, Nth E.2 b i y ∧ Spec.Pre (vals p n) sh.2 E.2 (.replaceItem a pos y)
  | n + 1, sh, E, .get a i => Spec.Pre (vals p n) sh.2 E.2 (.read a i)
  | _, _, E, .getAt a _ => E.2.Has a
  | _, _, E, .shift a => E.2.Has a ∧ E.2.get a ≠ []
  | _, _, E, .pop a => E.2.Has a ∧ E.2.get a ≠ []
  | _, _, E, .modify a i f => E.2.Has a ∧ i < (E.2.get a).length ∧ ∀ t y s, E.1.top t = .dead → (E.2.get a)[i]? = some y →
      Pre s (E.1.upd t y) (f t) ∧ ¬ Kills (f t) t
  | _, _, E, .look a i f => E.2.Has a ∧ i < (E.2.get a).length ∧ ∀ t y s, E.1.top t = .dead → (E.2.get a)[i]? = some y →
      Pre s (E.1.upd t y) (f t) ∧ ¬ Writes (f t) t
  | _, _, E, .strEq s t => Known (n := 0) (Envs.top (n := 0) E s) ∧ Known (n := 0) (Envs.top (n := 0) E t)
  | n + 1, _, E, .eq a b => Known (n := n + 1) (E.2 a) ∧ Known (n := n + 1) (E.2 b)
  | n + 1, _, E, .equals a b _ => Known (n := n + 1) (E.2 a) ∧ Known (n := n + 1) (E.2 b)
  | n + 1, _, E, .find a h => Known (n := n + 1) (E.2 a) ∧ Known (E.1.top h)
  | n + 1, _, E, .findFrom a h _ => Known (n := n + 1) (E.2 a) ∧ Known (E.1.top h)
  | n + 1, _, E, .rfind a h => Known (n := n + 1) (E.2 a) ∧ Known (E.1.top h)
  | n + 1, _, E, .hash a => Known (n := n + 1) (E.2 a)
  | n + 1, _, E, .algo rev _ a f => E.2.Has a ∧ (f (E.2.get a).length).Ok (left p n) ⟨turned rev (E.2.get a), []⟩

/-- A call takes objects as elements, if any, and leaves them alone. -/
def Copies {n : Nat} (sh : Sh (n + 1)) (E : Envs (n + 1)) (op : Op (Slot (Ty n))) (out : End (n + 1)) (E' : Envs (n + 1)) :
    Prop :=
  ∃ o, Spec.Post (vals p n) sh.2 E.2 op o E'.2 ∧ out = .here o ∧ E'.1 = E.1

/-- A call takes object `h` as element and moves from it; nothing happened to `h` if the call failed. -/
def Moves {n : Nat} (sh : Sh (n + 1)) (E : Envs (n + 1)) (h : Nat) (op : Op (Slot (Ty n))) (out : End (n + 1))
    (E' : Envs (n + 1)) : Prop :=
  ∃ o, Spec.Post (vals p n) sh.2 E.2 op o E'.2 ∧ out = .here o ∧
    E'.1 = match o with
      | .ret _ => E.1.upd h (left p n)
      | .exc _ => E.1

/-- A call returns an element: it becomes an object of the program under a handle that was not in use. -/
def Hands {n : Nat} (sh : Sh (n + 1)) (E : Envs (n + 1)) (op : Op (Slot (Ty n))) (out : End (n + 1)) (E' : Envs (n + 1)) :
    Prop :=
  (∃ t y, E.1.top t = .dead ∧ Spec.Post (vals p n) sh.2 E.2 op (.ret (.elem (some y))) E'.2 ∧
      out = .ret (.inner (.here (.obj t))) ∧ E'.1 = E.1.upd t y) ∨
    ∃ e, Spec.Post (vals p n) sh.2 E.2 op (.exc e) E'.2 ∧ out = .exc e ∧ E'.1 = E.1

/-- The call answers whether `q` is true, and nothing changes. -/
def Tells {n : Nat} (E : Envs n) (q : Prop) (out : End n) (E' : Envs n) : Prop :=
  ∃ b : Bool, out = .ret (.here (.num b.toNat)) ∧ (b = true ↔ q) ∧ E' = E

/-- The call answers a number, and nothing changes. -/
def Counts {n : Nat} (E : Envs n) (q : Nat → Prop) (out : End n) (E' : Envs n) : Prop :=
  ∃ r : Nat, out = .ret (.here (.num r)) ∧ q r ∧ E' = E

/-- Effect of an in-contract call. -/
def Post : {n : Nat} → Sh n → Envs n → Call n → End n → Envs n → Prop
  | _, sh, E, .str op, out, E' => ∃ o, Spec.Post p.str sh E op o E' ∧ out = .here (n := 0) o
  | _, sh, E, .inner call, out, E' => ∃ o, Post sh.1 E.1 call o E'.1 ∧ out = o.inner ∧ E'.2 = E.2
  | _, sh, E, .arr op, out, E' => Copies p sh E op out E'
  | _, sh, E, .listCtor hs, out, E' => Copies p sh E (.listCtor (hs.map E.1.top)) out E'
  | _, sh, E, .assignList a hs, out, E' => Copies p sh E (.assignList a (hs.map E.1.top)) out E'
  | _, sh, E, .write a i h, out, E' => Copies p sh E (.write a i (E.1.top h)) out E'
  | _, sh, E, .writeMove a i h, out, E' => Moves p sh E h (.write a i (E.1.top h)) out E'
  | _, sh, E, .append a h, out, E' => Copies p sh E (.append a (E.1.top h)) out E'
  | _, sh, E, .appendMove a h, out, E' => Moves p sh E h (.append a (E.1.top h)) out E'
  | _, sh, E, .insert a pos h, out, E' => Copies p sh E (.insertItem a pos (E.1.top h)) out E'
  | _, sh, E, .insertMove a pos h, out, E' => Moves p sh E h (.insertItem a pos (E.1.top h)) out E'
  | _, sh, E, .replace a pos h, out, E' => Copies p sh E (.replaceItem a pos (E.1.top h)) out E'
  | _, sh, E, .replaceMove a pos h, out, E' => Moves p sh E h (.replaceItem a pos (E.1.top h)) out E'
  | _, sh, E, .writeOf a j b i, out, E' => ∃ y, Nth E.2 b i y ∧ Copies p sh E (.write a j y) out E'
  | _, sh, E, .appendOf a b i, out, E' => ∃ y, Nth E.2 b i y ∧ Copies p sh E (.append a y) out E'
  | _, sh, E, .insertOf a pos b i, out, E' => ∃ y, Nth E.2 b i y ∧ Copies p sh E (.insertItem a pos y) out E'
  | _, sh, E, .replaceOf a pos b i, out, E' => ∃ y, Nth E.2 b i y ∧ Copies p sh E (.replaceItem a pos y) out E'
  | _, sh, E, .get a i, out, E' => Hands p sh E (.read a i) out E'
  | _, sh, E, .getAt a i, out, E' => Hands p sh E (.at a i) out E'
  | _, sh, E, .shift a, out, E' => Hands p sh E (.shift a) out E'
  | _, sh, E, .pop a, out, E' => Hands p sh E (.pop a) out E'
  | _, sh, E, .modify a i f, out, E' =>
      (out = .exc .badAlloc ∧ E'.1 = E.1 ∧ E'.2 = if sh.2 a then E.2.upd a (.val []) else E.2) ∨
      ∃ t y s o F, E.1.top t = .dead ∧ (E.2.get a)[i]? = some y ∧ Post s (E.1.upd t y) (f t) o F ∧ out = o.inner ∧
        E'.1 = F.upd t .dead ∧ E'.2 = E.2.upd a (.val ((E.2.get a).set i (F.top t)))
  | _, _, E, .look a i f, out, E' =>
      ∃ t y s o F, E.1.top t = .dead ∧ (E.2.get a)[i]? = some y ∧ Post s (E.1.upd t y) (f t) o F ∧ out = o.inner ∧
        E'.1 = F.upd t .dead ∧ E'.2 = E.2
  | _, _, E, .strEq s t, out, E' => Tells (n := 0) E (Envs.top (n := 0) E s = Envs.top (n := 0) E t) out E'
  | _, _, E, .eq a b, out, E' => Tells E (E.2 a = E.2 b) out E'
  | _, _, E, .equals a b k, out, E' =>
      Tells E ((E.2.get a).length = (E.2.get b).length ∧ (E.2.get a).take k = (E.2.get b).take k) out E'
  | _, _, E, .find a h, out, E' => Counts E (Finds Smallest (fun i => (E.2.get a)[i]? = some (E.1.top h)) npos) out E'
  | _, _, E, .findFrom a h pos, out, E' =>
      if pos ≤ (E.2.get a).length then
        Counts E (Finds Smallest (fun d => (E.2.get a)[pos + d]? = some (E.1.top h)) npos) out E'
      else out = .exc .outOfRange ∧ E' = E
  | _, _, E, .rfind a h, out, E' => Counts E (Finds Largest (fun i => (E.2.get a)[i]? = some (E.1.top h)) npos) out E'
  | n + 1, sh, E, .algo rev _ a f, out, E' =>
      (out = .exc .badAlloc ∧ E'.1 = E.1 ∧ E'.2 = if sh.2 a then E.2.upd a (.val []) else E.2) ∨
      (out = .here ((f (E.2.get a).length).effect (left p n) ⟨turned rev (E.2.get a), []⟩).1 ∧ E'.1 = E.1 ∧
        E'.2 = E.2.upd a (.val (turned rev ((f (E.2.get a).length).effect (left p n) ⟨turned rev (E.2.get a), []⟩).2)))
  | n + 1, _, E, .hash a, out, E' => out = .ret (.here (.hash (hashOf p (n := n + 1) (E.2 a)))) ∧ E' = E

end

/-! ## The code behind the calls -/

/-- The modelled code behind the array calls without elements. -/
def runArr {T : Type} (c : Conf) : Op (Slot T) → P c (Out (Slot T))
  | .ctor => do let o ← arrs Rca.ctor; return .obj o
  | .copyCtor r => do let o ← arrs (Rca.copyCtor r); return .obj o
  | .moveCtor r => do let o ← arrs (Rca.moveCtor c.hnd r); return .obj o
  | .sizeCtor n => do let o ← sizeCtor c n; return .obj o
  | .substring r start len => do let o ← subarray c r start len; return .obj o
  | .destroy o => do destroy c o; return .unit
  | .copyAssign o r => do copyAssign c o r; return .unit
  | .moveAssign o r => do moveAssign c o r; return .unit
  | .swap o r => do arrs (Rca.swap o r); return .unit
  | .clear o => do arrs (Rca.clear o); return .unit
  | .length o => do let n ← arrs (Rca.length o); return .num n
  | .begin o => do getOwnCopy c o; return .unit
  | .reserve o n => do reserve c o n id; return .unit
  | .resize o n => do resize c o n; return .unit
  | .slice o start len => do arrs (Rca.slice o start len); return .unit
  | .appendRca o r n => do appendArr c o r n; return .unit
  | .appendMove o r n => do appendArrMove c o r n; return .unit
  | .insertRca o pos r => do insertArr c o pos r; return .unit
  | .insertRcaN o pos r n => do insertArrN c o pos r n; return .unit
  | .insertMove o pos r => do insertArrMove c o pos r; return .unit
  | .insertMoveN o pos r n => do insertArrMoveN c o pos r n; return .unit
  | .replaceRca o pos r n => do replaceArr c o pos r n; return .unit
  | .replaceMove o pos r n => do replaceArrMove c o pos r n; return .unit
  | .popBack o => do arrs (Rca.popBack o); return .unit
  | .arrDropFront o n => do arrs (Rca.arrDropFront o n); return .unit
  | .arrDropBack o n => do arrs (Rca.arrDropBack o n); return .unit
  | _ => Pg.undef

/-- The memory of a program with objects of depth `0`, …, `n`. -/
abbrev Mem (p : Params) (n : Nat) : Type := (tower p n).Mem

/-- The modelled code behind each call. -/
def run (p : Params) : {n : Nat} → Call n → Pg (Mem p n) (Ans n)
  | _, .str op => do let x ← Pg.ofM (Rca.run p.str op); return .here (n := 0) x
  | n + 1, .inner call => (do let x ← elts (run p call); return .inner x : P (level p n) _)
  | n + 1, .arr op => (do let x ← runArr (level p n) op; return .here (n := n + 1) x : P (level p n) _)
  | n + 1, .listCtor hs => (do let o ← listCtor (level p n) hs; return .here (.obj o) : P (level p n) _)
  | n + 1, .assignList a hs => (do assignList (level p n) a hs; return .here .unit : P (level p n) _)
  | n + 1, .write a i h => (do write (level p n) a i h; return .here .unit : P (level p n) _)
  | n + 1, .writeMove a i h => (do writeMove (level p n) a i h; return .here .unit : P (level p n) _)
  | n + 1, .append a h => (do append (level p n) a h; return .here .unit : P (level p n) _)
  | n + 1, .appendMove a h => (do appendMove (level p n) a h; return .here .unit : P (level p n) _)
  | n + 1, .insert a pos h => (do insertItem (level p n) a pos h; return .here .unit : P (level p n) _)
  | n + 1, .insertMove a pos h => (do insertItemMove (level p n) a pos h; return .here .unit : P (level p n) _)
  | n + 1, .replace a pos h => (do replaceItem (level p n) a pos h; return .here .unit : P (level p n) _)
  | n + 1, .replaceMove a pos h => (do replaceItemMove (level p n) a pos h; return .here .unit : P (level p n) _)
  | n + 1, .writeOf a j b i =>
      (do let h ← cell (level p n) b i; write (level p n) a j h; return .here .unit : P (level p n) _)
  | n + 1, .appendOf a b i =>
      (do let h ← cell (level p n) b i; append (level p n) a h; return .here .unit : P (level p n) _)
  | n + 1, .insertOf a pos b i =>
      (do let h ← cell (level p n) b i; insertItem (level p n) a pos h; return .here .unit : P (level p n) _)
  | n + 1, .replaceOf a pos b i =>
      (do let h ← cell (level p n) b i; replaceItem (level p n) a pos h; return .here .unit : P (level p n) _)
  | n + 1, .get a i => (do let t ← get (level p n) a i; return .inner (.here (.obj t)) : P (level p n) _)
  | n + 1, .getAt a i => (do let t ← getAt (level p n) a i; return .inner (.here (.obj t)) : P (level p n) _)
  | n + 1, .shift a => (do let t ← shift (level p n) a; return .inner (.here (.obj t)) : P (level p n) _)
  | n + 1, .pop a => (do let t ← pop (level p n) a; return .inner (.here (.obj t)) : P (level p n) _)
  | n + 1, .modify a i f => (do let x ← modify (level p n) a i fun h => run p (f h); return .inner x : P (level p n) _)
  | n + 1, .look a i f => (do let x ← look (level p n) a i fun h => run p (f h); return .inner x : P (level p n) _)
  | _, .strEq s t => do let b ← eqAt p 0 s t; return .here (n := 0) (.num b.toNat)
  | n + 1, .eq a b => do let r ← eqAt p (n + 1) a b; return .here (.num r.toNat)
  | n + 1, .equals a b k => (do let r ← equalsN (level p n) (eqAt p n) a b k; return .here (.num r.toNat) : P (level p n) _)
  | n + 1, .find a h => (do let r ← find (level p n) (eqAt p n) a h; return .here (.num r) : P (level p n) _)
  | n + 1, .findFrom a h pos => (do let r ← findFrom (level p n) (eqAt p n) a h pos; return .here (.num r) : P (level p n) _)
  | n + 1, .rfind a h => (do let r ← rfind (level p n) (eqAt p n) a h; return .here (.num r) : P (level p n) _)
  | n + 1, .algo rev back a f =>
      (do let r ← algorithm (level p n) (cmpAt p) rev back a f; return .here (.num r) : P (level p n) _)
  | n + 1, .hash a => do let x ← hashAt p (n + 1) a; return .here (.hash x.toNat)

/-- How a call ended and the state it left, unless it was undefined. -/
def result {n : Nat} {S : Type} : Res S (Ans n) → Option (End n × S)
  | .ok x s => some (.ret x, s)
  | .throw e s => some (.exc e, s)
  | .ub => none

/-- What `isShared()` answers. -/
def shares (p : Params) : {n : Nat} → Mem p n → Sh n
  | 0, s => shared (T := UInt8) s
  | _ + 1, w => (shares p (World.elts w), shared (World.arrs w))

/-! ## What can be seen -/

/-- Object `t` of depth `n` shows, through `length()` and `operator[]` used on it, on its elements, on theirs and so
on, what `y` says. -/
def Holds (p : Params) : {n : Nat} → Mem p n → Nat → Slot (Ty n) → Prop
  | 0, s, t, y => match y with
    | .dead => False
    | .unspec => ∃ ob, St.obj (T := UInt8) s t = some ob
    | .val v => Shows (T := UInt8) s t v
  | n + 1, w, t, y => match y with
    | .dead => False
    | .unspec => ∃ ob, (World.arrs w).obj t = some ob
    | .val xs => Rca.length t (World.arrs w) = .ok (List.length xs) (World.arrs w) ∧
        ∀ i z, xs[i]? = some z → ∃ u, cell (level p n) t i w = .ok u w ∧ Holds p (World.elts w) u z

/-- No object and no storage is left at any depth. -/
def Clean (p : Params) : {n : Nat} → Mem p n → Prop
  | 0, s => (∀ o, St.obj (T := UInt8) s o = none) ∧ ∀ b, St.blk (T := UInt8) s b = none
  | _ + 1, w => Clean p (World.elts w) ∧ (∀ o, (World.arrs w).obj o = none) ∧ ∀ b, (World.arrs w).blk b = none

/-- Every object of the program shows what is known about it. -/
def Shown (p : Params) : {n : Nat} → Mem p n → Envs n → Prop
  | 0, s, E => ∀ t, Envs.top (n := 0) E t ≠ .dead → Holds p (n := 0) s t (Envs.top (n := 0) E t)
  | n + 1, w, E => Shown p (World.elts w) E.1 ∧ ∀ t, E.2 t ≠ .dead → Holds p (n := n + 1) w t (E.2 t)

/-- Every object of the program shows what is known about it; and once all are destroyed nothing is left, at any
depth. -/
def Sees (p : Params) {n : Nat} (w : Mem p n) (E : Envs n) : Prop := Shown p w E ∧ (E.Gone → Clean p w)

/-- For the next `k` calls, whichever the program makes (each within its contract): the call is defined, has the
effect the specification says, and everything can be observed as specified, also afterwards. -/
def Plays (p : Params) {n : Nat} : Nat → Mem p n → Envs n → Prop
  | 0, w, E => Sees p w E
  | k + 1, w, E => Sees p w E ∧ ∀ call, Pre p (shares p w) E call →
      ∃ out w' E', result (run p call w) = some (out, w') ∧ Post p (shares p w) E call out E' ∧ Plays p k w' E'

end Bdlib.Deep
