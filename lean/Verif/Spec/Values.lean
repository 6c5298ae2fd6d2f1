import Verif.Machine.Basic
import Verif.Spec.Seq

/-!
# Specification: a program using String/Array objects, as a user sees it

An environment says for every handle whether the object exists and which sequence of elements it
holds.  `Pre` is the documented contract of a call, `Post` its effect.  Nothing here mentions
buffers, windows, reference counts or cached hashes.
-/

namespace Bdlib.Spec
open Bdlib

variable {T : Type}

/-- What a user knows about an object: it does not exist, it was moved from (may only be destroyed,
cleared or assigned to), or it holds `v`. -/
inductive Slot (T : Type) where
  | dead
  | unspec
  | val (v : List T)

abbrev Env (T : Type) := Nat → Slot T

namespace Env
/-- Change what is known about one object. -/
def upd (env : Env T) (o : Nat) (x : Slot T) : Env T := fun i => if i = o then x else env i
/-- The object holds a known value. -/
def Has (env : Env T) (o : Nat) : Prop := ∃ v, env o = .val v
/-- The object exists. -/
def Live (env : Env T) (o : Nat) : Prop := env o ≠ .dead
/-- The elements of the object. -/
def get (env : Env T) (o : Nat) : List T :=
  match env o with
  | .val v => v
  | _ => []
/-- Before any object was made. -/
def empty : Env T := fun _ => .dead
end Env

/-- Calls of the public interface.  Source ranges are given with the models in `Rca/Model.lean`. -/
inductive Op (T : Type) where
  -- constructors
  | ctor
  | copyCtor (r : Nat)
  | moveCtor (r : Nat)
  | sizeCtor (n : Nat)
  | fillCtor (n : Nat) (x : T)
  | listCtor (xs : List T)
  | rangeCtor (xs : List T)
  | strCtor (xs : List T)
  | cstrCtor (xs : List T)
  | charCtor (c : T)
  | substring (r : Nat) (start len : Int)
  -- destruction, assignment
  | destroy (o : Nat)
  | copyAssign (o r : Nat)
  | moveAssign (o r : Nat)
  | swap (o r : Nat)
  | clear (o : Nat)
  | assignList (o : Nat) (xs : List T)
  | assignStd (o : Nat) (xs : List T)
  | assignCstr (o : Nat) (xs : List T)
  -- observers
  | length (o : Nat)
  | read (o i : Nat)
  | at (o i : Nat)
  | hash (o : Nat)
  | cStr (o : Nat)
  | begin (o : Nat)
  -- mutators
  | reserve (o n : Nat)
  | resize (o n : Nat)
  | resizeFill (o n : Nat) (x : T)
  | write (o i : Nat) (x : T)
  | slice (o : Nat) (start len : Int)
  | append (o : Nat) (x : T)
  | appendRca (o r n : Nat)
  | appendMove (o r n : Nat)
  | insertItem (o pos : Nat) (x : T)
  | insertRca (o pos r : Nat)
  | insertRcaN (o pos r n : Nat)
  | insertMove (o pos r : Nat)
  | insertMoveN (o pos r n : Nat)
  | insertRange (o pos : Nat) (xs : List T)
  | insertC (o pos : Nat) (xs : List T)
  | replaceItem (o pos : Nat) (x : T)
  | replaceRca (o pos r n : Nat)
  | replaceMove (o pos r n : Nat)
  | replaceC (o pos : Nat) (xs : List T)
  | popBack (o : Nat)
  | dropFront (o n : Nat)
  | dropBack (o n : Nat)
  | arrDropFront (o n : Nat)
  | arrDropBack (o n : Nat)
  | shift (o : Nat)
  | pop (o : Nat)

/-- What a call returns. -/
inductive Out (T : Type) where
  | unit
  | obj (o : Nat)
  | num (n : Nat)
  | elem (x : Option T)
  | hash (h : Nat)
  | bytes (l : List T)

/-- How a call ends. -/
inductive Outcome (T : Type) where
  | ret (x : Out T)
  | exc (e : Exc)

/-- What remains of an object that was moved from: nothing is known about it, except that test builds
reset it (`ReferenceCountedArray.h` 446-450, 552-556). -/
def movedSlot (cfg : Cfg T) : Slot T := if cfg.resetMoved then .val [] else .unspec

/-- The call is on a `String`. -/
def IsStr (cfg : Cfg T) : Prop := cfg.nul.isSome

/-- The assignment shortcut of the array inserts (`ReferenceCountedArray.h` 1068-1071): inserting a
whole longer array at position 0. -/
def Longer (v w : List T) (pos n : Nat) : Prop := pos = 0 ∧ v.length < w.length ∧ n = w.length

/-- Contract of a call.  `sh o` is what `o.isShared()` answers before the call.  Beyond liveness and
index ranges: the argument of an array insert/replace must not be the receiver itself unless its
elements precede the insertion point; `insert(0, longer array)` only into an empty receiver; `slice`
arguments in range; `reserve` only when not shared (and, for strings, not below the length); a String is not resized to
`npos`;
`replace(length(), item)` and popping from an empty array are excluded.  With `cfg.slack = 1` strings
are never made by the exact-size constructors inherited from the base class; then `c_str` is
allowed. -/
def Pre (cfg : Cfg T) (sh : Nat → Bool) (env : Env T) : Op T → Prop
  | .ctor => True
  | .copyCtor r => env.Live r
  | .moveCtor r => env.Live r
  | .sizeCtor _ => True
  | .fillCtor _ _ => cfg.slack = 0
  | .listCtor _ => cfg.slack = 0
  | .rangeCtor _ => cfg.slack = 0
  | .strCtor _ => IsStr cfg
  | .cstrCtor _ => IsStr cfg
  | .charCtor _ => IsStr cfg
  | .substring r start len => env.Has r ∧ SliceOk (env.get r).length start len
  | .destroy o => env.Live o
  | .copyAssign o r => env.Live o ∧ env.Live r
  | .moveAssign o r => env.Live o ∧ env.Live r
  | .swap o r => env.Live o ∧ env.Live r
  | .clear o => env.Live o
  | .assignList o _ => env.Live o
  | .assignStd o _ => env.Live o ∧ IsStr cfg
  | .assignCstr o _ => env.Live o ∧ IsStr cfg
  | .length o => env.Has o
  | .read o i => env.Has o ∧ i < (env.get o).length
  | .at o _ => env.Has o
  | .hash o => env.Has o
  | .cStr o => env.Has o ∧ IsStr cfg ∧ cfg.slack = 1
  | .begin o => env.Has o
  | .reserve o n => env.Has o ∧ sh o = false ∧ (IsStr cfg → ((env.get o).length ≤ n ∧ n ≠ npos) ∨ cfg.slack = 1)
  | .resize o n => env.Has o ∧ (IsStr cfg → n ≠ npos)
  | .resizeFill o n _ => env.Has o ∧ (IsStr cfg → n ≠ npos)
  | .write o i _ => env.Has o ∧ i < (env.get o).length
  | .slice o start len => env.Has o ∧ SliceOk (env.get o).length start len
  | .append o _ => env.Has o
  | .appendRca o r _ => env.Has o ∧ env.Has r
  | .appendMove o r _ => env.Has o ∧ env.Has r
  | .insertItem o _ _ => env.Has o
  | .insertRca o pos r => env.Has o ∧ env.Has r ∧ (r = o → (env.get r).length ≤ pos) ∧
      (Longer (env.get o) (env.get r) pos (env.get r).length → env.get o = [])
  | .insertRcaN o pos r n => env.Has o ∧ env.Has r ∧ (r = o → min n (env.get r).length ≤ pos) ∧
      (Longer (env.get o) (env.get r) pos n → env.get o = [])
  | .insertMove o pos r => env.Has o ∧ env.Has r ∧ (r = o → (env.get r).length ≤ pos) ∧
      (Longer (env.get o) (env.get r) pos (env.get r).length → env.get o = [])
  | .insertMoveN o pos r n => env.Has o ∧ env.Has r ∧ (r = o → min n (env.get r).length ≤ pos) ∧
      (Longer (env.get o) (env.get r) pos n → env.get o = [])
  | .insertRange o pos _ => env.Has o ∧ pos ≤ (env.get o).length
  | .insertC o _ _ => env.Has o
  | .replaceItem o pos _ => env.Has o ∧ pos ≠ (env.get o).length
  | .replaceRca o pos r n => env.Has o ∧ env.Has r ∧ (r = o → pos = 0 ∨ min n (env.get r).length ≤ pos)
  | .replaceMove o pos r n => env.Has o ∧ env.Has r ∧ (r = o → pos = 0 ∨ min n (env.get r).length ≤ pos)
  | .replaceC o _ _ => env.Has o
  | .popBack o => env.Has o ∧ env.get o ≠ []
  | .dropFront o _ => env.Has o
  | .dropBack o _ => env.Has o
  | .arrDropFront o _ => env.Has o ∧ (env.get o).length < 2147483648
  | .arrDropBack o _ => env.Has o ∧ (env.get o).length < 2147483648
  | .shift o => env.Has o ∧ env.get o ≠ []
  | .pop o => env.Has o ∧ env.get o ≠ []

/-- A new object holding `x` appears under a handle that was not in use. -/
def Makes (env : Env T) (x : Slot T) (out : Outcome T) (env' : Env T) : Prop :=
  ∃ o, env o = .dead ∧ out = .ret (.obj o) ∧ env' = env.upd o x

/-- ... or memory ran out and nothing happened. -/
def MakesOrFails (env : Env T) (v : List T) (out : Outcome T) (env' : Env T) : Prop :=
  Makes env (.val v) out env' ∨ (out = .exc .badAlloc ∧ env' = env)

/-- Object `o` now holds `v`; nothing else changed. -/
def Sets (env : Env T) (o : Nat) (v : List T) (out : Outcome T) (env' : Env T) : Prop :=
  out = .ret .unit ∧ env' = env.upd o (.val v)

/-- `bad_alloc`: the receiver `o` kept its value, or (only if its storage was shared) became empty.
Nothing else changed. -/
def NoMem (sh : Nat → Bool) (env : Env T) (o : Nat) (out : Outcome T) (env' : Env T) : Prop :=
  out = .exc .badAlloc ∧ env' = if sh o then env.upd o (.val []) else env

def SetsOrFails (sh : Nat → Bool) (env : Env T) (o : Nat) (v : List T) (out : Outcome T) (env' : Env T) : Prop :=
  Sets env o v out env' ∨ NoMem sh env o out env'

/-- Whole-value assignment: on `bad_alloc` the receiver is empty. -/
def AssignsOrFails (env : Env T) (o : Nat) (v : List T) (out : Outcome T) (env' : Env T) : Prop :=
  Sets env o v out env' ∨ (out = .exc .badAlloc ∧ env' = env.upd o (.val []))

/-- Like `SetsOrFails` with an rvalue argument `r`, which is moved from if `stolen` holds (then
nothing can fail) and keeps its value otherwise. -/
def SetsMoving (cfg : Cfg T) (sh : Nat → Bool) (env : Env T) (o r : Nat) (stolen : Prop) (v : List T)
    (out : Outcome T) (env' : Env T) : Prop :=
  (stolen ∧ out = .ret .unit ∧ env' = (env.upd r (movedSlot cfg)).upd o (.val v)) ∨
    (¬ stolen ∧ SetsOrFails sh env o v out env')

/-- `out_of_range`, nothing changed. -/
def Rejects (env : Env T) (out : Outcome T) (env' : Env T) : Prop := out = .exc .outOfRange ∧ env' = env

/-- A result, nothing changed. -/
def Observes (env : Env T) (x : Out T) (out : Outcome T) (env' : Env T) : Prop := out = .ret x ∧ env' = env

/-- An element is returned and removed. -/
def TakesOut (env : Env T) (o : Nat) (x : Option T) (v : List T) (out : Outcome T) (env' : Env T) : Prop :=
  out = .ret (.elem x) ∧ env' = env.upd o (.val v)

/-- Position check of insert/replace. -/
def Checked (env : Env T) (o pos : Nat) (post : Prop) (out : Outcome T) (env' : Env T) : Prop :=
  if pos ≤ (env.get o).length then post else Rejects env out env'

/-- Effect of an in-contract call. -/
def Post (cfg : Cfg T) (sh : Nat → Bool) (env : Env T) (op : Op T) (out : Outcome T) (env' : Env T) : Prop :=
  match op with
  | .ctor => Makes env (.val []) out env'
  | .copyCtor r => Makes env (env r) out env'
  | .moveCtor r => Makes (env.upd r (movedSlot cfg)) (env r) out env'
  | .sizeCtor _ => MakesOrFails env [] out env'
  | .fillCtor n x => MakesOrFails env (List.replicate n x) out env'
  | .listCtor xs => MakesOrFails env xs out env'
  | .rangeCtor xs => MakesOrFails env xs out env'
  | .strCtor xs => MakesOrFails env xs out env'
  | .cstrCtor xs => MakesOrFails env xs out env'
  | .charCtor c => MakesOrFails env [c] out env'
  | .substring r start len => Makes env (.val (sliceSpec (env.get r) start len)) out env'
  | .destroy o => out = .ret .unit ∧ env' = env.upd o .dead
  | .copyAssign o r => out = .ret .unit ∧ env' = env.upd o (env r)
  | .moveAssign o r => out = .ret .unit ∧
      env' = if o = r then env else (env.upd r (movedSlot cfg)).upd o (env r)
  | .swap o r => out = .ret .unit ∧ env' = (env.upd o (env r)).upd r (env o)
  | .clear o => Sets env o [] out env'
  | .assignList o xs => AssignsOrFails env o xs out env'
  | .assignStd o xs => AssignsOrFails env o xs out env'
  | .assignCstr o xs => Sets env o xs out env' ∨ (out = .exc .badAlloc ∧ env' = env)
  | .length o => Observes env (.num (env.get o).length) out env'
  | .read o i => Observes env (.elem (env.get o)[i]?) out env'
  | .at o i => if i < (env.get o).length then Observes env (.elem (env.get o)[i]?) out env'
      else Rejects env out env'
  | .hash o => Observes env (.hash (djb (fun x => (cfg.hasher x).toNat) (env.get o))) out env'
  | .cStr o => (∃ c, cfg.nul = some c ∧ Observes env (.bytes (env.get o ++ [c])) out env') ∨
      NoMem sh env o out env'
  | .begin o => Observes env .unit out env' ∨ NoMem sh env o out env'
  | .reserve _ _ => Observes env .unit out env' ∨ (out = .exc .badAlloc ∧ env' = env)
  | .resize o n => (∃ js, js.length = n - (env.get o).length ∧ Sets env o ((env.get o).take n ++ js) out env') ∨
      (env.get o).length ≤ n ∧ NoMem sh env o out env'
  | .resizeFill o n x =>
      Sets env o ((env.get o).take n ++ List.replicate (n - (env.get o).length) x) out env' ∨
      (env.get o).length ≤ n ∧ NoMem sh env o out env'
  | .write o i x => SetsOrFails sh env o ((env.get o).set i x) out env'
  | .slice o start len => Sets env o (sliceSpec (env.get o) start len) out env'
  | .append o x => SetsOrFails sh env o (env.get o ++ [x]) out env'
  | .appendRca o r n => SetsOrFails sh env o (env.get o ++ (env.get r).take n) out env'
  | .appendMove o r n => SetsMoving cfg sh env o r (Longer (env.get o) (env.get r) (env.get o).length n)
      (env.get o ++ (env.get r).take n) out env'
  | .insertItem o pos x =>
      Checked env o pos (SetsOrFails sh env o (insertAt (env.get o) pos [x]) out env') out env'
  | .insertRca o pos r =>
      Checked env o pos (SetsOrFails sh env o (insertAt (env.get o) pos (env.get r)) out env') out env'
  | .insertRcaN o pos r n => if n = 0 then Observes env .unit out env' else
      Checked env o pos (SetsOrFails sh env o (insertAt (env.get o) pos ((env.get r).take n)) out env') out env'
  | .insertMove o pos r =>
      Checked env o pos (SetsMoving cfg sh env o r (Longer (env.get o) (env.get r) pos (env.get r).length)
        (insertAt (env.get o) pos (env.get r)) out env') out env'
  | .insertMoveN o pos r n => if n = 0 then Observes env .unit out env' else
      Checked env o pos (SetsMoving cfg sh env o r (Longer (env.get o) (env.get r) pos n)
        (insertAt (env.get o) pos ((env.get r).take n)) out env') out env'
  | .insertRange o pos xs => SetsOrFails sh env o (insertAt (env.get o) pos xs) out env'
  | .insertC o pos xs => Checked env o pos (SetsOrFails sh env o (insertAt (env.get o) pos xs) out env') out env'
  | .replaceItem o pos x =>
      Checked env o pos (SetsOrFails sh env o ((env.get o).set pos x) out env') out env'
  | .replaceRca o pos r n => if n = 0 then Observes env .unit out env' else
      Checked env o pos (SetsOrFails sh env o (replaceAt (env.get o) pos ((env.get r).take n)) out env') out env'
  | .replaceMove o pos r n => if n = 0 then Observes env .unit out env' else
      Checked env o pos (SetsMoving cfg sh env o r
        (pos = 0 ∧ (env.get o).length < (env.get r).length ∧ (n = npos ∨ n = (env.get r).length))
        (replaceAt (env.get o) pos ((env.get r).take n)) out env') out env'
  | .replaceC o pos xs => Checked env o pos (SetsOrFails sh env o (replaceAt (env.get o) pos xs) out env') out env'
  | .popBack o => Sets env o (env.get o).dropLast out env'
  | .dropFront o n => Sets env o ((env.get o).drop n) out env'
  | .dropBack o n => Sets env o ((env.get o).take ((env.get o).length - n)) out env'
  | .arrDropFront o n => Sets env o ((env.get o).drop n) out env'
  | .arrDropBack o n => Sets env o ((env.get o).take ((env.get o).length - n)) out env'
  | .shift o => TakesOut env o (env.get o).head? (env.get o).tail out env'
  | .pop o => TakesOut env o (env.get o).getLast? (env.get o).dropLast out env'

end Bdlib.Spec
