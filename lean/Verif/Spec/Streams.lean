import Verif.Spec.Values
import Verif.Spec.Stream

/-!
# Specification: a program using streams and Strings

Beside what every String holds (`Env`), a program has streams.  A stream is a tape (`Spec/Stream.lean`) of its own: its contents
are those of the entry with its handle, its position is `pos`.
-/

namespace Bdlib.Spec
open Bdlib

/-- The position of each stream; `none`: the handle is not a stream. -/
abbrev Positions := Nat → Option Nat

def Positions.set (pos : Positions) (o : Nat) (p : Option Nat) : Positions := fun i => if i = o then p else pos i

/-- Calls.  `r` is a String, `o` and `q` are streams; `makeMove` and `move` are the constructors that move. -/
inductive StreamCall
  | make (r : Nat)
  | makeMove (r : Nat)
  | makeSize (n : Int)
  | copy (q : Nat)
  | move (q : Nat)
  | text (q : Nat)
  | assign (o q : Nat)
  | drop (o : Nat)
  | puts (o r : Nat)
  | putsMove (o r : Nat)
  | read (o n : Nat)
  | readTo (o n : Nat) (d : UInt8)
  | getline (o : Nat)
  | getlineMax (o n : Nat)
  | seek (o p : Nat)
  | skip (o : Nat) (k : Int)
  | truncate (o : Nat)
  | clear (o : Nat)
  | peek (o : Nat)
  | tell (o : Nat)
  | length (o : Nat)

/-- The tape that the stream `o` is. -/
def tapeOf (env : Env UInt8) (pos : Positions) (o : Nat) : Tape := ⟨env.get o, (pos o).getD 0⟩

/-- Contract: streams are not made longer than 2^31 - 1 bytes, and a seek does not go behind the end.  A delimiter is not NUL. -/
def May (env : Env UInt8) (pos : Positions) : StreamCall → Prop
  | .make r | .makeMove r => pos r = none ∧ env.Has r ∧ (env.get r).length ≤ 2147483647
  | .makeSize n => n ≤ 2147483647
  | .assign o q => (pos o).isSome ∧ (pos q).isSome
  | .puts o r | .putsMove o r =>
    (pos o).isSome ∧ pos r = none ∧ env.Has r ∧ (pos o).getD 0 + (env.get r).length ≤ 2147483647
  | .seek o p => (pos o).isSome ∧ p ≤ (env.get o).length
  | .skip o k => (pos o).isSome ∧ -2147483648 ≤ k ∧ ((pos o).getD 0 : Int) + k ≤ (env.get o).length
  | .readTo o _ d => (pos o).isSome ∧ d ≠ 0
  | .copy o | .move o | .text o | .drop o | .read o _ | .getline o | .getlineMax o _ | .truncate o | .clear o | .peek o | .tell o | .length o => (pos o).isSome

/-- Stream `o` becomes what the tape becomes, and the call returns what the tape says; a text is returned as a new String. -/
def OnTape (env : Env UInt8) (pos : Positions) (o : Nat) (op : TapeOp) (out : Out UInt8) (env' : Env UInt8) (pos' : Positions) : Prop :=
  let r := (tapeOf env pos o).step op
  pos' = pos.set o (some r.2.pos) ∧
    match r.1 with
    | .unit => out = .unit ∧ env' = env.upd o (.val r.2.content)
    | .num n => out = .num n ∧ env' = env.upd o (.val r.2.content)
    | .bytes x => ∃ n, out = .obj n ∧ env n = .dead ∧ env' = (env.upd o (.val r.2.content)).upd n (.val x)

/-- What a call that returns does. -/
def Does (cfg : Cfg UInt8) (env : Env UInt8) (pos : Positions) : StreamCall → Out UInt8 → Env UInt8 → Positions → Prop
  | .make r, out, env', pos' => ∃ n, out = .obj n ∧ env n = .dead ∧ env' = env.upd n (env r) ∧ pos' = pos.set n (some 0)
  | .makeMove r, out, env', pos' =>
    ∃ n, out = .obj n ∧ env n = .dead ∧ env' = (env.upd r (movedSlot cfg)).upd n (env r) ∧ pos' = pos.set n (some 0)
  | .makeSize _, out, env', pos' => ∃ n, out = .obj n ∧ env n = .dead ∧ env' = env.upd n (.val []) ∧ pos' = pos.set n (some 0)
  | .copy q, out, env', pos' => ∃ n, out = .obj n ∧ env n = .dead ∧ env' = env.upd n (env q) ∧ pos' = pos.set n (pos q)
  -- the stream moved from is not used as a stream again
  | .move q, out, env', pos' =>
    ∃ n, out = .obj n ∧ env n = .dead ∧ env' = (env.upd q (movedSlot cfg)).upd n (env q) ∧ pos' = (pos.set q none).set n (pos q)
  | .text q, out, env', pos' => ∃ n, out = .obj n ∧ env n = .dead ∧ env' = env.upd n (env q) ∧ pos' = pos
  | .assign o q, out, env', pos' => out = .unit ∧ env' = env.upd o (env q) ∧ pos' = pos.set o (pos q)
  | .drop o, out, env', pos' => out = .unit ∧ env' = env.upd o .dead ∧ pos' = pos.set o none
  | .puts o r, out, env', pos' => OnTape env pos o (.puts (env.get r)) out env' pos'
  -- the argument is moved from if it is longer than the contents and written at the start
  | .putsMove o r, out, env', pos' =>
    OnTape (env.upd r (if (pos o).getD 0 = 0 ∧ (env.get o).length < (env.get r).length then movedSlot cfg else env r)) pos o
      (.puts (env.get r)) out env' pos'
  | .read o n, out, env', pos' => OnTape env pos o (.read n) out env' pos'
  | .readTo o n d, out, env', pos' => OnTape env pos o (.readTo n d) out env' pos'
  | .getline o, out, env', pos' => OnTape env pos o .getline out env' pos'
  -- 99999999 stands for no limit
  | .getlineMax o n, out, env', pos' => OnTape env pos o (if n = 99999999 then .getline else .readTo n 10) out env' pos'
  | .seek o p, out, env', pos' => OnTape env pos o (.seek p) out env' pos'
  | .skip o k, out, env', pos' => OnTape env pos o (.skip k) out env' pos'
  | .truncate o, out, env', pos' => OnTape env pos o .truncate out env' pos'
  | .clear o, out, env', pos' => OnTape env pos o .clear out env' pos'
  | .peek o, out, env', pos' => OnTape env pos o .peek out env' pos'
  | .tell o, out, env', pos' => OnTape env pos o .tell out env' pos'
  | .length o, out, env', pos' => OnTape env pos o .length out env' pos'

/-- What a call that throws `bad_alloc` does.  Only `puts`, reading up to a delimiter and the constructor
with a size can: a failed `puts` leaves the contents, or none, and the position; a failed `getline` leaves all contents and may have
advanced; a failed constructor leaves everything. -/
def Fails (env : Env UInt8) (pos : Positions) : StreamCall → Env UInt8 → Positions → Prop
  | .puts o _, env', pos' | .putsMove o _, env', pos' => (env' = env ∨ env' = env.upd o (.val [])) ∧ pos' = pos
  | .readTo o _ _, env', pos' | .getline o, env', pos' | .getlineMax o _, env', pos' =>
    env' = env ∧ ∃ q, (pos o).getD 0 ≤ q ∧ q ≤ (env.get o).length ∧ pos' = pos.set o (some q)
  | .makeSize _, env', pos' => env' = env ∧ pos' = pos
  | _, _, _ => False

end Bdlib.Spec
