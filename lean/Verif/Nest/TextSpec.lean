import Verif.Nest.Spec
import Verif.Nest.Text
import Verif.Props.C20
import Verif.Props.C35

/-!
# Specification: programs that also split, join, search, compare and hash

What these functions do to the strings and arrays of the program, in terms of their values only.
-/

namespace Bdlib.Nest
open Bdlib Bdlib.Spec Bdlib.Rca Bdlib.Str

/-- What a program does: a call of `Nest/Spec.lean`, or one of the functions built on them.  `s`, `d`, `h` are
strings, `a`, `b` arrays. -/
inductive Act where
  | call (k : Call)
  /-- `s.split(d, limit)` -/
  | split (s d limit : Nat)
  /-- `a.join(d, quoted)` -/
  | join (a d : Nat) (quoted : Bool)
  /-- `a >> h` -/
  | popTo (a h : Nat)
  | find (a h : Nat)
  | findFrom (a h pos : Nat)
  | rfind (a h : Nat)
  /-- `a.equals(b, n)` -/
  | equals (a b n : Nat)
  /-- `a == b`, `a != b` -/
  | eq (a b : Nat)
  | ne (a b : Nat)
  | hash (a : Nat)

/-- How it ends. -/
inductive End where
  | called (x : Fin)
  | made (o : Nat)
  | done
  | num (n : Nat)
  | flag (b : Bool)
  | exc (e : Exc)

/-- Strings as elements. -/
def elems (vs : List Bytes) : List Elem := vs.map .val

/-- The pieces of `v.split(d, limit)`. -/
def Pieces (v d : Bytes) (limit : Nat) (ps : List Bytes) : Prop :=
  if v = [] then ps = []
  else if limit = 1 then ps = [v]
  else if limit = npos then (if d = [32] then Words 32 v ps else Cut d v ps)
  else if d = [32] then WordsAtMost 32 (if limit = 0 then npos else limit - 1) v ps
  else CutAtMost d (if limit = 0 then npos else limit - 1) v ps

/-- Contract. -/
def Act.Pre (c : Conf) (ss sa : Nat → Bool) (es : Env UInt8) (ea : Env Elem) : Act → Prop
  | .call k => Nest.Pre c ss sa es ea k
  | .split s d limit => limit ≤ npos ∧ ∃ v x, es s = .val v ∧ es d = .val x ∧ x ≠ [] ∧ v.length < 2147483648
  | .join a d quoted => ∃ vs x, ea a = .val (elems vs) ∧ es d = .val x ∧
      vs.length * x.length + vs.length * 2 + (vs.map List.length).sum < maxCells ∧
      (vs = [] ∨ x ≠ [] ∨ quoted = true ∨ ∃ v ∈ vs, v ≠ [])
  | .popTo a h => ea.Has a ∧ ea.get a ≠ [] ∧ es.Live h
  | .find a h | .findFrom a h _ | .rfind a h => ∃ vs x, ea a = .val (elems vs) ∧ es h = .val x
  | .equals a b _ | .eq a b | .ne a b => ∃ vs us, ea a = .val (elems vs) ∧ ea b = .val (elems us)
  | .hash a => ∃ vs, ea a = .val (elems vs)

/-- Effect. -/
def Act.Post (c : Conf) (ss sa : Nat → Bool) (es : Env UInt8) (ea : Env Elem) (act : Act) (out : End) (es' : Env UInt8)
    (ea' : Env Elem) : Prop :=
  match act with
  | .call k => ∃ x, out = .called x ∧ Nest.Post c ss sa es ea k x es' ea'
  | .split s d limit => es' = es ∧ ((out = .exc .badAlloc ∧ ea' = ea) ∨
      ∃ a ps, out = .made a ∧ ea a = .dead ∧ Pieces (es.get s) (es.get d) limit ps ∧ ea' = ea.upd a (.val (elems ps)))
  | .join a d quoted => ea' = ea ∧ ((out = .exc .badAlloc ∧ es' = es) ∨
      ∃ t vs, out = .made t ∧ es t = .dead ∧ ea a = .val (elems vs) ∧
        es' = es.upd t (.val ((es.get d).intercalate (vs.map (shown quoted)))))
  | .popTo a h => ∃ xs y, ea a = .val (xs ++ [y]) ∧ out = .done ∧ es' = es.upd h y ∧ ea' = ea.upd a (.val xs)
  | .find a h => es' = es ∧ ea' = ea ∧ ∃ vs n, ea a = .val (elems vs) ∧ out = .num n ∧
      Finds Smallest (HoldsAt vs (es.get h)) npos n
  | .findFrom a h pos => es' = es ∧ ea' = ea ∧ ∃ vs, ea a = .val (elems vs) ∧
      if pos ≤ vs.length then ∃ n, out = .num n ∧ Finds Smallest (fun i => HoldsAt vs (es.get h) (pos + i)) npos n
      else out = .exc .outOfRange
  | .rfind a h => es' = es ∧ ea' = ea ∧ ∃ vs n, ea a = .val (elems vs) ∧ out = .num n ∧
      Finds Largest (HoldsAt vs (es.get h)) npos n
  | .equals a b n => es' = es ∧ ea' = ea ∧ ∃ vs us, ea a = .val (elems vs) ∧ ea b = .val (elems us) ∧
      out = .flag (decide (vs.length = us.length ∧ vs.take n = us.take n))
  | .eq a b => es' = es ∧ ea' = ea ∧ ∃ vs us, ea a = .val (elems vs) ∧ ea b = .val (elems us) ∧ out = .flag (decide (vs = us))
  | .ne a b => es' = es ∧ ea' = ea ∧ ∃ vs us, ea a = .val (elems vs) ∧ ea b = .val (elems us) ∧ out = .flag (decide (vs ≠ us))
  | .hash a => es' = es ∧ ea' = ea ∧ ∃ vs, ea a = .val (elems vs) ∧
      out = .num (djb (fun v => djb (fun x => (c.str.hasher x).toNat) v) vs)

/-- The modelled code.  The loop of `split` makes at most `fuel` iterations. -/
def Act.run (c : Conf) (L : Libc) (fuel : Nat) : Act → P End
  | .call k => do let x ← Nest.run c k; return .called (.ret x)
  | .split s d limit => do let a ← Nest.split c L fuel s d limit; return .made a
  | .join a d quoted => do let t ← Nest.join c a d quoted; return .made t
  | .popTo a h => do Nest.popTo c a h; return .done
  | .find a h => do let n ← Nest.find L a h; return .num n
  | .findFrom a h pos => do let n ← Nest.findFrom L a h pos; return .num n
  | .rfind a h => do let n ← Nest.rfind L a h; return .num n
  | .equals a b n => do let r ← Nest.equalsN L a b n; return .flag r
  | .eq a b => do let r ← Nest.eq L a b; return .flag r
  | .ne a b => do let r ← Nest.ne L a b; return .flag r
  | .hash a => do let x ← Nest.hash c a; return .num x.toNat

/-- How it ended and the state it left, unless it was undefined. -/
def Act.result (act : Act) : Res End → Option (End × World)
  | .ok x w => some (x, w)
  | .throw e w => some (match act with
      | .call _ => .called (.exc e)
      | _ => .exc e, w)
  | .ub => none

/-- Strings left behind for ever, see `wasted`. -/
def Act.wasted (ea : Env Elem) : Act → End → Nat
  | .call k, .called x => Nest.wasted ea k x
  | _, _ => 0

/-- For the next `n` acts, whichever the program chooses (each within its contract): the act is defined, has the
effect the specification says, and everything can be observed as specified, also afterwards. -/
def Acts (c : Conf) (L : Libc) (fuel : Nat) : Nat → World → Env UInt8 → Env Elem → Nat → Prop
  | 0, w, es, ea, lost => Sees w es ea lost
  | n + 1, w, es, ea, lost => Sees w es ea lost ∧ ∀ act : Act, act.Pre c (shared w.strs) (shared w.arrs) es ea →
      ∃ out w' es' ea', act.result (act.run c L fuel w) = some (out, w') ∧
        act.Post c (shared w.strs) (shared w.arrs) es ea out es' ea' ∧
        Acts c L fuel n w' es' ea' (lost + act.wasted ea out)

end Bdlib.Nest
