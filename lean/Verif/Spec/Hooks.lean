import Verif.Spec.Links

/-!
# Specification: hooks that use the interpreter

A hook of a linked variable may itself link, unlink, set C variables, and run scripts that read and set variables,
which may call hooks again.  While a script's change of a variable is going on, that is until its hook returns, the
variable is *busy*: scripts have its own value, and the C variable does not follow.
-/

namespace Bdlib.Spec

/-- A program, or a hook: calls, each chosen from what the ones before gave and from the C variables and buffers. -/
inductive HookProg (N V H : Type)
  | done
  | call (op : LinkOp N V H) (next : Got → (Nat → V) → (Nat → List UInt8) → HookProg N V H)

/-- How a run ends: it returns; it is cut off because hooks have called hooks too often (in this state); a call was
not allowed. -/
inductive Finish (S A : Type)
  | ret (s : S) (a : A)
  | cut (s : S)
  | wrong

/-- Links, values of variables that are not linked or busy, C variables and buffers, calls of hooks in the order
in which they begin, and the busy variables. -/
structure HLinks (N V H : Type) where
  link : N → Option (Target × Option H)
  own : N → Option (List UInt8)
  vals : Nat → V
  bufs : Nat → List UInt8
  log : List (H × Seen V × Seen V)
  busy : List N

def HLinks.init {N V H : Type} (vals : Nat → V) (bufs : Nat → List UInt8) : HLinks N V H :=
  ⟨fun _ => none, fun _ => none, vals, bufs, [], []⟩

variable {N V H : Type} [DecidableEq N]

/-- The calls that are covered: linking a name that is not linked, reading a value that is text without NUL, setting a
variable to a text that has a value, a buffer to a text that fills it. -/
def HLinks.allowed (toTcl : V → Option (List UInt8)) (parse : List UInt8 → Option V) (s : HLinks N V H) : LinkOp N V H → Bool
  | .link n _ _ => (s.link n).isNone
  | .read n => if n ∈ s.busy then true else match s.link n with
    | none => true
    | some (.var a, _) | some (.const a, _) => match toTcl (s.vals a) with
      | none => false
      | some x => decide (0 ∉ x)
    | some (.buf b _, _) | some (.text b, _) => decide (0 ∈ s.bufs b)
  | .write n x => if n ∈ s.busy then true else match s.link n with
    | some (.var _, _) => (parse x).isSome
    | some (.buf b size, _) => decide (1 ≤ size ∧ size ≤ (s.bufs b).length ∧ size ≤ x.length + 1)
    | _ => true
  | _ => true

/-- A hook, if there is one, with the variable busy; `run` says what hooks do. -/
def HLinks.hooked (run : H → Seen V → Seen V → HLinks N V H → Finish (HLinks N V H) Unit) (s : HLinks N V H) (n : N) (x : List UInt8) (hook : Option H)
    (old new : Seen V) : Finish (HLinks N V H) Got :=
  let s := { s with own := put s.own n (some x) }
  match hook with
  | none => .ret s .done
  | some h => match run h old new { s with busy := n :: s.busy, log := s.log ++ [(h, old, new)] } with
    | .ret s _ => .ret { s with busy := s.busy.tail } .done
    | .cut s => .cut s
    | .wrong => .wrong

/-- One call. -/
def HLinks.step (toTcl : V → Option (List UInt8)) (parse : List UInt8 → Option V) (run : H → Seen V → Seen V → HLinks N V H → Finish (HLinks N V H) Unit)
    (s : HLinks N V H) : LinkOp N V H → Finish (HLinks N V H) Got
  | .link n t h => .ret { s with link := put s.link n (some (t, h)), own := put s.own n (some []) } .nothing
  | .unlink n => .ret { s with link := put s.link n none, own := put s.own n none } .nothing
  | .read n =>
    let plain : Got := match s.own n with
      | none => .unknown
      | some x => .value x
    .ret s (if n ∈ s.busy then plain else match s.link n with
      | none => plain
      | some (.var a, _) | some (.const a, _) => .value ((toTcl (s.vals a)).getD [])
      | some (.buf b _, _) | some (.text b, _) => .value (textOf (s.bufs b)))
  | .write n x =>
    if n ∈ s.busy then .ret { s with own := put s.own n (some x) } .done
    else match s.link n with
      | none => .ret { s with own := put s.own n (some x) } .done
      | some (.var a, h) => match parse x with
        | none => .ret s .refused
        | some v => { s with vals := put s.vals a v }.hooked run n x h (.val (s.vals a)) (.val v)
      | some (.buf b size, h) =>
        { s with bufs := put s.bufs b (stored size (s.bufs b) x) }.hooked run n x h (.bytes ((s.bufs b).take size)) (.bytes (stored size (s.bufs b) x))
      | some (.const _, _) | some (.text _, _) => .ret s .refused
  | .set a v => .ret { s with vals := put s.vals a v } .nothing
  | .fill b x => .ret { s with bufs := put s.bufs b x } .nothing

/-- A program. -/
def HLinks.prog (toTcl : V → Option (List UInt8)) (parse : List UInt8 → Option V) (run : H → Seen V → Seen V → HLinks N V H → Finish (HLinks N V H) Unit) :
    HookProg N V H → HLinks N V H → Finish (HLinks N V H) Unit
  | .done, s => .ret s ()
  | .call op next, s => if s.allowed toTcl parse op then match s.step toTcl parse run op with
      | .ret s g => HLinks.prog toTcl parse run (next g s.vals s.bufs) s
      | .cut s => .cut s
      | .wrong => .wrong
    else .wrong

/-- Hooks, which do `body` (of what they are told and the C variables and buffers), nested at most `depth` deep. -/
def HLinks.hook (toTcl : V → Option (List UInt8)) (parse : List UInt8 → Option V) (body : H → Seen V → Seen V → (Nat → V) → (Nat → List UInt8) → HookProg N V H) :
    (depth : Nat) → H → Seen V → Seen V → HLinks N V H → Finish (HLinks N V H) Unit
  | 0, _, _, _, s => .cut s
  | depth + 1, h, old, new, s => HLinks.prog toTcl parse (HLinks.hook toTcl parse body depth) (body h old new s.vals s.bufs) s

end Bdlib.Spec
