/-!
# Specification: script variables linked to C variables

`V` are the values of C variables (`show`: as a script sees them, `parse`: the value of a script's text), `H`
the hooks.  Character buffers are byte lists.
-/

namespace Bdlib.Spec

/-- What a script variable is linked to. -/
inductive Target
  /-- a C variable -/
  | var (a : Nat)
  /-- a C variable scripts may only read -/
  | const (a : Nat)
  /-- the first `size` bytes of a buffer -/
  | buf (b size : Nat)
  /-- a buffer scripts may only read -/
  | text (b : Nat)
  deriving DecidableEq

/-- What a hook is told: the value before or after. -/
inductive Seen (V : Type)
  | val (v : V)
  | bytes (x : List UInt8)
  deriving DecidableEq

inductive LinkOp (N V H : Type)
  /-- `linkVar(name, target, hook)` -/
  | link (n : N) (t : Target) (hook : Option H)
  /-- `unlinkVar(name)` -/
  | unlink (n : N)
  /-- a script reads a variable -/
  | read (n : N)
  /-- a script sets a variable -/
  | write (n : N) (x : List UInt8)
  /-- the program sets a C variable -/
  | set (a : Nat) (v : V)
  /-- the program fills a buffer -/
  | fill (b : Nat) (x : List UInt8)

/-- What a script gets. -/
inductive Got
  | nothing
  /-- the value read -/
  | value (x : List UInt8)
  /-- reading a variable that does not exist -/
  | unknown
  /-- the variable is set -/
  | done
  /-- the variable cannot be set -/
  | refused
  deriving DecidableEq

structure Links (N V H : Type) where
  link : N → Option (Target × Option H)
  /-- variables that are not linked -/
  plain : N → Option (List UInt8)
  vals : Nat → V
  bufs : Nat → List UInt8
  /-- calls of hooks: hook, old and new value -/
  log : List (H × Seen V × Seen V)

def Links.init {N V H : Type} (vals : Nat → V) (bufs : Nat → List UInt8) : Links N V H :=
  ⟨fun _ => none, fun _ => none, vals, bufs, []⟩

/-- A function changed in one place. -/
def put {A B : Type} [DecidableEq A] (f : A → B) (a : A) (b : B) : A → B := fun x => if x = a then b else f x

/-- Text in a buffer: up to the NUL. -/
def textOf (x : List UInt8) : List UInt8 := x.takeWhile (· ≠ 0)

/-- Text put into the first `size` bytes of a buffer: cut if too long, always ended by a NUL in byte
`size - 1`; nothing else is written. -/
def stored (size : Nat) (old x : List UInt8) : List UInt8 := x.take (size - 1) ++ [0] ++ old.drop size

variable {N V H : Type} [DecidableEq N]

/-- Calling the hook, if there is one. -/
def called (hook : Option H) (old new : Seen V) : List (H × Seen V × Seen V) := match hook with
  | none => []
  | some h => [(h, old, new)]

def Links.step (toTcl : V → Option (List UInt8)) (parse : List UInt8 → Option V) (s : Links N V H) : LinkOp N V H → Links N V H × Got
  | .link n t h => ({ s with link := put s.link n (some (t, h)), plain := put s.plain n none }, .nothing)
  | .unlink n => ({ s with link := put s.link n none, plain := put s.plain n none }, .nothing)
  | .read n => (s, match s.link n with
    | none => match s.plain n with
      | none => .unknown
      | some x => .value x
    | some (.var a, _) | some (.const a, _) => .value ((toTcl (s.vals a)).getD [])
    | some (.buf b _, _) | some (.text b, _) => .value (textOf (s.bufs b)))
  | .write n x => match s.link n with
    | none => ({ s with plain := put s.plain n (some x) }, .done)
    | some (.var a, h) => match parse x with
      | none => (s, .refused)
      | some v => ({ s with vals := put s.vals a v, log := s.log ++ called h (.val (s.vals a)) (.val v) }, .done)
    | some (.buf b size, h) =>
      ({ s with bufs := put s.bufs b (stored size (s.bufs b) x),
                log := s.log ++ called h (.bytes ((s.bufs b).take size)) (.bytes (stored size (s.bufs b) x)) }, .done)
    | some (.const _, _) | some (.text _, _) => (s, .refused)
  | .set a v => ({ s with vals := put s.vals a v }, .nothing)
  | .fill b x => ({ s with bufs := put s.bufs b x }, .nothing)

def Links.steps (toTcl : V → Option (List UInt8)) (parse : List UInt8 → Option V) (s : Links N V H) : List (LinkOp N V H) → Links N V H × List Got
  | [] => (s, [])
  | op :: ops =>
    let (s', o) := s.step toTcl parse op
    let (s'', os) := s'.steps toTcl parse ops
    (s'', o :: os)

end Bdlib.Spec
