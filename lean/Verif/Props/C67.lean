import Verif.Tcl.Eval
import Verif.Rca.Ops2

/-!
# C67: evaluating a script

`eval` returns the result of the script or, if it fails, the error trace.  It gets the trace by calling itself with
`set errorInfo`: if that fails too, it calls itself again, and so on.  The length is passed as an `int`.
-/

namespace Bdlib.Tcl
open Bdlib Bdlib.Str

variable {S : Type} {I : Interp S}

/-- `set errorInfo` gives the text `info s` and changes nothing: the command `set` is the one Tcl comes with, and the
variable exists (it does after any error). -/
def TraceKept (I : Interp S) (info : S → Bytes) (s : S) : Prop := I.evalEx s setErrorInfo = (s, .ok (info s))

theorem scriptOf_whole {v : Bytes} (h : v.length < 2 ^ 31) : scriptOf v (Rca.toInt32 v.length) = v := by
  rw [Rca.toInt32_small (by simpa using h)]
  unfold scriptOf
  rw [if_neg (by omega)]
  simp

theorem scriptOf_set : scriptOf setErrorInfo (Rca.toInt32 setErrorInfo.length) = setErrorInfo :=
  scriptOf_whole (by decide)

/-- A script that succeeds: it is evaluated exactly once and as it is (NUL bytes included), and its result is
returned.

Partial: scripts shorter than 2^31 bytes (`c67_refuted_long`). -/
theorem c67_ok_partial {s s' : S} {script r : Bytes} (hl : script.length < 2 ^ 31)
    (h : I.evalEx s script = (s', .ok r)) (fuel : Nat) : eval I (fuel + 1) s script = .ret (s', r) := by
  unfold eval
  rw [scriptOf_whole hl, h]

/-- A script that fails: it is evaluated once, and the error trace is returned, provided `set errorInfo` works.

Partial: see `c67_refuted_endless` for the proviso; scripts shorter than 2^31 bytes. -/
theorem c67_error_partial {info : S → Bytes} {s s' : S} {script e : Bytes} (hl : script.length < 2 ^ 31)
    (h : I.evalEx s script = (s', .error e)) (hi : TraceKept I info s') (fuel : Nat) :
    eval I (fuel + 2) s script = .ret (s', info s') := by
  unfold eval
  rw [scriptOf_whole hl, h]
  show eval I (fuel + 1) s' setErrorInfo = _
  exact c67_ok_partial (by decide) hi fuel

/-- The states after failing `set errorInfo` again and again. -/
def again (I : Interp S) (s : S) : Nat → S
  | 0 => s
  | n + 1 => (I.evalEx (again I s n) setErrorInfo).1

theorem again_succ (I : Interp S) (s : S) : ∀ n, again I (I.evalEx s setErrorInfo).1 n = again I s (n + 1)
  | 0 => rfl
  | n + 1 => by rw [again, again_succ I s n]; rfl

theorem eval_set_iff (s : S) : (∃ fuel r, eval I fuel s setErrorInfo = .ret r) ↔
    ∃ n r, (I.evalEx (again I s n) setErrorInfo).2 = .ok r := by
  constructor
  · rintro ⟨fuel, r, h⟩
    induction fuel generalizing s with
    | zero => cases h
    | succ fuel ih =>
      unfold eval at h
      rw [scriptOf_set] at h
      cases hr : I.evalEx s setErrorInfo with
      | mk s' x =>
        rw [hr] at h
        cases x with
        | ok y => exact ⟨0, y, by rw [again, hr]⟩
        | error e =>
          obtain ⟨n, y, hn⟩ := ih s' h
          refine ⟨n + 1, y, ?_⟩
          rw [← again_succ, hr]
          exact hn
  · rintro ⟨n, r, h⟩
    induction n generalizing s with
    | zero =>
      refine ⟨1, ((I.evalEx s setErrorInfo).1, r), ?_⟩
      unfold eval
      rw [scriptOf_set]
      cases hr : I.evalEx s setErrorInfo with
      | mk s' x => rw [again, hr] at h; cases h; rfl
    | succ n ih =>
      cases hr : I.evalEx s setErrorInfo with
      | mk s' x =>
        cases x with
        | ok y => exact ⟨1, (s', y), by unfold eval; rw [scriptOf_set, hr]⟩
        | error e =>
          rw [← again_succ, hr] at h
          obtain ⟨fuel, y, hy⟩ := ih s' h
          exact ⟨fuel + 1, y, by unfold eval; rw [scriptOf_set, hr]; exact hy⟩

/-- When `eval` returns: if the script succeeds, or if `set errorInfo` succeeds after finitely many attempts. -/
theorem c67_returns_iff {s : S} {script : Bytes} (hl : script.length < 2 ^ 31) :
    (∃ fuel r, eval I fuel s script = .ret r) ↔
      (∃ s' r, I.evalEx s script = (s', .ok r)) ∨
      (∃ s' e, I.evalEx s script = (s', .error e) ∧ ∃ n r, (I.evalEx (again I s' n) setErrorInfo).2 = .ok r) := by
  cases hr : I.evalEx s script with
  | mk s' x =>
    cases x with
    | ok r =>
      exact ⟨fun _ => Or.inl ⟨_, _, rfl⟩, fun _ => ⟨1, (s', r), c67_ok_partial hl hr 0⟩⟩
    | error e =>
      constructor
      · rintro ⟨fuel, r, h⟩
        refine Or.inr ⟨_, _, rfl, (eval_set_iff s').mp ?_⟩
        cases fuel with
        | zero => cases h
        | succ fuel =>
          unfold eval at h
          rw [scriptOf_whole hl, hr] at h
          exact ⟨fuel, r, h⟩
      · rintro (⟨_, _, h⟩ | ⟨_, _, h, hn⟩)
        · cases h
        · cases h
          obtain ⟨fuel, r, h⟩ := (eval_set_iff s').mpr hn
          exact ⟨fuel + 1, r, by unfold eval; rw [scriptOf_whole hl, hr]; exact h⟩

/-! ### an interpreter with three commands -/

/-- `rename set {}` -/
def renameSet : Bytes := [114, 101, 110, 97, 109, 101, 32, 115, 101, 116, 32, 123, 125]

/-- The state: is there a command `set`, and the text in `errorInfo`.  `set errorInfo` and `rename set {}` do what they
do in Tcl; everything else is an unknown command. -/
def tiny : Interp (Bool × Bytes) where
  evalEx s script :=
    if script = setErrorInfo ∧ s.1 = true then (s, .ok s.2)
    else if script = renameSet ∧ s.1 = true then ((false, s.2), .ok [])
    else ((s.1, [33]), .error [63])

example : TraceKept tiny (·.2) (true, [33]) := rfl
example : eval tiny 2 (true, []) [120] = .ret ((true, [33]), [33]) :=
  c67_error_partial (I := tiny) (info := Prod.snd) (s' := (true, [33])) (e := [63]) (by decide) rfl rfl 0

/-- Refutation: after `eval("rename set {}")` the call `eval("x")` does not return (in the program it overflows the
stack). -/
theorem c67_refuted_endless : eval tiny 1 (true, []) renameSet = .ret ((false, []), []) ∧
    ∀ fuel, eval tiny fuel (false, []) [120] = .more := by
  refine ⟨rfl, ?_⟩
  have h : ∀ fuel t, eval tiny fuel (false, t) setErrorInfo = .more := by
    intro fuel
    induction fuel with
    | zero => intro; rfl
    | succ fuel ih => intro t; exact ih [33]
  intro fuel
  cases fuel with
  | zero => rfl
  | succ fuel => exact h fuel [33]

/-- Refutation: of a script of 2^32 + n bytes (n < 2^31) only the first n are evaluated. -/
theorem c67_refuted_long {s s' : S} {script r : Bytes} {n : Nat} (hn : n < 2 ^ 31) (hl : script.length = 2 ^ 32 + n)
    (h : I.evalEx s (script.take n) = (s', .ok r)) : eval I 1 s script = .ret (s', r) := by
  have : Rca.toInt32 script.length = n := by
    rw [hl]
    unfold Rca.toInt32
    dsimp only
    rw [show (2 ^ 32 + n) % 4294967296 = n by omega, if_pos (by omega)]
  unfold eval scriptOf
  rw [this, if_neg (by omega), Int.toNat_natCast, h]

example : ∃ script : Bytes, script.length = 2 ^ 32 + 5 := ⟨List.replicate (2 ^ 32 + 5) 32, List.length_replicate⟩

end Bdlib.Tcl
