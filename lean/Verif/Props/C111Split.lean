import Verif.Nest.Refs3
import Verif.Props.C76

/-!
# C111: the assertions of `split`

`split` counts the pieces and asserts at the end that the counter of the string's storage has grown by exactly that number;
on the way it asserts that it has not run past the end.  One thread only; see `C111Threads.lean` for what other threads do.
-/

namespace Bdlib.Nest
open Bdlib Bdlib.Spec Bdlib.Rca Bdlib.Str

variable {c : Conf} {w : World} {es : Env UInt8} {ea : Env Elem} {lost : Nat}

/-- **C111** After any program, `split` of any string with any delimiter, limit and platform, with or without memory, ends
with its assertions exactly as without them. -/
theorem c111_split (hc : c.Good) (h : All c w es ea lost) {o : Nat} {v : Bytes} (ho : es o = .val v) (L : Libc)
    (fuel delim limit : Nat) : splitDebug c L fuel o delim limit w = split c L fuel o delim limit w := by
  obtain ⟨C, env, hV⟩ := all_view hc h
  obtain ⟨hwf, _, hA⟩ := hV.reach.inv hc.valid hc.phys
  have hview : w.strs.view o = some v := by
    have := hA o
    rw [(hV.val ho).1] at this
    exact this
  unfold St.view at hview
  cases hob : w.strs.obj o with
  | none => rw [hob] at hview; cases hview
  | some oo =>
    rw [hob] at hview
    change w.strs.viewOf oo = some v at hview
    unfold St.viewOf at hview
    cases hr : oo.ref with
    | none =>
      rw [hr] at hview
      simp only at hview
      split at hview
      · rename_i h0
        exact Refs.sim_split (b := 0) (B := ⟨0, [], 0⟩) hob fun hn => absurd h0.1 hn
      · cases hview
    | some b =>
      rw [hr] at hview
      simp only at hview
      cases hb : w.strs.blk b with
      | none => rw [hb] at hview; cases hview
      | some B =>
        have := hwf.refs b B hb
        exact Refs.sim_split hob fun _ => ⟨hr, hb, by omega⟩

/-! ## A program -/

/-- `String s("a,b");` -/
theorem c111_start : ∃ w es ea, All conf w es ea 0 ∧ es 0 = .val [97, 44, 98] := by
  obtain ⟨out, w', es', ea', h1, h2, h3⟩ := all_step conf_good all_init (call := .str (.strCtor [97, 44, 98])) rfl
  have a0 : (result (run conf (.str (.strCtor [97, 44, 98])) {})).map (·.1) = some (.ret (.s (.obj 0))) := by decide +kernel
  rw [h1] at a0
  cases a0
  obtain ⟨o, p1, e, rfl⟩ := h2
  cases o with
  | exc e' => cases e
  | ret x =>
    cases e
    obtain ⟨_, _, e, rfl⟩ | ⟨e, _⟩ := p1
    rotate_left
    · cases e
    cases e
    exact ⟨w', _, _, h3, rfl⟩

-- Non-vacuity: a string that can be split.
example : ∃ w es ea, All conf w es ea 0 ∧ es 0 = .val [97, 44, 98] ∧
    splitDebug conf glibc 9 0 0 npos w = split conf glibc 9 0 0 npos w := by
  obtain ⟨w, es, ea, h, h0⟩ := c111_start
  exact ⟨w, es, ea, h, h0, c111_split conf_good h h0 _ _ _ _⟩

/-- The strings of the array that `split` with assertions makes. -/
def pieces (L : Libc) (v d : Bytes) (limit : Nat) : Option (List (Option Bytes)) :=
  (runActs conf L 9 [.call (.str (.strCtor v)), .call (.str (.strCtor d))] {}).bind fun w =>
    match splitDebug conf L 9 0 1 limit w with
    | .ok a w' => elemsOf w' a
    | _ => none

example : pieces glibc [97, 44, 98, 44] [44] npos = some [some [97], some [98]] := by decide +kernel
example : pieces glibc [97, 44, 98, 44, 99] [44] 2 = some [some [97], some [98, 44, 99]] := by decide +kernel

end Bdlib.Nest
