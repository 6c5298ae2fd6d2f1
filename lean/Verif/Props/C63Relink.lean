import Verif.Props.C63

/-!
# C63: what linking a linked name again does, after every history

`c63_history_partial` excludes linking a name that is already linked.  Here: what happens then, whatever came before.
The first link stays (`ScriptInterpTCL.cpp` 98-105 adds traces and removes none), and the variable is first set to the empty text
through it.
-/

namespace Bdlib.Tcl
open Bdlib Bdlib.Str Bdlib.Spec

variable {V H : Type}

theorem runLinks_append (toTcl : V → Option Bytes) (parse : Bytes → Option V) (more : List (LinkOp Bytes V H)) : ∀ (ops : List (LinkOp Bytes V H))
    {s s' : LinkSt V H} {os : List Got}, runLinks toTcl parse s ops = some (s', os) →
    runLinks toTcl parse s (ops ++ more) = (runLinks toTcl parse s' more).map fun r => (r.1, os ++ r.2)
  | [], s, s', os, h => by
    simp only [runLinks, Option.some.injEq, Prod.mk.injEq] at h
    obtain ⟨rfl, rfl⟩ := h
    cases hm : runLinks toTcl parse s more <;> simp [hm]
  | o :: ops, s, s', os, h => by
    rw [runLinks] at h
    rw [List.cons_append, runLinks]
    cases hr : runLink toTcl parse s o with
    | none => rw [hr] at h; cases h
    | some x =>
      obtain ⟨s1, g⟩ := x
      rw [hr] at h
      dsimp only at h ⊢
      cases hs : runLinks toTcl parse s1 ops with
      | none => rw [hs] at h; cases h
      | some y =>
        obtain ⟨s2, gs⟩ := y
        rw [hs] at h
        simp only [Option.some.injEq, Prod.mk.injEq] at h
        obtain ⟨rfl, rfl⟩ := h
        rw [runLinks_append toTcl parse more ops hs]
        cases hm : runLinks toTcl parse s2 more <;> simp

/-- Linking a name of a variable again: the state after. -/
theorem relink_var {parse : Bytes → Option V} {s : LinkSt V H} {n : Bytes} {a : Nat} {x : Bytes} {v : V}
    (hv : s.vars n = some ⟨x, [⟨false, .var a⟩, ⟨true, .var a⟩]⟩) (hp : parse [] = some v) (t : Target) (hook : Option H) :
    ∃ s', linkVar parse s n t hook = some s' ∧ s'.vals = put s.vals a v ∧ s'.bufs = s.bufs ∧
      s'.log = s.log ++ called (s.hooks n) (.val (s.vals a)) (.val v) ∧ s'.hooks n = (match hook with | none => s.hooks n | some h => some h) ∧
      (∀ a', t = .var a' → s'.vars n = some ⟨[], [⟨false, .var a'⟩, ⟨true, .var a'⟩, ⟨false, .var a⟩, ⟨true, .var a⟩]⟩) := by
  cases t <;> cases hook <;>
    simp [linkVar, setupTraces, writeVar, tracesOf, hv, writeTraces, writeTrace, hp, put, hookCalls, called] <;> rfl

/-- Refutation in every state: after any covered history, linking a name of a C variable again, to anything, sets that C variable to what
the empty text means and calls its hook, though nothing was written by a script or the program. -/
theorem c63_refuted_relink_clears (toTcl : V → Option Bytes) (parse : Bytes → Option V) (vals : Nat → V) (bufs : Nat → Bytes) (ops : List (LinkOp Bytes V H))
    (h : AllLinkAllowed toTcl parse (.init vals bufs) ops) {n : Bytes} {a : Nat} {hk : Option H}
    (hl : ((Links.init vals bufs).steps toTcl parse ops).1.link n = some (.var a, hk)) {v : V} (hp : parse [] = some v) (t : Target) (hook : Option H) :
    ∃ s, runLinks toTcl parse (.init vals bufs) (ops ++ [.link n t hook]) = some (s, ((Links.init vals bufs).steps toTcl parse ops).2 ++ [.nothing]) ∧
      s.vals = put ((Links.init vals bufs).steps toTcl parse ops).1.vals a v ∧ s.bufs = ((Links.init vals bufs).steps toTcl parse ops).1.bufs ∧
      s.log = ((Links.init vals bufs).steps toTcl parse ops).1.log ++
        called hk (.val (((Links.init vals bufs).steps toTcl parse ops).1.vals a)) (.val v) := by
  obtain ⟨s, hs, hi⟩ := LInv.steps ops (LInv.init vals bufs) h
  obtain ⟨hh, -, x, k, hv, rfl, -⟩ := hi.linked n _ hk hl
  obtain ⟨s', h1, h2, h3, h4, -⟩ := relink_var hv hp t hook
  refine ⟨s', ?_, by rw [h2, hi.vals], by rw [h3, hi.bufs], by rw [h4, hi.log, hh, hi.vals]⟩
  rw [runLinks_append toTcl parse _ ops hs]
  simp [runLinks, runLink, h1]

/-- Refutation in every state: a name linked to variable `a` and then to `a'` still reads as `a`, and setting it sets both, and tells the
hook of the second link (or, if there is none, of the first) of both. -/
theorem c63_refuted_relink_both (toTcl : V → Option Bytes) (parse : Bytes → Option V) (vals : Nat → V) (bufs : Nat → Bytes) (ops : List (LinkOp Bytes V H))
    (h : AllLinkAllowed toTcl parse (.init vals bufs) ops) {n : Bytes} {a a' : Nat} {hk : Option H}
    (hl : ((Links.init vals bufs).steps toTcl parse ops).1.link n = some (.var a, hk)) {v w : V} {x : Bytes} (hp : parse [] = some v)
    (hx : toTcl v = some x) {y : Bytes} (hw : parse y = some w) (hook : Option H) (ha : a' ≠ a) :
    (∃ s, runLinks toTcl parse (.init vals bufs) (ops ++ [.link n (.var a') hook, .read n]) =
      some (s, ((Links.init vals bufs).steps toTcl parse ops).2 ++ [.nothing, .value (textOf x)])) ∧
    ∃ s, runLinks toTcl parse (.init vals bufs) (ops ++ [.link n (.var a') hook, .write n y]) =
        some (s, ((Links.init vals bufs).steps toTcl parse ops).2 ++ [.nothing, .done]) ∧
      s.vals = put (put ((Links.init vals bufs).steps toTcl parse ops).1.vals a' w) a w ∧
      s.log = ((Links.init vals bufs).steps toTcl parse ops).1.log ++
        called hk (.val (((Links.init vals bufs).steps toTcl parse ops).1.vals a)) (.val v) ++
        called (hook.or hk) (.val (((Links.init vals bufs).steps toTcl parse ops).1.vals a')) (.val w) ++ called (hook.or hk) (.val v) (.val w) := by
  obtain ⟨s, hs, hi⟩ := LInv.steps ops (LInv.init vals bufs) h
  obtain ⟨hh, -, x', k, hv, rfl, -⟩ := hi.linked n _ hk hl
  obtain ⟨s', h1, h2, -, h4, h5, h6⟩ := relink_var hv hp (.var a') hook
  have h6 := h6 a' rfl
  have h5 : s'.hooks n = hook.or hk := by rw [h5, hh]; cases hook <;> rfl
  have hva : s'.vals a = v := by rw [h2]; exact if_pos rfl
  have hva' : s'.vals a' = s.vals a' := by rw [h2]; exact if_neg ha
  constructor
  · refine ⟨{ s' with vars := put s'.vars n (some ⟨cstr x, [⟨false, .var a'⟩, ⟨true, .var a'⟩, ⟨false, .var a⟩, ⟨true, .var a⟩]⟩) }, ?_⟩
    rw [runLinks_append toTcl parse _ ops hs]
    cases hy : toTcl (s'.vals a') <;>
      simp [runLinks, runLink, h1, readVar, h6, readTraces, readTrace, hva, hx, hy] <;> rfl
  · refine ⟨{ s' with vars := put s'.vars n (some ⟨y, [⟨false, .var a'⟩, ⟨true, .var a'⟩, ⟨false, .var a⟩, ⟨true, .var a⟩]⟩), vals := put (put s'.vals a' w) a w, log := s'.log ++ called (hook.or hk) (.val (s'.vals a')) (.val w) ++ called (hook.or hk) (.val (s'.vals a)) (.val w) }, ?_, ?_, ?_⟩
    · rw [runLinks_append toTcl parse _ ops hs]
      have hc : ∀ (s1 : LinkSt V H) (o p : Seen V), s1.hooks n = hook.or hk → hookCalls s1 n o p = called (hook.or hk) o p := by
        intro s1 o p h1
        unfold hookCalls called
        rw [h1]
        cases hook.or hk <;> rfl
      have hne : put s'.vals a' w a = s'.vals a := if_neg fun e => ha e.symm
      simp only [runLinks, runLink, h1, Option.map_some, writeVar, tracesOf, h6, writeTraces, Bool.false_eq_true, if_false, if_true, writeTrace, hw]
      rw [hc, hc, hne]
      · exact h5
      · exact h5
    · show put (put s'.vals a' w) a w = _
      rw [h2, ← hi.vals]
      funext i
      simp only [put]
      split <;> simp_all
    · show s'.log ++ _ ++ _ = _
      rw [hva, hva', h4, hi.log, hh, hi.vals]

/-- Refutation in every state: linking a name of a buffer again, to anything, reads past the end of the empty text, unless the buffer was
linked with a size of 1; -/
theorem c63_refuted_relink_size (toTcl : V → Option Bytes) (parse : Bytes → Option V) (vals : Nat → V) (bufs : Nat → Bytes) (ops : List (LinkOp Bytes V H))
    (h : AllLinkAllowed toTcl parse (.init vals bufs) ops) {n : Bytes} {b size : Nat} {hk : Option H}
    (hl : ((Links.init vals bufs).steps toTcl parse ops).1.link n = some (.buf b size, hk)) (hz : size ≠ 1) (t : Target) (hook : Option H) :
    runLinks toTcl parse (.init vals bufs) (ops ++ [.link n t hook]) = none := by
  obtain ⟨s, hs, hi⟩ := LInv.steps ops (LInv.init vals bufs) h
  refine runLinks_snoc toTcl parse _ ops hs ?_
  obtain ⟨-, -, y, k, hv, d, rfl, -, hd⟩ := hi.linked n _ hk hl
  have hz' : size = 0 ∨ size > (s.bufs b).length ∨ size > 1 := by omega
  have hd' : ∀ e, (s.data ++ [e])[d]? = some (some (b, size)) := fun e => by
    rw [List.getElem?_append_left (List.getElem?_eq_some_iff.1 hd).1, hd]
  cases t <;> simp [runLink, linkVar, setupTraces, writeVar, tracesOf, hv, writeTraces, writeTrace, hd, hd', storeBuf, hz']

/-- and, with a size of 1, linking it to another buffer and then reading or setting it uses freed memory. -/
theorem c63_refuted_relink_freed (toTcl : V → Option Bytes) (parse : Bytes → Option V) (vals : Nat → V) (bufs : Nat → Bytes) (ops : List (LinkOp Bytes V H))
    (h : AllLinkAllowed toTcl parse (.init vals bufs) ops) {n : Bytes} {b size : Nat} {hk : Option H}
    (hl : ((Links.init vals bufs).steps toTcl parse ops).1.link n = some (.buf b size, hk)) (b' size' : Nat) (hook : Option H) :
    runLinks toTcl parse (.init vals bufs) (ops ++ [.link n (.buf b' size') hook, .read n]) = none ∧
    ∀ x, runLinks toTcl parse (.init vals bufs) (ops ++ [.link n (.buf b' size') hook, .write n x]) = none := by
  obtain ⟨s, hs, hi⟩ := LInv.steps ops (LInv.init vals bufs) h
  obtain ⟨-, -, y, k, hv, d, rfl, hp, hd⟩ := hi.linked n _ hk hl
  have hlt := (List.getElem?_eq_some_iff.1 hd).1
  have hd' : ∀ e, (s.data ++ [e])[d]? = some (some (b, size)) := fun e => by
    rw [List.getElem?_append_left hlt, hd]
  have key : ∀ s', linkVar parse s n (.buf b' size') hook = some s' →
      s'.vars n = some ⟨[], [⟨false, .buf s.data.length⟩, ⟨true, .buf s.data.length⟩, ⟨false, .buf d⟩, ⟨true, .buf d⟩]⟩ ∧ s'.data[d]? = some none := by
    intro s' h1
    revert h1
    dsimp only [linkVar, setupTraces, writeVar, tracesOf]
    rw [hv]
    dsimp only [writeTraces]
    simp only [Bool.false_eq_true, if_false, if_true]
    dsimp only [writeTrace]
    rw [hd' _]
    dsimp only
    cases storeBuf size (s.bufs b) [] with
    | none => intro h1; cases h1
    | some z =>
      dsimp only
      cases hook <;> intro h1 <;> simp only [Option.some.injEq] at h1 <;> subst h1 <;>
        simp [freeData, hp, put, List.getElem?_set, hlt, Nat.lt_succ_of_lt]
  constructor
  · rw [runLinks_append toTcl parse _ ops hs]
    cases h1 : linkVar parse s n (.buf b' size') hook with
    | none => simp [runLinks, runLink, h1]
    | some s' =>
      obtain ⟨k1, k2⟩ := key s' h1
      cases hr : readTrace toTcl s' [] (.buf s.data.length) with
      | none => simp [runLinks, runLink, h1, readVar, k1, readTraces, hr]
      | some z =>
        have h3 : readTrace toTcl s' z (.buf d) = none := by simp [readTrace, k2]
        simp [runLinks, runLink, h1, readVar, k1, readTraces, hr, h3]
  · intro x
    rw [runLinks_append toTcl parse _ ops hs]
    cases h1 : linkVar parse s n (.buf b' size') hook with
    | none => simp [runLinks, runLink, h1]
    | some s' =>
      obtain ⟨k1, k2⟩ := key s' h1
      have h4 : runLink toTcl parse s' (.write n x) = none := by
        dsimp only [runLink, writeVar, tracesOf]
        rw [k1]
        dsimp only [writeTraces]
        simp only [Bool.false_eq_true, if_false, if_true]
        dsimp only [writeTrace]
        cases hg : s'.data[s.data.length]? with
        | none => rfl
        | some g => cases g with
          | none => rfl
          | some g =>
            obtain ⟨b1, z1⟩ := g
            dsimp only
            cases storeBuf z1 (s'.bufs b1) x with
            | none => rfl
            | some z =>
              dsimp only
              rw [k2]
      have h5 : runLink toTcl parse s (.link n (.buf b' size') hook) = some (s', .nothing) := by simp [runLink, h1]
      simp [runLinks, h5, h4]

/-- `x` linked to a variable with hook 7 and set, then linked again; a buffer of 4 bytes linked again; a buffer linked with size 1. -/
example := c63_refuted_relink_clears (H := Nat) strTo some (fun _ => []) (fun _ => []) [.link [120] (.var 0) (some 7), .write [120] [97]]
  (by simp [AllLinkAllowed, LinkAllowed, Links.step, Links.init, put]) (n := [120]) (a := 0) rfl rfl (.var 1) none

example := c63_refuted_relink_both (H := Nat) strTo some (fun _ => []) (fun _ => []) [.link [120] (.var 0) (some 7), .write [120] [97]]
  (by simp [AllLinkAllowed, LinkAllowed, Links.step, Links.init, put]) (n := [120]) (a := 0) (a' := 1) rfl rfl rfl (y := [99]) rfl none (by decide)

example := c63_refuted_relink_size (H := Nat) strTo some (fun _ => []) (fun _ => [0, 0, 0, 0]) [.link [120] (.buf 0 4) none]
  (by simp [AllLinkAllowed, LinkAllowed, Links.init]) (n := [120]) (b := 0) rfl (by decide) (.var 1) none

example := c63_refuted_relink_freed (H := Nat) strTo some (fun _ => []) (fun _ => [0]) [.link [120] (.buf 0 1) none]
  (by simp [AllLinkAllowed, LinkAllowed, Links.init]) (n := [120]) (b := 0) rfl 1 1 none

end Bdlib.Tcl
