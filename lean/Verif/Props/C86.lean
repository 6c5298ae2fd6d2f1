import Verif.Tcl.Callback
import Verif.Props.C57Worlds
import Verif.Props.C62
import Verif.Props.C67
import Verif.Props.C68

/-!
# C86: callbacks run in the interpreter that handed them over

The callback takes its interpreter from the registry entry of the command that was called, not from the interpreter
that called, and keeps a plain pointer to it.  So it goes to the wrong interpreter if the entry is another one's
(`c86_refuted_wrong_interp`), and to one that is gone if that was destroyed (`c86_refuted_gone`).  Proved: for all
histories of commands covered by C57, with callbacks kept, replaced, forgotten and called in between, also from
within commands, every call of a callback whose interpreter still exists runs there, with the parameters as words.
-/

namespace Bdlib.Tcl
open Bdlib Bdlib.Str

variable {E F : Type} [DecidableEq E]

/-- One operation. -/
def runEvent (tclName : Bytes → Bytes) (C : Library) (s : Cbs E F) : Spec.EventOp E F Obj → Option (Cbs E F × Happens F)
  | .world op => match runCmdWorld tclName s.reg op with
    | none => none
    | some (r, none) => some ({ s with reg := r }, .nothing)
    | some (r, some f) => some ({ s with reg := r }, .begins f)
  | .bind e o => match bindCb C s e o with
    | none => none
    | some s' => some (s', .nothing)
  | .unbind e => some ({ s with bound := fun e' => if e' = e then none else s.bound e' }, .nothing)
  | .fire e params => match s.bound e with
    | none => some (s, .nothing)
    | some cb => match cb.script s.reg.live params with
      | .ret (i, script) => some (s, .evaluates i script)
      | _ => none

def runEvents (tclName : Bytes → Bytes) (C : Library) (s : Cbs E F) : List (Spec.EventOp E F Obj) → Option (Cbs E F × List (Happens F))
  | [] => some (s, [])
  | op :: ops => match runEvent tclName C s op with
    | none => none
    | some (s', o) => match runEvents tclName C s' ops with
      | none => none
      | some (s'', os) => some (s'', o :: os)

/-- What is seen of what happens: of a script, the words. -/
def Happens.seen : Happens F → Spec.Sight F
  | .nothing => .nothing
  | .begins f => .begins f
  | .evaluates i script => .executes i (Spec.words script)

/-- The operations covered; `used` are the interpreters made so far.  Those on commands as in C57; a callback is one
command, without NUL bytes; it is called while its interpreter exists, with parameters without special characters,
and not too long (C62). -/
def EventAllowed (tclName : Bytes → Bytes) (C : Library) (live used : List Nat) (s : Spec.Events E F) : Spec.EventOp E F Obj → Prop
  | .world (.make i) => i ∉ used
  | .world op => CmdAllowed tclName live s.cmds op
  | .bind _ o => s.inside ≠ [] ∧ 0 ∉ C.text o ∧ Spec.words (C.text o) ≠ none
  | .unbind _ => True
  | .fire e params => ∀ i text, s.bound e = some (i, text) → i ∈ live ∧ (∀ p ∈ params, Safe p) ∧
    text.length + 1 + (params.map fun p => p.length + 3).sum < 4096

def eventLive (live : List Nat) : Spec.EventOp E F Obj → List Nat
  | .world op => cmdLive live op
  | _ => live

def eventUsed (used : List Nat) : Spec.EventOp E F Obj → List Nat
  | .world (.make i) => i :: used
  | _ => used

def AllEventsAllowed (tclName : Bytes → Bytes) (C : Library) (live used : List Nat) (s : Spec.Events E F) : List (Spec.EventOp E F Obj) → Prop
  | [] => True
  | op :: ops => EventAllowed tclName C live used s op ∧
    AllEventsAllowed tclName C (eventLive live op) (eventUsed used op) (s.step tclName C.text op).1 ops

/-! ## The interpreter of a running command -/

/-- The same calls are running, and commands made before keep their interpreter. -/
def Kept (s s' : Reg F) : Prop :=
  s'.frames = s.frames ∧ ∀ j : Nat, ∀ c, s.cmds[j]? = some c → ∃ c', s'.cmds[j]? = some c' ∧ c'.si = c.si

theorem Kept.refl (s : Reg F) : Kept s s := ⟨rfl, fun _ c h => ⟨c, h, rfl⟩⟩

theorem Kept.trans {s s' s'' : Reg F} (h : Kept s s') (h' : Kept s' s'') : Kept s s'' :=
  ⟨h'.1.trans h.1, fun j c hc => by
    obtain ⟨c', hc', e⟩ := h.2 j c hc
    obtain ⟨c'', hc'', e'⟩ := h'.2 j c' hc'
    exact ⟨c'', hc'', e'.trans e⟩⟩

theorem Kept.of_cmds {s s' : Reg F} (hf : s'.frames = s.frames) (hc : s'.cmds = s.cmds) : Kept s s' :=
  ⟨hf, fun _ c h => ⟨c, by rw [hc]; exact h, rfl⟩⟩

theorem Kept.upd {s s' : Reg F} {id : Nat} {f : ScriptCmd F → ScriptCmd F} (hf : s'.frames = s.frames)
    (hc : s'.cmds = s.cmds.modify id f) (hsi : ∀ c, (f c).si = c.si) : Kept s s' := by
  refine ⟨hf, fun j c h => ?_⟩
  rw [hc]
  by_cases e : j = id
  · subst e
    rw [modify_eq, h]
    exact ⟨f c, rfl, hsi c⟩
  · rw [modify_ne e, h]
    exact ⟨c, rfl, rfl⟩

theorem release_kept {tclName : Bytes → Bytes} {s s' : Reg F} {id : Nat} (h : release tclName s id = some s') : Kept s s' := by
  unfold release at h
  repeat' split at h
  all_goals first
    | cases h; done
    | (cases h; exact Kept.upd rfl rfl fun _ => rfl)

theorem releaseEntry_kept {tclName : Bytes → Bytes} {s s' : Reg F} {p : Option (Option Nat)} (h : releaseEntry tclName s p = some s') : Kept s s' := by
  unfold releaseEntry at h
  split at h
  · exact release_kept h
  · cases h; exact .refl _

theorem releaseAll_kept {tclName : Bytes → Bytes} : ∀ (m : List (Bytes × Option Nat)) {s s' : Reg F}, releaseAll tclName s m = some s' → Kept s s'
  | [], _, _, h => by cases h; exact .refl _
  | (n, p) :: m, s, s', h => by
    unfold releaseAll at h
    split at h
    · cases h
    · exact (releaseEntry_kept ‹_›).trans (releaseAll_kept m h)

/-- The interpreters of the running commands. -/
def RunsIn (s : Reg F) (inside : List Nat) : Prop :=
  s.frames.map (fun j => (s.cmds[j]?).map (·.si)) = inside.map some

theorem RunsIn.kept {s s' : Reg F} {inside : List Nat} (h : RunsIn s inside) (hk : Kept s s') : RunsIn s' inside := by
  unfold RunsIn at h ⊢
  rw [hk.1, ← h]
  refine List.map_congr_left fun j hj => ?_
  have : (s.cmds[j]?).map (·.si) ∈ inside.map some := h ▸ List.mem_map_of_mem hj
  obtain ⟨i, _, e⟩ := List.mem_map.mp this
  cases hc : s.cmds[j]? with
  | none => rw [hc] at e; cases e
  | some c =>
    obtain ⟨c', hc', e'⟩ := hk.2 j c hc
    rw [hc']
    exact congrArg some e'

omit [DecidableEq E] in
theorem RunsIn.step {tclName : Bytes → Bytes} {live : List Nat} {sp : Spec.Events E F} {s s' : Reg F} {o : Option F}
    (hC : CInv tclName live sp.cmds s) (h : RunsIn s sp.inside) (op : Spec.CmdWorldOp Bytes F) (ha : CmdAllowed tclName live sp.cmds op)
    (hs : runCmdWorld tclName s op = some (s', o)) : RunsIn s' (sp.insideAfter (op.meant tclName)) := by
  cases op with
  | on op =>
    cases op with
    | create i n f =>
      simp only [runCmdWorld, runOp, Option.map_eq_some_iff] at hs
      obtain ⟨s1, hs, e⟩ := hs
      cases e
      refine h.kept ?_
      simp only [create, Option.bind_eq_bind, Option.bind_eq_some_iff] at hs
      obtain ⟨s2, h2, h3⟩ := hs
      refine Kept.trans (s' := { s with cmds := s.cmds ++ [⟨i, n, f, false, 2⟩], map := (n, some s.cmds.length) :: without s.map n })
        ⟨rfl, fun j c hc => ⟨c, ?_, rfl⟩⟩ ((releaseEntry_kept h2).trans (Kept.trans ?_ (release_kept h3)))
      · show (s.cmds ++ [_])[j]? = _
        rw [List.getElem?_append_left (by
          rcases Nat.lt_or_ge j s.cmds.length with hl | hl
          · exact hl
          · rw [List.getElem?_eq_none hl] at hc; cases hc)]
        exact hc
      · exact Kept.upd rfl rfl fun _ => rfl
    | delete i n =>
      simp only [runCmdWorld, runOp, Option.map_eq_some_iff] at hs
      obtain ⟨s1, hs, e⟩ := hs
      cases e
      refine h.kept ?_
      unfold delete at hs
      exact (Kept.of_cmds (s' := { s with map := without s.map n }) rfl rfl).trans (releaseEntry_kept hs)
    | enter i n =>
      simp only [runCmdWorld, runOp, enter] at hs
      show RunsIn s' (match sp.cmds.cmd i (tclName n) with | none => sp.inside | some _ => i :: sp.inside)
      split at hs
      · rename_i ht
        obtain ⟨j, c, e1, e2, e3, e4⟩ := hC.tbl i (tclName n) ht
        have hn : tclName n = n := ha (by rw [e4]; nofun)
        rw [hn] at e1
        rw [e1] at hs
        simp only [e2] at hs
        cases hs
        rw [e4]
        have hk : Kept s { s.upd j (fun c => { c with refs := c.refs + 1 }) with frames := s.frames } := Kept.upd rfl rfl fun _ => rfl
        have := h.kept hk
        unfold RunsIn at this ⊢
        simp only [List.map_cons, Reg.upd] at this ⊢
        rw [this, modify_eq, e2]
        simp [e3]
      · rename_i ht
        cases hs
        rw [hC.notbl i (tclName n) ht]
        exact h
    | leave =>
      simp only [runCmdWorld, runOp, Option.map_eq_some_iff] at hs
      obtain ⟨s1, hs, e⟩ := hs
      cases e
      unfold leave at hs
      split at hs
      · cases hs
      · rename_i id fs hf
        refine RunsIn.kept ?_ (release_kept hs)
        show RunsIn _ sp.inside.tail
        unfold RunsIn at h ⊢
        rw [hf] at h
        show List.map _ fs = _
        rw [List.map_tail, ← h]
        rfl
  | drop i n =>
    cases hs
    exact h.kept (.of_cmds rfl rfl)
  | make i =>
    cases hs
    exact h.kept (.of_cmds rfl rfl)
  | destroy i =>
    simp only [runCmdWorld, Option.map_eq_some_iff] at hs
    obtain ⟨s1, hs, e⟩ := hs
    cases e
    refine h.kept ?_
    simp only [destroyInterp, Option.bind_eq_bind, Option.bind_eq_some_iff] at hs
    obtain ⟨s2, h2, h3⟩ := hs
    cases h3
    exact (Kept.of_cmds (s' := { s with map := [] }) rfl rfl).trans ((releaseAll_kept _ h2).trans (.of_cmds rfl rfl))

/-! ## Histories -/

/-- The registry, the running commands and the callbacks are as they should be. -/
structure EInv (tclName : Bytes → Bytes) (live used : List Nat) (sp : Spec.Events E F) (s : Cbs E F) : Prop where
  reg : CInv tclName live sp.cmds s.reg
  sub : ∀ i ∈ live, i ∈ used
  inside : RunsIn s.reg sp.inside
  bound : ∀ e, sp.bound e = (s.bound e).map fun cb => (cb.si, cb.cmd)
  good : ∀ e cb, s.bound e = some cb → 0 ∉ cb.cmd ∧ Spec.words cb.cmd ≠ none

omit [DecidableEq E] in
theorem EInv.empty (tclName : Bytes → Bytes) : EInv (E := E) (F := F) tclName [] [] .empty .init where
  reg := CInv.empty tclName
  sub := nofun
  inside := rfl
  bound := fun _ => rfl
  good := nofun

theorem EInv.step {tclName : Bytes → Bytes} {C : Library} {live used : List Nat} {sp : Spec.Events E F} {s : Cbs E F}
    (h : EInv tclName live used sp s) (op : Spec.EventOp E F Obj) (ha : EventAllowed tclName C live used sp op) :
    ∃ s' o, runEvent tclName C s op = some (s', o) ∧ o.seen = (sp.step tclName C.text op).2 ∧
      EInv tclName (eventLive live op) (eventUsed used op) (sp.step tclName C.text op).1 s' := by
  cases op with
  | world op =>
    have ha' : CmdAllowed tclName live sp.cmds op := by
      cases op with
      | make i => exact fun hi => ha (h.sub i hi)
      | _ => exact ha
    obtain ⟨r, hr, hi⟩ := h.reg.step op ha'
    have hin := h.inside.step h.reg op ha' hr
    refine ⟨{ s with reg := r }, match (sp.cmds.worldStep (op.meant tclName)).2 with | none => .nothing | some f => .begins f, ?_, ?_, hi, ?_, hin, h.bound, h.good⟩
    · simp only [runEvent, hr]
      cases (sp.cmds.worldStep (op.meant tclName)).2 <;> rfl
    · show _ = Spec.Sight.ofBegin _
      cases (sp.cmds.worldStep (op.meant tclName)).2 <;> rfl
    · intro i hi'
      cases op with
      | make j =>
        rcases List.mem_cons.mp hi' with rfl | hi'
        · exact List.mem_cons_self
        · exact List.mem_cons_of_mem _ (h.sub i hi')
      | destroy j => exact h.sub i (List.mem_filter.mp hi').1
      | _ => exact h.sub i hi'
  | bind e o =>
    obtain ⟨h1, h2, h3⟩ := ha
    have hin := h.inside
    unfold RunsIn at hin
    cases hsi : sp.inside with
    | nil => exact absurd hsi h1
    | cons i is =>
      rw [hsi] at hin
      cases hf : s.reg.frames with
      | nil => rw [hf] at hin; cases hin
      | cons id fs =>
        rw [hf] at hin
        simp only [List.map_cons, List.cons.injEq] at hin
        obtain ⟨hc, _⟩ := hin
        obtain ⟨c, hcc, rfl⟩ := Option.map_eq_some_iff.mp hc
        refine ⟨{ s with bound := fun e' => if e' = e then some (toCallbacker C c.si o) else s.bound e' }, .nothing, ?_, ?_, ?_⟩
        · simp only [runEvent, bindCb, hf, hcc]
        · simp only [Spec.Events.step, hsi]; rfl
        · simp only [Spec.Events.step, hsi]
          refine ⟨h.reg, h.sub, ?_, fun e' => ?_, fun e' cb hcb => ?_⟩
          · rw [← hsi]; exact h.inside
          · dsimp only
            split
            · rfl
            · exact h.bound e'
          · dsimp only at hcb
            split at hcb
            · cases hcb
              exact ⟨h2, h3⟩
            · exact h.good e' cb hcb
  | unbind e =>
    refine ⟨_, _, rfl, rfl, h.reg, h.sub, h.inside, fun e' => ?_, fun e' cb hcb => ?_⟩
    · dsimp only [Spec.Events.step]
      split
      · rfl
      · exact h.bound e'
    · dsimp only at hcb
      split at hcb
      · cases hcb
      · exact h.good e' cb hcb
  | fire e params =>
    have hb := h.bound e
    cases hs : s.bound e with
    | none =>
      rw [hs] at hb
      refine ⟨s, .nothing, by simp only [runEvent, hs], by simp only [Spec.Events.step, hb, Option.map_none]; rfl, ?_⟩
      simp only [Spec.Events.step, hb, Option.map_none]
      exact h
    | some cb =>
      rw [hs] at hb
      obtain ⟨hl, hp, hlen⟩ := ha cb.si cb.cmd hb
      obtain ⟨hz, hw⟩ := h.good e cb hs
      obtain ⟨ws, hw⟩ := Option.ne_none_iff_exists'.mp hw
      obtain ⟨script, e1, e2⟩ := c62_call_partial cb.cmd params ws hz hw hp hlen
      have hscript : cb.script s.reg.live params = .ret (cb.si, script) := by
        unfold Callbacker.script
        rw [e1]
        simp only [Eff.ret_bind]
        rw [h.reg.live_eq, if_pos hl]
        rfl
      refine ⟨s, .evaluates cb.si script, by simp only [runEvent, hs, hscript], ?_, ?_⟩
      · simp only [Spec.Events.step, hb, Option.map_some, hw]
        show Spec.Sight.executes _ _ = _
        rw [e2]
      · simp only [Spec.Events.step, hb, Option.map_some]
        exact h

theorem EInv.steps {tclName : Bytes → Bytes} {C : Library} : ∀ (ops : List (Spec.EventOp E F Obj)) {live used : List Nat}
    {sp : Spec.Events E F} {s : Cbs E F}, EInv tclName live used sp s → AllEventsAllowed tclName C live used sp ops →
    ∃ s' os, runEvents tclName C s ops = some (s', os) ∧ os.map Happens.seen = (sp.steps tclName C.text ops).2
  | [], _, _, _, s, _, _ => ⟨s, [], rfl, rfl⟩
  | op :: ops, live, used, sp, s, h, ⟨ha, has⟩ => by
    obtain ⟨s', o, e1, e2, hi⟩ := h.step op ha
    obtain ⟨s'', os, e3, e4⟩ := EInv.steps ops hi has
    refine ⟨s'', o :: os, ?_, ?_⟩
    · simp only [runEvents, e1, e3]
    · rw [List.map_cons, e2, e4]
      rfl

/-- **C86** In every covered history: nothing undefined happens, and every call of a callback makes the interpreter of
the script that handed it over execute its words followed by the parameters.

Partial: the histories of commands covered by C57; parameters as in C62; callbacks of interpreters that still exist
(`c86_refuted_*`). -/
theorem c86_history_partial (tclName : Bytes → Bytes) (C : Library) (ops : List (Spec.EventOp E F Obj))
    (h : AllEventsAllowed tclName C [] [] .empty ops) :
    ∃ s os, runEvents tclName C .init ops = some (s, os) ∧
      os.map Happens.seen = (Spec.Events.empty.steps tclName C.text ops).2 :=
  EInv.steps ops (EInv.empty tclName) h

/-- **C86** The result of calling a callback: what the command returns, or the error trace if it fails; only the
callback's interpreter has changed.

Partial: as above; the error trace as in C67. -/
theorem c86_result_partial {S : Type} (I : Interp S) (info : S → Bytes) (st : Nat → Option S) (cb : Callbacker) (params : List Bytes)
    (ws : List (List Spec.Tok)) (hz : 0 ∉ cb.cmd) (hc : Spec.words cb.cmd = some ws) (hp : ∀ p ∈ params, Safe p)
    (hlen : cb.cmd.length + 1 + (params.map fun p => p.length + 3).sum < 4096) (s : S) (hs : st cb.si = some s) :
    ∃ script, Spec.words script = some (ws ++ params.map Spec.literal) ∧ ∀ s' r, I.evalEx s script = (s', r) →
      (∀ v, r = .ok v → ∀ fuel, ∃ st', cb.call I (fuel + 1) st params = .ret (st', v) ∧ st' cb.si = some s' ∧ ∀ j, j ≠ cb.si → st' j = st j) ∧
      (∀ m, r = .error m → TraceKept I info s' → ∀ fuel, ∃ st', cb.call I (fuel + 2) st params = .ret (st', info s') ∧
        st' cb.si = some s' ∧ ∀ j, j ≠ cb.si → st' j = st j) := by
  obtain ⟨script, e1, e2, hl⟩ := callScript_words cb.cmd params ws hz hc hp hlen
  have hl : script.length < 2 ^ 31 := by omega
  refine ⟨script, e2, fun s' r he => ⟨fun v hr fuel => ?_, fun m hr hi fuel => ?_⟩⟩
  · subst hr
    refine ⟨fun j => if j = cb.si then some s' else st j, ?_, if_pos rfl, fun j hj => if_neg hj⟩
    unfold Callbacker.call
    rw [e1]
    simp only [Eff.ret_bind, hs]
    rw [c67_ok_partial hl he fuel]
    rfl
  · subst hr
    refine ⟨fun j => if j = cb.si then some s' else st j, ?_, if_pos rfl, fun j hj => if_neg hj⟩
    unfold Callbacker.call
    rw [e1]
    simp only [Eff.ret_bind, hs]
    rw [c67_error_partial hl he hi fuel]
    rfl

/-! ## A sample -/

/-- Two interpreters, each with a command; each hands over a callback, the second while the first's command runs.
Both are called, also after the first interpreter's command was deleted and the second interpreter destroyed. -/
def eventSample : List (Spec.EventOp Nat Nat Obj) :=
  [.world (.make 0), .world (.make 1), .world (.on (.create 0 [97] 1)), .world (.on (.create 1 [98] 2)),
   .world (.on (.enter 0 [97])), .world (.on (.enter 1 [98])), .bind 6 (.str [103, 32, 120]), .world (.on .leave),
   .bind 5 (.str [102]), .fire 6 [[112, 32, 113]], .world (.on .leave), .fire 5 [], .fire 7 [],
   .world (.on (.delete 0 [97])), .world (.destroy 1), .fire 5 [[49], [50]], .unbind 5, .fire 5 []]

example : AllEventsAllowed strip plainLibrary [] [] .empty eventSample := by
  simp [eventSample, AllEventsAllowed, EventAllowed, eventLive, eventUsed, CmdAllowed, strip, Spec.Events.step, Spec.Events.insideAfter,
    Spec.Cmds.worldStep, Spec.Cmds.step, Spec.Cmds.empty, Spec.Events.empty, Spec.CmdWorldOp.meant, cmdLive]
  have t (b : Bytes) : plainLibrary.text (.str b) = b := rfl
  refine ⟨by rw [t]; decide, by rw [t]; decide, ⟨by unfold Safe; decide, by rw [t]; decide⟩, by rw [t]; decide, ?_,
    ⟨by unfold Safe; decide, by unfold Safe; decide⟩, by rw [t]; decide⟩
  intro j n h1 h2
  rw [if_neg (fun h => h1 h.1), if_neg (fun h => h2 h.1 h.2)]

example : (runEvents strip plainLibrary .init eventSample).map (·.2) = some [.nothing, .nothing, .nothing, .nothing, .begins 1, .begins 2,
    .nothing, .nothing, .nothing, .evaluates 1 "g x \"p q\"".toUTF8.data.toList, .nothing, .evaluates 0 "f ".toUTF8.data.toList, .nothing,
    .nothing, .nothing, .evaluates 0 "f \"1\" \"2\"".toUTF8.data.toList, .nothing, .nothing] := by decide +kernel

/-- An interpreter that keeps a log of what it evaluated, and fails for texts that begin with `x`. -/
def logger : Interp (List Bytes) where
  evalEx s script := if script.head? = some 120 then (s ++ [script], .error []) else if script = setErrorInfo then (s, .ok [33]) else (s ++ [script], .ok script)

example := c86_result_partial logger (fun _ => [33]) (fun i => if i < 2 then some [] else none) ⟨1, [102]⟩ [[97, 32, 98]] [Spec.literal [102]]
  (by decide) (by decide) (by unfold Safe; decide) (by decide) [] rfl
example : TraceKept logger (fun _ => [33]) [[120]] := rfl

/-! ## Refutations -/

/-- **C86** (refuted) The interpreter is destroyed; calling its callback uses it after that. -/
theorem c86_refuted_gone (C : Library) : runEvents (E := Nat) (F := Nat) strip C .init
    [.world (.make 0), .world (.on (.create 0 [97] 1)), .world (.on (.enter 0 [97])), .bind 5 (.str [102]), .world (.on .leave),
     .world (.destroy 0), .fire 5 []] = none := rfl

/-- **C86** (refuted) While the command of interpreter 0 runs, interpreter 1 gets a command of the same name.  The
script calls the command again, and the callback it hands over, `f`, is run by interpreter 1. -/
theorem c86_refuted_wrong_interp (C : Library) : ∃ s, runEvents (E := Nat) (F := Nat) strip C .init
    [.world (.make 0), .world (.make 1), .world (.on (.create 0 [97] 1)), .world (.on (.enter 0 [97])), .world (.on (.create 1 [97] 2)),
     .world (.on (.enter 0 [97])), .bind 5 (.str [102]), .world (.on .leave), .world (.on .leave), .fire 5 []] =
    some (s, [.nothing, .nothing, .nothing, .begins 1, .nothing, .begins 2, .nothing, .nothing, .nothing, .evaluates 1 [102, 32]]) :=
  ⟨_, rfl⟩

end Bdlib.Tcl
