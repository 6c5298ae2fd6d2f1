import Verif.Conc.Interps

/-!
# C96 Interpreters in different threads

Proved for all schedules: once everything is registered, scripts of all threads may call commands and read and set linked variables: the
tables are not changed, there is no data race on them, nothing is undefined, and what runs is what was registered (`c96_scripts_partial`).
With one call at a time there is no race whatever is called (`c96_locked_partial`).

Refuted: a thread that registers or removes anything, or destroys its interpreter, races with any thread whose scripts use the same table
(`c96_refuted_race`); and even if the accesses happened one after the other, destroying one interpreter makes the next call of a
command in any other thread follow a null pointer (`c96_refuted_destroy`).
-/

namespace Bdlib.Interps
open Bdlib

/-! ## Specification -/

/-- What scripts may do while the tables stay as they are: call commands that are registered, read and set linked variables; the program
may link variables without hooks. -/
def Op.Quiet (cmds : Nat → Option (Option Nat)) : Op → Prop
  | .call n => ∃ f, cmds n = some (some f)
  | .set _ | .get _ | .link _ none => True
  | _ => False

/-- What ran is what was registered. -/
def Ran.Right (cmds : Nat → Option (Option Nat)) (hooks : Nat → Option Nat) : Ran → Prop
  | .cmd _ n f => cmds n = some (some f)
  | .hook _ n h => hooks n = some h
  | .noHook _ n => hooks n = none

/-- The call changes the table, in the state `s`. -/
def Op.Changes (s : Sys) : Op → Tab → Prop
  | .create _ _, .cmds => True
  | .delete n, .cmds => s.cmds n ≠ none
  | .destroy, _ => True
  | .link _ (some _), .hooks => True
  | .unlink n, .hooks => s.hooks n ≠ none
  | _, _ => False

/-- The call uses the table. -/
def Op.Uses : Op → Tab → Prop
  | .create _ _, .cmds | .delete _, .cmds | .call _, .cmds | .destroy, .cmds => True
  | .link _ (some _), .hooks | .unlink _, .hooks | .set _, .hooks => True
  | _, _ => False

/-! ## Scripts only -/

/-- Where a thread may be when only quiet calls are made. -/
def Pc.Quiet (cmds : Nat → Option (Option Nat)) (hooks : Nat → Option Nat) : Pc → Prop
  | .idle => True
  | .cmdFind n => ∃ f, cmds n = some (some f)
  | .hookFind _ => True
  | .hookUse n h => hooks n = some h
  | _ => False

structure Calm (cmds : Nat → Option (Option Nat)) (hooks : Nat → Option Nat) (s : Sys) : Prop where
  cs : s.cmds = cmds
  hs : s.hooks = hooks
  pc : ∀ t, (s.thr t).pc.Quiet cmds hooks
  todo : ∀ t, ∀ op ∈ (s.thr t).todo, op.Quiet cmds
  log : ∀ r ∈ s.log, r.Right cmds hooks
  good : s.bad = false

variable {cmds : Nat → Option (Option Nat)} {hooks : Nat → Option Nat} {s : Sys}

theorem upd_same {α : Type} (f : Nat → α) (a : Nat) (b : α) : upd f a b a = b := by simp [upd]
theorem upd_ne {α : Type} (f : Nat → α) {a x : Nat} (b : α) (h : x ≠ a) : upd f a b x = f x := by simp [upd, h]

theorem Calm.goto (h : Calm cmds hooks s) {t : Nat} {pc : Pc} (hp : pc.Quiet cmds hooks) : Calm cmds hooks (s.goto t pc) := by
  refine ⟨h.cs, h.hs, fun u => ?_, fun u => ?_, h.log, h.good⟩
  · unfold Sys.goto
    dsimp only
    by_cases hu : u = t
    · rw [hu, upd_same]; exact hp
    · rw [upd_ne _ _ hu]; exact h.pc u
  · unfold Sys.goto
    dsimp only
    by_cases hu : u = t
    · rw [hu, upd_same]; exact h.todo t
    · rw [upd_ne _ _ hu]; exact h.todo u

theorem Calm.say (h : Calm cmds hooks s) {r : Ran} (hr : r.Right cmds hooks) : Calm cmds hooks { s with log := s.log ++ [r] } :=
  ⟨h.cs, h.hs, h.pc, h.todo, fun x hx => by
    rcases List.mem_append.1 hx with hx | hx
    · exact h.log x hx
    · rw [List.mem_singleton.1 hx]; exact hr, h.good⟩

theorem Calm.step (h : Calm cmds hooks s) (t : Nat) : Calm cmds hooks (step s t) := by
  have hp := h.pc t
  unfold Interps.step
  split
  · split
    · exact h
    · rename_i op rest ht
      have hq : op.Quiet cmds := h.todo t op (by rw [ht]; exact List.mem_cons_self ..)
      refine ⟨h.cs, h.hs, fun u => ?_, fun u => ?_, h.log, h.good⟩
      · dsimp only
        by_cases hu : u = t
        · rw [hu, upd_same]
          cases op with
          | call n => exact hq
          | set n => trivial
          | get n => trivial
          | link n o =>
            cases o with
            | none => trivial
            | some _ => exact hq.elim
          | create => exact hq.elim
          | delete => exact hq.elim
          | unlink => exact hq.elim
          | destroy => exact hq.elim
        · rw [upd_ne _ _ hu]; exact h.pc u
      · dsimp only
        by_cases hu : u = t
        · rw [hu, upd_same]
          intro x hx
          exact h.todo t x (by rw [ht]; exact List.mem_cons_of_mem _ hx)
        · rw [upd_ne _ _ hu]; exact h.todo u
  all_goals (rename_i hpc; rw [hpc] at hp)
  · exact hp.elim
  · exact hp.elim
  · exact hp.elim
  · rename_i n
    obtain ⟨f, hf⟩ := hp
    rw [h.cs, hf]
    exact (h.goto (t := t) (pc := .idle) trivial).say hf
  · exact hp.elim
  · exact hp.elim
  · exact hp.elim
  · exact hp.elim
  · rename_i n
    rw [h.hs]
    cases hh : hooks n with
    | none => exact (h.goto (t := t) (pc := .idle) trivial).say hh
    | some k => exact h.goto (t := t) (pc := .hookUse n k) hh
  · rename_i n k
    have hp' : hooks n = some k := hp
    rw [h.hs, if_pos hp']
    exact (h.goto (t := t) (pc := .idle) trivial).say hp
  · exact hp.elim
  · exact hp.elim

theorem Calm.races (h : Calm cmds hooks s) : ¬ Races s := by
  have hr : ∀ t tab w, (s.thr t).pc.access = some (tab, w) → w = false := by
    intro t tab w ha
    have hp := h.pc t
    cases hpc : (s.thr t).pc with
    | idle => rw [hpc] at ha; cases ha
    | cmdFind n => rw [hpc] at ha; cases ha; rfl
    | hookFind n => rw [hpc] at ha; cases ha; rfl
    | hookUse n k => rw [hpc] at ha; cases ha; rfl
    | _ => rw [hpc] at hp; exact hp.elim
  rintro ⟨t, t', -, tab, w, w', h1, h2, h3⟩
  rcases h3 with rfl | rfl
  · exact nomatch hr t tab true h1
  · exact nomatch hr t' tab true h2

/-- **C96** Everything is registered before the threads start; then any number of threads run scripts that call commands and read and set
linked variables.  Under every schedule: no data race on the tables, nothing undefined, what runs is what was registered, and the tables
stay as they are.

Partial: no thread registers or removes anything or destroys its interpreter (`c96_refuted_race`); the names of commands are Strings, on
whose destruction see C90. -/
theorem c96_scripts_partial {jobs : Nat → List Op} (h : ∀ t, ∀ op ∈ jobs t, op.Quiet cmds) (sched : List Nat) :
    ¬ Races (run (start cmds hooks jobs) sched) ∧ (run (start cmds hooks jobs) sched).bad = false ∧
    (∀ r ∈ (run (start cmds hooks jobs) sched).log, r.Right cmds hooks) ∧
    (run (start cmds hooks jobs) sched).cmds = cmds ∧ (run (start cmds hooks jobs) sched).hooks = hooks := by
  have h0 : Calm cmds hooks (start cmds hooks jobs) := ⟨rfl, rfl, fun _ => trivial, h, nofun, rfl⟩
  have key : ∀ (sched : List Nat) (s : Sys), Calm cmds hooks s → Calm cmds hooks (run s sched) := by
    intro sched
    induction sched with
    | nil => exact fun _ h => h
    | cons t ts ih => exact fun s h => ih _ (h.step t)
  have hc := key sched _ h0
  exact ⟨hc.races, hc.good, hc.log, hc.cs, hc.hs⟩

/-- The calls that a script makes are made: after two steps of a thread that is going to call `n`, the function registered for `n` has
run. -/
theorem c96_call {jobs : Nat → List Op} {t n f : Nat} {rest : List Op} (hj : jobs t = .call n :: rest) (hf : cmds n = some (some f)) :
    (run (start cmds hooks jobs) [t, t]).log = [.cmd t n f] := by
  have h1 : step (start cmds hooks jobs) t = { start cmds hooks jobs with thr := upd (start cmds hooks jobs).thr t ⟨.cmdFind n, rest⟩ } := by
    unfold step
    rw [show ((start cmds hooks jobs).thr t).pc = .idle from rfl, show ((start cmds hooks jobs).thr t).todo = .call n :: rest from hj]
    rfl
  show (step (step _ t) t).log = _
  rw [h1]
  unfold step
  simp only [upd_same]
  rw [show (start cmds hooks jobs).cmds n = some (some f) from hf]
  rfl

/-! ## One call at a time -/

/-- Executions in which a thread takes a step only if no other is inside a call. -/
inductive Locked (s₀ : Sys) : Sys → Prop
  | init : Locked s₀ s₀
  | step {s : Sys} (t : Nat) : Locked s₀ s → (∀ u, u ≠ t → (s.thr u).pc = .idle) → Locked s₀ (step s t)

theorem step_other {t u : Nat} (h : u ≠ t) : ((step s t).thr u).pc = (s.thr u).pc := by
  have key : ∀ x : Thr, (upd s.thr t x u).pc = (s.thr u).pc := fun x => by rw [upd_ne _ _ h]
  unfold step
  split
  · split
    · rfl
    · exact key _
  all_goals first
    | exact key _
    | (split <;> exact key _)

/-- **C96** With one call at a time (a lock around every use of an interpreter) there is no data race, whatever is called. -/
theorem c96_locked_partial {jobs : Nat → List Op} (h : Locked (start cmds hooks jobs) s) : ¬ Races s := by
  have key : ∃ t, ∀ u, u ≠ t → (s.thr u).pc = .idle := by
    induction h with
    | init => exact ⟨0, fun _ _ => rfl⟩
    | step t _ hi _ => exact ⟨t, fun u hu => by rw [step_other hu]; exact hi u hu⟩
  obtain ⟨t, ht⟩ := key
  rintro ⟨a, b, hne, tab, w, w', h1, h2, -⟩
  by_cases ha : a = t
  · rw [ht b (fun hb => hne (ha.trans hb.symm))] at h2; cases h2
  · rw [ht a ha] at h1; cases h1

/-! ## Refuted -/

theorem step_begin {t : Nat} {op : Op} {rest : List Op} (h1 : (s.thr t).pc = .idle) (h2 : (s.thr t).todo = op :: rest) :
    step s t = { s with thr := upd s.thr t ⟨op.start, rest⟩ } := by
  unfold step
  rw [h1, h2]

/-- From the beginning of a call that changes a table, some steps lead to the change, without the other table entries changing before. -/
theorem reaches_change {t : Nat} {op : Op} {rest : List Op} (h1 : (s.thr t).pc = .idle) (h2 : (s.thr t).todo = op :: rest) {tab : Tab}
    (hc : op.Changes s tab) : ∃ k, ((run s (List.replicate k t)).thr t).pc.access = some (tab, true) := by
  have hb := step_begin h1 h2
  cases op with
  | create n f =>
    cases tab with
    | cmds => exact ⟨1, by show ((step s t).thr t).pc.access = _; rw [hb]; simp only [upd_same]; rfl⟩
    | hooks => exact hc.elim
  | delete n =>
    cases tab with
    | cmds =>
      refine ⟨2, ?_⟩
      show ((step (step s t) t).thr t).pc.access = _
      rw [hb]
      unfold step
      simp only [upd_same, Op.start, Sys.goto]
      rw [if_neg hc]
      rfl
    | hooks => exact hc.elim
  | destroy =>
    cases tab with
    | cmds => exact ⟨1, by show ((step s t).thr t).pc.access = _; rw [hb]; simp only [upd_same]; rfl⟩
    | hooks =>
      refine ⟨2, ?_⟩
      show ((step (step s t) t).thr t).pc.access = _
      rw [hb]
      unfold step
      simp only [upd_same, Op.start, Sys.goto]
      rfl
  | link n o =>
    cases o with
    | none => cases tab <;> exact hc.elim
    | some k =>
      cases tab with
      | cmds => exact hc.elim
      | hooks => exact ⟨1, by show ((step s t).thr t).pc.access = _; rw [hb]; simp only [upd_same]; rfl⟩
  | unlink n =>
    cases tab with
    | cmds => exact hc.elim
    | hooks =>
      refine ⟨2, ?_⟩
      show ((step (step s t) t).thr t).pc.access = _
      rw [hb]
      unfold step
      simp only [upd_same, Op.start, Sys.goto]
      rw [if_neg hc]
      rfl
  | call n => cases tab <;> exact hc.elim
  | set n => cases tab <;> exact hc.elim
  | get n => cases tab <;> exact hc.elim

theorem uses_start {op : Op} {tab : Tab} (h : op.Uses tab) : ∃ w, op.start.access = some (tab, w) := by
  cases op with
  | link n o =>
    cases o with
    | none => cases tab <;> exact h.elim
    | some k =>
      cases tab with
      | cmds => exact h.elim
      | hooks => exact ⟨_, rfl⟩
  | get n => cases tab <;> exact h.elim
  | create n f => cases tab with | cmds => exact ⟨_, rfl⟩ | hooks => exact h.elim
  | delete n => cases tab with | cmds => exact ⟨_, rfl⟩ | hooks => exact h.elim
  | call n => cases tab with | cmds => exact ⟨_, rfl⟩ | hooks => exact h.elim
  | destroy => cases tab with | cmds => exact ⟨_, rfl⟩ | hooks => exact h.elim
  | unlink n => cases tab with | hooks => exact ⟨_, rfl⟩ | cmds => exact h.elim
  | set n => cases tab with | hooks => exact ⟨_, rfl⟩ | cmds => exact h.elim

theorem run_other {t u : Nat} (h : u ≠ t) (k : Nat) : (run s (List.replicate k t)).thr u = s.thr u := by
  induction k generalizing s with
  | zero => rfl
  | succ k ih =>
    show (run (step s t) (List.replicate k t)).thr u = _
    rw [ih]
    have key : ∀ x : Thr, upd s.thr t x u = s.thr u := fun x => upd_ne _ _ h
    unfold step
    split
    · split
      · rfl
      · exact key _
    all_goals first
      | exact key _
      | (split <;> exact key _)

theorem run_append (s : Sys) (a b : List Nat) : run s (a ++ b) = run (run s a) b := List.foldl_append

/-- **C96 refuted** In any state, two threads are between calls; the next call of one changes a table and the next call of the other uses
it: some schedule has a data race. -/
theorem c96_refuted_race {t t' : Nat} (hne : t ≠ t') {op op' : Op} {rest rest' : List Op} (h1 : (s.thr t).pc = .idle)
    (h2 : (s.thr t).todo = op :: rest) (h1' : (s.thr t').pc = .idle) (h2' : (s.thr t').todo = op' :: rest') {tab : Tab}
    (hc : op.Changes s tab) (hu : op'.Uses tab) : ∃ sched, Races (run s sched) := by
  obtain ⟨k, hk⟩ := reaches_change h1 h2 hc
  obtain ⟨w, hw⟩ := uses_start hu
  have ho := run_other (s := s) (Ne.symm hne) k
  refine ⟨List.replicate k t ++ [t'], t, t', hne, tab, true, w, ?_, ?_, .inl rfl⟩
  · rw [run_append]
    show ((step _ t').thr t).pc.access = _
    rw [step_other hne]
    exact hk
  · rw [run_append]
    show ((step _ t').thr t').pc.access = _
    rw [step_begin (by rw [ho]; exact h1') (by rw [ho]; exact h2')]
    dsimp only
    rw [upd_same]
    exact hw

/-- **C96 refuted** Even if the accesses are ordered: in any state, a thread destroys its interpreter and then a script of another thread
calls a command of its own: a null pointer is followed. -/
theorem c96_refuted_destroy {t t' : Nat} (hne : t ≠ t') {n : Nat} {rest rest' : List Op} (h1 : (s.thr t).pc = .idle)
    (h2 : (s.thr t).todo = .destroy :: rest) (h1' : (s.thr t').pc = .idle) (h2' : (s.thr t').todo = .call n :: rest') :
    (run s [t, t, t, t', t', t']).bad = true := by
  have e1 := step_begin h1 h2
  have e2 : (step (step s t) t).cmds = (fun _ => none) ∧ (step (step s t) t).thr = upd s.thr t ⟨.hookClear, rest⟩ := by
    rw [e1]
    unfold step
    simp only [upd_same, Op.start, Sys.goto]
    refine ⟨trivial, ?_⟩
    funext u
    unfold upd
    split <;> rfl
  have e3 : (step (step (step s t) t) t).cmds = (fun _ => none) ∧ (step (step (step s t) t) t).thr t' = s.thr t' := by
    constructor
    · generalize step (step s t) t = q at e2 ⊢
      obtain ⟨a, b⟩ := e2
      unfold step
      rw [b]
      simp only [upd_same, Sys.goto]
      exact a
    · have := run_other (s := s) (Ne.symm hne) 3
      exact this
  show (step (step (step (step (step (step s t) t) t) t') t') t').bad = true
  generalize step (step (step s t) t) t = q at e3 ⊢
  obtain ⟨a, b⟩ := e3
  rw [step_begin (s := q) (t := t') (by rw [b]; exact h1') (by rw [b]; exact h2')]
  have e4 : step { q with thr := upd q.thr t' ⟨(Op.call n).start, rest'⟩ } t' =
      Sys.goto { q with thr := upd q.thr t' ⟨(Op.call n).start, rest'⟩ } t' (.cmdNull n) := by
    conv => lhs; unfold step
    simp only [upd_same, Op.start]
    rw [a]
  rw [e4]
  unfold step
  simp only [Sys.goto, upd_same]

/-! ## Cases -/

/-- Two interpreters: command 5 in one, 6 with a hook on variable 8 in the other. -/
def twoCmds : Nat → Option (Option Nat) := upd (upd (fun _ => none) 5 (some (some 50))) 6 (some (some 60))
def twoHooks : Nat → Option Nat := upd (fun _ => none) 8 (some 80)
def twoJobs : Nat → List Op
  | 0 => [.call 5, .set 7]
  | 1 => [.call 6, .set 8]
  | _ => []

example := c96_scripts_partial (cmds := twoCmds) (hooks := twoHooks) (jobs := twoJobs) (by
  intro t op hop
  match t with
  | 0 => rcases List.mem_cons.1 hop with rfl | hop
         · exact ⟨50, rfl⟩
         · rw [List.mem_singleton.1 hop]; trivial
  | 1 => rcases List.mem_cons.1 hop with rfl | hop
         · exact ⟨60, rfl⟩
         · rw [List.mem_singleton.1 hop]; trivial
  | n + 2 => cases hop)
example : (run (start twoCmds twoHooks twoJobs) [0, 1, 1, 0, 1, 0, 1, 0, 1, 1]).log = [.cmd 1 6 60, .cmd 0 5 50, .noHook 0 7, .hook 1 8 80] := by decide
example : Locked (start twoCmds twoHooks twoJobs) (run (start twoCmds twoHooks twoJobs) [0, 0, 1]) :=
  .step 1 (.step 0 (.step 0 .init fun _ _ => rfl) fun u hu => by
    show ((step _ 0).thr u).pc = .idle
    rw [step_other hu]; rfl) fun u hu => by
    by_cases h0 : u = 0
    · subst h0; decide
    · show ((step (step _ 0) 0).thr u).pc = .idle
      rw [step_other h0, step_other h0]; rfl
/-- One thread creates a command while the scripts of the other call one. -/
example : ∃ sched, Races (run (start twoCmds twoHooks fun t => if t = 0 then [.create 9 90] else [.call 6]) sched) :=
  c96_refuted_race (t := 0) (t' := 1) (by decide) (op := .create 9 90) (op' := .call 6) rfl rfl rfl rfl (tab := .cmds) trivial trivial
example : (run (start twoCmds twoHooks fun t => if t = 0 then [.destroy] else [.call 6]) [0, 0, 0, 1, 1, 1]).bad = true :=
  c96_refuted_destroy (by decide) rfl rfl rfl rfl

end Bdlib.Interps
