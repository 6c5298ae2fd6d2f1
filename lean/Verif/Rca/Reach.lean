import Verif.Rca.History
import Verif.Spec.Det

/-!
# Reachable states

States produced by histories of in-contract calls from program start, together with what the
specification says every object holds.
-/

namespace Bdlib.Rca
open Bdlib Bdlib.Spec

variable {T : Type} {cfg : Cfg T}

/-- How a call ended and the state it left, unless it was undefined. -/
def result {T : Type} : Res T (Out T) → Option (Outcome T × St T)
  | .ok x s => some (.ret x, s)
  | .throw e s => some (.exc e, s)
  | .ub => none

/-- Object `o` shows exactly the elements `v` through `length()` and element reads, and looking does
not change anything. -/
def Shows (s : St T) (o : Nat) (v : List T) : Prop :=
  length o s = .ok v.length s ∧ ∀ i, i < v.length → read o i s = .ok v[i]? s

/-- Everything the environment knows can be observed through the interface. -/
def Agrees (s : St T) (env : Env T) : Prop := ∀ o,
  match env o with
  | .dead => s.obj o = none
  | .unspec => ∃ ob, s.obj o = some ob
  | .val v => Shows s o v

/-- `s` and `env` are the outcome of the code and of the specification for one history of in-contract
calls, made one after the other from program start.  An exception does not end the history. -/
inductive Reach [DecidableEq T] (cfg : Cfg T) : St T → Env T → Prop
  | init : Reach cfg {} Env.empty
  | step {s s' : St T} {env env' : Env T} {op : Op T} {out : Outcome T} : Reach cfg s env →
      Pre cfg (shared s) env op → result (run cfg op s) = some (out, s') →
      Post cfg (shared s) env op out env' → Agrees s' env' → Reach cfg s' env'

theorem shows_of_view {s : St T} (hwf : WF cfg s) {o : Nat} {v : List T} (h : s.view o = some v) : Shows s o v := by
  refine ⟨length_spec h, fun i hi => ?_⟩
  have := read_spec hwf h hi
  cases hr : read o i s with
  | ok x s' => rw [hr] at this; obtain ⟨rfl, rfl⟩ := this; rfl
  | throw e s' => rw [hr] at this; exact this.elim
  | ub => rw [hr] at this; exact this.elim

theorem shows_unique {s : St T} {o : Nat} {v w : List T} (h1 : Shows s o v) (h2 : Shows s o w) : v = w := by
  have hl : v.length = w.length := by
    have := h1.1.symm.trans h2.1
    simpa using this
  apply List.ext_getElem? 
  intro i
  by_cases hi : i < v.length
  · have := (h1.2 i hi).symm.trans (h2.2 i (by omega))
    simpa using this
  · rw [List.getElem?_eq_none (by omega), List.getElem?_eq_none (by omega)]

theorem view_of_shows {s : St T} (hwf : WF cfg s) {o : Nat} {v w : List T} (h : Shows s o v)
    (hw : s.view o = some w) : s.view o = some v := by
  rw [hw, shows_unique (shows_of_view hwf hw) h]

theorem agrees_of_abs {s : St T} {env : Env T} (hwf : WF cfg s) (h : Abs s env) : Agrees s env := by
  intro o
  have := h o
  cases hx : env o with
  | dead => rw [hx] at this; exact this
  | unspec => rw [hx] at this; exact this
  | val v => rw [hx] at this; exact shows_of_view hwf this

/-- Two environments that a state agrees with and that know values in the same places. -/
theorem abs_of_agrees {s : St T} {env env1 : Env T} (hwf : WF cfg s) (h : Agrees s env) (h1 : Abs s env1)
    (hk : ∀ o, env.Has o → env1.Has o) : Abs s env := by
  intro o
  have := h o
  cases hx : env o with
  | dead => rw [hx] at this; exact this
  | unspec => rw [hx] at this; exact this
  | val v =>
    rw [hx] at this
    exact view_of_shows hwf this (h1.view (hk o ⟨v, hx⟩))

theorem shows_view {s : St T} (hwf : WF cfg s) {o : Nat} {v : List T} (h : Shows s o v) (hpos : v ≠ []) :
    s.view o = some v := by
  have hl := h.1
  have h0 := h.2 0 (List.length_pos_iff.mpr hpos)
  cases ho : s.obj o with
  | none =>
    have : length o s = .ub := by
      unfold length
      show M.bind _ _ _ = _
      unfold M.bind getObj
      rw [ho]
    rw [this] at hl; cases hl
  | some ob =>
    have hsl : ob.sublen = v.length := by
      have : length o s = .ok ob.sublen s := bind_ok (getObj_eq ho)
      rw [this] at hl
      simpa using hl
    have hcase : ob.ref = none ∨ ∃ a, ob.ref = some a := by cases ob.ref <;> simp
    rcases hcase with hr | ⟨a, hr⟩
    · have : read o 0 s = .ub := by
        unfold read readRange
        simp only [bind_assoc']
        rw [bind_ok (getObj_eq ho), hr]
        rfl
      rw [this] at h0; cases h0
    · obtain ⟨b, hb, hle⟩ := hwf.le ho hr
      have hv : s.view o = some (window b.cells ob.offset ob.sublen) := by
        rw [view_eq ho, St.viewOf_some hr hb hle]
      rw [hv, shows_unique (shows_of_view hwf hv) h]

/-- The invariant holds in every reachable state. -/
theorem Reach.inv [DecidableEq T] (hv : cfg.Valid) (hp : cfg.Physical) {s : St T} {env : Env T}
    (h : Reach cfg s env) : WF cfg s ∧ Caps s ∧ Abs s env := by
  induction h with
  | init =>
    refine ⟨wf_init cfg hv, ?_, fun o => ?_⟩
    · intro a b hb; simp [St.blk] at hb
    · simp [Env.empty, SlotRel, St.obj]
  | @step s s' env env' op out _ hpre hres hpost hag ih =>
    obtain ⟨hwf, hc, hA⟩ := ih
    have hg := step_refines hwf hc hA hpre
    have hcp := pres_run (L := capsLaw hp) op s
    cases hr : run cfg op s with
    | ub => rw [hr] at hres; cases hres
    | ok x s1 =>
      rw [hr] at hres hg hcp
      cases hres
      obtain ⟨env1, hp1, hw1, hA1⟩ := hg
      exact ⟨hw1, hcp hc, abs_of_agrees hw1 hag hA1 fun o => post_has hpost hp1⟩
    | throw e s1 =>
      rw [hr] at hres hg hcp
      cases hres
      obtain ⟨env1, hp1, hw1, hA1⟩ := hg
      exact ⟨hw1, hcp hc, abs_of_agrees hw1 hag hA1 fun o => post_has hpost hp1⟩

/-- Every in-contract call in a reachable state is defined and leads to a reachable state again, with
the effect the specification says. -/
theorem Reach.call [DecidableEq T] (hv : cfg.Valid) (hp : cfg.Physical) {s : St T} {env : Env T}
    (h : Reach cfg s env) {op : Op T} (hpre : Pre cfg (shared s) env op) :
    ∃ out s' env', result (run cfg op s) = some (out, s') ∧ Post cfg (shared s) env op out env' ∧
      Reach cfg s' env' := by
  obtain ⟨hwf, hc, hA⟩ := h.inv hv hp
  have hg := step_refines hwf hc hA hpre
  cases hr : run cfg op s with
  | ub => rw [hr] at hg; exact hg.elim
  | ok x s1 =>
    rw [hr] at hg
    obtain ⟨env1, hp1, hw1, hA1⟩ := hg
    exact ⟨_, s1, env1, rfl, hp1, .step h hpre (by rw [hr]; rfl) hp1 (agrees_of_abs hw1 hA1)⟩
  | throw e s1 =>
    rw [hr] at hg
    obtain ⟨env1, hp1, hw1, hA1⟩ := hg
    exact ⟨_, s1, env1, rfl, hp1, .step h hpre (by rw [hr]; rfl) hp1 (agrees_of_abs hw1 hA1)⟩

theorem Reach.agrees [DecidableEq T] (hv : cfg.Valid) (hp : cfg.Physical) {s : St T} {env : Env T}
    (h : Reach cfg s env) : Agrees s env := by
  obtain ⟨hwf, _, hA⟩ := h.inv hv hp
  exact agrees_of_abs hwf hA

end Bdlib.Rca
