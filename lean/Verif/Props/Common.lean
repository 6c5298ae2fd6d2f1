import Verif.Rca.Witness
import Verif.Rca.Need
import Verif.Spec.Touch

/-!
# Vocabulary shared by the property theorems

`Reach cfg s env` (see `Rca/Reach.lean`): a history of in-contract calls from program start led to the
state `s`, and `env` records what the specification says each object holds.  `Shows s o v`: through
`length()` and element reads, object `o` shows exactly the elements `v`.
-/

namespace Bdlib.Rca
open Bdlib Bdlib.Spec

variable {T : Type} {cfg : Cfg T}

/-- Every object other than `o` whose value is known shows the same value as before. -/
def OthersKeep (env : Env T) (o : Nat) (s' : St T) : Prop := ∀ p w, p ≠ o → env p = .val w → Shows s' p w

/-- The call returns normally, afterwards `o` shows `v'`, all other objects show what they did, and the
program can go on. -/
def GivesOk [DecidableEq T] (cfg : Cfg T) (s : St T) (env : Env T) (op : Op T) (o : Nat) (v' : List T) : Prop :=
  ∃ s' env', run cfg op s = .ok .unit s' ∧ Shows s' o v' ∧ OthersKeep env o s' ∧ Reach cfg s' env'

/-- Memory ran out: the allocator refused a request for no more than the call may ask for, `bad_alloc` is thrown and no other
object changes. -/
def OutOfMemory [DecidableEq T] (cfg : Cfg T) (s : St T) (env : Env T) (op : Op T) (o : Nat) : Prop :=
  ∃ s' env', run cfg op s = .throw .badAlloc s' ∧ OthersKeep env o s' ∧ Reach cfg s' env' ∧
    RefusedAt (op.demand cfg.scale env) cfg.allocOk s s'

/-- The two ways a mutator may end. -/
def Gives [DecidableEq T] (cfg : Cfg T) (s : St T) (env : Env T) (op : Op T) (o : Nat) (v' : List T) : Prop :=
  GivesOk cfg s env op o v' ∨ OutOfMemory cfg s env op o

/-- The call throws `out_of_range` and nothing at all changes. -/
def Throws [DecidableEq T] (cfg : Cfg T) (s : St T) (op : Op T) : Prop := run cfg op s = .throw .outOfRange s

theorem result_ok {r : Res T (Out T)} {x : Out T} {s : St T} (h : result r = some (.ret x, s)) : r = .ok x s := by
  cases r with
  | ok a t => simp only [result, Option.some.injEq, Prod.mk.injEq, Outcome.ret.injEq] at h; rw [h.1, h.2]
  | throw e t => simp [result] at h
  | ub => simp [result] at h

theorem result_throw {r : Res T (Out T)} {e : Exc} {s : St T} (h : result r = some (.exc e, s)) : r = .throw e s := by
  cases r with
  | ok a t => simp [result] at h
  | throw e t => simp only [result, Option.some.injEq, Prod.mk.injEq, Outcome.exc.injEq] at h; rw [h.1, h.2]
  | ub => simp [result] at h

theorem get_val {env : Env T} {o : Nat} {v : List T} (h : env o = .val v) : env.get o = v := by simp [Env.get, h]
theorem has_val {env : Env T} {o : Nat} {v : List T} (h : env o = .val v) : env.Has o := ⟨v, h⟩
theorem live_val {env : Env T} {o : Nat} {v : List T} (h : env o = .val v) : env.Live o := by
  intro hd; rw [hd] at h; cases h

theorem Reach.shows [DecidableEq T] (hv : cfg.Valid) (hp : cfg.Physical) {s : St T} {env : Env T}
    (h : Reach cfg s env) {o : Nat} {v : List T} (ho : env o = .val v) : Shows s o v := by
  have := h.agrees hv hp o
  rw [ho] at this
  exact this

/-- `bad_alloc` leaves a call only if the allocator refused a request made during the call. -/
theorem refused_of_throw [DecidableEq T] {s s' : St T} {op : Op T} (h : run cfg op s = .throw .badAlloc s') :
    Refused cfg.allocOk s s' := by
  have := pres_run (L := refuseLaw T cfg.allocOk) (cfg := cfg) op s
  rw [h] at this
  exact this.2 rfl

section
variable [DecidableEq T] {s : St T} {env : Env T}

theorem noMem_out (hv : cfg.Valid) (hp : cfg.Physical) (h : Reach cfg s env) {op : Op T} {o : Nat} {s' : St T} {env' : Env T}
    (hpre : Pre cfg (shared s) env op)
    (hres : result (run cfg op s) = some (.exc .badAlloc, s')) (hn : ∀ p, p ≠ o → env' p = env p)
    (hr : Reach cfg s' env') : OutOfMemory cfg s env op o :=
  ⟨s', env', result_throw hres, fun p w hne hw => hr.shows hv hp (by rw [hn p hne]; exact hw), hr,
    refusedAt_of_throw hv hp h hpre (result_throw hres)⟩

/-- From the specification of a mutator to what can be observed. -/
theorem gives_of (hv : cfg.Valid) (hp : cfg.Physical) (h : Reach cfg s env) {op : Op T} {o : Nat} {v' : List T}
    (hpre : Pre cfg (shared s) env op)
    (hpost : ∀ out env', Post cfg (shared s) env op out env' → SetsOrFails (shared s) env o v' out env') :
    Gives cfg s env op o v' := by
  obtain ⟨out, s', env', hres, hp1, hr⟩ := h.call hv hp hpre
  rcases hpost _ _ hp1 with ⟨rfl, rfl⟩ | hn
  · exact Or.inl ⟨s', _, result_ok hres, hr.shows hv hp Env.upd_self,
      fun p w hne hw => hr.shows hv hp (by rw [Env.upd_ne hne]; exact hw), hr⟩
  · have he := hn.1
    subst he
    exact Or.inr (noMem_out hv hp h hpre hres (fun p hne => hn.frame hne) hr)

theorem givesOk_of (hv : cfg.Valid) (hp : cfg.Physical) (h : Reach cfg s env) {op : Op T} {o : Nat} {v' : List T}
    (hpre : Pre cfg (shared s) env op)
    (hpost : ∀ out env', Post cfg (shared s) env op out env' → Sets env o v' out env') :
    GivesOk cfg s env op o v' := by
  obtain ⟨out, s', env', hres, hp1, hr⟩ := h.call hv hp hpre
  obtain ⟨rfl, rfl⟩ := hpost _ _ hp1
  exact ⟨s', _, result_ok hres, hr.shows hv hp Env.upd_self,
    fun p w hne hw => hr.shows hv hp (by rw [Env.upd_ne hne]; exact hw), hr⟩

end

end Bdlib.Rca
