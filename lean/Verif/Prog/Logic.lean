import Verif.Props.Common

/-!
# Reasoning about programs that use the modelled classes

A compound function of the library (`chomp`, `newsplit`, `sub`, ...) is a program made of calls of the public
interface.  `Runs` is a Hoare triple for such programs over reachable states: not undefined, and the values
all objects hold afterwards are known.
-/

namespace Bdlib.Rca
open Bdlib Bdlib.Spec

variable {T : Type} {cfg : Cfg T} {α β : Type}

/-- Run in `s`, where the objects hold `env`, `m` is not undefined.  If it returns `a`, the objects hold an
`env'` with `Q a env'`; if it throws `e`, one with `E e env'`; and the program can go on.  `bad_alloc` is thrown
only if the allocator refused a request made on the way (`gen` counts the requests). -/
def Runs [DecidableEq T] (cfg : Cfg T) (m : M T α) (s : St T) (Q : α → Env T → Prop) (E : Exc → Env T → Prop) : Prop :=
  (m s).Sat (fun a s' => ∃ env', Q a env' ∧ Reach cfg s' env' ∧ s.gen ≤ s'.gen)
    (fun e s' => ∃ env', E e env' ∧ Reach cfg s' env' ∧ s.gen ≤ s'.gen ∧ (e = .badAlloc → Refused cfg.allocOk s s'))

/-- A local object: constructed, used, and destroyed at the end of the scope or when an exception leaves it. -/
def withLocal (cfg : Cfg T) (mk : M T Nat) (body : Nat → M T α) : M T α := do
  let o ← mk
  let a ← (body o).onThrow (destroy cfg o)
  destroy cfg o
  return a

/-- A local object that is returned (the return value is built in place): destroyed only if an exception
leaves its scope. -/
def building (cfg : Cfg T) (mk : M T Nat) (body : Nat → M T Unit) : M T Nat := do
  let o ← mk
  (body o).onThrow (destroy cfg o)
  return o

section
variable [DecidableEq T] {s : St T} {env : Env T} {Q : β → Env T → Prop} {E : Exc → Env T → Prop}

theorem Runs.bind {m : M T α} {f : α → M T β} {Q' : α → Env T → Prop} (h : Runs cfg m s Q' E)
    (hf : ∀ a s' env', Reach cfg s' env' → Q' a env' → Runs cfg (f a) s' Q E) : Runs cfg (m >>= f) s Q E :=
  sat_bind' h (fun a s' ⟨env', hq, hr, hg⟩ => sat_mono (hf a s' env' hr hq)
      (fun _ _ ⟨env2, h1, h2, h3⟩ => ⟨env2, h1, h2, Nat.le_trans hg h3⟩)
      (fun _ _ ⟨env2, h1, h2, h3, h4⟩ => ⟨env2, h1, h2, Nat.le_trans hg h3, fun he => by
        obtain ⟨g, n, ha, hb, hc⟩ := h4 he
        exact ⟨g, n, Nat.lt_of_le_of_lt hg ha, hb, hc⟩⟩)) fun _ _ h => h

theorem Runs.pure {a : β} (hr : Reach cfg s env) (h : Q a env) : Runs cfg (Pure.pure a) s Q E :=
  ⟨env, h, hr, Nat.le_refl _⟩

theorem Runs.mono {m : M T β} {Q' : β → Env T → Prop} {E' : Exc → Env T → Prop} (h : Runs cfg m s Q' E')
    (hq : ∀ a env, Q' a env → Q a env) (he : ∀ e env, E' e env → E e env) : Runs cfg m s Q E :=
  sat_mono h (fun _ _ ⟨env', h1, h2⟩ => ⟨env', hq _ _ h1, h2⟩) fun _ _ ⟨env', h1, h2⟩ => ⟨env', he _ _ h1, h2⟩

/-- A call of the interface. -/
theorem runs_op (hv : cfg.Valid) (hp : cfg.Physical) (hr : Reach cfg s env) {op : Op T} {m : M T β} {f : β → Out T}
    (hrun : run cfg op = mapOut m f) (hpre : Pre cfg (shared s) env op)
    (hq : ∀ a env', Post cfg (shared s) env op (.ret (f a)) env' → Q a env')
    (he : ∀ e env', Post cfg (shared s) env op (.exc e) env' → E e env') : Runs cfg m s Q E := by
  obtain ⟨out, s', env', hres, hpost, hr'⟩ := hr.call hv hp hpre
  rw [hrun] at hres
  have hgen := pres_run (L := refuseLaw T cfg.allocOk) (cfg := cfg) op s
  rw [hrun] at hgen
  unfold mapOut at hres hgen
  unfold Runs
  cases hm : m s with
  | ub => exfalso; rw [show ((m >>= fun a => Pure.pure (f a)) s) = .ub by change M.bind _ _ _ = _; unfold M.bind; rw [hm]] at hres; cases hres
  | ok a t =>
    rw [bind_ok hm] at hres hgen
    cases hres
    exact ⟨env', hq _ _ hpost, hr', hgen⟩
  | throw e t =>
    rw [bind_throw hm] at hres hgen
    cases hres
    exact ⟨env', he _ _ hpost, hr', hgen⟩

/-- A call that throws nothing and changes nothing. -/
theorem runs_look (hv : cfg.Valid) (hp : cfg.Physical) (hr : Reach cfg s env) {op : Op T} {m : M T β} {f : β → Out T} {x : Out T}
    (hrun : run cfg op = mapOut m f) (hpre : Pre cfg (shared s) env op)
    (hpost : ∀ out env', Post cfg (shared s) env op out env' → Observes env x out env') (hq : ∀ a, f a = x → Q a env) : Runs cfg m s Q E :=
  runs_op hv hp hr hrun hpre
    (fun a env' h => by
      obtain ⟨h1, rfl⟩ := hpost _ _ h
      cases h1
      exact hq a rfl)
    (fun e env' h => by
      obtain ⟨h1, -⟩ := hpost _ _ h
      cases h1)

theorem Runs.onThrow {m : M T β} {c : M T Unit} {E' : Exc → Env T → Prop} (h : Runs cfg m s Q E')
    (hc : ∀ e s' env', Reach cfg s' env' → E' e env' → Runs cfg c s' (fun _ env'' => E e env'') (fun _ _ => False)) :
    Runs cfg (m.onThrow c) s Q E := by
  unfold Runs M.onThrow at *
  cases hm : m s with
  | ub => rw [hm] at h; exact h
  | ok a t => rw [hm] at h; exact h
  | throw e t =>
    rw [hm] at h
    obtain ⟨env', h1, h2, h3, h4⟩ := h
    have := hc e t env' h2 h1
    dsimp only
    cases ht : c t with
    | ub => rw [ht] at this; exact this
    | ok a t' =>
      rw [ht] at this
      obtain ⟨env'', h5, h6, h7⟩ := this
      exact ⟨env'', h5, h6, Nat.le_trans h3 h7, fun he => by
        obtain ⟨g, n, ha, hb, hc⟩ := h4 he
        exact ⟨g, n, ha, Nat.le_trans hb h7, hc⟩⟩
    | throw e t' => rw [ht] at this; obtain ⟨_, h, _⟩ := this; exact h.elim

/-! ## Environments -/

theorem Env.upd_upd (env : Env T) (o : Nat) (x y : Slot T) : (env.upd o x).upd o y = env.upd o y := by
  funext i; unfold Env.upd; split <;> rfl

theorem Env.upd_id {env : Env T} {o : Nat} {x : Slot T} (h : env o = x) : env.upd o x = env := by
  funext i; unfold Env.upd; split
  · rename_i e; rw [e, h]
  · rfl

theorem Env.upd_comm (env : Env T) {o p : Nat} (x y : Slot T) (h : o ≠ p) : (env.upd o x).upd p y = (env.upd p y).upd o x := by
  funext i; unfold Env.upd
  by_cases h1 : i = p
  · subst h1; rw [if_pos rfl, if_neg (fun e => h e.symm), if_pos rfl]
  · rw [if_neg h1, if_neg h1]

/-- A local object disappears without trace. -/
theorem Env.upd_gone {env : Env T} {o : Nat} (x : Slot T) (h : env o = .dead) : (env.upd o x).upd o .dead = env := by
  rw [Env.upd_upd, Env.upd_id h]

theorem dead_ne {env : Env T} {o p : Nat} (h : env o = .dead) (hp : env.Live p) : p ≠ o := fun e => hp (e ▸ h)

theorem runs_destroy (hv : cfg.Valid) (hp : cfg.Physical) (hr : Reach cfg s env) {o : Nat} (ho : env.Live o) {E : Exc → Env T → Prop} :
    Runs cfg (destroy cfg o) s (fun _ env' => env' = env.upd o .dead) E :=
  runs_op hv hp hr (op := .destroy o) rfl ho (fun _ _ h => h.2) (fun _ _ h => nomatch h.1)

/-- A scope with a local object. -/
theorem runs_withLocal (hv : cfg.Valid) (hp : cfg.Physical) {mk : M T Nat} {body : Nat → M T β} {v : List T}
    (hmk : Runs cfg mk s (fun o env1 => env o = .dead ∧ env1 = env.upd o (.val v)) E)
    (hbody : ∀ o s', env o = .dead → Reach cfg s' (env.upd o (.val v)) →
      Runs cfg (body o) s' (fun a env2 => env2.Live o ∧ Q a (env2.upd o .dead)) (fun e env2 => env2.Live o ∧ E e (env2.upd o .dead))) :
    Runs cfg (withLocal cfg mk body) s Q E := by
  unfold withLocal
  refine Runs.bind hmk fun o s1 env1 hr1 ⟨hd, he⟩ => ?_
  subst he
  refine Runs.bind (Runs.onThrow (hbody o s1 hd hr1) fun e s' env' hr' h => ?_) fun a s2 env2 hr2 h2 => ?_
  · exact Runs.mono (runs_destroy hv hp hr' h.1 (E := fun _ _ => False)) (fun _ _ e => by rw [e]; exact h.2) fun _ _ h => h
  · refine Runs.bind (runs_destroy hv hp hr2 h2.1) fun _ s3 env3 hr3 e => ?_
    subst e
    exact Runs.pure hr3 h2.2

/-- Building a return value. -/
theorem runs_building (hv : cfg.Valid) (hp : cfg.Physical) {mk : M T Nat} {body : Nat → M T Unit} {v : List T}
    {Q : Nat → Env T → Prop}
    (hmk : Runs cfg mk s (fun o env1 => env o = .dead ∧ env1 = env.upd o (.val v)) E)
    (hbody : ∀ o s', env o = .dead → Reach cfg s' (env.upd o (.val v)) →
      Runs cfg (body o) s' (fun _ env2 => Q o env2) (fun e env2 => env2.Live o ∧ E e (env2.upd o .dead))) :
    Runs cfg (building cfg mk body) s Q E := by
  unfold building
  refine Runs.bind hmk fun o s1 env1 hr1 ⟨hd, he⟩ => ?_
  subst he
  refine Runs.bind (Runs.onThrow (hbody o s1 hd hr1) fun e s' env' hr' h => ?_) fun a s2 env2 hr2 h2 => ?_
  · exact Runs.mono (runs_destroy hv hp hr' h.1 (E := fun _ _ => False)) (fun _ _ e => by rw [e]; exact h.2) fun _ _ h => h
  · exact Runs.pure hr2 h2

/-! ## The calls used -/

theorem runs_length (hv : cfg.Valid) (hp : cfg.Physical) (hr : Reach cfg s env) {o : Nat} {v : List T} (ho : env o = .val v) :
    Runs cfg (length o) s (fun n env' => n = v.length ∧ env' = env) E :=
  runs_look hv hp hr (op := .length o) rfl (has_val ho) (fun _ _ h => h) fun a h => by
    cases h; rw [get_val ho]; exact ⟨rfl, rfl⟩

theorem runs_read (hv : cfg.Valid) (hp : cfg.Physical) (hr : Reach cfg s env) {o i : Nat} {v : List T} (ho : env o = .val v)
    (hi : i < v.length) : Runs cfg (read o i) s (fun x env' => x = some v[i] ∧ env' = env) E :=
  runs_look hv hp hr (op := .read o i) rfl ⟨has_val ho, by rw [get_val ho]; exact hi⟩ (fun _ _ h => h) fun a h => by
    cases h; rw [get_val ho, List.getElem?_eq_getElem hi]; exact ⟨rfl, rfl⟩

theorem runs_ctor (hv : cfg.Valid) (hp : cfg.Physical) (hr : Reach cfg s env) :
    Runs cfg ctor s (fun o env' => env o = .dead ∧ env' = env.upd o (.val [])) E :=
  runs_op hv hp hr (op := .ctor) rfl trivial
    (fun a env' ⟨o, h1, h2, h3⟩ => by cases h2; exact ⟨h1, h3⟩) (fun e env' ⟨o, h1, h2, h3⟩ => nomatch h2)

theorem runs_sizeCtor (hv : cfg.Valid) (hp : cfg.Physical) (hr : Reach cfg s env) (n : Nat) (hE : E .badAlloc env) :
    Runs cfg (sizeCtor cfg n) s (fun o env' => env o = .dead ∧ env' = env.upd o (.val [])) E :=
  runs_op hv hp hr (op := .sizeCtor n) rfl trivial
    (fun a env' h => by
      rcases h with ⟨o, h1, h2, h3⟩ | ⟨h, -⟩
      · cases h2; exact ⟨h1, h3⟩
      · cases h)
    (fun e env' h => by
      rcases h with ⟨o, h1, h2, h3⟩ | ⟨h, h2⟩
      · cases h2
      · cases h; rw [h2]; exact hE)

theorem runs_copyCtor (hv : cfg.Valid) (hp : cfg.Physical) (hr : Reach cfg s env) {r : Nat} {v : List T} (h : env r = .val v) :
    Runs cfg (copyCtor r) s (fun o env' => env o = .dead ∧ env' = env.upd o (.val v)) E :=
  runs_op hv hp hr (op := .copyCtor r) rfl (live_val h)
    (fun a env' ⟨o, h1, h2, h3⟩ => by cases h2; rw [h] at h3; exact ⟨h1, h3⟩) (fun e env' ⟨o, h1, h2, h3⟩ => nomatch h2)

theorem runs_substring (hv : cfg.Valid) (hp : cfg.Physical) (hr : Reach cfg s env) {r : Nat} {v : List T} {start len : Int}
    (h : env r = .val v) (hs : SliceOk v.length start len) :
    Runs cfg (substring r start len) s (fun o env' => env o = .dead ∧ env' = env.upd o (.val (sliceSpec v start len))) E :=
  runs_op hv hp hr (op := .substring r start len) rfl ⟨has_val h, by rw [get_val h]; exact hs⟩
    (fun a env' ⟨o, h1, h2, h3⟩ => by cases h2; rw [get_val h] at h3; exact ⟨h1, h3⟩) (fun e env' ⟨o, h1, h2, h3⟩ => nomatch h2)

theorem runs_popBack (hv : cfg.Valid) (hp : cfg.Physical) (hr : Reach cfg s env) {o : Nat} {v : List T} (h : env o = .val v) (hne : v ≠ []) :
    Runs cfg (popBack o) s (fun _ env' => env' = env.upd o (.val v.dropLast)) E :=
  runs_op hv hp hr (op := .popBack o) rfl ⟨has_val h, by rw [get_val h]; exact hne⟩
    (fun a env' h1 => by have := h1.2; rwa [get_val h] at this) (fun e env' h1 => nomatch h1.1)

theorem runs_dropFront (hv : cfg.Valid) (hp : cfg.Physical) (hr : Reach cfg s env) {o n : Nat} {v : List T} (h : env o = .val v) :
    Runs cfg (dropFront o n) s (fun _ env' => env' = env.upd o (.val (v.drop n))) E :=
  runs_op hv hp hr (op := .dropFront o n) rfl (has_val h)
    (fun a env' h1 => by have := h1.2; rwa [get_val h] at this) (fun e env' h1 => nomatch h1.1)

/-- On `bad_alloc` nothing but the receiver can have changed. -/
def OnlyAt (env : Env T) (o : Nat) (e : Exc) (env' : Env T) : Prop :=
  e = .badAlloc ∧ (env' = env ∨ env' = env.upd o (.val []))

theorem noMem_only {sh : Nat → Bool} {o : Nat} {e : Exc} {env' : Env T} (h : NoMem sh env o (.exc e) env') : OnlyAt env o e env' := by
  obtain ⟨h1, h2⟩ := h
  cases h1
  refine ⟨rfl, ?_⟩
  split at h2
  · exact Or.inr h2
  · exact Or.inl h2

theorem OnlyAt.live {o : Nat} {e : Exc} {env' : Env T} (h : OnlyAt env o e env') {p : Nat} (hp : env.Live p) : env'.Live p := by
  rcases h.2 with rfl | rfl
  · exact hp
  · intro hc
    unfold Env.upd at hc
    split at hc
    · cases hc
    · exact hp hc

theorem OnlyAt.gone {o : Nat} {e : Exc} {env0 env' : Env T} {v : List T} (h : OnlyAt (env0.upd o (.val v)) o e env') (hd : env0 o = .dead) :
    env'.upd o .dead = env0 := by
  rcases h.2 with rfl | rfl
  · exact Env.upd_gone _ hd
  · rw [Env.upd_upd, Env.upd_gone _ hd]

theorem runs_append (hv : cfg.Valid) (hp : cfg.Physical) (hr : Reach cfg s env) {o : Nat} {x : T} {v : List T} (h : env o = .val v)
    (hE : ∀ e env', OnlyAt env o e env' → E e env') :
    Runs cfg (append cfg o x) s (fun _ env' => env' = env.upd o (.val (v ++ [x]))) E :=
  runs_op hv hp hr (op := .append o x) rfl (has_val h)
    (fun a env' h1 => by
      rcases h1 with ⟨-, h1⟩ | ⟨h1, -⟩
      · rwa [get_val h] at h1
      · cases h1)
    (fun e env' h1 => by
      rcases h1 with ⟨h1, -⟩ | h1
      · cases h1
      · exact hE _ _ (noMem_only h1))

theorem runs_appendRca (hv : cfg.Valid) (hp : cfg.Physical) (hr : Reach cfg s env) {o r n : Nat} {v w : List T} (h : env o = .val v)
    (hw : env r = .val w) (hE : ∀ e env', OnlyAt env o e env' → E e env') :
    Runs cfg (appendRca cfg o r n) s (fun _ env' => env' = env.upd o (.val (v ++ w.take n))) E :=
  runs_op hv hp hr (op := .appendRca o r n) rfl ⟨has_val h, has_val hw⟩
    (fun a env' h1 => by
      rcases h1 with ⟨-, h1⟩ | ⟨h1, -⟩
      · rwa [get_val h, get_val hw] at h1
      · cases h1)
    (fun e env' h1 => by
      rcases h1 with ⟨h1, -⟩ | h1
      · cases h1
      · exact hE _ _ (noMem_only h1))

end

end Bdlib.Rca
