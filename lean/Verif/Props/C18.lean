import Verif.Props.C05

/-!
# C18 Array behaves as a double-ended queue
-/

namespace Bdlib.Rca
open Bdlib Bdlib.Spec

variable {T : Type} [DecidableEq T] {cfg : Cfg T}

/-- The four queue calls: `push_back(x)`/`a << x`, `push_front(x)`, `pop()`/`a >> x`, `shift()`. -/
inductive Dq (T : Type) where
  | pushBack (x : T)
  | pushFront (x : T)
  | pop
  | shift

/-- The call on object `o`: `push_front` is `insert(0, x)` (`Array.h` 86). -/
def Dq.op (o : Nat) : Dq T → Op T
  | .pushBack x => .append o x
  | .pushFront x => .insertItem o 0 x
  | .pop => .pop o
  | .shift => .shift o

/-- An ideal queue: what the calls return (`none` for a push) and what is left; undefined if something
is taken from an empty queue. -/
def ideal : List T → List (Dq T) → Option (List (Option T) × List T)
  | q, [] => some ([], q)
  | q, .pushBack x :: ds => (ideal (q ++ [x]) ds).map fun r => (none :: r.1, r.2)
  | q, .pushFront x :: ds => (ideal (x :: q) ds).map fun r => (none :: r.1, r.2)
  | [], .pop :: _ => none
  | [], .shift :: _ => none
  | x :: q, .shift :: ds => (ideal q ds).map fun r => (some x :: r.1, r.2)
  | x :: q, .pop :: ds => (ideal ((x :: q).dropLast) ds).map fun r => ((x :: q).getLast? :: r.1, r.2)

/-- The element a call returned. -/
def Dq.got : Out T → Option T
  | .elem x => x
  | _ => none

/-- The calls one after the other, collecting what they return. -/
def perform (cfg : Cfg T) (o : Nat) : List (Dq T) → M T (List (Option T))
  | [] => pure []
  | d :: ds => do
    let x ← run cfg (d.op o)
    let xs ← perform cfg o ds
    return Dq.got x :: xs

/-- What a call sequence on `o` that started with the objects of `env` leaves behind. -/
def QueueLeft (cfg : Cfg T) (env : Env T) (o : Nat) (s' : St T) : Prop :=
  OthersKeep env o s' ∧ ∃ env', Reach cfg s' env' ∧ ∀ p, p ≠ o → env' p = env p

theorem perform_step {s s1 : St T} {env env1 : Env T} {o : Nat} {d : Dq T} {ds : List (Dq T)} {x : Out T}
    {rs : List (Option T)} {q' : List T} (hrun : run cfg (d.op o) s = .ok x s1)
    (hframe : ∀ p, p ≠ o → env1 p = env p)
    (ih : (perform cfg o ds s1).Sat (fun r s' => r = rs ∧ Shows s' o q' ∧ QueueLeft cfg env1 o s')
      (fun e s' => e = .badAlloc ∧ QueueLeft cfg env1 o s')) :
    (perform cfg o (d :: ds) s).Sat (fun r s' => r = Dq.got x :: rs ∧ Shows s' o q' ∧ QueueLeft cfg env o s')
      (fun e s' => e = .badAlloc ∧ QueueLeft cfg env o s') := by
  have hleft : ∀ s', QueueLeft cfg env1 o s' → QueueLeft cfg env o s' := by
    rintro s' ⟨h1, env2, h2, h3⟩
    exact ⟨fun p w hp hw => h1 p w hp (by rw [hframe p hp]; exact hw), env2, h2,
      fun p hp => by rw [h3 p hp, hframe p hp]⟩
  unfold perform
  apply sat_of_eq_ok hrun
  refine sat_bind' ih ?_ fun e s' h => ⟨h.1, hleft _ h.2⟩
  rintro r s' ⟨rfl, h2, h3⟩
  exact ⟨rfl, h2, hleft _ h3⟩

theorem perform_fail {s s1 : St T} {env env1 : Env T} {o : Nat} {d : Dq T} {ds : List (Dq T)}
    {Q : List (Option T) → St T → Prop} (hv : cfg.Valid) (hp : cfg.Physical)
    (hrun : run cfg (d.op o) s = .throw .badAlloc s1) (hframe : ∀ p, p ≠ o → env1 p = env p) (hr : Reach cfg s1 env1) :
    (perform cfg o (d :: ds) s).Sat Q (fun e s' => e = .badAlloc ∧ QueueLeft cfg env o s') := by
  unfold perform
  rw [bind_throw hrun]
  exact ⟨rfl, fun p w hne hw => hr.shows hv hp (by rw [hframe p hne]; exact hw), env1, hr, hframe⟩

/-- Any sequence of queue calls on an Array of any history: each call returns what the ideal queue
returns, the Array ends up with what the ideal queue ends up with, no other object changes — unless a
`bad_alloc` cuts the sequence short. -/
theorem c18_deque (hv : cfg.Valid) (hp : cfg.Physical) : ∀ (ds : List (Dq T)) {s : St T} {env : Env T}, Reach cfg s env →
    ∀ {o : Nat} {q : List T}, env o = .val q → ∀ {rs : List (Option T)} {q' : List T}, ideal q ds = some (rs, q') →
    (perform cfg o ds s).Sat (fun r s' => r = rs ∧ Shows s' o q' ∧ QueueLeft cfg env o s')
      (fun e s' => e = .badAlloc ∧ QueueLeft cfg env o s')
  | [], s, env, h, o, q, ho, rs, q', hi => by
    simp only [ideal, Option.some.injEq, Prod.mk.injEq] at hi
    obtain ⟨rfl, rfl⟩ := hi
    exact ⟨rfl, h.shows hv hp ho, fun p w _ hw => h.shows hv hp hw, env, h, fun _ _ => rfl⟩
  | .pushBack x :: ds, s, env, h, o, q, ho, rs, q', hi => by
    simp only [ideal, Option.map_eq_some_iff, Prod.mk.injEq] at hi
    obtain ⟨r, hr, rfl, rfl⟩ := hi
    obtain ⟨out, s', env', hres, hpost, hre⟩ := h.call hv hp (op := .append o x) (has_val ho)
    simp only [Post, get_val ho] at hpost
    rcases hpost with ⟨rfl, rfl⟩ | hn
    · exact perform_step (d := .pushBack x) (result_ok hres) (fun p hne => Env.upd_ne hne)
        (c18_deque hv hp ds hre Env.upd_self hr)
    · have he := hn.1
      subst he
      exact perform_fail (d := .pushBack x) hv hp (result_throw hres) (fun p hne => hn.frame hne) hre
  | .pushFront x :: ds, s, env, h, o, q, ho, rs, q', hi => by
    simp only [ideal, Option.map_eq_some_iff, Prod.mk.injEq] at hi
    obtain ⟨r, hr, rfl, rfl⟩ := hi
    obtain ⟨out, s', env', hres, hpost, hre⟩ := h.call hv hp (op := .insertItem o 0 x) (has_val ho)
    simp only [Post, Checked, get_val ho, Nat.zero_le, if_true] at hpost
    have hins : insertAt q 0 [x] = x :: q := by simp [insertAt]
    rw [hins] at hpost
    rcases hpost with ⟨rfl, rfl⟩ | hn
    · exact perform_step (d := .pushFront x) (result_ok hres) (fun p hne => Env.upd_ne hne)
        (c18_deque hv hp ds hre Env.upd_self hr)
    · have he := hn.1
      subst he
      exact perform_fail (d := .pushFront x) hv hp (result_throw hres) (fun p hne => hn.frame hne) hre
  | .pop :: ds, s, env, h, o, [], ho, rs, q', hi => by simp [ideal] at hi
  | .shift :: ds, s, env, h, o, [], ho, rs, q', hi => by simp [ideal] at hi
  | .pop :: ds, s, env, h, o, x :: q, ho, rs, q', hi => by
    simp only [ideal, Option.map_eq_some_iff, Prod.mk.injEq] at hi
    obtain ⟨r, hr, rfl, rfl⟩ := hi
    obtain ⟨out, s', env', hres, hpost, hre⟩ := h.call hv hp (op := .pop o)
      ⟨has_val ho, by rw [get_val ho]; simp⟩
    simp only [Post, get_val ho] at hpost
    obtain ⟨rfl, rfl⟩ := hpost
    exact perform_step (d := .pop) (result_ok hres) (fun p hne => Env.upd_ne hne)
      (c18_deque hv hp ds hre Env.upd_self hr)
  | .shift :: ds, s, env, h, o, x :: q, ho, rs, q', hi => by
    simp only [ideal, Option.map_eq_some_iff, Prod.mk.injEq] at hi
    obtain ⟨r, hr, rfl, rfl⟩ := hi
    obtain ⟨out, s', env', hres, hpost, hre⟩ := h.call hv hp (op := .shift o)
      ⟨has_val ho, by rw [get_val ho]; simp⟩
    simp only [Post, get_val ho] at hpost
    obtain ⟨rfl, rfl⟩ := hpost
    exact perform_step (d := .shift) (result_ok hres) (fun p hne => Env.upd_ne hne)
      (c18_deque hv hp ds hre Env.upd_self hr)

/-- On the shared subarray `{2,3,4}`. -/
example : ideal [2, 3, 4] [.shift, .pushFront 9, .pop, .pushBack 7, .shift] =
    some ([some 2, none, some 4, none, some 9], [3, 7]) := rfl
example : ∃ s', perform arrCfg 1 [.shift, .pushFront 9, .pop, .pushBack 7, .shift] stA =
    .ok [some 2, none, some 4, none, some 9] s' := ⟨_, by simp only [perform, Dq.op]; rfl⟩

end Bdlib.Rca
