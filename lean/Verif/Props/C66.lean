import Verif.Props.C13
import Verif.Props.C17
import Verif.Props.C65

/-!
# C66: functions declared `noexcept`

Leaving a `noexcept` function with an exception calls `std::terminate`.  Every function of `String` and `Array` that is
declared so returns normally in every reachable state, also when the allocator refuses everything, and asks the
allocator for nothing; except `c_str()` (and the unary `*` that calls it).
-/

namespace Bdlib.Rca
open Bdlib Bdlib.Spec Bdlib.Str

/-- The calls declared `noexcept` (constructors, assignments and destruction; `ReferenceCountedArray.h` 431-441, 508,
527, 542, 617, 667, 780, 834-837, 956, 1010; `String.h` 88-91, 156-157, 323-336, 480-496; `Array.h` 61-63, 82-83, 118,
135, 222-235, 265-287).  `c_str` is the one that is missing. -/
def DeclaredNoexcept {T : Type} : Op T → Prop
  | .ctor | .copyCtor _ | .moveCtor _ | .substring _ _ _ | .destroy _ => True
  | .copyAssign _ _ | .moveAssign _ _ | .swap _ _ | .clear _ => True
  | .length _ | .read _ _ | .hash _ => True
  | .slice _ _ _ | .popBack _ | .shift _ | .pop _ => True
  | .dropFront _ n | .dropBack _ n | .arrDropFront _ n | .arrDropBack _ n => n = 1
  | _ => False

/-- No buffer was requested from the allocator between the two states (`gen` counts the requests). -/
def NothingRequested {T : Type} (s s' : St T) : Prop := s'.gen = s.gen

/-- Calls that keep the count of requests. -/
def quietLaw (T : Type) : Law T (fun _ _ => false) where
  R s s' := s'.gen = s.gen
  E _ _ _ := True
  refl _ := rfl
  trans _ _ _ h1 h2 := h2.trans h1
  transE _ _ _ _ _ _ := trivial
  thenE _ _ _ _ _ _ := trivial
  range _ := trivial
  objs _ _ := rfl
  freed _ _ := rfl
  putBlk _ _ _ _ _ _ := rfl
  delBlk _ _ := rfl
  newBlk _ := rfl
  alloc _ _ h := by cases h
  refuse _ _ _ := trivial

section
variable {T : Type} [DecidableEq T] {cfg : Cfg T} {s : St T} {env : Env T}

theorem quiet_run {op : Op T} (hop : DeclaredNoexcept op) : Pres (quietLaw T) (run cfg op) := by
  cases op with
  | ctor => exact .mapOut (.newObj _)
  | copyCtor r => exact .mapOut (.copyCtor _)
  | moveCtor r => exact .mapOut (.moveCtor _)
  | substring r a b => exact .mapOut (.substring _ _ _)
  | destroy o => exact .mapOut (.destroy _ _)
  | copyAssign o r => exact .mapOut (.copyAssign _ _)
  | moveAssign o r => exact .mapOut (.moveAssign _ _)
  | swap o r => exact .mapOut (.swap _ _)
  | clear o => exact .mapOut (.clear _)
  | length o => exact .mapOut (.length _)
  | read o i => exact .mapOut (.read _ _)
  | hash o => exact .mapOut (.hash _ _)
  | slice o a b => exact .mapOut (.slice _ _ _)
  | popBack o => exact .mapOut (.popBack _)
  | dropFront o n => exact .mapOut (.dropFront _ _)
  | dropBack o n => exact .mapOut (.dropBack _ _)
  | arrDropFront o n => exact .mapOut (.arrDropFront _ _)
  | arrDropBack o n => exact .mapOut (.arrDropBack _ _)
  | shift o => exact .mapOut (.shift _ _)
  | pop o => exact .mapOut (.pop _ _)
  | _ => exact hop.elim

theorem post_returns {sh : Nat → Bool} {op : Op T} (hop : DeclaredNoexcept op) {out : Outcome T} {env' : Env T}
    (h : Post cfg sh env op out env') : ∃ x, out = .ret x := by
  cases op with
  | ctor | copyCtor _ | moveCtor _ | substring _ _ _ => obtain ⟨o, -, h, -⟩ := h; exact ⟨_, h⟩
  | destroy _ | copyAssign _ _ | moveAssign _ _ | swap _ _ | clear _ | length _ | read _ _ | hash _ | slice _ _ _
  | popBack _ | dropFront _ _ | dropBack _ _ | arrDropFront _ _ | arrDropBack _ _ | shift _ | pop _ => exact ⟨_, h.1⟩
  | _ => exact hop.elim

/-- **C66.** A call of a function declared `noexcept`, within its contract, in any state any history leads to: it
returns, and it requests nothing from the allocator.  The machine may be one that refuses every request. -/
theorem c66_noexcept (hv : cfg.Valid) (hp : cfg.Physical) (h : Reach cfg s env) {op : Op T}
    (hop : DeclaredNoexcept op) (hpre : Pre cfg (shared s) env op) :
    ∃ x s', run cfg op s = .ok x s' ∧ NothingRequested s s' := by
  obtain ⟨out, s', env', hres, hpost, -⟩ := h.call hv hp hpre
  obtain ⟨x, rfl⟩ := post_returns hop hpost
  have hrun := result_ok hres
  have := quiet_run (cfg := cfg) hop s
  rw [hrun] at this
  exact ⟨x, s', hrun, this⟩

end

/-! ### the compound functions that are declared `noexcept` -/

section
variable {cfg : Cfg UInt8} {s : St UInt8} {env : Env UInt8}

theorem returns_of {α : Type} {m : M UInt8 α} {Q : α → Env UInt8 → Prop} (hq : Pres (quietLaw UInt8) m)
    (h : Runs cfg m s Q (fun _ _ => False)) : ∃ x s', m s = .ok x s' ∧ NothingRequested s s' := by
  unfold Runs at h
  have hq := hq s
  cases hm : m s with
  | ub => rw [hm] at h; exact h.elim
  | throw e t => rw [hm] at h; obtain ⟨_, h, _⟩ := h; exact h.elim
  | ok a t => rw [hm] at hq; exact ⟨a, t, rfl, hq⟩

theorem quiet_liftE {α : Type} (e : Eff α) : Pres (quietLaw UInt8) (liftE e : SM α) := by
  cases e with
  | ret a => exact .pure a
  | exc x => exact fun _ => trivial
  | ub => exact .undef
  | more => exact .undef

theorem quiet_contents (o : Nat) : Pres (quietLaw UInt8) (contents o) := .bind (.length _) fun _ => .readRange _ _ _

theorem quiet_compareP (L : Libc) (o r : Nat) : Pres (quietLaw UInt8) (compareP L o r) :=
  .bind (.bind (.getObj _) fun _ => .bind (.getObj _) fun _ => .pure _) fun _ =>
    .bind (quiet_contents _) fun _ => .bind (quiet_contents _) fun _ => quiet_liftE _

theorem quiet_eqP (L : Libc) (o r : Nat) : Pres (quietLaw UInt8) (eqP L o r) :=
  .bind (.length _) fun _ => .bind (.length _) fun _ =>
    .ite (fun _ => .bind (quiet_compareP L o r) fun _ => .pure _) fun _ => .pure _

theorem quiet_findP (L : Libc) (o r : Nat) : Pres (quietLaw UInt8) (findP L o r) :=
  .bind (quiet_contents _) fun _ => .bind (quiet_contents _) fun _ => quiet_liftE _

theorem quiet_chompOneP (o : Nat) (c : UInt8) : Pres (quietLaw UInt8) (chompOneP o c) :=
  .bind (.length _) fun _ => .ite (fun _ => .bind (.read _ _) fun _ => .ite (fun _ => .popBack _) fun _ => .pure _)
    fun _ => .pure _

theorem quiet_chompP (o : Nat) : Pres (quietLaw UInt8) (chompP o) :=
  .bind (quiet_chompOneP _ _) fun _ => quiet_chompOneP _ _

theorem quiet_ltrimP (L : Libc) (o : Nat) : ∀ fuel, Pres (quietLaw UInt8) (ltrimP L o fuel)
  | 0 => .undef
  | fuel + 1 => .bind (.length _) fun _ => .ite (fun _ => .bind (.read _ _) fun x => by
      cases x with
      | none => exact .undef
      | some c => exact .ite (fun _ => .bind (.dropFront _ _) fun _ => quiet_ltrimP L o fuel) fun _ => .pure _)
      fun _ => .pure _

theorem quiet_rtrimP (L : Libc) (o : Nat) : ∀ fuel, Pres (quietLaw UInt8) (rtrimP L o fuel)
  | 0 => .undef
  | fuel + 1 => .bind (.length _) fun _ => .ite (fun _ => .bind (.read _ _) fun x => by
      cases x with
      | none => exact .undef
      | some c => exact .ite (fun _ => .bind (.popBack _) fun _ => quiet_rtrimP L o fuel) fun _ => .pure _)
      fun _ => .pure _

theorem chomp_total (v : Bytes) : ∃ r, chomp v = .ret r := by
  have one : ∀ (v : Bytes) (c : UInt8), ∃ r, chompOne v c = .ret r := by
    intro v c
    rcases List.eq_nil_or_concat v with rfl | ⟨u, x, rfl⟩
    · exact ⟨[], rfl⟩
    · rw [List.concat_eq_append, chompOne_snoc]; exact ⟨_, rfl⟩
  obtain ⟨r1, h1⟩ := one v 10
  obtain ⟨r2, h2⟩ := one r1 13
  exact ⟨r2, by unfold chomp; rw [h1, Eff.ret_bind, h2]⟩

theorem compare_total (L : Libc) (same : Bool) (v w : Bytes) : ∃ r, Str.compare L same v w = .ret r := by
  unfold Str.compare
  split
  · exact ⟨_, rfl⟩
  · dsimp only
    rw [rdN_le (by omega), rdN_le (by omega)]
    simp only [Eff.ret_bind]
    split <;> exact ⟨_, rfl⟩

/-- `a.chomp()` and `a.trim()` return and request nothing. -/
theorem c66_chomp_trim (hv : cfg.Valid) (hp : cfg.Physical) (L : Libc) (hr : Reach cfg s env) {a : Nat} {v : Bytes}
    (ha : env a = .val v) {fuel : Nat} (hf : v.length < fuel) :
    (∃ s', chompP a s = .ok () s' ∧ NothingRequested s s') ∧
    (∃ s', trimP L fuel a s = .ok () s' ∧ NothingRequested s s') := by
  constructor
  · obtain ⟨r, h⟩ := chomp_total v
    obtain ⟨x, s', h1, h2⟩ := returns_of (quiet_chompP a) (runs_chompP hv hp hr ha h)
    exact ⟨s', h1, h2⟩
  · obtain ⟨_, m, _, h, -⟩ := c33_trim L v
    obtain ⟨x, s', h1, h2⟩ := returns_of (.bind (quiet_ltrimP L a fuel) fun _ => quiet_rtrimP L a fuel)
      (runs_trimP hv hp hr ha hf h)
    exact ⟨s', h1, h2⟩

/-- `a.find(b)`, `a.compare(b)` and `a == b` return and request nothing. -/
theorem c66_find_compare (hv : cfg.Valid) (hp : cfg.Physical) {L : Libc} (hL : L.Ok) (hr : Reach cfg s env) {a b : Nat}
    {v w : Bytes} (ha : env a = .val v) (hb : env b = .val w) :
    (∃ n s', findP L a b s = .ok n s' ∧ NothingRequested s s') ∧
    (∃ x s', compareP L a b s = .ok x s' ∧ NothingRequested s s') ∧
    (∃ x s', eqP L a b s = .ok x s' ∧ NothingRequested s s') := by
  refine ⟨?_, ?_, ?_⟩
  · obtain ⟨r, -, s', h, -⟩ := c65_find hv hp hL hr ha hb
    have hq := quiet_findP L a b s
    rw [h] at hq
    exact ⟨r, s', h, hq⟩
  · have h : Runs cfg (compareP L a b) s (fun _ _ => True) (fun _ _ => False) := by
      unfold compareP
      refine Runs.bind (runs_sameStart hv hp hr ha hb) fun same s1 env1 hr1 e => ?_
      obtain ⟨-, rfl⟩ := e
      refine Runs.bind (runs_contents hv hp hr1 ha) fun v' s2 env2 hr2 e => ?_
      obtain ⟨-, rfl⟩ := e
      refine Runs.bind (runs_contents hv hp hr2 hb) fun w' s3 env3 hr3 e => ?_
      obtain ⟨-, rfl⟩ := e
      obtain ⟨x, hx⟩ := compare_total L same v' w'
      exact Runs.mono (runs_liftE (E := fun _ _ => False) hx hr3) (fun _ _ _ => trivial) fun _ _ h => h
    exact returns_of (quiet_compareP L a b) h
  · obtain ⟨s', h, -⟩ := c65_eq hv hp hL hr ha hb
    have hq := quiet_eqP L a b s
    rw [h] at hq
    exact ⟨_, s', h, hq⟩

end

/-! ### the exception -/

/-- A String machine whose allocator refuses everything after the second request. -/
def tightStr : Cfg Nat := { strCfg with allocOk := fun g n => decide (n < maxCells) && decide (g ≤ 2) }

theorem tightStr_valid : tightStr.Valid := Or.inr ⟨rfl, rfl⟩
theorem tightStr_physical : tightStr.Physical := by
  intro g n h
  simp [tightStr]; intro h'; unfold maxCells at *; omega

/-- `String s("hello"); String t = s(1, 3);` -/
def stTightStr : St Nat := (exec tightStr {} [.cstrCtor [104, 101, 108, 108, 111], .substring 0 1 3]).getD {}

theorem reachTightStr : Reach tightStr stTightStr envHell := by
  have h1 : Reach tightStr ((exec tightStr {} [.cstrCtor [104, 101, 108, 108, 111]]).getD {})
      (Env.empty.upd 0 (.val [104, 101, 108, 108, 111])) :=
    Reach.next tightStr_valid tightStr_physical .init (op := .cstrCtor [104, 101, 108, 108, 111]) (x := .obj 0)
      (by simp [Pre, IsStr, strCfg, tightStr]) rfl (fun h => h) (Or.inl ⟨0, rfl, rfl, rfl⟩)
  exact Reach.next tightStr_valid tightStr_physical h1 (op := .substring 0 1 3) (x := .obj 1)
    ⟨⟨_, rfl⟩, by decide⟩ rfl (fun h => h) ⟨1, rfl, rfl, rfl⟩

/-- On this machine `t.trim()`-like calls, copies and slices of `t` return ... -/
example : ∃ x s', run tightStr (.copyCtor 1) stTightStr = .ok x s' ∧ NothingRequested stTightStr s' :=
  c66_noexcept tightStr_valid tightStr_physical reachTightStr (op := .copyCtor 1) trivial (fun h => nomatch h)
example : ∃ x s', run tightStr (.dropFront 1 1) stTightStr = .ok x s' ∧ NothingRequested stTightStr s' :=
  c66_noexcept tightStr_valid tightStr_physical reachTightStr (op := .dropFront 1 1) rfl ⟨_, rfl⟩

/-- ... while `t.c_str()`, declared `noexcept` too (`String.h` 232, 270) and called within its contract, leaves with
`bad_alloc`: the program is terminated. -/
theorem c66_refuted_cstr : ∃ s', Reach tightStr stTightStr envHell ∧ Pre tightStr (shared stTightStr) envHell (.cStr 1) ∧
    run tightStr (.cStr 1) stTightStr = .throw .badAlloc s' :=
  ⟨_, reachTightStr, ⟨⟨_, rfl⟩, rfl, rfl⟩, rfl⟩

end Bdlib.Rca
