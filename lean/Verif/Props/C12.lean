import Verif.Props.C05
import Verif.Props.C02

/-!
# C12 reserve() changes only the capacity
-/

namespace Bdlib.Rca
open Bdlib Bdlib.Spec

variable {T : Type} [DecidableEq T] {cfg : Cfg T}

theorem isShared_run {s : St T} {o : Nat} {b : Bool} (h : isShared o s = .ok b s) : shared s o = b := by
  unfold isShared at h
  cases ho : s.obj o with
  | none =>
    have : (getObj o : M T Obj) s = .ub := by unfold getObj; rw [ho]
    change M.bind (getObj o) _ s = _ at h
    unfold M.bind at h
    rw [this] at h; cases h
  | some ob =>
    rw [bind_ok (getObj_eq ho)] at h
    have hcase : ob.ref = none ∨ ∃ a, ob.ref = some a := by cases ob.ref <;> simp
    rcases hcase with hr | ⟨a, hr⟩
    · rw [hr] at h
      rw [shared_none ho hr]
      cases h; rfl
    · rw [hr] at h
      cases hb : s.blk a with
      | none =>
        have h1 : (getBlk a : M T (Block T)) s = .ub := by unfold getBlk; rw [hb]
        change M.bind (getBlk a) _ s = _ at h
        unfold M.bind at h
        rw [h1] at h; cases h
      | some bb =>
        have h1 : (getBlk a : M T (Block T)) s = .ok bb s := by unfold getBlk; rw [hb]
        change (getBlk a >>= _) s = _ at h
        rw [bind_ok h1] at h
        rw [shared_eq ho hr hb]
        cases h; rfl

theorem capacity_run {s : St T} {o a : Nat} {ob : Obj} {b : Block T} (ho : s.obj o = some ob) (hr : ob.ref = some a)
    (hb : s.blk a = some b) : capacity o s = .ok b.cells.length s := by
  have h1 : (getBlk a : M T (Block T)) s = .ok b s := by unfold getBlk; rw [hb]
  unfold capacity
  rw [bind_ok (getObj_eq ho), hr]
  show (getBlk a >>= _) s = _
  rw [bind_ok h1]
  rfl

/-- `reserve(n)` on an object whose storage is not shared: afterwards `capacity() ≥ n` (`> n` for a
non-trivial String request) and every object shows what it did; or memory ran out, and then too.

Partial: storage must not be shared, and Strings made by an exact-size constructor must not reserve less
than their length, and `n` must not be `npos` for a String; see the refutations. -/
theorem c12_reserve_partial (hv : cfg.Valid) (hp : cfg.Physical) {s : St T} {env : Env T} (h : Reach cfg s env)
    {o n : Nat} {v : List T} (ho : env o = .val v) (hsh : isShared o s = .ok false s)
    (hmax : IsStr cfg → n ≠ npos)
    (hstr : IsStr cfg → v.length ≤ n ∨ cfg.slack = 1) :
    (∃ s' c, run cfg (.reserve o n) s = .ok .unit s' ∧ capacity o s' = .ok c s' ∧ n ≤ c ∧
      (IsStr cfg → 0 < n → n < c) ∧ (∀ p w, env p = .val w → Shows s' p w) ∧ Reach cfg s' env) ∨
    (∃ s', run cfg (.reserve o n) s = .throw .badAlloc s' ∧ RefusedAt (n + 1) cfg.allocOk s s' ∧
      (∀ p w, env p = .val w → Shows s' p w) ∧ Reach cfg s' env) := by
  have hsh' := isShared_run hsh
  have hstr' : IsStr cfg → (v.length ≤ n ∧ n ≠ npos) ∨ cfg.slack = 1 :=
    fun hs => (hstr hs).imp (fun h => ⟨h, hmax hs⟩) id
  obtain ⟨out, s', env', hres, hpost, hreach⟩ := h.call hv hp (op := .reserve o n)
    ⟨has_val ho, hsh', by rw [get_val ho]; exact hstr'⟩
  rcases hpost with ⟨rfl, rfl⟩ | ⟨rfl, rfl⟩
  · left
    have hrun := result_ok hres
    obtain ⟨hwf, _, _⟩ := h.inv hv hp
    have hsp := reservePub_spec hwf (h.view_eq hv hp ho) hsh' (n := n) hstr'
    have : ∃ u, reservePub cfg o n s = .ok u s' := by
      cases hr : reservePub cfg o n s with
      | ok u t =>
        have : run cfg (.reserve o n) s = .ok .unit t := by
          show mapOut (reservePub cfg o n) _ s = _
          unfold mapOut
          rw [bind_ok hr]; rfl
        rw [hrun] at this; cases this; exact ⟨u, rfl⟩
      | throw e t =>
        have : run cfg (.reserve o n) s = .throw e t := bind_throw hr
        rw [hrun] at this; cases this
      | ub => rw [hr] at hsp; exact hsp.elim
    obtain ⟨u, hu⟩ := this
    rw [hu] at hsp
    obtain ⟨_, _, _, ob, a, b, h1, h2, h3, _, h4⟩ := hsp
    have h4 := h4 hmax
    have hrm := le_room cfg n
    refine ⟨s', b.cells.length, hrun, capacity_run h1 h2 h3, by omega, fun hs hn => ?_,
      fun p w hw => hreach.shows hv hp hw, hreach⟩
    have : room cfg n = n + 1 := by
      unfold room
      rw [if_pos ⟨hs, hn⟩]
    omega
  · exact Or.inr ⟨s', result_throw hres, refusedAt_of_throw hv hp h (op := .reserve o n)
      ⟨has_val ho, hsh', by rw [get_val ho]; exact hstr'⟩ (result_throw hres), fun p w hw => hreach.shows hv hp hw, hreach⟩

/-- No call of the interface, in or out of contract, in any state, makes the capacity of an object
smaller while it keeps its storage; whether the call returns or throws. -/
theorem c12_capacity_monotone {s s' : St T} {op : Op T} {out : Outcome T}
    (hrun : result (run cfg op s) = some (out, s')) {o a c c' : Nat} (hst : storage s o = some a)
    (hst' : storage s' o = some a) (hc : capacity o s = .ok c s) (hc' : capacity o s' = .ok c' s') : c ≤ c' := by
  have hg : Grows s s' := by
    have := pres_run (L := growLaw T cfg.allocOk) (cfg := cfg) op s
    cases hr : run cfg op s with
    | ok x t => rw [hr] at hrun this; cases hrun; exact this
    | throw e t => rw [hr] at hrun this; cases hrun; exact this
    | ub => rw [hr] at hrun; cases hrun
  obtain ⟨ob, ho, hr⟩ := obj_of_storage hst
  obtain ⟨ob', ho', hr'⟩ := obj_of_storage hst'
  have live : ∀ {t : St T} {ob : Obj} {c : Nat}, t.obj o = some ob → ob.ref = some a → capacity o t = .ok c t →
      ∃ b, t.blk a = some b ∧ b.cells.length = c := by
    intro t ob c h1 h2 h3
    cases hb : t.blk a with
    | some b => rw [capacity_run h1 h2 hb] at h3; cases h3; exact ⟨b, rfl, rfl⟩
    | none =>
      unfold capacity at h3
      rw [bind_ok (getObj_eq h1), h2] at h3
      have hg : (getBlk a : M T (Block T)) t = .ub := by unfold getBlk; rw [hb]
      change M.bind (getBlk a) _ t = _ at h3
      unfold M.bind at h3
      rw [hg] at h3; cases h3
  obtain ⟨b, hb, rfl⟩ := live ho hr hc
  obtain ⟨b', hb', rfl⟩ := live ho' hr' hc'
  obtain ⟨b1, hb1, hle⟩ := hg.2 a b' (St.blk_lt hb) hb'
  rw [hb] at hb1; cases hb1
  exact hle

/-- After `a.append(b)` on an unshared copy the capacity has grown. -/
example : ∃ s', run arrCfg (.append 1 7) stA = .ok .unit s' ∧ isShared 1 s' = .ok false s' ∧
    capacity 1 s' = .ok 4 s' ∧ Shows s' 1 [2, 3, 4, 7] := by
  refine ⟨_, rfl, rfl, rfl, rfl, fun i hi => ?_⟩
  match i, hi with
  | 0, _ => rfl
  | 1, _ => rfl
  | 2, _ => rfl
  | 3, _ => rfl

/-- On shared storage `reserve` moves the elements of all sharers: `{1,2,3,4,5}` becomes
`{2,3,4,junk,junk}` when its subarray reserves. -/
theorem c12_refuted_shared : ∃ s', Reach arrCfg stA envA ∧ envA 0 = .val [1, 2, 3, 4, 5] ∧
    run arrCfg (.reserve 1 100) stA = .ok .unit s' ∧ Shows s' 0 [2, 3, 4, 777, 777] := by
  refine ⟨_, reachA, rfl, rfl, rfl, fun i hi => ?_⟩
  match i, hi with
  | 0, _ => rfl
  | 1, _ => rfl
  | 2, _ => rfl
  | 3, _ => rfl
  | 4, _ => rfl

/-- `String s({'a','b','c'}); s.reserve(2);` overwrites the last character with a NUL. -/
theorem c12_refuted_nul : ∃ s s', Reach strCfg0 s (Env.empty.upd 0 (.val [97, 98, 99])) ∧
    run strCfg0 (.reserve 0 2) s = .ok .unit s' ∧ Shows s' 0 [97, 98, 0] := by
  refine ⟨(exec strCfg0 {} [.listCtor [97, 98, 99]]).getD {}, _,
    Reach.next strCfg0_valid strCfg0_physical .init (op := .listCtor [97, 98, 99]) (x := .obj 0) rfl rfl (fun h => h)
      (Or.inl ⟨0, rfl, rfl, rfl⟩), rfl, rfl, fun i hi => ?_⟩
  match i, hi with
  | 0, _ => rfl
  | 1, _ => rfl
  | 2, _ => rfl

/-- `String s("abc"); s.reserve(String::npos);` returns normally and reserves nothing. -/
theorem c12_refuted_npos : ∃ s s', Reach strCfg s (Env.empty.upd 0 (.val [97, 98, 99])) ∧
    run strCfg (.reserve 0 npos) s = .ok .unit s' ∧ capacity 0 s' = .ok 4 s' :=
  ⟨(exec strCfg {} [.cstrCtor [97, 98, 99]]).getD {}, _,
    Reach.next strCfg_valid strCfg_physical .init (op := .cstrCtor [97, 98, 99]) (x := .obj 0)
      (by simp [Pre, IsStr, strCfg]) rfl (fun h => h) (Or.inl ⟨0, rfl, rfl, rfl⟩), rfl, rfl⟩

end Bdlib.Rca
