import Verif.Nest.Expiring
import Verif.Props.C75

/-!
# C82: taking an element out of an expiring Array

`f().shift()` and `f().pop()` return the first or last element of the array `f()` returned, and the array goes
away.  They move the element out of the buffer without asking whether another array uses that buffer.
-/

namespace Bdlib.Rca
open Bdlib Bdlib.Spec

variable {T : Type} {cfg : Cfg T} {s : St T} {env : Env T}

/-! ## Arrays of plain values -/

theorem setObj_twice (t : St T) (o : Nat) (x y : Option Obj) : (t.setObj o x).setObj o y = t.setObj o y := by
  simp [St.setObj]

/-- The destructor of an array of plain values in one piece. -/
theorem destroy_eq {o : Nat} {ob : Obj} (hn : cfg.nul = none) (ho : s.obj o = some ob) : destroy cfg o s =
    match ob.ref with
    | none => .ok () (s.setObj o none)
    | some a =>
      match s.blk a with
      | none => .ub
      | some b =>
        if b.refs - 1 < 1 then
          .ok () (({ s.setBlk a (some { b with refs := b.refs - 1 }) with freed := b.cells :: s.freed }.setBlk a none).setObj o none)
        else .ok () ((s.setBlk a (some { b with refs := b.refs - 1 })).setObj o none) := by
  have hd : (dtorBody cfg o : M T Unit) = pure () := by unfold dtorBody; rw [hn]; rfl
  unfold destroy
  rw [hd, pure_bind']
  cases hrr : ob.ref with
  | none =>
    refine (bind_ok (a := ()) (s' := s) ?_).trans rfl
    unfold checkDeallocRef
    rw [bind_ok (getObj_eq ho)]
    simp only [hrr]
    rfl
  | some a =>
    cases hB : s.blk a with
    | none =>
      simp only [hB]
      refine Nest.bind_ub ?_
      unfold checkDeallocRef
      rw [bind_ok (getObj_eq ho)]
      simp only [hrr]
      exact Nest.bind_ub (Nest.bind_ub (by unfold getBlk; rw [hB]))
    | some b =>
      have h1 : decRef (some a) s = .ok () (s.setBlk a (some { b with refs := b.refs - 1 })) :=
        (bind_ok (a := b) (s' := s) (by unfold getBlk; rw [hB])).trans rfl
      have g1 : getBlk a (s.setBlk a (some { b with refs := b.refs - 1 })) =
          .ok { b with refs := b.refs - 1 } (s.setBlk a (some { b with refs := b.refs - 1 })) := by
        unfold getBlk; rw [St.blk_setBlk_self _ (St.blk_lt hB)]
      by_cases hz : b.refs - 1 < 1
      · simp only [hB, hz, if_true]
        refine (bind_ok (a := ()) (s' := ({ s.setBlk a (some { b with refs := b.refs - 1 }) with freed := b.cells :: s.freed }.setBlk a none).setObj o
          (some { ob with ref := none })) ?_).trans ?_
        · unfold checkDeallocRef
          rw [bind_ok (getObj_eq ho)]
          simp only [hrr]
          rw [bind_ok h1, bind_ok g1, if_pos hz]
          rfl
        · show Res.ok () _ = _
          rw [setObj_twice]
      · simp only [hB, hz, if_false]
        refine (bind_ok (a := ()) (s' := s.setBlk a (some { b with refs := b.refs - 1 })) ?_).trans rfl
        unfold checkDeallocRef
        rw [bind_ok (getObj_eq ho)]
        simp only [hrr]
        rw [bind_ok h1, bind_ok g1, if_neg hz]
        rfl

theorem destroy_window {o : Nat} {ob ob' : Obj} (hn : cfg.nul = none) (ho : s.obj o = some ob) (hr : ob'.ref = ob.ref) :
    destroy cfg o (s.setObj o (some ob')) = destroy cfg o s := by
  have ho' : (s.setObj o (some ob')).obj o = some ob' := St.obj_setObj_self _ (St.obj_lt ho)
  rw [destroy_eq hn ho', destroy_eq hn ho, hr]
  cases ob.ref with
  | none => simp only [setObj_twice]
  | some a =>
    simp only [St.blk_setObj]
    cases s.blk a with
    | none => rfl
    | some b => simp only; split <;> simp [St.setObj, St.setBlk]

theorem isShared_inv {o : Nat} {b : Bool} {s' : St T} (hu : shared s o = false) (h : isShared o s = .ok b s') :
    b = false ∧ s' = s := by
  unfold isShared at h
  obtain ⟨ob, s1, h6, h7⟩ := Nest.bind_inv h
  obtain ⟨rfl, ho⟩ := Nest.getObj_inv h6
  unfold shared at hu
  rw [ho] at hu
  simp only at hu
  cases hr : ob.ref with
  | none => simp only [hr] at h7; cases h7; exact ⟨rfl, rfl⟩
  | some a =>
    simp only [hr] at hu h7
    obtain ⟨B, s2, h8, h9⟩ := Nest.bind_inv h7
    unfold getBlk at h8
    cases hB : s1.blk a with
    | none => rw [hB] at h8; cases h8
    | some B' =>
      rw [hB] at h8 hu
      cases h8
      cases h9
      exact ⟨hu, rfl⟩

/-- Where element `i` is, and what moving it out does to the buffer. -/
theorem takes_at {o i : Nat} {ob : Obj} {v : List T} {x : T} (ho : s.obj o = some ob) (hv : s.viewOf ob = some v)
    (hi : v[i]? = some x) : ∃ a b, ob.ref = some a ∧ s.blk a = some b ∧ ob.offset + v.length ≤ b.cells.length ∧
      window b.cells ob.offset v.length = v ∧ readRange o i 1 s = .ok [x] s ∧
      writeRange o i [cfg.moved x] s = .ok () (s.setBlk a (some { b with cells := overwrite b.cells (ob.offset + i) [cfg.moved x] })) := by
  obtain ⟨hlt, hx⟩ := List.getElem?_eq_some_iff.mp hi
  have hlen := viewOf_length hv
  cases hr : ob.ref with
  | none => obtain ⟨rfl, _⟩ := St.viewOf_none_inv hr hv; simp at hlt
  | some a =>
    cases hb : s.blk a with
    | none => unfold St.viewOf at hv; rw [hr] at hv; simp only [hb] at hv; cases hv
    | some b =>
      have hle : ob.offset + ob.sublen ≤ b.cells.length ∧ window b.cells ob.offset ob.sublen = v := by
        unfold St.viewOf at hv
        rw [hr] at hv
        simp only [hb] at hv
        split at hv
        · rename_i hle; exact ⟨hle, by simpa using hv⟩
        · cases hv
      obtain ⟨hle, hw⟩ := hle
      have hfit : ob.offset + i + 1 ≤ b.cells.length := by omega
      have hg : getBlk a s = .ok b s := by unfold getBlk; rw [hb]
      refine ⟨a, b, rfl, hb, by rw [hlen]; exact hle, by rw [hlen]; exact hw, ?_, ?_⟩
      · unfold readRange
        rw [bind_ok (getObj_eq ho)]
        simp only [Nat.one_ne_zero, if_false, hr]
        rw [bind_ok hg, if_pos hfit]
        have : window b.cells (ob.offset + i) 1 = [x] := by
          have h1 : window (window b.cells ob.offset ob.sublen) i 1 = window b.cells (ob.offset + i) 1 := window_window (by omega)
          rw [← h1, hw, window_one hlt, hx]
        rw [this]
        rfl
      · unfold writeRange
        rw [bind_ok (getObj_eq ho)]
        simp only [List.isEmpty_cons, Bool.false_eq_true, if_false, hr]
        rw [bind_ok hg, if_pos (by simpa using hfit)]
        rfl

theorem shiftMove_eq {o : Nat} {r : Option T} {s' : St T} (hu : shared s o = false) (h : shift cfg o s = .ok r s') :
    ∃ s1 ob ob', shiftMove cfg o s = .ok r s1 ∧ s1.obj o = some ob ∧ s' = s1.setObj o (some ob') ∧ ob'.ref = ob.ref := by
  unfold shift at h
  obtain ⟨xs, s1, h1, h2⟩ := Nest.bind_inv h
  obtain rfl := (Nest.readRange_inv h1).1
  obtain ⟨b, s2, h3, h4⟩ := Nest.bind_inv h2
  obtain ⟨rfl, rfl⟩ := isShared_inv hu h3
  simp only [Bool.false_eq_true, if_false] at h4
  obtain ⟨_, s3, h5, h6⟩ := Nest.bind_inv h4
  obtain ⟨ob, s4, h7, h8⟩ := Nest.bind_inv h6
  obtain ⟨rfl, ho⟩ := Nest.getObj_inv h7
  obtain ⟨_, s5, h9, h10⟩ := Nest.bind_inv h8
  cases h9
  cases h10
  refine ⟨s4, ob, _, ?_, ho, rfl, rfl⟩
  unfold shiftMove
  rw [bind_ok h1, bind_ok h5]
  rfl

theorem popMove_eq {o : Nat} {r : Option T} {s' : St T} (hu : shared s o = false) (h : pop cfg o s = .ok r s') :
    ∃ s1 ob ob', popMove cfg o s = .ok r s1 ∧ s1.obj o = some ob ∧ s' = s1.setObj o (some ob') ∧ ob'.ref = ob.ref := by
  unfold pop at h
  obtain ⟨ob0, s0, h0, hh⟩ := Nest.bind_inv h
  have h0' := h0
  obtain ⟨rfl, ho0⟩ := Nest.getObj_inv h0
  simp only at hh
  obtain ⟨xs, s1, h1, h2⟩ := Nest.bind_inv hh
  obtain rfl := (Nest.readRange_inv h1).1
  obtain ⟨b, s2, h3, h4⟩ := Nest.bind_inv h2
  obtain ⟨rfl, rfl⟩ := isShared_inv hu h3
  simp only [Bool.false_eq_true, if_false] at h4
  obtain ⟨_, s3, h5, h6⟩ := Nest.bind_inv h4
  obtain ⟨_, s4, h7, h8⟩ := Nest.bind_inv h6
  unfold popBack at h7
  obtain ⟨ob, s5, h9, h10⟩ := Nest.bind_inv h7
  obtain ⟨rfl, ho⟩ := Nest.getObj_inv h9
  cases h8
  cases h10
  refine ⟨s5, ob, _, ?_, ho, rfl, rfl⟩
  unfold popMove
  rw [bind_ok h0', bind_ok h1, bind_ok h5]
  rfl

theorem run_out {α : Type} {m : M T α} {g : α → Out T} {out : Outcome T} {s' : St T} (h : result (mapOut m g s) = some (out, s')) :
    (∃ a, m s = .ok a s' ∧ out = .ret (g a)) ∨ ∃ e, m s = .throw e s' ∧ out = .exc e := by
  unfold mapOut at h
  change result (M.bind m _ s) = _ at h
  unfold M.bind at h
  cases hm : m s with
  | ok a t => rw [hm] at h; cases h; exact .inl ⟨a, rfl, rfl⟩
  | throw e t => rw [hm] at h; cases h; exact .inr ⟨e, rfl, rfl⟩
  | ub => rw [hm] at h; cases h

theorem upd_upd (env : Env T) (o : Nat) (x y : Slot T) : (env.upd o x).upd o y = env.upd o y := by
  funext i
  by_cases h : i = o
  · subst h; simp only [Env.upd_self]
  · simp only [Env.upd_ne h]

theorem after_destroy [DecidableEq T] (hv : cfg.Valid) (hp : cfg.Physical) {o : Nat} {v : List T} (h : Reach cfg s (env.upd o (.val v))) :
    ∃ s', destroy cfg o s = .ok () s' ∧ Reach cfg s' (env.upd o .dead) := by
  obtain ⟨out2, s2, env2, h4, h5, h6⟩ := h.call hv hp (op := .destroy o) (by
    show (env.upd o _).Live o
    unfold Env.Live; rw [Env.upd_self]; intro h; cases h)
  obtain ⟨rfl, rfl⟩ := h5
  rw [upd_upd] at h6
  obtain ⟨a, hd, _⟩ | ⟨e, _, h⟩ := run_out (m := destroy cfg o) h4
  · exact ⟨s2, hd, h6⟩
  · cases h

/-- An array that shares its buffer with no other: the first element is returned, and after the array's destructor
everything else is as it was.  Partial: see `c82_values_refuted_shared`. -/
theorem c82_values_shift_partial [DecidableEq T] (hv : cfg.Valid) (hp : cfg.Physical) (hn : cfg.nul = none)
    (h : Reach cfg s env) {o : Nat} {x : T} {xs : List T} (ho : env o = .val (x :: xs)) (hu : shared s o = false) :
    ∃ s1 s2, shiftMove cfg o s = .ok (some x) s1 ∧ destroy cfg o s1 = .ok () s2 ∧ Reach cfg s2 (env.upd o .dead) := by
  have hget : env.get o = x :: xs := by unfold Env.get; rw [ho]
  obtain ⟨out, s', env', h1, h2, h3⟩ := h.call hv hp (op := .shift o) ⟨⟨_, ho⟩, by rw [hget]; simp⟩
  simp only [Post, TakesOut, hget] at h2
  obtain ⟨rfl, rfl⟩ := h2
  obtain ⟨a, hm, e⟩ | ⟨e, _, h⟩ := run_out (m := shift cfg o) h1
  rotate_left
  · cases h
  cases e
  obtain ⟨s1, ob, ob', e1, e2, rfl, e3⟩ := shiftMove_eq hu hm
  obtain ⟨s2, hd, hr⟩ := after_destroy hv hp h3
  rw [destroy_window hn e2 e3] at hd
  exact ⟨s1, s2, e1, hd, hr⟩

/-- Likewise the last element. -/
theorem c82_values_pop_partial [DecidableEq T] (hv : cfg.Valid) (hp : cfg.Physical) (hn : cfg.nul = none)
    (h : Reach cfg s env) {o : Nat} {x : T} {xs : List T} (ho : env o = .val (xs ++ [x])) (hu : shared s o = false) :
    ∃ s1 s2, popMove cfg o s = .ok (some x) s1 ∧ destroy cfg o s1 = .ok () s2 ∧ Reach cfg s2 (env.upd o .dead) := by
  have hget : env.get o = xs ++ [x] := by unfold Env.get; rw [ho]
  obtain ⟨out, s', env', h1, h2, h3⟩ := h.call hv hp (op := .pop o) ⟨⟨_, ho⟩, by rw [hget]; simp⟩
  simp only [Post, TakesOut, hget] at h2
  obtain ⟨rfl, rfl⟩ := h2
  obtain ⟨a, hm, e⟩ | ⟨e, _, h⟩ := run_out (m := pop cfg o) h1
  rotate_left
  · cases h
  have e := Out.elem.inj (Outcome.ret.inj e)
  rw [List.getLast?_concat] at e
  subst e
  obtain ⟨s1, ob, ob', e1, e2, rfl, e3⟩ := popMove_eq hu hm
  obtain ⟨s2, hd, hr⟩ := after_destroy hv hp h3
  rw [destroy_window hn e2 e3] at hd
  exact ⟨s1, s2, e1, hd, hr⟩

/-- The hypotheses are met: `Array<int> a{1, 2, 3}`. -/
example : ∃ s env, Reach arrCfg s env ∧ env 0 = .val [1, 2, 3] ∧ shared s 0 = false :=
  ⟨(exec arrCfg {} [.listCtor [1, 2, 3]]).getD {}, Env.empty.upd 0 (.val [1, 2, 3]),
    Reach.init.next arrCfg_valid arrCfg_physical (op := .listCtor [1, 2, 3]) (x := .obj 0) rfl rfl id (.inl ⟨0, rfl, rfl, rfl⟩), rfl,
    by decide +kernel⟩

/-- Two arrays with the same members: what moving element `i` out of the one does to the other. -/
theorem both_move {o p i : Nat} {ob : Obj} {v : List T} {x : T} (ho : s.obj o = some ob) (hp : s.obj p = some ob)
    (hv : s.viewOf ob = some v) (hi : v[i]? = some x) :
    ∃ s', readRange o i 1 s = .ok [x] s ∧ writeRange o i [cfg.moved x] s = .ok () s' ∧ s'.view p = some (v.set i (cfg.moved x)) := by
  obtain ⟨a, b, hr, hb, hle, hw, h1, h2⟩ := takes_at (cfg := cfg) ho hv hi
  obtain ⟨hlt, _⟩ := List.getElem?_eq_some_iff.mp hi
  have hlen := viewOf_length hv
  refine ⟨_, h1, h2, ?_⟩
  have hp' : (s.setBlk a (some { b with cells := overwrite b.cells (ob.offset + i) [cfg.moved x] })).obj p = some ob := hp
  have hl : (overwrite b.cells (ob.offset + i) [cfg.moved x]).length = b.cells.length := overwrite_length (by simp; omega)
  rw [view_eq hp', St.viewOf_some hr (St.blk_setBlk_self _ (St.blk_lt hb)) (by show _ ≤ (overwrite _ _ _).length; rw [hl, ← hlen]; exact hle)]
  show some (window (overwrite _ _ _) _ _) = _
  rw [← hlen, window_overwrite (by simp; omega) hle, hw]
  congr 1
  apply List.ext_getElem?
  intro j
  rw [getElem?_overwrite (by omega), List.getElem?_set]
  by_cases hj : j < i
  · rw [if_pos hj, if_neg (by omega)]
  · rw [if_neg hj]
    by_cases hji : i = j
    · subst hji; simp [hlt]
    · rw [if_neg (by simp; omega), if_neg hji]

theorem copy_both [DecidableEq T] (hv : cfg.Valid) (hp : cfg.Physical) (h : Reach cfg s env) {o : Nat} {v : List T} (ho : env o = .val v) :
    ∃ p s1 ob, copyCtor o s = .ok p s1 ∧ s1.obj o = some ob ∧ s1.obj p = some ob ∧ s1.viewOf ob = some v := by
  obtain ⟨out, s1, env1, h1, h2, h3⟩ := h.call hv hp (op := .copyCtor o) (by show env.Live o; unfold Env.Live; rw [ho]; intro h; cases h)
  obtain ⟨p, hdead, rfl, rfl⟩ := h2
  obtain ⟨a, hm, e⟩ | ⟨e, _, h⟩ := run_out (m := copyCtor o) h1
  rotate_left
  · cases h
  cases e
  have hne : o ≠ p := by rintro rfl; rw [ho] at hdead; cases hdead
  have hvp : s1.view p = some v := by
    have := (h3.inv hv hp).2.2 p
    rw [Env.upd_self, ho] at this
    exact this
  obtain ⟨ob, hob, hobv⟩ := view_some hvp
  refine ⟨p, s1, ob, hm, ?_, hob, hobv⟩
  unfold copyCtor at hm
  obtain ⟨rb, s2, h4, h5⟩ := Nest.bind_inv hm
  obtain ⟨rfl, h4'⟩ := Nest.getObj_inv h4
  obtain ⟨p', s3, h6, h7⟩ := Nest.bind_inv h5
  obtain ⟨_, s4, h8, h9⟩ := Nest.bind_inv h7
  cases h9
  cases h6
  have hobj : s1.objs = s2.objs ++ [some rb] := by
    cases hr : rb.ref with
    | none => rw [hr] at h8; cases h8; rfl
    | some a =>
      rw [hr] at h8
      obtain ⟨B, s5, h10, h11⟩ := Nest.bind_inv h8
      unfold getBlk at h10
      split at h10 <;> cases h10
      cases h11
      rfl
  have h12 : s1.obj s2.objs.length = some rb := by unfold St.obj; rw [hobj]; simp
  rw [h12] at hob
  cases hob
  have hlt := St.obj_lt h4'
  unfold St.obj at h4' ⊢
  rw [hobj, List.getElem?_append_left hlt]
  exact h4'

/-- What is wrong: `b` is a copy of `a`; after `std::move(a).shift()` the first element of `b` has been moved from. -/
theorem c82_values_refuted_shared [DecidableEq T] (hv : cfg.Valid) (hp : cfg.Physical) (h : Reach cfg s env) {o : Nat} {x : T}
    {xs : List T} (ho : env o = .val (x :: xs)) :
    ∃ p s1 s2, copyCtor o s = .ok p s1 ∧ s1.view p = some (x :: xs) ∧ shiftMove cfg o s1 = .ok (some x) s2 ∧
      s2.view p = some (cfg.moved x :: xs) := by
  obtain ⟨p, s1, ob, h1, h2, h3, h4⟩ := copy_both hv hp h ho
  obtain ⟨s2, h5, h6, h7⟩ := both_move (cfg := cfg) (i := 0) h2 h3 h4 rfl
  refine ⟨p, s1, s2, h1, by rw [view_eq h3, h4], ?_, h7⟩
  unfold shiftMove
  rw [bind_ok h5]
  exact (bind_ok h6).trans rfl

/-- The same for `pop()` and the last element. -/
theorem c82_values_refuted_shared_pop [DecidableEq T] (hv : cfg.Valid) (hp : cfg.Physical) (h : Reach cfg s env) {o : Nat} {x : T}
    {xs : List T} (ho : env o = .val (xs ++ [x])) :
    ∃ p s1 s2, copyCtor o s = .ok p s1 ∧ s1.view p = some (xs ++ [x]) ∧ popMove cfg o s1 = .ok (some x) s2 ∧
      s2.view p = some (xs ++ [cfg.moved x]) := by
  obtain ⟨p, s1, ob, h1, h2, h3, h4⟩ := copy_both hv hp h ho
  obtain ⟨s2, h5, h6, h7⟩ := both_move (cfg := cfg) (i := xs.length) (x := x) h2 h3 h4 (by simp)
  refine ⟨p, s1, s2, h1, by rw [view_eq h3, h4], ?_, by rw [h7]; simp⟩
  have hlen : sub64 ob.sublen 1 = xs.length := by
    have h9 := viewOf_length h4
    have h10 := h.len_lt hv hp ho
    simp only [List.length_append, List.length_cons, List.length_nil, Nat.zero_add] at h9 h10
    rw [← h9]
    unfold sub64
    rw [if_pos (by omega)]
    omega
  unfold popMove
  rw [bind_ok (getObj_eq h2), hlen, bind_ok h5]
  exact (bind_ok h6).trans rfl

end Bdlib.Rca

namespace Bdlib.Nest
open Bdlib Bdlib.Spec Bdlib.Rca

variable {c : Conf} {w : World} {es : Env UInt8} {ea : Env Elem} {n lost : Nat}

/-! ## Arrays of strings -/

theorem run_fin {β : Type} {m : P β} {f : β → Ans} {out : Fin} {w' : World}
    (h : result ((do let x ← m; return f x : P Ans) w) = some (out, w')) :
    (∃ x, m w = .ok x w' ∧ out = .ret (f x)) ∨ ∃ e, m w = .throw e w' ∧ out = .exc e := by
  change result (P.bind m _ w) = _ at h
  unfold P.bind at h
  cases hm : m w with
  | ok a t => rw [hm] at h; cases h; exact .inl ⟨a, rfl, rfl⟩
  | throw e t => rw [hm] at h; cases h; exact .inr ⟨e, rfl, rfl⟩
  | ub => rw [hm] at h; cases h

theorem then_destroy {a : Nat} {xs : List Elem} (h : Plays c (n + 1) w es (ea.upd a (.val xs)) lost) :
    ∃ w', destroy c a w = .ok () w' ∧ Plays c n w' es (ea.upd a .dead) lost := by
  obtain ⟨out, w', es', ea', h1, ⟨o, h2, h3, rfl⟩, h4⟩ := h.2 (.arr (.destroy a)) ⟨trivial, by
    show (ea.upd a _).Live a
    unfold Env.Live; rw [Env.upd_self]; intro h; cases h⟩
  obtain ⟨rfl, rfl⟩ := h2
  rw [upd_upd] at h4
  obtain ⟨x, h5, e⟩ | ⟨e, _, e'⟩ := run_fin (m := runArr c (.destroy a)) h1
  rotate_left
  · rw [h3] at e'; cases e'
  obtain ⟨_, w2, h6, h7⟩ := pbind_inv (m := destroy c a) h5
  cases h7
  exact ⟨w', h6, h4⟩

/-- `String t(f().shift())` where `f()` returned an array that shares its buffer with no other: `t` is the first
element, the array is gone, and nothing else has changed.  Partial: see `c82_refuted_shared`. -/
theorem c82_shift_partial (h : Plays c (n + 2) w es ea lost) {a : Nat} {y : Elem} {ys : List Elem} (ha : ea a = .val (y :: ys))
    (hu : shared w.arrs a = false) : ∃ t w', es t = .dead ∧ shiftTemp c a w = .ok t w' ∧
      Plays c n w' (es.upd t y) (ea.upd a .dead) lost := by
  have hget : ea.get a = y :: ys := by unfold Env.get; rw [ha]
  obtain ⟨out, w1, es1, ea1, h1, h2, h3⟩ := h.2 (.shift a) ⟨⟨_, ha⟩, by rw [hget]; simp⟩
  obtain ⟨t, y', hd, ⟨e1, rfl⟩, rfl, rfl⟩ | ⟨e, ⟨e1, _⟩, _⟩ := h2
  rotate_left
  · cases e1
  rw [hget] at e1 h3
  cases e1
  obtain ⟨x, h4, e⟩ | ⟨e, _, e'⟩ := run_fin (m := shift c a) h1
  rotate_left
  · cases e'
  cases e
  obtain ⟨w2, h5, h6⟩ := then_destroy h3
  exact ⟨t, w2, hd, shiftTemp_eq hu h4 h5, h6⟩

/-- `String t(f().pop())`: likewise the last element. -/
theorem c82_pop_partial (h : Plays c (n + 2) w es ea lost) {a : Nat} {y : Elem} {ys : List Elem} (ha : ea a = .val (ys ++ [y]))
    (hu : shared w.arrs a = false) : ∃ t w', es t = .dead ∧ popTemp c a w = .ok t w' ∧
      Plays c n w' (es.upd t y) (ea.upd a .dead) lost := by
  have hget : ea.get a = ys ++ [y] := by unfold Env.get; rw [ha]
  obtain ⟨out, w1, es1, ea1, h1, h2, h3⟩ := h.2 (.pop a) ⟨⟨_, ha⟩, by rw [hget]; simp⟩
  obtain ⟨t, y', hd, ⟨e1, rfl⟩, rfl, rfl⟩ | ⟨e, ⟨e1, _⟩, _⟩ := h2
  rotate_left
  · cases e1
  rw [hget, List.getLast?_concat] at e1
  cases e1
  obtain ⟨x, h4, e⟩ | ⟨e, _, e'⟩ := run_fin (m := pop c a) h1
  rotate_left
  · cases e'
  cases e
  obtain ⟨w2, h5, h6⟩ := then_destroy h3
  exact ⟨t, w2, hd, popTemp_eq hu h4 h5, h6⟩

/-- The hypotheses are met, with any number of calls to come: `String s("ab"); Array<String> a; a.push_back(s);`. -/
theorem c82_reached (n : Nat) : ∃ w es ea, Plays conf n w es ea 0 ∧ ea 0 = .val [.val [97, 98]] ∧ shared w.arrs 0 = false := by
  have h0 := c75_arrays_of_strings_partial conf_good (n + 3)
  have a0 : (after conf [.str (.strCtor [97, 98]), .arr .ctor, .append 0 0] (.exc .badAlloc, {})).map
    (fun r => (r.1, shared r.2.arrs 0)) = some (.ret (.a .unit), false) := by decide +kernel
  have a1 : answers conf [.str (.strCtor [97, 98]), .arr .ctor, .append 0 0] {} =
    [some (.ret (.s (.obj 0))), some (.ret (.a (.obj 0))), some (.ret (.a .unit))] := by decide +kernel
  have split : ∀ {k ks w x xs}, answers conf (k :: ks) w = some x :: xs →
      ∃ w', result (run conf k w) = some (x, w') ∧ answers conf ks w' = xs := by
    intro k ks w x xs h
    unfold answers at h
    cases hr : result (run conf k w) with
    | none => rw [hr] at h; simp at h
    | some p =>
      obtain ⟨x', w'⟩ := p
      rw [hr] at h
      simp only [List.cons.injEq, Option.some.injEq] at h
      exact ⟨w', by rw [h.1], h.2⟩
  obtain ⟨w1, r1, a2⟩ := split a1
  obtain ⟨w2, r2, a3⟩ := split a2
  obtain ⟨w3, r3, _⟩ := split a3
  simp only [after, r1, r2, r3, Option.bind_some, Option.map_some, Option.some.injEq, Prod.mk.injEq, true_and] at a0
  obtain ⟨es1, ea1, ⟨o, p1, e, rfl⟩, h1⟩ := play_step h0 (call := .str (.strCtor [97, 98])) rfl r1
  cases o with
  | exc e' => cases e
  | ret x =>
  cases e
  obtain ⟨_, _, e, rfl⟩ | ⟨e, _⟩ := p1
  rotate_left
  · cases e
  cases e
  obtain ⟨es2, ea2, ⟨o, p2, e, rfl⟩, h2⟩ := play_step h1 (call := .arr .ctor) ⟨trivial, trivial⟩ r2
  cases o with
  | exc e' => cases e
  | ret x =>
  cases e
  obtain ⟨_, _, e, rfl⟩ := p2
  cases e
  obtain ⟨es3, ea3, ⟨o, p3, e, rfl⟩, h3⟩ := play_step h2 (call := .append 0 0) ⟨⟨[], rfl⟩, by intro h; cases h⟩ r3
  cases o with
  | exc e' => cases e
  | ret x =>
  cases e
  obtain ⟨e, rfl⟩ | ⟨e, _⟩ := p3
  rotate_left
  · cases e
  exact ⟨w3, _, _, h3, rfl, a0⟩

/-- What the code does. -/
example : ((after conf [.str (.strCtor [97, 98]), .arr .ctor, .append 0 0, .append 0 0] (.exc .badAlloc, {})).bind fun r =>
    match popTemp conf 0 r.2 with | .ok t w => bytesOf w t | _ => none) = some [97, 98] := by decide +kernel

/-! ## What is wrong -/

/-- `Array<String> a; a.push_back("ab"); Array<String> b(a);` -/
def pair : List Call :=
  [.str (.strCtor [97, 98]), .arr .ctor, .append 0 0, .str (.destroy 0), .arr (.copyCtor 0)]

/-- Then `String t(std::move(a).shift());` and the destructor of `a`: `t` is `"ab"`, but `b[0]`, which was `"ab"`, still
says that its length is 2, and has no bytes. -/
theorem c82_refuted_shared : ∃ x w t w', after conf pair (.exc .badAlloc, {}) = some (x, w) ∧
    elemsOf w 1 = some [some [97, 98]] ∧ shiftTemp conf 0 w = .ok t w' ∧ bytesOf w' t = some [97, 98] ∧
    w'.arrs.view 1 = some [2] ∧ Rca.length 2 w'.strs = .ok 2 w'.strs ∧ Rca.read 2 0 w'.strs = .ub := by
  have h : ((after conf pair (.exc .badAlloc, {})).bind fun r => match shiftTemp conf 0 r.2 with
      | .ok t w => if elemsOf r.2 1 = some [some [97, 98]] ∧ bytesOf w t = some [97, 98] ∧ w.arrs.view 1 = some [2] ∧
        Rca.length 2 w.strs = .ok 2 w.strs ∧ Rca.read 2 0 w.strs = .ub then some () else none
      | _ => none) = some () := by decide +kernel
  cases ha : after conf pair (.exc .badAlloc, {}) with
  | none => rw [ha] at h; cases h
  | some r =>
    rw [ha] at h
    simp only [Option.bind_some] at h
    cases hs : shiftTemp conf 0 r.2 with
    | ok t w =>
      rw [hs] at h
      simp only at h
      split at h
      · rename_i hh
        exact ⟨r.1, r.2, t, w, rfl, hh.1, hs, hh.2⟩
      · cases h
    | throw e w => rw [hs] at h; cases h
    | ub => rw [hs] at h; cases h

end Bdlib.Nest
