import Verif.Rca.Debug
import Verif.Rca.Growth
import Verif.Rca.Witness

/-!
# C111 Builds with assertions

Proved here: calls within their contract behave the same with and without assertions, from every reachable state; the
assertion of copy-on-write and those about the terminating NUL cannot fail at all as long as one thread runs; taking an
element out of an empty sequence, which without assertions makes a sequence of `2^64 - 1` elements, ends the program.
`split` is in `C111Split.lean`, threads are in `C111Threads.lean`.
-/

namespace Bdlib.Rca
open Bdlib Bdlib.Spec

variable {T : Type} {cfg : Cfg T}

section
variable {s : St T}

/-- A state that a program reads and does not change. -/
theorem isShared_state {o : Nat} {x : Bool} {s' : St T} (h : isShared o s = .ok x s') : s' = s := by
  unfold isShared at h
  change M.bind (getObj o) _ s = _ at h
  unfold M.bind getObj at h
  cases ho : s.obj o with
  | none => rw [ho] at h; cases h
  | some ob =>
    rw [ho] at h
    cases hr : ob.ref with
    | none => simp only [hr] at h; cases h; rfl
    | some a =>
      simp only [hr] at h
      change M.bind (getBlk a) _ s = _ at h
      unfold M.bind getBlk at h
      cases hb : s.blk a with
      | none => rw [hb] at h; cases h
      | some b => rw [hb] at h; cases h; rfl

theorem bind_def {α β : Type} (m : M T α) (f : α → M T β) (s : St T) : (m >>= f) s = M.bind m f s := rfl

theorem stop_bind {α β : Type} {m : M T α} {f : α → M T β} (h : m s = .ub) : (m >>= f) s = .ub := by
  rw [bind_def]; unfold M.bind; rw [h]

theorem get_blk {a : Nat} {b : Block T} (h : s.blk a = some b) : getBlk a s = .ok b s := by unfold getBlk; rw [h]

theorem stop_getBlk {a : Nat} (h : s.blk a = none) : getBlk a s = .ub := by unfold getBlk; rw [h]

/-- Two programs that start alike and go on alike. -/
theorem bind_same {α β : Type} {m : M T α} {f g : α → M T β} (h : ∀ a s', m s = .ok a s' → f a s' = g a s') :
    (m >>= f) s = (m >>= g) s := by
  rw [bind_def, bind_def]
  unfold M.bind
  cases hm : m s with
  | ok a s' => exact h a s' hm
  | throw e s' => rfl
  | ub => rfl

theorem cowDebug_shared {o n : Nat} (h : isShared o s = .ok true s) : cowDebug cfg o n s = cow cfg o n s := by
  unfold cowDebug
  rw [bind_ok h]
  rfl

end

/-- **C111** The assertion of copy-on-write (`assert(isShared())`) never fails as long as no other thread runs: in any state
whatever, `AboutToModify`, through which all modifying calls go, is the same with it and without it. -/
theorem c111_cow (cfg : Cfg T) (o n : Nat) : aboutToModifyDebug cfg o n = aboutToModify cfg o n := by
  funext s
  unfold aboutToModifyDebug aboutToModify
  refine bind_same fun ob s1 _ => bind_same fun _ s2 _ => bind_same fun x s3 h => ?_
  cases x with
  | false => rfl
  | true =>
    cases isShared_state h
    exact cowDebug_shared h

/-- What has just been written is read back. -/
theorem written_nul [DecidableEq T] {s s' : St T} {o : Nat} {xs : List T} {nul : T}
    (h : writeRange o 0 (xs ++ [nul]) s = .ok () s') : readRange o xs.length 1 s' = .ok [nul] s' := by
  unfold writeRange at h
  rw [bind_def] at h
  unfold M.bind getObj at h
  cases ho : s.obj o with
  | none => rw [ho] at h; cases h
  | some ob =>
    rw [ho] at h
    simp only [List.isEmpty_iff, List.append_eq_nil_iff, List.cons_ne_self, and_false, ↓reduceIte] at h
    cases hr : ob.ref with
    | none => simp only [hr] at h; cases h
    | some a =>
      simp only [hr] at h
      change M.bind (getBlk a) _ s = _ at h
      unfold M.bind getBlk at h
      cases hb : s.blk a with
      | none => rw [hb] at h; cases h
      | some b =>
        rw [hb] at h
        simp only [Nat.add_zero] at h
        split at h
        next hle =>
          cases h
          simp only [List.length_append, List.length_singleton] at hle
          have ha : (s.setBlk a (some { b with cells := overwrite b.cells ob.offset (xs ++ [nul]) })).blk a =
              some { b with cells := overwrite b.cells ob.offset (xs ++ [nul]) } := St.blk_setBlk_self _ (St.blk_lt hb)
          unfold readRange
          rw [bind_ok (getObj_eq (by exact ho))]
          simp only [Nat.one_ne_zero, ↓reduceIte, hr]
          rw [bind_ok (get_blk ha)]
          simp only
          rw [if_pos (by rw [overwrite_length (by simp; omega)]; omega)]
          have := window_overwrite_self (cells := b.cells) (vs := xs ++ [nul]) (i := ob.offset) (by simp; omega)
          have e : window (overwrite b.cells ob.offset (xs ++ [nul])) (ob.offset + xs.length) 1 = [nul] := by
            have e2 := window_window (cells := overwrite b.cells ob.offset (xs ++ [nul])) (i := ob.offset)
              (n := (xs ++ [nul]).length) (k := xs.length) (m := 1) (by simp)
            rw [this] at e2
            rw [← e2]
            simp [window]
          rw [e]
          rfl
        next => cases h

/-- **C111** … nor do those at the end of `String(const char*)`, `operator=(std::string)` and in `c_str()`, in any state. -/
theorem c111_terminated [DecidableEq T] (cfg : Cfg T) (nul : T) (o : Nat) (xs : List T) :
    cstrCtorDebug cfg nul xs = cstrCtor cfg nul xs ∧ assignStdDebug cfg nul o xs = assignStd cfg nul o xs ∧
      cStrDebug cfg nul o = cStr cfg nul o := by
  refine ⟨?_, ?_, ?_⟩
  · funext s
    unfold cstrCtorDebug cstrCtor
    refine bind_same fun o s1 _ => ?_
    split
    · rfl
    refine bind_same fun ob s2 _ => bind_same fun _ s3 _ => bind_same fun _ s4 _ => bind_same fun _ s5 h => ?_
    rw [bind_ok (written_nul h)]
    simp only [decide_true]
    rfl
  · funext s
    unfold assignStdDebug assignStd
    refine bind_same fun _ s1 _ => bind_same fun _ s2 _ => bind_same fun ob s3 _ => bind_same fun _ s4 _ => ?_
    rw [bind_def]
    unfold M.bind
    cases h : writeRange o 0 (xs ++ [nul]) s4 with
    | throw e s5 => rfl
    | ub => rfl
    | ok _ s5 =>
      simp only
      rw [bind_ok (written_nul h)]
      simp only [decide_true]
      rfl
  · funext s
    unfold cStrDebug cStr
    refine bind_same fun ob s1 h1 => ?_
    have hs : s1 = s ∧ s.obj o = some ob := by
      unfold getObj at h1
      cases ho : s.obj o with
      | none => rw [ho] at h1; cases h1
      | some x => rw [ho] at h1; cases h1; exact ⟨rfl, rfl⟩
    obtain ⟨rfl, ho⟩ := hs
    split
    · rfl
    next hne =>
    have hpos : decide (ob.sublen > 0) = true := by simp; omega
    simp only [hpos]
    cases hr : ob.ref with
    | none =>
      have hu : readRange o ob.sublen 1 s1 = .ub := by
        unfold readRange
        rw [bind_ok (getObj_eq ho)]
        simp only [Nat.one_ne_zero, ↓reduceIte, hr]
        rfl
      have hc : capacity o s1 = .ok 0 s1 := by
        unfold capacity
        rw [bind_ok (getObj_eq ho)]
        simp only [hr]
        rfl
      rw [stop_bind hu, bind_ok hc]
      simp only [check]
      split
      · show (readRange o ob.sublen 1 >>= _) s1 = _
        exact stop_bind hu
      · rfl
    | some a =>
      cases hb : s1.blk a with
      | none =>
        have hu : readRange o ob.sublen 1 s1 = .ub := by
          unfold readRange
          rw [bind_ok (getObj_eq ho)]
          simp only [Nat.one_ne_zero, ↓reduceIte, hr]
          exact stop_bind (stop_getBlk hb)
        have hc : capacity o s1 = .ub := by
          unfold capacity
          rw [bind_ok (getObj_eq ho)]
          simp only [hr]
          exact stop_bind (stop_getBlk hb)
        rw [stop_bind hu, stop_bind hc]
      | some b =>
        have hc : capacity o s1 = .ok b.cells.length s1 := by
          unfold capacity
          rw [bind_ok (getObj_eq ho)]
          simp only [hr]
          rw [bind_ok (get_blk hb)]
          rfl
        rw [bind_ok hc]
        by_cases hcap : ob.offset + ob.sublen + 1 ≤ b.cells.length
        · have hrd : readRange o ob.sublen 1 s1 = .ok (window b.cells (ob.offset + ob.sublen) 1) s1 := by
            unfold readRange
            rw [bind_ok (getObj_eq ho)]
            simp only [Nat.one_ne_zero, ↓reduceIte, hr]
            rw [bind_ok (get_blk hb)]
            rw [if_pos hcap]
            rfl
          have hd : decide (b.cells.length ≠ 0 ∨ ob.offset ≠ 0) = true := decide_eq_true (by omega)
          rw [hd]
          show (readRange o ob.sublen 1 >>= _) s1 = _
          rw [bind_ok hrd, bind_ok hrd]
          split
          · rfl
          next ht =>
          rw [bind_ok hrd]
          have : decide (window b.cells (ob.offset + ob.sublen) 1 = [nul]) = true := by
            simpa using ht
          rw [this]
          rfl
        · have hu : readRange o ob.sublen 1 s1 = .ub := by
            unfold readRange
            rw [bind_ok (getObj_eq ho)]
            simp only [Nat.one_ne_zero, ↓reduceIte, hr]
            rw [bind_ok (get_blk hb)]
            rw [if_neg hcap]
            rfl
          rw [stop_bind hu]
          simp only [check]
          split
          · show (readRange o ob.sublen 1 >>= _) s1 = _
            exact stop_bind hu
          · rfl

/-! ## Taking elements out -/

theorem length_of {s : St T} {o : Nat} {ob : Obj} (ho : s.obj o = some ob) : length o s = .ok ob.sublen s := by
  unfold length
  rw [bind_ok (getObj_eq ho)]
  rfl

/-- Writing elements does not change the members of an object. -/
theorem writeRange_obj {s s' : St T} {o i : Nat} {xs : List T} {x : Unit} (h : writeRange o i xs s = .ok x s') : s'.obj o = s.obj o := by
  unfold writeRange at h
  rw [bind_def] at h
  unfold M.bind getObj at h
  cases ho : s.obj o with
  | none => rw [ho] at h; cases h
  | some ob =>
    rw [ho] at h
    simp only at h
    split at h
    · cases h; exact ho
    · cases hr : ob.ref with
      | none => simp only [hr] at h; cases h
      | some a =>
        simp only [hr] at h
        rw [bind_def] at h
        unfold M.bind getBlk at h
        cases hb : s.blk a with
        | none => rw [hb] at h; cases h
        | some b =>
          rw [hb] at h
          simp only at h
          split at h
          · cases h; exact ho
          · cases h

theorem readRange_idle {s s' : St T} {o i n : Nat} {xs : List T} (h : readRange o i n s = .ok xs s') : s' = s := by
  have := readRange_same o i n s
  rw [h] at this
  exact this

/-- **C111** From an object that is not empty, `pop_back()`, `shift()` and `pop()` take an element as they do without
assertions … -/
theorem c111_take (cfg : Cfg T) {s : St T} {o : Nat} {ob : Obj} (ho : s.obj o = some ob) (hn : ob.sublen ≠ 0) :
    popBackDebug o s = popBack o s ∧ shiftDebug cfg o s = shift cfg o s ∧ popDebug cfg o s = pop cfg o s := by
  have hpb : ∀ s' : St T, s'.obj o = some ob → popBackDebug o s' = popBack o s' := by
    intro s' h
    unfold popBackDebug
    rw [bind_ok (length_of h), decide_eq_true hn]
    rfl
  refine ⟨hpb s ho, ?_, ?_⟩
  · unfold shiftDebug
    rw [bind_ok (length_of ho), decide_eq_true hn]
    rfl
  · unfold popDebug
    rw [bind_ok (length_of ho), decide_eq_true hn]
    show (getObj o >>= _) s = _
    unfold pop
    rw [bind_ok (getObj_eq ho), bind_ok (getObj_eq ho)]
    refine bind_same fun xs s1 h1 => ?_
    cases readRange_idle h1
    refine bind_same fun sh s2 h2 => ?_
    cases isShared_state h2
    cases sh with
    | true =>
      show (popBackDebug o >>= _) s = (popBack o >>= _) s
      rw [bind_def, bind_def]
      unfold M.bind
      rw [hpb s ho]
    | false =>
      refine bind_same fun _ s3 h3 => ?_
      show (popBackDebug o >>= _) s3 = (popBack o >>= _) s3
      rw [bind_def, bind_def]
      unfold M.bind
      rw [hpb s3 ((writeRange_obj h3).trans ho)]

/-- **C111** … and from an empty one they end the program. -/
theorem c111_take_empty (cfg : Cfg T) {s : St T} {o : Nat} {ob : Obj} (ho : s.obj o = some ob) (hn : ob.sublen = 0) :
    popBackDebug o s = .ub ∧ shiftDebug cfg o s = .ub ∧ popDebug cfg o s = .ub := by
  unfold popBackDebug shiftDebug popDebug
  rw [bind_ok (length_of ho), bind_ok (length_of ho), bind_ok (length_of ho), decide_eq_false (fun h => h hn)]
  exact ⟨rfl, rfl, rfl⟩

theorem length_has {s : St T} {env : Env T} (h : Agrees s env) {o : Nat} {v : List T} (ho : env o = .val v) :
    ∃ ob, s.obj o = some ob ∧ ob.sublen = v.length := by
  have := h o
  rw [ho] at this
  have hl := this.1
  unfold length at hl
  rw [bind_def] at hl
  unfold M.bind getObj at hl
  cases hob : s.obj o with
  | none => rw [hob] at hl; cases hl
  | some ob =>
    rw [hob] at hl
    refine ⟨ob, rfl, ?_⟩
    have hl : (Res.ok ob.sublen s : Res T Nat) = .ok v.length s := hl
    injection hl

/-- A call that takes no element from an empty object does the same with assertions as without. -/
theorem runDebug_eq [DecidableEq T] {s : St T} {op : Op T}
    (htake : ∀ o, op = .popBack o ∨ op = .shift o ∨ op = .pop o → ∃ ob, s.obj o = some ob ∧ ob.sublen ≠ 0) :
    runDebug cfg op s = run cfg op s := by
  cases op with
  | cstrCtor xs =>
    simp only [runDebug, run]
    cases cfg.nul with
    | none => rfl
    | some c => simp only [(c111_terminated cfg c 0 xs).1]
  | assignStd o xs =>
    simp only [runDebug, run]
    cases cfg.nul with
    | none => rfl
    | some c => simp only [(c111_terminated cfg c o xs).2.1]
  | cStr o =>
    simp only [runDebug, run]
    cases cfg.nul with
    | none => rfl
    | some c => simp only [(c111_terminated cfg c o []).2.2]
  | popBack o =>
    obtain ⟨ob, h1, h2⟩ := htake o (by simp)
    show M.bind (popBackDebug o) _ s = M.bind (popBack o) _ s
    unfold M.bind
    rw [(c111_take cfg h1 h2).1]
  | shift o =>
    obtain ⟨ob, h1, h2⟩ := htake o (by simp)
    show M.bind (shiftDebug cfg o) _ s = M.bind (shift cfg o) _ s
    unfold M.bind
    rw [(c111_take cfg h1 h2).2.1]
  | pop o =>
    obtain ⟨ob, h1, h2⟩ := htake o (by simp)
    show M.bind (popDebug cfg o) _ s = M.bind (pop cfg o) _ s
    unfold M.bind
    rw [(c111_take cfg h1 h2).2.2]
  | _ => rfl

theorem reach_take [DecidableEq T] {s : St T} {env : Env T} (h : Reach cfg s env) {o : Nat} (ho : env.Has o ∧ env.get o ≠ []) :
    ∃ ob, s.obj o = some ob ∧ ob.sublen ≠ 0 := by
  have hA : Agrees s env := by
    cases h with
    | init => intro o; rfl
    | step _ _ _ _ h => exact h
  obtain ⟨⟨v, hv⟩, hne⟩ := ho
  obtain ⟨ob, h1, h2⟩ := length_has hA hv
  unfold Env.get at hne
  rw [hv] at hne
  refine ⟨ob, h1, ?_⟩
  rw [h2]
  exact fun h0 => hne (List.eq_nil_of_length_eq_zero h0)

/-- **C111** In every state that calls within their contracts can produce, a further call within its contract has the same result
and leaves the same state with assertions as without.  Partial: what other threads can do is in `C111Threads.lean`; temporaries that
share storage are `c69_shared_aborts` and `c82_refuted_shared`. -/
theorem c111_calls_partial [DecidableEq T] {s : St T} {env : Env T} (h : Reach cfg s env) {op : Op T}
    (hpre : Pre cfg (shared s) env op) : runDebug cfg op s = run cfg op s := by
  refine runDebug_eq fun o ho => ?_
  rcases ho with rfl | rfl | rfl <;> exact reach_take h hpre

-- Non-vacuity: arrays `1 2 3 4 5` and its subarray `2 3 4`, which share storage; the last element of the second is popped.
example : runDebug arrCfg (.pop 1) stA = run arrCfg (.pop 1) stA ∧ ∃ s', run arrCfg (.pop 1) stA = .ok (.elem (some 4)) s' :=
  ⟨c111_calls_partial reachA ⟨⟨_, rfl⟩, by decide⟩, _, rfl⟩

/-- **C111** On an empty object `pop_back()` ends the program where without assertions it leaves an object that says it has
`2^64 - 1` elements. -/
theorem c111_empty [DecidableEq T] {s : St T} {env : Env T} (h : Reach cfg s env) {o : Nat} (ho : env o = .val []) :
    runDebug cfg (.popBack o) s = .ub ∧ runDebug cfg (.shift o) s = .ub ∧ runDebug cfg (.pop o) s = .ub ∧
      ∃ s', run cfg (.popBack o) s = .ok .unit s' ∧ length o s' = .ok 18446744073709551615 s' := by
  have hA : Agrees s env := by
    cases h with
    | init => intro o; rfl
    | step _ _ _ _ h => exact h
  obtain ⟨ob, h1, h2⟩ := length_has hA ho
  obtain ⟨e1, e2, e3⟩ := c111_take_empty cfg h1 h2
  refine ⟨?_, ?_, ?_, ?_⟩
  · show M.bind (popBackDebug o) _ s = _
    unfold M.bind; rw [e1]
  · show M.bind (shiftDebug cfg o) _ s = _
    unfold M.bind; rw [e2]
  · show M.bind (popDebug cfg o) _ s = _
    unfold M.bind; rw [e3]
  · refine ⟨s.setObj o (some { ob with sublen := sub64 ob.sublen 1, hash := 0 }), ?_, ?_⟩
    · show M.bind (popBack o) _ s = _
      unfold M.bind popBack
      rw [bind_ok (getObj_eq h1)]
      rfl
    · rw [length_of (St.obj_setObj_self _ (St.obj_lt h1)), h2]
      rfl

-- Non-vacuity: an array that has just been constructed.
example : ∃ s env, Reach arrCfg s env ∧ env 0 = .val [] :=
  ⟨_, _, Reach.next arrCfg_valid arrCfg_physical (.init) (op := .ctor) (x := .obj 0) trivial rfl (fun h => h) ⟨0, rfl, rfl, rfl⟩, rfl⟩

end Bdlib.Rca
