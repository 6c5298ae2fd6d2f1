import Verif.Rca.CounterAgree
import Verif.Rca.Witness
import Verif.Props.C02
import Verif.Props.C59All

/-!
# C89: the reference counter is an `int`

`Rca32.run` is the code with the counter as it is, a 32-bit `int` that wraps (`Rca/Counter.lean`).
-/

namespace Bdlib.Rca
open Bdlib Bdlib.Spec

variable {T : Type} [DecidableEq T] {cfg : Cfg T}

/-- Fewer than `2^31 - 1` objects share any one buffer. -/
def FewSharers (s : St T) : Prop := ∀ o a, storage s o = some a → (sharers s o).length < 2147483647

theorem FewSharers.within (hv : cfg.Valid) (hp : cfg.Physical) {s : St T} {env : Env T} (h : Reach cfg s env)
    (hf : FewSharers s) : Rca32.Within 2147483646 s := by
  intro a b hb
  obtain ⟨hwf, _, _⟩ := h.inv hv hp
  obtain ⟨h1, h2⟩ := hwf.refs a b hb
  obtain ⟨o, ho⟩ := (c02_storage_iff_owner hv hp h a).mp ⟨b, hb⟩
  have := hf o a ho
  unfold sharers at this
  rw [ho, ← owners_eq] at this
  omega

/-- It is enough that the program has not made that many objects. -/
theorem fewSharers_of_objects {s : St T} (h : s.objs.length < 2147483647) : FewSharers s := by
  intro o a _
  unfold sharers
  have := List.length_filter_le (fun p => decide (storage s p = storage s o)) (List.range s.objs.length)
  rw [List.length_range] at this
  omega

/-- **C89** In every state a program can reach in which fewer than `2^31 - 1` objects share one buffer, every call, in contract or
not, does exactly what it would do with counters that never wrap.

Partial: only so few sharers; see `c89_refuted_write` and `c89_refuted_destroy`. -/
theorem c89_call_partial (hv : cfg.Valid) (hp : cfg.Physical) {s : St T} {env : Env T} (h : Reach cfg s env)
    (hf : FewSharers s) (op : Op T) : Rca32.run cfg op s = run cfg op s :=
  (Rca32.agree_run op 2147483646 s trivial (hf.within hv hp h) (by omega) (by omega) (by omega)).1

/-- Histories of the code as it is, with so few sharers before each call. -/
inductive Reach32 (cfg : Cfg T) : St T → Env T → Prop
  | init : Reach32 cfg {} Env.empty
  | step {s s' : St T} {env env' : Env T} {op : Op T} {out : Outcome T} : Reach32 cfg s env → FewSharers s →
      Pre cfg (shared s) env op → result (Rca32.run cfg op s) = some (out, s') →
      Post cfg (shared s) env op out env' → Agrees s' env' → Reach32 cfg s' env'

/-- Such histories are histories of the model used for the other properties, so these hold of them. -/
theorem Reach32.reach (hv : cfg.Valid) (hp : cfg.Physical) {s : St T} {env : Env T} (h : Reach32 cfg s env) : Reach cfg s env := by
  induction h with
  | init => exact .init
  | step _ hf hpre hrun hpost hag ih =>
    rw [c89_call_partial hv hp ih hf] at hrun
    exact .step ih hpre hrun hpost hag

/-- **C89** Histories of any length: each call in contract is defined, does what the specification of values says, and what the
objects show agrees with it.

Partial: as above. -/
theorem c89_history_partial (hv : cfg.Valid) (hp : cfg.Physical) {s : St T} {env : Env T} (h : Reach32 cfg s env)
    (hf : FewSharers s) {op : Op T} (hpre : Pre cfg (shared s) env op) :
    ∃ out s' env', result (Rca32.run cfg op s) = some (out, s') ∧ Post cfg (shared s) env op out env' ∧ Agrees s' env' ∧
      Reach32 cfg s' env' := by
  obtain ⟨out, s', env', h1, h2, h3⟩ := (h.reach hv hp).call hv hp hpre
  rw [← c89_call_partial hv hp (h.reach hv hp) hf] at h1
  exact ⟨out, s', env', h1, h2, h3.agrees hv hp, .step h hf hpre h1 h2 (h3.agrees hv hp)⟩

example : FewSharers stA := fewSharers_of_objects (by decide)

/-- Two objects on one buffer; one of them is appended to. -/
example : ∃ s' env', Rca32.run arrCfg (.append 1 7) stA = .ok .unit s' ∧ Reach32 arrCfg s' env' ∧ env' 0 = .val [1, 2, 3, 4, 5] ∧
    env' 1 = .val [2, 3, 4, 7] := by
  have h1 : Reach32 arrCfg ((exec arrCfg {} [.listCtor [1, 2, 3, 4, 5]]).getD {}) (Env.empty.upd 0 (.val [1, 2, 3, 4, 5])) := by
    have hr : Reach arrCfg ((exec arrCfg {} [.listCtor [1, 2, 3, 4, 5]]).getD {}) (Env.empty.upd 0 (.val [1, 2, 3, 4, 5])) :=
      Reach.next arrCfg_valid arrCfg_physical (.init) (op := .listCtor [1, 2, 3, 4, 5]) (x := .obj 0) rfl rfl (fun h => h)
        (Or.inl ⟨0, rfl, rfl, rfl⟩)
    exact .step (op := .listCtor [1, 2, 3, 4, 5]) (out := .ret (.obj 0)) .init (fewSharers_of_objects (by decide)) rfl rfl
      (Or.inl ⟨0, rfl, rfl, rfl⟩) (hr.agrees arrCfg_valid arrCfg_physical)
  have h2 : Reach32 arrCfg stA envA :=
    .step (op := .substring 0 1 3) (out := .ret (.obj 1)) h1 (fewSharers_of_objects (by decide)) ⟨⟨_, rfl⟩, by decide⟩ rfl
      ⟨1, rfl, rfl, rfl⟩ (reachA.agrees arrCfg_valid arrCfg_physical)
  have h3 := Reach.next arrCfg_valid arrCfg_physical reachA (op := .append 1 7) (x := .unit) ⟨_, rfl⟩ rfl (fun h => h)
      (Or.inl ⟨rfl, rfl⟩)
  exact ⟨_, envA.upd 1 (.val [2, 3, 4, 7]), rfl, .step (op := .append 1 7) (out := .ret .unit) h2 (fewSharers_of_objects (by decide))
    ⟨_, rfl⟩ rfl (Or.inl ⟨rfl, rfl⟩) (h3.agrees arrCfg_valid arrCfg_physical), rfl, rfl⟩

/-! ## More sharers -/

/-- `n` copies of `o` are made. -/
def copies32 (o : Nat) : Nat → M T Unit
  | 0 => pure ()
  | n + 1 => do copies32 o n; let _ ← Rca32.copyCtor o; pure ()

/-- The state after `n` copies. -/
def afterCopies (s : St T) (ob : Obj) (a : Nat) (b : Block T) (n : Nat) : St T :=
  ({ s with objs := s.objs ++ List.replicate n (some ob) } : St T).setBlk a (some { b with refs := Rca32.wrap32 (b.refs + n) })

theorem obj_old {s : St T} {ob : Obj} {a : Nat} {b : Block T} {n o : Nat} {x : Obj} (h : s.obj o = some x) :
    (afterCopies s ob a b n).obj o = some x := by
  have hl := St.obj_lt h
  unfold St.obj at h ⊢
  show ((s.objs ++ List.replicate n (some ob))[o]?).join = _
  rw [List.getElem?_append_left hl]
  exact h

theorem obj_copy {s : St T} {ob : Obj} {a : Nat} {b : Block T} {n p : Nat} (h1 : s.objs.length ≤ p) (h2 : p < s.objs.length + n) :
    (afterCopies s ob a b n).obj p = some ob := by
  unfold St.obj
  show ((s.objs ++ List.replicate n (some ob))[p]?).join = _
  rw [List.getElem?_append_right h1, List.getElem?_replicate, if_pos (by omega)]
  rfl

theorem blk_after {s : St T} {ob : Obj} {a : Nat} {b : Block T} {n : Nat} (h : s.blk a = some b) :
    (afterCopies s ob a b n).blk a = some { b with refs := Rca32.wrap32 (b.refs + n) } :=
  St.blk_setBlk_self _ (show a < s.heap.length from St.blk_lt h)

theorem copies32_eq {s : St T} {o a : Nat} {ob : Obj} {b : Block T} (ho : s.obj o = some ob) (hr : ob.ref = some a)
    (hb : s.blk a = some b) (h1 : b.refs = 1) : ∀ n, copies32 o n s = .ok () (afterCopies s ob a b n)
  | 0 => by
    have : afterCopies s ob a b 0 = s := by
      have hw : Rca32.wrap32 (b.refs + (0 : Nat)) = b.refs := by rw [h1]; rfl
      have e : ({ b with refs := b.refs } : Block T) = b := rfl
      unfold afterCopies
      rw [hw, e]
      show ({ s with objs := s.objs ++ [], heap := s.heap.set a (some b) } : St T) = s
      have hs : s.heap.set a (some b) = s.heap := by
        have hl := St.blk_lt hb
        unfold St.blk at hb
        apply List.ext_getElem?
        intro i
        rw [List.getElem?_set]
        split
        · next e =>
          subst e
          rw [List.getElem?_eq_getElem hl] at hb ⊢
          exact (congrArg some (show s.heap[a] = some b from hb)).symm
        · rfl
      rw [hs, List.append_nil]
    rw [this]
    rfl
  | n + 1 => by
    show (copies32 o n >>= _) s = _
    rw [bind_ok (copies32_eq ho hr hb h1 n)]
    unfold Rca32.copyCtor
    show ((getObj o >>= _) >>= _) _ = _
    rw [bind_assoc', bind_ok (getObj_eq (obj_old ho)), bind_assoc']
    rw [bind_ok (m := newObj ob) rfl, bind_assoc', hr]
    unfold Rca32.incRef
    dsimp only
    rw [bind_assoc', bind_ok (getBlk_eq (b := { b with refs := Rca32.wrap32 (b.refs + n) }) ?_)]
    · rw [bind_ok (m := putBlk a _) rfl]
      show Res.ok () _ = Res.ok () _
      congr 1
      unfold afterCopies St.setBlk
      dsimp only
      congr 1
      · rw [List.set_set]
        congr 3
        rw [h1]
        unfold Rca32.wrap32
        omega
      · rw [List.append_assoc, List.replicate_succ']
    · exact blk_after (ob := ob) hb

/-- The only owner of its storage, in terms of the machine. -/
theorem alone_parts (hv : cfg.Valid) (hp : cfg.Physical) {s : St T} {env : Env T} (h : Reach cfg s env) {o : Nat} {v : List T}
    (ho : env o = .val v) {i : Nat} (hi : i < v.length) (hal : sharers s o = [o]) :
    ∃ ob a b, s.obj o = some ob ∧ ob.ref = some a ∧ s.blk a = some b ∧ b.refs = 1 ∧ ob.sublen = v.length ∧
      ob.offset + v.length ≤ b.cells.length ∧ window b.cells ob.offset v.length = v := by
  obtain ⟨hwf, _, hA⟩ := h.inv hv hp
  have hview : s.view o = some v := by have := hA o; rw [ho] at this; exact this
  unfold St.view at hview
  cases hob : s.obj o with
  | none => rw [hob] at hview; cases hview
  | some ob =>
    rw [hob] at hview
    change s.viewOf ob = some v at hview
    unfold St.viewOf at hview
    cases hr : ob.ref with
    | none =>
      rw [hr] at hview
      dsimp only at hview
      split at hview
      · cases hview; simp at hi
      · cases hview
    | some a =>
      obtain ⟨b, hb, _⟩ := hwf.bounds o ob a hob hr
      rw [hr] at hview
      dsimp only at hview
      rw [hb] at hview
      dsimp only at hview
      split at hview
      · next hle =>
        cases hview
        have hwl : (window b.cells ob.offset ob.sublen).length = ob.sublen := window_len hle
        refine ⟨ob, a, b, rfl, hr, hb, ?_, hwl.symm, by omega, by rw [hwl]⟩
        have hst : storage s o = some a := by simp [storage, hob, hr]
        have := (hwf.refs a b hb).1
        rw [owners_eq] at this
        unfold sharers at hal
        rw [hst] at hal
        rw [hal] at this
        simpa using this
      · cases hview

/-- Reading a cell of the block. -/
theorem read_at {s : St T} {o a i : Nat} {ob : Obj} {b : Block T} (ho : s.obj o = some ob) (hr : ob.ref = some a)
    (hb : s.blk a = some b) (hi : ob.offset + i < b.cells.length) : read o i s = .ok (b.cells[ob.offset + i]?) s := by
  unfold read readRange
  rw [bind_assoc', bind_ok (getObj_eq ho)]
  simp only [Nat.one_ne_zero, if_false]
  rw [hr]
  dsimp only
  rw [bind_assoc', bind_ok (getBlk_eq hb), if_pos (by omega)]
  show Res.ok _ s = Res.ok _ s
  congr 1
  unfold window
  rw [List.head?_take, if_neg (by omega), List.head?_drop]

/-- **C89** (refuted beyond that: writes) Take any object of an array type, alone on its storage, in any state a program can
reach.  Make `2^31 - 1` copies of it, as plain copies.  Then assigning to an element of the object changes all the copies. -/
theorem c89_refuted_write (hv : cfg.Valid) (hp : cfg.Physical) (hn : cfg.nul = none) {s : St T} {env : Env T} (h : Reach cfg s env)
    {o : Nat} {v : List T} (ho : env o = .val v) {i : Nat} (hi : i < v.length) (hal : sharers s o = [o]) (x : T) :
    ∃ s1 s2, copies32 o 2147483647 s = .ok () s1 ∧ Rca32.run cfg (.write o i x) s1 = .ok .unit s2 ∧
      ∀ p, s.objs.length ≤ p → p < s.objs.length + 2147483647 →
        read p i s1 = .ok (v[i]?) s1 ∧ read p i s2 = .ok (some x) s2 := by
  obtain ⟨ob, a, b, hob, hr, hb, h1, hlen, hle, hw⟩ := alone_parts hv hp h ho hi hal
  obtain ⟨ob2, he2⟩ : ∃ ob2 : Obj, ob2 = { ob with hash := 0 } := ⟨_, rfl⟩
  have hr2 : ob2.ref = some a := by rw [he2]; exact hr
  have hoff2 : ob2.offset = ob.offset := by rw [he2]
  have hlen2 : ob2.sublen = ob.sublen := by rw [he2]
  generalize hs1 : afterCopies s ob a b 2147483647 = s1
  refine ⟨s1, (s1.setObj o (some ob2)).setBlk a
      (some { b with refs := Rca32.wrap32 (b.refs + (2147483647 : Nat)), cells := overwrite b.cells (ob.offset + i) [x] }),
    hs1 ▸ copies32_eq hob hr hb h1 _, ?_⟩
  have hob1 : s1.obj o = some ob := hs1 ▸ obj_old hob
  have hb1 : s1.blk a = some { b with refs := Rca32.wrap32 (b.refs + (2147483647 : Nat)) } := hs1 ▸ blk_after hb
  have hol : o < s1.objs.length := St.obj_lt hob1
  have hal1 : a < s1.heap.length := St.blk_lt hb1
  have hwr : Rca32.wrap32 (b.refs + (2147483647 : Nat)) = -2147483648 := by rw [h1]; rfl
  have hob2 : (s1.setObj o (some ob2)).obj o = some ob2 := St.obj_setObj_self _ hol
  have hb2 : (s1.setObj o (some ob2)).blk a = some { b with refs := Rca32.wrap32 (b.refs + (2147483647 : Nat)) } := hb1
  have hcell : b.cells[ob.offset + i]? = v[i]? := by
    rw [← hw]
    unfold window
    rw [List.getElem?_take_of_lt hi, List.getElem?_drop]
  refine ⟨?_, fun p hp1 hp2 => ⟨?_, ?_⟩⟩
  · show (mapOut (Rca32.write cfg o i x) _) s1 = _
    unfold mapOut Rca32.write Rca32.getOwnCopy length
    simp only [bind_assoc']
    rw [bind_ok (getObj_eq hob1), pure_bind']
    unfold Rca32.aboutToModify
    simp only [bind_assoc']
    rw [bind_ok (getObj_eq hob1), ← he2, bind_ok (m := putObj o ob2) rfl]
    have hsh : isShared o (s1.setObj o (some ob2)) = .ok false (s1.setObj o (some ob2)) := by
      unfold isShared
      rw [bind_ok (getObj_eq hob2)]
      rw [hr2]
      dsimp only
      rw [bind_ok (getBlk_eq hb2), hwr]
      rfl
    rw [show (s1.setObj o (some ob2)) = (s1.setObj o (some ob2)) from rfl, bind_ok hsh, if_neg (by decide)]
    have hres : reserve cfg o ob.sublen cfg.scale (s1.setObj o (some ob2)) =
        .ok () (s1.setObj o (some ob2)) := by
      unfold reserve rcaReserve
      rw [hn]
      dsimp only
      rw [bind_ok (getObj_eq hob2)]
      rw [hr2]
      dsimp only
      rw [pure_bind']
      unfold arefReserve
      rw [bind_assoc', bind_ok (getBlk_eq hb2)]
      dsimp only
      rw [hoff2, hlen2, if_neg (by omega), if_neg (by unfold sub64; rw [if_pos (by omega)]; omega), pure_bind',
        bind_ok (getObj_eq hob2), ← hoff2]
      show Res.ok () _ = Res.ok () _
      congr 1
      show ((s1.setObj o _).setObj o _) = _
      unfold St.setObj
      dsimp only
      rw [List.set_set]
    rw [bind_ok hres]
    unfold writeRange
    simp only [bind_assoc']
    rw [bind_ok (getObj_eq hob2), if_neg (by simp), hr2, hoff2]
    dsimp only
    rw [bind_assoc', bind_ok (getBlk_eq hb2), if_pos (by simp only [List.length_singleton]; omega)]
    rfl
  · have := read_at (i := i) (hs1 ▸ obj_copy hp1 hp2 : s1.obj p = some ob) hr hb1 (by dsimp only; omega)
    rw [this]
    dsimp only
    rw [hcell]
  · have hpo : p ≠ o := by have := St.obj_lt hob; omega
    have hp3 : (((s1.setObj o (some ob2)).setBlk a
        (some { b with refs := Rca32.wrap32 (b.refs + (2147483647 : Nat)), cells := overwrite b.cells (ob.offset + i) [x] })) : St T).obj p =
        some ob := by
      show (s1.setObj o (some ob2)).obj p = _
      rw [St.obj_setObj_ne _ hpo]
      exact hs1 ▸ obj_copy hp1 hp2
    have hlo : (overwrite b.cells (ob.offset + i) [x]).length = b.cells.length :=
      overwrite_length (by simp only [List.length_singleton]; omega)
    have := read_at (i := i) hp3 hr (St.blk_setBlk_self _ (show a < s1.heap.length from hal1)) (by dsimp only; omega)
    rw [this]
    dsimp only
    congr 1
    unfold overwrite
    rw [List.append_assoc, List.getElem?_append_right (by simp; omega)]
    simp only [List.length_take]
    rw [show ob.offset + i - min (ob.offset + i) b.cells.length = 0 by omega]
    rfl

/-- **C89** (refuted beyond that: destruction) Make one copy more and destroy any one of them: the storage is released although
`2^31` objects still use it, and reading the original object is undefined. -/
theorem c89_refuted_destroy (hv : cfg.Valid) (hp : cfg.Physical) {s : St T} {env : Env T} (h : Reach cfg s env)
    {o : Nat} {v : List T} (ho : env o = .val v) {i : Nat} (hi : i < v.length) (hal : sharers s o = [o]) {p : Nat}
    (hp1 : s.objs.length ≤ p) (hp2 : p < s.objs.length + 2147483648) :
    ∃ s1 s2, copies32 o 2147483648 s = .ok () s1 ∧ read o i s1 = .ok (v[i]?) s1 ∧
      Rca32.run cfg (.destroy p) s1 = .ok .unit s2 ∧ read o i s2 = .ub := by
  obtain ⟨ob, a, b, hob, hr, hb, h1, hlen, hle, hw⟩ := alone_parts hv hp h ho hi hal
  have hcell : b.cells[ob.offset + i]? = v[i]? := by
    rw [← hw]
    unfold window
    rw [List.getElem?_take_of_lt hi, List.getElem?_drop]
  generalize hs1 : afterCopies s ob a b 2147483648 = s1
  have hob1 : s1.obj o = some ob := hs1 ▸ obj_old hob
  have hobp : s1.obj p = some ob := hs1 ▸ obj_copy hp1 hp2
  have hwr : Rca32.wrap32 (b.refs + (2147483648 : Nat)) = -2147483647 := by rw [h1]; rfl
  have hb1 : s1.blk a = some { b with refs := -2147483647 } := by rw [← hwr]; exact hs1 ▸ blk_after hb
  have hal1 : a < s1.heap.length := St.blk_lt hb1
  have hpo : o ≠ p := by have := St.obj_lt hob; omega
  have hcl : dtorBody cfg p s1 = .ok () s1 := by
    unfold dtorBody
    split
    · unfold cleanse
      rw [bind_ok (getObj_eq hobp), hr]
      dsimp only
      rw [bind_ok (getBlk_eq hb1)]
      rfl
    · rfl
  refine ⟨s1, ({ (s1.setBlk a (some { b with refs := -2147483648 })) with freed := b.cells :: s1.freed } : St T).setBlk a none
      |>.setObj p (some { ob with ref := none }) |>.setObj p none, hs1 ▸ copies32_eq hob hr hb h1 _, ?_, ?_, ?_⟩
  · have := read_at (i := i) hob1 hr hb1 (by dsimp only; omega)
    rw [this]
    dsimp only
    rw [hcell]
  · show (mapOut (Rca32.destroy cfg p) _) s1 = _
    unfold mapOut Rca32.destroy
    simp only [bind_assoc']
    rw [bind_ok hcl]
    unfold Rca32.checkDeallocRef
    simp only [bind_assoc']
    rw [bind_ok (getObj_eq hobp), hr]
    dsimp only
    unfold Rca32.decRef
    dsimp only
    simp only [bind_assoc']
    rw [bind_ok (getBlk_eq hb1)]
    refine (bind_ok (m := putBlk a _) (s' := s1.setBlk a (some { b with refs := -2147483648 })) rfl).trans ?_
    rw [bind_ok (getBlk_eq (b := { b with refs := -2147483648 }) (St.blk_setBlk_self _ hal1))]
    rfl
  · unfold read readRange
    have ho2 : ((({ (s1.setBlk a (some { b with refs := -2147483648 })) with freed := b.cells :: s1.freed } : St T).setBlk a none
      |>.setObj p (some { ob with ref := none }) |>.setObj p none) : St T).obj o = some ob := by
      rw [St.obj_setObj_ne _ hpo, St.obj_setObj_ne _ hpo]
      exact hob1
    rw [bind_assoc', bind_ok (getObj_eq ho2)]
    simp only [Nat.one_ne_zero, if_false]
    rw [hr]
    dsimp only
    rw [bind_assoc']
    have hnone : ((({ (s1.setBlk a (some { b with refs := -2147483648 })) with freed := b.cells :: s1.freed } : St T).setBlk a none
      |>.setObj p (some { ob with ref := none }) |>.setObj p none) : St T).blk a = none := by
      show (({ (s1.setBlk a (some { b with refs := -2147483648 })) with freed := b.cells :: s1.freed } : St T).setBlk a none).blk a = none
      refine St.blk_setBlk_self _ ?_
      show a < (s1.heap.set a _).length
      rw [List.length_set]
      exact hal1
    show M.bind (getBlk a) _ _ = _
    unfold M.bind getBlk
    rw [hnone]

/-- `Array<Nat> a{1, 2, 3, 4, 5}`, copied `2^31 - 1` times; `a[3] = 9` changes each copy. -/
example : ∃ s1 s2, copies32 0 2147483647 ((exec arrCfg {} [.listCtor [1, 2, 3, 4, 5]]).getD {}) = .ok () s1 ∧
    Rca32.run arrCfg (.write 0 3 9) s1 = .ok .unit s2 ∧ read 1 3 s1 = .ok (some 4) s1 ∧ read 1 3 s2 = .ok (some 9) s2 := by
  have hr : Reach arrCfg ((exec arrCfg {} [.listCtor [1, 2, 3, 4, 5]]).getD {}) (Env.empty.upd 0 (.val [1, 2, 3, 4, 5])) :=
    Reach.next arrCfg_valid arrCfg_physical (.init) (op := .listCtor [1, 2, 3, 4, 5]) (x := .obj 0) rfl rfl (fun h => h)
      (Or.inl ⟨0, rfl, rfl, rfl⟩)
  obtain ⟨s1, s2, h1, h2, h3⟩ := c89_refuted_write arrCfg_valid arrCfg_physical rfl hr (o := 0) (v := [1, 2, 3, 4, 5]) rfl
    (i := 3) (by decide) rfl 9
  have h4 := h3 1 (by decide) (by decide)
  exact ⟨s1, s2, h1, h2, h4.1, h4.2⟩

example : ∃ s1 s2, copies32 0 2147483648 ((exec arrCfg {} [.listCtor [1, 2, 3, 4, 5]]).getD {}) = .ok () s1 ∧
    read 0 3 s1 = .ok (some 4) s1 ∧ Rca32.run arrCfg (.destroy 1) s1 = .ok .unit s2 ∧ read 0 3 s2 = .ub := by
  have hr : Reach arrCfg ((exec arrCfg {} [.listCtor [1, 2, 3, 4, 5]]).getD {}) (Env.empty.upd 0 (.val [1, 2, 3, 4, 5])) :=
    Reach.next arrCfg_valid arrCfg_physical (.init) (op := .listCtor [1, 2, 3, 4, 5]) (x := .obj 0) rfl rfl (fun h => h)
      (Or.inl ⟨0, rfl, rfl, rfl⟩)
  exact c89_refuted_destroy arrCfg_valid arrCfg_physical hr (o := 0) (v := [1, 2, 3, 4, 5]) rfl (i := 3) (by decide) rfl (p := 1)
    (by decide) (by decide)

end Bdlib.Rca
