import Verif.Props.C12
import Verif.Props.C19
import Verif.Props.C04
import Verif.Props.C03

/-!
# C12, C19, C04: what exactly happens to objects that share storage

`reserve()` on shared storage, and writing through `front()`, `back()` and `read()`, from every reachable state.  Where an
object's elements are is said by pointers: `ptrTo o i` is the address of element `i`.
-/

namespace Bdlib.Rca
open Bdlib Bdlib.Spec

variable {T : Type} [DecidableEq T] {cfg : Cfg T}

/-! ## Reading off a state -/

omit [DecidableEq T] in
theorem shows_of_cells {s : St T} {o a : Nat} {ob : Obj} {b : Block T} (ho : s.obj o = some ob) (hr : ob.ref = some a)
    (hb : s.blk a = some b) (hle : ob.offset + ob.sublen ≤ b.cells.length) : Shows s o (window b.cells ob.offset ob.sublen) := by
  refine ⟨?_, fun i hi => ?_⟩
  · rw [window_len hle]
    exact bind_ok (getObj_eq ho)
  · rw [window_len hle] at hi
    have h1 : (getBlk a : M T (Block T)) s = .ok b s := by unfold getBlk; rw [hb]
    have : readRange o i 1 s = .ok (window b.cells (ob.offset + i) 1) s := by
      unfold readRange
      rw [bind_ok (getObj_eq ho), hr]
      simp only [Nat.one_ne_zero, if_false]
      rw [bind_ok h1, if_pos (by omega)]
      rfl
    unfold read
    rw [bind_ok this]
    have hx : (window b.cells (ob.offset + i) 1)[0]? = (window b.cells ob.offset ob.sublen)[i]? := by
      rw [getElem?_window, getElem?_window, if_pos hi, if_pos (by omega), Nat.add_zero]
    rw [← hx]
    cases window b.cells (ob.offset + i) 1 <;> rfl

omit [DecidableEq T] in
theorem shows_none {s : St T} {o : Nat} {ob : Obj} (ho : s.obj o = some ob) (h0 : ob.sublen = 0) : Shows s o [] :=
  ⟨(bind_ok (getObj_eq ho)).trans (by rw [h0]; rfl), fun i hi => nomatch hi⟩

omit [DecidableEq T] in
/-- What an object shows depends only on itself and its storage. -/
theorem shows_same {s s' : St T} (hwf : WF cfg s) {p : Nat} {w : List T} (hw : s.view p = some w) (ho : s'.obj p = s.obj p)
    (hb : ∀ a, storage s p = some a → s'.blk a = s.blk a) : Shows s' p w := by
  obtain ⟨ob, hob, hvo, hl⟩ := obj_of_view hw
  cases hr : ob.ref with
  | none =>
    have h0 : ob.sublen = 0 := by
      have := hvo
      unfold St.viewOf at this
      rw [hr] at this
      dsimp only at this
      split at this
      · rename_i h0; exact h0.1
      · cases this
    have : w = [] := List.eq_nil_of_length_eq_zero (by omega)
    subst this
    exact shows_none (ho.trans hob) h0
  | some a =>
    obtain ⟨b, hba, hle⟩ := hwf.le hob hr
    have hvw : w = window b.cells ob.offset ob.sublen := by
      rw [view_eq hob, St.viewOf_some hr hba hle] at hw
      injection hw with hw; exact hw.symm
    rw [hvw]
    refine shows_of_cells (ho.trans hob) hr ?_ hle
    rw [hb a (by unfold storage; rw [hob]; exact hr)]
    exact hba

omit [DecidableEq T] in
/-- The address of an element. -/
theorem ptrTo_run {s : St T} {o a i : Nat} {ob : Obj} {b : Block T} (ho : s.obj o = some ob) (hr : ob.ref = some a)
    (hb : s.blk a = some b) : ptrTo o i s = .ok ⟨a, b.gen, ob.offset + i⟩ s := by
  have h1 : (getBlk a : M T (Block T)) s = .ok b s := by unfold getBlk; rw [hb]
  unfold ptrTo
  rw [bind_ok (getObj_eq ho), hr]
  exact bind_ok h1

/-! ## Writing through `front()`, `back()`, `read()` -/

/-- **C19** Writing through `front()`, `back()` or `read(i)`, from every reachable state: it always succeeds, and every object
that has an element at that address, the receiver or another, has the new value there; all others are as they were. -/
theorem c19_front_exact (hv : cfg.Valid) (hp : cfg.Physical) {s : St T} {env : Env T} (h : Reach cfg s env) {o i : Nat} {v : List T}
    (ho : env o = .val v) (hi : i < v.length) (x : T) : ∃ s', writeThrough o i x s = .ok () s' ∧ Shows s' o (v.set i x) ∧
      ∀ p w, env p = .val w → (∀ j < w.length, ptrTo p j s = ptrTo o i s → Shows s' p (w.set j x)) ∧
        ((∀ j < w.length, ptrTo p j s ≠ ptrTo o i s) → Shows s' p w) := by
  obtain ⟨hwf, -, hA⟩ := h.inv hv hp
  have vw : ∀ {p w}, env p = .val w → s.view p = some w := fun hw => h.view_eq hv hp hw
  obtain ⟨ob, hob, hvo, hl⟩ := obj_of_view (vw ho)
  have href : ∃ a, ob.ref = some a := by
    cases hr : ob.ref with
    | some a => exact ⟨a, rfl⟩
    | none =>
      unfold St.viewOf at hvo
      rw [hr] at hvo
      dsimp only at hvo
      split at hvo
      · omega
      · cases hvo
  obtain ⟨a, hr⟩ := href
  obtain ⟨b, hb, hle⟩ := hwf.le hob hr
  have hgb : (getBlk a : M T (Block T)) s = .ok b s := by unfold getBlk; rw [hb]
  have hrun : writeThrough o i x s = .ok () (s.setBlk a (some { b with cells := overwrite b.cells (ob.offset + i) [x] })) := by
    unfold writeThrough writeRange
    rw [bind_ok (getObj_eq hob), hr]
    simp only [List.isEmpty_cons, Bool.false_eq_true, if_false, List.length_singleton]
    rw [bind_ok hgb, if_pos (by omega)]
    rfl
  have hset : overwrite b.cells (ob.offset + i) [x] = b.cells.set (ob.offset + i) x := by
    have hlt : ob.offset + i < b.cells.length := by omega
    rw [← set_eq_splice hlt]; rfl
  rw [hset] at hrun
  have hblk : (s.setBlk a (some { b with cells := b.cells.set (ob.offset + i) x })).blk a =
      some { b with cells := b.cells.set (ob.offset + i) x } := St.blk_setBlk_self _ (St.blk_lt hb)
  have hptr := ptrTo_run (i := i) hob hr hb
  -- objects with an element there
  have hit : ∀ {p w}, env p = .val w → ∀ j < w.length, ptrTo p j s = ptrTo o i s →
      Shows (s.setBlk a (some { b with cells := b.cells.set (ob.offset + i) x })) p (w.set j x) := by
    intro p w hw j hj hpj
    rw [hptr] at hpj
    obtain ⟨pb, b', hpb, hpr, hb', -, hidx⟩ := ptrTo_inv hpj
    dsimp only at hpr hb' hidx
    rw [hb] at hb'; cases hb'
    obtain ⟨b', hb', hple⟩ := hwf.le hpb hpr
    rw [hb] at hb'; cases hb'
    have hvw : window b.cells pb.offset pb.sublen = w := by
      have := vw hw
      rw [view_eq hpb, St.viewOf_some hpr hb hple] at this
      injection this
    have hw' : w.set j x = window (b.cells.set (ob.offset + i) x) pb.offset pb.sublen := by
      rw [← hvw]
      apply List.ext_getElem?
      intro k
      rw [getElem?_window, List.getElem?_set, getElem?_window, List.getElem?_set, window_len hple]
      have hj' : j < pb.sublen := by rw [← window_len hple, hvw]; exact hj
      by_cases hk : j = k
      · subst hk
        rw [if_pos rfl, if_pos hj', if_pos hj', if_pos (by omega), if_pos (by omega)]
      · rw [if_neg hk]
        split
        · rw [if_neg (by omega)]
        · rfl
    rw [hw']
    refine shows_of_cells (b := { b with cells := b.cells.set (ob.offset + i) x }) hpb hpr hblk ?_
    rw [List.length_set]; exact hple
  refine ⟨_, hrun, hit ho i hi rfl, fun p w hw => ⟨hit hw, fun hno => ?_⟩⟩
  -- objects without
  obtain ⟨pb, hpb, hpv, hpl⟩ := obj_of_view (vw hw)
  by_cases hpr : pb.ref = some a
  · obtain ⟨b', hb', hple⟩ := hwf.le hpb hpr
    rw [hb] at hb'; cases hb'
    have hvw : window b.cells pb.offset pb.sublen = w := by
      have := vw hw
      rw [view_eq hpb, St.viewOf_some hpr hb hple] at this
      injection this
    have hw' : w = window (b.cells.set (ob.offset + i) x) pb.offset pb.sublen := by
      rw [← hvw]
      apply List.ext_getElem?
      intro k
      rw [getElem?_window, getElem?_window, List.getElem?_set]
      split
      · rename_i hk
        rw [if_neg]
        intro he
        refine hno k (by omega) ?_
        rw [hptr, ptrTo_run hpb hpr hb, he]
      · rfl
    rw [hw']
    refine shows_of_cells (b := { b with cells := b.cells.set (ob.offset + i) x }) hpb hpr hblk ?_
    rw [List.length_set]; exact hple
  · refine shows_same hwf (vw hw) rfl fun a' ha' => ?_
    unfold storage at ha'
    rw [hpb] at ha'
    exact St.blk_setBlk_ne _ (fun e => hpr (by rw [← e]; exact ha'))

/-- **C04** `a.hash(); a.front() = x; a.hash()`, from every reachable state: if the first hash is not 0, the second is the same,
whatever was written. -/
theorem c04_front_stale (hv : cfg.Valid) (hp : cfg.Physical) {s s1 : St T} {env : Env T} (h : Reach cfg s env) {o i n : Nat} {v : List T}
    (ho : env o = .val v) (hi : i < v.length) (x : T) (hh : run cfg (.hash o) s = .ok (.hash n) s1) (hn : n ≠ 0) :
    ∃ s2, writeThrough o i x s1 = .ok () s2 ∧ Shows s2 o (v.set i x) ∧ HashIs cfg s2 o n := by
  have h1 : Reach cfg s1 env := by
    obtain ⟨out, s', env', hres, hpost, hr⟩ := h.call hv hp (op := .hash o) (has_val ho)
    rw [hh] at hres
    cases hres
    have : env' = env := hpost.2
    rw [← this]; exact hr
  obtain ⟨s2, hw, hs, -⟩ := c19_front_exact hv hp h1 ho hi x
  refine ⟨s2, hw, hs, s2, ?_⟩
  have hob : ∃ ob, s1.obj o = some ob ∧ ob.hash.toNat = n := by
    have hh : mapOut (hash cfg o) (fun h => Out.hash h.toNat) s = .ok (.hash n) s1 := hh
    unfold mapOut at hh
    change M.bind (hash cfg o) _ s = _ at hh
    unfold M.bind at hh
    cases hx : hash cfg o s with
    | throw e t => rw [hx] at hh; cases hh
    | ub => rw [hx] at hh; cases hh
    | ok y t =>
      rw [hx] at hh
      injection hh with hy ht
      injection hy with hy
      subst ht
      obtain ⟨ob, hob, -, -⟩ := obj_of_view (h.view_eq hv hp ho)
      unfold hash at hx
      rw [bind_ok (getObj_eq hob)] at hx
      split at hx
      · injection hx with hx hs'
        subst hs'
        exact ⟨ob, hob, by rw [hx]; exact hy⟩
      · change M.bind (readRange o 0 ob.sublen) _ s = _ at hx
        unfold M.bind at hx
        cases hrr : readRange o 0 ob.sublen s with
        | throw e t => rw [hrr] at hx; cases hx
        | ub => rw [hrr] at hx; cases hx
        | ok xs t =>
          rw [hrr] at hx
          have ht : t = s := by
            have := readRange_view (Q := fun _ t => t = s) (E := fun _ _ => False) (h.inv hv hp).1 (h.view_eq hv hp ho) (i := 0) (n := ob.sublen)
              (by obtain ⟨ob', hob', -, hl⟩ := obj_of_view (h.view_eq hv hp ho); rw [hob] at hob'; cases hob'; omega) rfl
            rw [hrr] at this
            exact this
          subst ht
          injection hx with hx hs'
          subst hs'
          refine ⟨_, St.obj_setObj_self _ (St.obj_lt hob), ?_⟩
          exact (congrArg UInt64.toNat hx).trans hy
  obtain ⟨ob, hob, hon⟩ := hob
  have hob2 : s2.obj o = some ob := by
    rw [← hob]
    unfold writeThrough writeRange at hw
    rw [bind_ok (getObj_eq hob)] at hw
    simp only [List.isEmpty_cons, Bool.false_eq_true, if_false] at hw
    cases hr : ob.ref with
    | none => rw [hr] at hw; cases hw
    | some a =>
      rw [hr] at hw
      dsimp only at hw
      change M.bind (getBlk a) _ s1 = _ at hw
      unfold M.bind getBlk at hw
      cases hb : s1.blk a with
      | none => rw [hb] at hw; cases hw
      | some b =>
        rw [hb] at hw
        dsimp only at hw
        split at hw
        · cases hw; rfl
        · cases hw
  have hne : ob.hash ≠ 0 := by intro he; rw [he] at hon; exact hn hon.symm
  show mapOut (hash cfg o) (fun h => Out.hash h.toNat) s2 = _
  unfold mapOut
  have : hash cfg o s2 = .ok ob.hash s2 := by
    unfold hash
    rw [bind_ok (getObj_eq hob2), if_pos hne]
    rfl
  rw [bind_ok this]
  show Res.ok (Out.hash ob.hash.toNat) s2 = _
  rw [hon]

/-! ## `reserve()` on shared storage -/

/-- The storage `a` of `o` now has the cells `cells`, `o` starts at `off`; all else is as it was. -/
structure Turned (s s' : St T) (o a off : Nat) (ob : Obj) (cells : List T) : Prop where
  own : s'.obj o = some { ob with offset := off }
  objs : ∀ p, p ≠ o → s'.obj p = s.obj p
  blk : ∃ b', s'.blk a = some b' ∧ b'.cells = cells
  blks : ∀ a', a' ≠ a → s'.blk a' = s.blk a'

omit [DecidableEq T] in
/-- `ReferenceCountedArray::reserve(m)` of an object at place `ob.offset` of storage with the cells `b.cells`, shared or not. -/
theorem rcaReserve_run {s : St T} {o a m : Nat} {ob : Obj} {b : Block T} (ho : s.obj o = some ob) (hr : ob.ref = some a)
    (hb : s.blk a = some b) (hle : ob.offset + ob.sublen ≤ b.cells.length) :
    (b.cells.length < m → rcaReserve cfg o m id s = .throw .badAlloc { s with gen := s.gen + 1 } ∨
      ∃ s' k, rcaReserve cfg o m id s = .ok () s' ∧ b.cells.length < k ∧
        Turned s s' o a 0 ob (window b.cells ob.offset ob.sublen ++ junkFrom cfg (s.gen + 1) ob.sublen k)) ∧
    (m ≤ b.cells.length → b.cells.length < ob.offset + m → ∃ s', rcaReserve cfg o m id s = .ok () s' ∧
      Turned s s' o a 0 ob (overwrite (overwrite b.cells ob.offset ((window b.cells ob.offset ob.sublen).map cfg.moved)) 0
        (window b.cells ob.offset ob.sublen))) ∧
    (ob.offset + m ≤ b.cells.length → rcaReserve cfg o m id s = .ok () s) := by
  have hgb : (getBlk a : M T (Block T)) s = .ok b s := by unfold getBlk; rw [hb]
  have hal := St.blk_lt hb
  have hol := St.obj_lt ho
  have hsub : sub64 b.cells.length ob.offset = b.cells.length - ob.offset := by
    unfold sub64; rw [if_pos (by omega)]
  -- the end of the call
  have fin : ∀ {s1 : St T} {off : Nat}, arefReserve cfg a m id ob.offset ob.sublen s = .ok off s1 → s1.obj o = some ob →
      rcaReserve cfg o m id s = .ok () (s1.setObj o (some { ob with offset := off })) := by
    intro s1 off h1 h2
    unfold rcaReserve
    rw [bind_ok (getObj_eq ho), hr]
    simp only [pure_bind']
    rw [bind_ok h1, bind_ok (getObj_eq h2), ← hr]
    rfl
  have turned : ∀ {s1 : St T} {b1 : Block T} {cells : List T}, s1.obj o = some ob → (∀ p, s1.obj p = s.obj p) →
      (∀ a', s1.blk a' = s.blk a') → s1.heap.length = s.heap.length → b1.cells = cells →
      Turned s ((s1.setBlk a (some b1)).setObj o (some { ob with offset := 0 })) o a 0 ob cells := by
    intro s1 b1 cells h1 h2 h3 h4 h5
    refine ⟨St.obj_setObj_self _ (St.obj_lt (s := s1.setBlk a (some b1)) h1), fun p hp => ?_, ⟨b1, ?_, h5⟩, fun a' ha' => ?_⟩
    · rw [St.obj_setObj_ne _ hp]; exact h2 p
    · rw [St.blk_setObj]; exact St.blk_setBlk_self _ (by rw [h4]; exact hal)
    · rw [St.blk_setObj, St.blk_setBlk_ne _ ha']; exact h3 a'
  refine ⟨fun hlt => ?_, fun hge hlt => ?_, fun hge => ?_⟩
  · by_cases hal : cfg.allocOk (s.gen + 1) (max b.cells.length m) = true
    · right
      have halloc : alloc cfg (max b.cells.length m) s = .ok (s.gen + 1) { s with gen := s.gen + 1 } := by
        unfold alloc; rw [if_pos hal]
      by_cases h0 : b.cells.length = 0
      · have hs0 : ob.sublen = 0 := by omega
        have ha : arefReserve cfg a m id ob.offset ob.sublen s = .ok 0 (({ s with gen := s.gen + 1 } : St T).setBlk a
            (some { b with gen := s.gen + 1, cells := junkFrom cfg (s.gen + 1) 0 (max b.cells.length m) })) := by
          unfold arefReserve
          rw [bind_ok hgb]
          simp only [id_eq]
          rw [if_pos hlt, bind_ok halloc, if_pos h0]
          rfl
        refine ⟨_, max b.cells.length m, fin ha ho, by omega, turned (s1 := { s with gen := s.gen + 1 }) ho (fun _ => rfl) (fun _ => rfl) rfl ?_⟩
        rw [hs0, window_zero]; rfl
      · have ha : arefReserve cfg a m id ob.offset ob.sublen s = .ok 0 (({ s with gen := s.gen + 1, freed := (window b.cells 0 ob.offset ++
              (window b.cells ob.offset ob.sublen).map cfg.moved ++ b.cells.drop (ob.offset + ob.sublen)) :: s.freed } : St T).setBlk a
            (some { b with gen := s.gen + 1, cells := window b.cells ob.offset ob.sublen ++ junkFrom cfg (s.gen + 1) ob.sublen (max b.cells.length m) })) := by
          unfold arefReserve
          rw [bind_ok hgb]
          simp only [id_eq]
          rw [if_pos hlt, bind_ok halloc, if_neg h0, if_pos hle]
          rfl
        exact ⟨_, max b.cells.length m, fin ha ho, by omega, turned (s1 := { s with gen := s.gen + 1, freed := _ :: s.freed }) ho (fun _ => rfl) (fun _ => rfl) rfl rfl⟩
    · left
      have halloc : alloc cfg (max b.cells.length m) s = .throw .badAlloc { s with gen := s.gen + 1 } := by
        unfold alloc; rw [if_neg hal]
      have ha : arefReserve cfg a m id ob.offset ob.sublen s = .throw .badAlloc { s with gen := s.gen + 1 } := by
        unfold arefReserve
        rw [bind_ok hgb]
        simp only [id_eq]
        rw [if_pos hlt]
        exact bind_throw halloc
      unfold rcaReserve
      rw [bind_ok (getObj_eq ho), hr]
      simp only [pure_bind']
      exact bind_throw ha
  · have ha : arefReserve cfg a m id ob.offset ob.sublen s = .ok 0 (s.setBlk a (some { b with cells := (overwrite (overwrite b.cells ob.offset
        ((window b.cells ob.offset ob.sublen).map cfg.moved)) 0 (window b.cells ob.offset ob.sublen)) })) := by
      unfold arefReserve
      rw [bind_ok hgb]
      simp only [id_eq]
      rw [if_neg (by omega), hsub, if_pos (by omega), if_pos hle]
      rfl
    exact ⟨_, fin ha ho, turned ho (fun _ => rfl) (fun _ => rfl) rfl rfl⟩
  · have ha : arefReserve cfg a m id ob.offset ob.sublen s = .ok ob.offset s := by
      unfold arefReserve
      rw [bind_ok hgb]
      simp only [id_eq]
      rw [if_neg (by omega), hsub, if_neg (by omega)]
      rfl
    rw [fin ha ho, setObj_self ho]

omit [DecidableEq T] in
theorem getElem?_overwrite {cells xs : List T} {i k : Nat} (h : i + xs.length ≤ cells.length) :
    (overwrite cells i xs)[k]? = if i ≤ k ∧ k < i + xs.length then xs[k - i]? else cells[k]? := by
  unfold overwrite
  have hl : (cells.take i).length = i := by rw [List.length_take]; omega
  by_cases h1 : k < i
  · rw [if_neg (by omega), List.append_assoc, List.getElem?_append_left (by omega), List.getElem?_take_of_lt h1]
  · by_cases h2 : k < i + xs.length
    · rw [if_pos ⟨by omega, h2⟩, List.append_assoc, List.getElem?_append_right (by omega), hl, List.getElem?_append_left (by omega)]
    · rw [if_neg (by omega), List.getElem?_append_right (by rw [List.length_append]; omega), List.getElem?_drop,
        List.length_append, hl]
      congr 1; omega

omit [DecidableEq T] in
theorem length_overwrite {cells xs : List T} {i : Nat} (h : i + xs.length ≤ cells.length) : (overwrite cells i xs).length = cells.length := by
  unfold overwrite
  rw [List.length_append, List.length_append, List.length_take, List.length_drop]
  omega

/-- As `Turned`, except that the last cell of a String's storage holds a NUL. -/
structure Like (cfg : Cfg T) (s s' : St T) (o a off : Nat) (ob : Obj) (cells : List T) : Prop where
  own : s'.obj o = some { ob with offset := off }
  objs : ∀ p, p ≠ o → s'.obj p = s.obj p
  blk : ∃ b', s'.blk a = some b' ∧ b'.cells.length = cells.length ∧
    ∀ k, (cfg.nul.isSome → k + 1 < cells.length) → b'.cells[k]? = cells[k]?
  blks : ∀ a', a' ≠ a → s'.blk a' = s.blk a'

omit [DecidableEq T] in
theorem reserve_like {s s1 : St T} {o n a off : Nat} {ob : Obj} {cells : List T} (hn : cfg.nul.isSome → n ≠ npos)
    (h1 : rcaReserve cfg o (room cfg n) id s = .ok () s1) (hr : ob.ref = some a) (h0 : cells ≠ []) (ht : Turned s s1 o a off ob cells) :
    ∃ s', reservePub cfg o n s = .ok () s' ∧ Like cfg s s' o a off ob cells := by
  obtain ⟨b1, hb1, hc1⟩ := ht.blk
  unfold reservePub reserve
  rw [if_neg (fun hh => hn hh.1 hh.2)]
  cases hc : cfg.nul with
  | none =>
    have : room cfg n = n := by unfold room; rw [hc]; rfl
    rw [this] at h1
    exact ⟨s1, h1, ht.own, ht.objs, ⟨b1, hb1, by rw [hc1], fun k _ => by rw [hc1]⟩, ht.blks⟩
  | some c =>
    have : room cfg n = if n > 0 then n + 1 else n := by unfold room; rw [hc]; simp
    rw [this] at h1
    have hpos : 0 < cells.length := List.length_pos_iff.mpr h0
    have hgb : (getBlk a : M T (Block T)) s1 = .ok b1 s1 := by unfold getBlk; rw [hb1]
    refine ⟨s1.setBlk a (some { b1 with cells := overwrite b1.cells (b1.cells.length - 1) [c] }), ?_, ht.own, ht.objs,
      ⟨_, St.blk_setBlk_self _ (St.blk_lt hb1), ?_, fun k hk => ?_⟩, fun a' ha' => ?_⟩
    · show strReserve cfg c o n id s = _
      unfold strReserve
      rw [bind_ok h1, bind_ok (getObj_eq ht.own)]
      dsimp only
      rw [hr]
      dsimp only
      rw [bind_ok hgb, if_neg (by rw [hc1]; omega)]
      rfl
    · dsimp only
      rw [length_overwrite (by rw [hc1]; simp; omega), hc1]
    · dsimp only
      have := hk (by rw [hc]; rfl)
      rw [getElem?_overwrite (by rw [hc1]; simp; omega), if_neg (by rw [hc1]; simp; omega), hc1]
    · rw [St.blk_setBlk_ne _ ha']; exact ht.blks a' ha'

omit [DecidableEq T] in
/-- What an object with its elements in that storage shows afterwards. -/
theorem Like.shows {s s' : St T} {o a off : Nat} {ob : Obj} {cells : List T} (h : Like cfg s s' o a off ob cells) {p : Nat} {pb : Obj}
    (hp : s'.obj p = some pb) (hr : pb.ref = some a) (hle : pb.offset + cfg.need pb.sublen ≤ cells.length)
    (hs : cfg.nul.isSome → cfg.slack = 1) : ∃ w', Shows s' p w' ∧ w'.length = pb.sublen ∧
      ∀ m < pb.sublen, w'[m]? = cells[pb.offset + m]? := by
  obtain ⟨b', hb', hl, hk⟩ := h.blk
  have hle' : pb.offset + pb.sublen ≤ b'.cells.length := by have := cfg.le_need pb.sublen; omega
  refine ⟨_, shows_of_cells hp hr hb' hle', window_len hle', fun m hm => ?_⟩
  rw [getElem?_window, if_pos hm]
  refine hk _ fun hsome => ?_
  have : cfg.need pb.sublen = pb.sublen + 1 := by unfold Cfg.need; rw [if_neg (by omega), hs hsome]
  omega

/-- **C12** `reserve(n)` on any storage, shared or not, from every reachable state.  Let the elements of `o` begin at place `q` of
storage for `c` elements, and `R` be what is asked for (one more for a String).

* If `R` elements fit behind `q`, all objects keep their values.
* If they fit in the storage but not behind `q`, the elements of `o` are moved to the front.  Another object with elements in that
  storage has, at place `k`: the element of `o` that was put there, or what moving left of the one that was taken from there, or what it
  had.
* Otherwise the storage grows to hold the elements of `o` at the front, or memory runs out and all objects keep their values.  Another
  object has at place `k` the element of `o` put there, or one never written.

Partial: Strings must not have been made by a constructor that leaves no room for the NUL, and must not ask for `npos`. -/
theorem c12_shared_exact_partial (hv : cfg.Valid) (hp : cfg.Physical) {s : St T} {env : Env T} (h : Reach cfg s env) {o n c R : Nat}
    {v : List T} {q : Ptr} (ho : env o = .val v) (hne : v ≠ []) (hq : ptrTo o 0 s = .ok q s) (hc : capacity o s = .ok c s)
    (hstr : IsStr cfg → cfg.slack = 1 ∧ n ≠ npos) (hR : R = if cfg.nul.isSome ∧ 0 < n then n + 1 else n) :
    (∃ t, run cfg (.reserve o n) s = .throw .badAlloc t ∧ c < R ∧ ∀ p w, env p = .val w → Shows t p w) ∨
    ∃ s', run cfg (.reserve o n) s = .ok .unit s' ∧ Shows s' o v ∧ ∀ p w, p ≠ o → env p = .val w →
      ((∀ q', ptrTo p 0 s = .ok q' s → q'.addr ≠ q.addr) → Shows s' p w) ∧
      ∀ q', ptrTo p 0 s = .ok q' s → q'.addr = q.addr →
        (q.idx + R ≤ c → Shows s' p w) ∧
        (R ≤ c → c < q.idx + R → ∃ w', Shows s' p w' ∧ w'.length = w.length ∧ ∀ m < w.length, w'[m]? =
          if q'.idx + m < v.length then v[q'.idx + m]?
          else if q.idx ≤ q'.idx + m ∧ q'.idx + m < q.idx + v.length then (v[q'.idx + m - q.idx]?).map cfg.moved
          else w[m]?) ∧
        (c < R → ∃ w', Shows s' p w' ∧ w'.length = w.length ∧ ∀ m < w.length, q'.idx + m < v.length → w'[m]? = v[q'.idx + m]?) := by
  obtain ⟨hwf, -, hA⟩ := h.inv hv hp
  have vw : ∀ {p w}, env p = .val w → s.view p = some w := fun hw => h.view_eq hv hp hw
  obtain ⟨ob, b, hob, hr, hb, -, hidx⟩ := ptrTo_inv hq
  rw [Nat.add_zero] at hidx
  obtain ⟨b', hb', hneed⟩ := hwf.bounds _ _ _ hob hr
  rw [hb] at hb'; cases hb'
  have hle : ob.offset + ob.sublen ≤ b.cells.length := by have := cfg.le_need ob.sublen; omega
  have hcc : c = b.cells.length := by
    rw [capacity_run hob hr hb] at hc; injection hc with hc; exact hc.symm
  have hwin : window b.cells ob.offset ob.sublen = v := by
    have := vw ho
    rw [view_eq hob, St.viewOf_some hr hb hle] at this
    injection this
  have hvl : v.length = ob.sublen := by rw [← hwin, window_len hle]
  have hRr : R = room cfg n := hR
  have hvpos : 0 < v.length := List.length_pos_iff.mpr hne
  have hs1 : cfg.nul.isSome → cfg.slack = 1 := fun hh => (hstr hh).1
  have hn1 : cfg.nul.isSome → n ≠ npos := fun hh => (hstr hh).2
  have runOf : ∀ {s' : St T}, reservePub cfg o n s = .ok () s' → run cfg (.reserve o n) s = .ok .unit s' := by
    intro s' hx
    show mapOut (reservePub cfg o n) _ s = _
    unfold mapOut
    rw [bind_ok hx]; rfl
  -- the other objects of the storage
  have other : ∀ {p w q'}, env p = .val w → ptrTo p 0 s = .ok q' s → q'.addr = q.addr → ∃ pb, s.obj p = some pb ∧ pb.ref = some q.addr ∧
      q'.idx = pb.offset ∧ pb.offset + cfg.need pb.sublen ≤ b.cells.length ∧ window b.cells pb.offset pb.sublen = w ∧ w.length = pb.sublen := by
    intro p w q' hw hq' ha
    obtain ⟨pb, b', hpb, hpr, hb', -, hi⟩ := ptrTo_inv hq'
    rw [ha] at hpr hb'
    rw [hb] at hb'; cases hb'
    obtain ⟨b', hb', hpn⟩ := hwf.bounds _ _ _ hpb hpr
    rw [hb] at hb'; cases hb'
    have hple : pb.offset + pb.sublen ≤ b.cells.length := by have := cfg.le_need pb.sublen; omega
    have hvw : window b.cells pb.offset pb.sublen = w := by
      have := vw hw
      rw [view_eq hpb, St.viewOf_some hpr hb hple] at this
      injection this
    exact ⟨pb, hpb, hpr, by omega, hpn, hvw, by rw [← hvw, window_len hple]⟩
  have apart : ∀ {s' : St T} {off : Nat} {cells : List T}, Like cfg s s' o q.addr off ob cells → ∀ {p w}, p ≠ o → env p = .val w →
      (∀ q', ptrTo p 0 s = .ok q' s → q'.addr ≠ q.addr) → Shows s' p w := by
    intro s' off cells hl p w hpo hw hno
    refine shows_same hwf (vw hw) (hl.objs p hpo) fun a' ha' => hl.blks a' fun he => ?_
    subst he
    unfold storage at ha'
    cases hpb : s.obj p with
    | none => rw [hpb] at ha'; cases ha'
    | some pb =>
      rw [hpb] at ha'
      exact hno _ (ptrTo_run hpb ha' hb) rfl
  have mine : ∀ {s' : St T} {off : Nat} {cells : List T}, Like cfg s s' o q.addr off ob cells → off + cfg.need ob.sublen ≤ cells.length →
      (∀ m < v.length, cells[off + m]? = v[m]?) → Shows s' o v := by
    intro s' off cells hl hle hcell
    obtain ⟨w', hw', hwl, hwk⟩ := hl.shows hl.own hr hle hs1
    dsimp only at hwl hwk
    have : w' = v := by
      apply List.ext_getElem?
      intro m
      by_cases hm : m < v.length
      · rw [hwk m (by omega), hcell m hm]
      · rw [List.getElem?_eq_none (by omega), List.getElem?_eq_none (by omega)]
    rw [this] at hw'; exact hw'
  obtain ⟨g1, g2, g3⟩ := rcaReserve_run (cfg := cfg) (m := R) hob hr hb hle
  rw [hwin] at g1 g2
  have hbne : b.cells ≠ [] := by intro he; rw [he] at hle; simp at hle; omega
  by_cases hgrow : c < R
  · rcases g1 (by omega) with ht | ⟨s1, k, h1, hk, ht⟩
    · left
      refine ⟨_, ?_, hgrow, fun p w hw => shows_same hwf (vw hw) (s' := { s with gen := s.gen + 1 }) rfl fun _ _ => rfl⟩
      show mapOut (reservePub cfg o n) _ s = _
      unfold mapOut
      refine bind_throw ?_
      unfold reservePub reserve
      rw [if_neg (fun hh => hn1 hh.1 hh.2)]
      cases hcn : cfg.nul with
      | none =>
        have : room cfg n = n := by unfold room; rw [hcn]; rfl
        rw [hRr, this] at ht
        exact ht
      | some ch =>
        have : room cfg n = if n > 0 then n + 1 else n := by unfold room; rw [hcn]; simp
        rw [hRr, this] at ht
        exact bind_throw ht
    · right
      rw [hRr] at h1
      have hlen : (v ++ junkFrom cfg (s.gen + 1) ob.sublen k).length = k := by
        rw [List.length_append, hvl]; unfold junkFrom; simp; omega
      obtain ⟨s', hrun, hl⟩ := reserve_like hn1 h1 hr (by intro he; rw [he] at hlen; simp at hlen; omega) ht
      refine ⟨s', runOf hrun, mine hl ?_ ?_, fun p w hpo hw => ⟨apart hl hpo hw, fun q' hq' ha => ⟨fun hh => by omega, fun hh => by omega, fun _ => ?_⟩⟩⟩
      · omega
      · intro m hm; rw [Nat.zero_add, List.getElem?_append_left hm]
      · obtain ⟨pb, hpb, hpr, hqi, hpn, -, hwl⟩ := other hw hq' ha
        obtain ⟨w', hw', hwl', hwk⟩ := hl.shows ((hl.objs p hpo).trans hpb) hpr (by omega) hs1
        refine ⟨w', hw', by omega, fun m hm hmv => ?_⟩
        rw [hwk m (by omega), ← hqi, List.getElem?_append_left hmv]
  · right
    by_cases hshift : c < q.idx + R
    · obtain ⟨s1, h1, ht⟩ := g2 (by omega) (by omega)
      rw [hRr] at h1
      have hl1 : (overwrite b.cells ob.offset (v.map cfg.moved)).length = b.cells.length := length_overwrite (by simp; omega)
      have hlen : (overwrite (overwrite b.cells ob.offset (v.map cfg.moved)) 0 v).length = b.cells.length := by
        rw [length_overwrite (by rw [hl1]; omega), hl1]
      have hcell : ∀ k, (overwrite (overwrite b.cells ob.offset (v.map cfg.moved)) 0 v)[k]? = if k < v.length then v[k]?
          else if ob.offset ≤ k ∧ k < ob.offset + v.length then (v[k - ob.offset]?).map cfg.moved else b.cells[k]? := by
        intro k
        rw [getElem?_overwrite (by rw [hl1]; omega), getElem?_overwrite (by simp; omega)]
        simp only [Nat.zero_le, true_and, Nat.zero_add, Nat.sub_zero, List.length_map, List.getElem?_map]
      obtain ⟨s', hrun, hl⟩ := reserve_like hn1 h1 hr (by intro he; rw [he] at hlen; simp at hlen; omega) ht
      refine ⟨s', runOf hrun, mine hl ?_ ?_, fun p w hpo hw => ⟨apart hl hpo hw, fun q' hq' ha => ⟨fun hh => by omega, fun _ _ => ?_, fun hh => by omega⟩⟩⟩
      · omega
      · intro m hm; rw [Nat.zero_add, hcell, if_pos hm]
      · obtain ⟨pb, hpb, hpr, hqi, hpn, hpw, hwl⟩ := other hw hq' ha
        obtain ⟨w', hw', hwl', hwk⟩ := hl.shows ((hl.objs p hpo).trans hpb) hpr (by omega) hs1
        refine ⟨w', hw', by omega, fun m hm => ?_⟩
        rw [hwk m (by omega), hcell, hqi, hidx]
        have : w[m]? = b.cells[pb.offset + m]? := by rw [← hpw, getElem?_window, if_pos (by omega)]
        rw [this]
    · have h1 := g3 (by omega)
      rw [hRr] at h1
      obtain ⟨s', hrun, hl⟩ := reserve_like hn1 h1 hr hbne (ob := ob) ⟨hob, fun _ _ => rfl, ⟨b, hb, rfl⟩, fun _ _ => rfl⟩
      refine ⟨s', runOf hrun, mine hl hneed ?_, fun p w hpo hw => ⟨apart hl hpo hw, fun q' hq' ha => ⟨fun _ => ?_, fun _ hh => by omega, fun hh => by omega⟩⟩⟩
      · intro m hm; rw [← hwin, getElem?_window, if_pos (by omega)]
      · obtain ⟨pb, hpb, hpr, hqi, hpn, hpw, hwl⟩ := other hw hq' ha
        obtain ⟨w', hw', hwl', hwk⟩ := hl.shows ((hl.objs p hpo).trans hpb) hpr hpn hs1
        have : w' = w := by
          apply List.ext_getElem?
          intro m
          by_cases hm : m < w.length
          · rw [hwk m (by omega), ← hpw, getElem?_window, if_pos (by omega)]
          · rw [List.getElem?_eq_none (by omega), List.getElem?_eq_none (by omega)]
        rw [this] at hw'; exact hw'

/-- **C12** `reserve(n)` on shared storage is harmless for the object whose elements come first, if nobody's reach beyond its own: e.g.
for an object that is shared only with copies of itself and with their front parts. -/
theorem c12_copies_partial (hv : cfg.Valid) (hp : cfg.Physical) {s : St T} {env : Env T} (h : Reach cfg s env) {o n c : Nat}
    {v : List T} {q : Ptr} (ho : env o = .val v) (hne : v ≠ []) (hq : ptrTo o 0 s = .ok q s) (hc : capacity o s = .ok c s)
    (hstr : IsStr cfg → cfg.slack = 1 ∧ n ≠ npos) (h0 : q.idx = 0)
    (hin : ∀ p w q', env p = .val w → ptrTo p 0 s = .ok q' s → q'.addr = q.addr → q'.idx + w.length ≤ v.length) :
    ∃ s', (run cfg (.reserve o n) s = .ok .unit s' ∨ run cfg (.reserve o n) s = .throw .badAlloc s') ∧
      ∀ p w, env p = .val w → Shows s' p w := by
  rcases c12_shared_exact_partial hv hp h ho hne hq hc hstr rfl with ⟨t, ht, -, hall⟩ | ⟨s', hrun, hs, hall⟩
  · exact ⟨t, .inr ht, hall⟩
  · refine ⟨s', .inl hrun, fun p w hw => ?_⟩
    by_cases hpo : p = o
    · subst hpo; rw [ho] at hw; cases hw; exact hs
    · obtain ⟨h1, h2⟩ := hall p w hpo hw
      by_cases hq' : ∃ q', ptrTo p 0 s = .ok q' s ∧ q'.addr = q.addr
      · obtain ⟨q', hq', ha⟩ := hq'
        obtain ⟨g1, g2, g3⟩ := h2 q' hq' ha
        by_cases hfit : q.idx + (if cfg.nul.isSome ∧ 0 < n then n + 1 else n) ≤ c
        · exact g1 hfit
        · have hlt := hin p w q' hw hq' ha
          obtain ⟨w', hw', hwl, hwk⟩ := g3 (by omega)
          -- place by place, what was there was `o`'s
          obtain ⟨hwf, -, -⟩ := h.inv hv hp
          obtain ⟨ob, b, hob, hr, hb, -, hidx⟩ := ptrTo_inv hq
          obtain ⟨pb, b', hpb, hpr, hb', -, hi⟩ := ptrTo_inv hq'
          rw [ha] at hpr hb'
          rw [hb] at hb'; cases hb'
          obtain ⟨b', hb', hle⟩ := hwf.le hob hr
          rw [hb] at hb'; cases hb'
          obtain ⟨b', hb', hple⟩ := hwf.le hpb hpr
          rw [hb] at hb'; cases hb'
          have hvw := h.view_eq hv hp hw
          rw [view_eq hpb, St.viewOf_some hpr hb hple] at hvw
          injection hvw with hvw
          have hvv := h.view_eq hv hp ho
          rw [view_eq hob, St.viewOf_some hr hb hle] at hvv
          injection hvv with hvv
          have : w' = w := by
            apply List.ext_getElem?
            intro m
            by_cases hm : m < w.length
            · rw [hwk m hm (by omega), ← hvw, ← hvv, getElem?_window, getElem?_window]
              have l1 : w.length = pb.sublen := by rw [← hvw, window_len hple]
              have l2 : v.length = ob.sublen := by rw [← hvv, window_len hle]
              rw [if_pos (by omega), if_pos (by omega)]
              congr 1; omega
            · rw [List.getElem?_eq_none (by omega), List.getElem?_eq_none (by omega)]
          rw [this] at hw'; exact hw'
      · exact h1 fun q' hx he => hq' ⟨q', hx, he⟩

/-! ## The last cell of a String's storage -/

/-- **C12** A String whose elements end where its storage ends (as the constructors inherited from the array class make them) loses its
last one, to a NUL, by any `reserve(n)` that does not need more room, from every reachable state. -/
theorem c12_refuted_nul_general (hv : cfg.Valid) (hp : cfg.Physical) {s : St T} {env : Env T} (h : Reach cfg s env) {o n c R : Nat} {z : T}
    {v : List T} {q : Ptr} (hz : cfg.nul = some z) (ho : env o = .val v) (hne : v ≠ []) (hq : ptrTo o 0 s = .ok q s)
    (hc : capacity o s = .ok c s) (hend : q.idx + v.length = c) (hn : n ≠ npos) (hR : R = if 0 < n then n + 1 else n)
    (hfit : q.idx + R ≤ c) : ∃ s', run cfg (.reserve o n) s = .ok .unit s' ∧ Shows s' o (v.set (v.length - 1) z) := by
  obtain ⟨hwf, -, -⟩ := h.inv hv hp
  obtain ⟨ob, b, hob, hr, hb, -, hidx⟩ := ptrTo_inv hq
  rw [Nat.add_zero] at hidx
  obtain ⟨b', hb', hle⟩ := hwf.le hob hr
  rw [hb] at hb'; cases hb'
  have hcc : c = b.cells.length := by
    rw [capacity_run hob hr hb] at hc; injection hc with hc; exact hc.symm
  have hwin : window b.cells ob.offset ob.sublen = v := by
    have := h.view_eq hv hp ho
    rw [view_eq hob, St.viewOf_some hr hb hle] at this
    injection this
  have hvl : v.length = ob.sublen := by rw [← hwin, window_len hle]
  have hvpos : 0 < v.length := List.length_pos_iff.mpr hne
  have hgb : (getBlk q.addr : M T (Block T)) s = .ok b s := by unfold getBlk; rw [hb]
  have h1 := (rcaReserve_run (cfg := cfg) (m := R) hob hr hb hle).2.2 (by omega)
  have hrun : reservePub cfg o n s = .ok () (s.setBlk q.addr (some { b with cells := overwrite b.cells (b.cells.length - 1) [z] })) := by
    unfold reservePub reserve
    rw [if_neg (fun hh => hn hh.2), hz]
    show strReserve cfg z o n id s = _
    unfold strReserve
    rw [hR] at h1
    rw [bind_ok h1, bind_ok (getObj_eq hob), hr]
    dsimp only
    rw [bind_ok hgb, if_neg (by omega)]
    rfl
  have hl' : (overwrite b.cells (b.cells.length - 1) [z]).length = b.cells.length := length_overwrite (by simp; omega)
  refine ⟨s.setBlk q.addr (some { b with cells := overwrite b.cells (b.cells.length - 1) [z] }), ?_, ?_⟩
  · show mapOut (reservePub cfg o n) _ s = _
    unfold mapOut
    rw [bind_ok hrun]; rfl
  · have := shows_of_cells (s := s.setBlk q.addr (some { b with cells := overwrite b.cells (b.cells.length - 1) [z] })) hob hr
      (St.blk_setBlk_self _ (St.blk_lt hb)) (by dsimp only; omega)
    dsimp only at this
    have he : v.set (v.length - 1) z = window (overwrite b.cells (b.cells.length - 1) [z]) ob.offset ob.sublen := by
      apply List.ext_getElem?
      intro k
      rw [getElem?_window, List.getElem?_set, getElem?_overwrite (by simp; omega)]
      have hvk : k < ob.sublen → v[k]? = b.cells[ob.offset + k]? := fun hk => by rw [← hwin, getElem?_window, if_pos hk]
      by_cases hk : k < ob.sublen
      · rw [if_pos hk]
        by_cases hlast : v.length - 1 = k
        · rw [if_pos hlast, if_pos (by omega), if_pos (by simp; omega)]
          have : ob.offset + k - (b.cells.length - 1) = 0 := by omega
          rw [this]; rfl
        · rw [if_neg hlast, if_neg (by simp; omega), hvk hk]
      · rw [if_neg hk, if_neg (by omega), List.getElem?_eq_none (by omega)]
    rw [he]; exact this

/-- **C12** `reserve(npos)` of a String, from every reachable state in which it has storage: it returns normally, and the capacity is
what it was. -/
theorem c12_refuted_npos_general (hv : cfg.Valid) (hp : cfg.Physical) {s : St T} {env : Env T} (h : Reach cfg s env) {o c : Nat}
    {v : List T} (hstr : IsStr cfg) (ho : env o = .val v) (hne : v ≠ [])
    (hc : capacity o s = .ok c s) : ∃ s', run cfg (.reserve o npos) s = .ok .unit s' ∧ capacity o s' = .ok c s' := by
  obtain ⟨hwf, -, -⟩ := h.inv hv hp
  obtain ⟨ob, hob, hvo, hl⟩ := obj_of_view (h.view_eq hv hp ho)
  have hvpos : 0 < v.length := List.length_pos_iff.mpr hne
  cases hr : ob.ref with
  | none =>
    unfold St.viewOf at hvo
    rw [hr] at hvo
    dsimp only at hvo
    split at hvo
    · omega
    · cases hvo
  | some a =>
    obtain ⟨b, hb, hle⟩ := hwf.le hob hr
    have hcc : c = b.cells.length := by
      rw [capacity_run hob hr hb] at hc; injection hc with hc; exact hc.symm
    have h1 := (rcaReserve_run (cfg := cfg) (m := room cfg 0) hob hr hb hle).2.2 (by
      have : room cfg 0 = 0 := by unfold room; split <;> omega
      omega)
    obtain ⟨s', hrun, hl⟩ := reserve_like (n := 0) (fun _ => by decide) h1 hr (cells := b.cells) (off := ob.offset)
      (by intro he; rw [he] at hle; simp at hle; omega) ⟨hob, fun _ _ => rfl, ⟨b, hb, rfl⟩, fun _ _ => rfl⟩
    refine ⟨s', ?_, ?_⟩
    · show mapOut (reservePub cfg o npos) _ s = _
      have : reservePub cfg o npos s = reservePub cfg o 0 s := by
        unfold reservePub
        rw [if_pos ⟨hstr, rfl⟩]
        split <;> rfl
      unfold mapOut
      rw [bind_ok (this.trans hrun)]; rfl
    · obtain ⟨b', hb', hlen, -⟩ := hl.blk
      rw [capacity_run hl.own hr hb', hlen, hcc]

/-- **C03**, **C17** `c_str()` of a String whose elements end where its storage ends reads behind that storage, from every reachable
state. -/
theorem c17_refuted_end (hv : cfg.Valid) (hp : cfg.Physical) {s : St T} {env : Env T} (h : Reach cfg s env) {o c : Nat}
    {v : List T} {q : Ptr} (ho : env o = .val v) (hne : v ≠ []) (hq : ptrTo o 0 s = .ok q s)
    (hc : capacity o s = .ok c s) (hend : q.idx + v.length = c) : run cfg (.cStr o) s = .ub := by
  obtain ⟨hwf, -, -⟩ := h.inv hv hp
  obtain ⟨ob, b, hob, hr, hb, -, hidx⟩ := ptrTo_inv hq
  rw [Nat.add_zero] at hidx
  obtain ⟨b', hb', hle⟩ := hwf.le hob hr
  rw [hb] at hb'; cases hb'
  have hcc : c = b.cells.length := by
    rw [capacity_run hob hr hb] at hc; injection hc with hc; exact hc.symm
  have hwin : window b.cells ob.offset ob.sublen = v := by
    have := h.view_eq hv hp ho
    rw [view_eq hob, St.viewOf_some hr hb hle] at this
    injection this
  have hvl : v.length = ob.sublen := by rw [← hwin, window_len hle]
  have hvpos : 0 < v.length := List.length_pos_iff.mpr hne
  have hgb : (getBlk q.addr : M T (Block T)) s = .ok b s := by unfold getBlk; rw [hb]
  show (match cfg.nul with | some c => mapOut (cStr cfg c o) .bytes | none => M.undef) s = .ub
  cases cfg.nul with
  | none => rfl
  | some z =>
    have hrd : readRange o ob.sublen 1 s = .ub := by
      unfold readRange
      rw [bind_ok (getObj_eq hob), hr]
      simp only [Nat.one_ne_zero, if_false]
      rw [bind_ok hgb, if_neg (by omega)]
      rfl
    have : cStr cfg z o s = .ub := by
      unfold cStr
      rw [bind_ok (getObj_eq hob), if_neg (by omega)]
      show M.bind (readRange o ob.sublen 1) _ s = _
      unfold M.bind
      rw [hrd]
    show M.bind (cStr cfg z o) _ s = _
    unfold M.bind
    rw [this]

omit [DecidableEq T] in
theorem sizeCtor_exact {s s' : St T} {n o : Nat} (hn : n ≠ 0) (h : sizeCtor cfg n s = .ok o s') : ∃ a b,
    s'.obj o = some { ref := some a } ∧ s'.blk a = some b ∧ b.cells.length = n := by
  unfold sizeCtor at h
  change M.bind (M.onThrow (if n ≠ 0 then _ else _) (destroy cfg.base s.objs.length)) (fun _ => pure s.objs.length)
    { s with objs := s.objs ++ [some {}] } = _ at h
  rw [if_pos hn] at h
  change M.bind (M.onThrow (reservePub cfg.base s.objs.length n) (destroy cfg.base s.objs.length)) (fun _ => pure s.objs.length)
    { s with objs := s.objs ++ [some {}] } = _ at h
  have hobj : ({ s with objs := s.objs ++ [some {}] } : St T).obj s.objs.length = some {} := by unfold St.obj; simp
  generalize ({ s with objs := s.objs ++ [some {}] } : St T) = t at hobj h
  generalize s.objs.length = o at hobj h
  have hlt := St.obj_lt hobj
  have key : (reservePub cfg.base o n t).Sat (fun _ s' => ∃ a b, s'.obj o = some { ref := some a } ∧ s'.blk a = some b ∧ b.cells.length = n)
      (fun _ _ => True) := by
    have hn' : cfg.base.nul = none := rfl
    unfold reservePub reserve
    rw [hn']
    show (rcaReserve cfg.base o n id t).Sat _ _
    unfold rcaReserve
    rw [bind_ok (getObj_eq hobj)]
    show ((newRef cfg.base >>= fun a => putObj o { ref := some a } >>= fun _ => (arefReserve cfg.base a n id 0 0 >>= fun off =>
      getObj o >>= fun ob => putObj o { ob with offset := off })) t).Sat _ _
    by_cases ha1 : cfg.allocOk (t.gen + 1) 1 = true
    · have h1 : newRef cfg.base t = .ok t.heap.length
          { t with gen := t.gen + 1, heap := t.heap ++ [some { gen := 0, cells := [], refs := 1 }] } := by
        unfold newRef
        have : alloc cfg.base 1 t = .ok (t.gen + 1) { t with gen := t.gen + 1 } := by unfold alloc; exact if_pos ha1
        exact (bind_ok this).trans rfl
      have hb : ({ t with gen := t.gen + 1, heap := t.heap ++ [some { gen := 0, cells := [], refs := 1 }] } : St T).blk t.heap.length =
          some { gen := 0, cells := [], refs := 1 } := by unfold St.blk; simp
      have hobj2 : ({ t with gen := t.gen + 1, heap := t.heap ++ [some { gen := 0, cells := [], refs := 1 }] } : St T).obj o = some {} := hobj
      generalize ({ t with gen := t.gen + 1, heap := t.heap ++ [some { gen := 0, cells := [], refs := 1 }] } : St T) = u at h1 hb hobj2
      generalize t.heap.length = a at h1 hb
      rw [bind_ok h1, bind_ok (show putObj o { ref := some a } u = .ok () (u.setObj o (some { ref := some a })) from rfl)]
      have ho3 : (u.setObj o (some { ref := some a })).obj o = some { ref := some a } := St.obj_setObj_self _ (St.obj_lt hobj2)
      have hb3 : (u.setObj o (some { ref := some a })).blk a = some { gen := 0, cells := [], refs := 1 } := hb
      generalize u.setObj o (some { ref := some a }) = u3 at ho3 hb3 ⊢
      have hgb : (getBlk a : M T (Block T)) u3 = .ok { gen := 0, cells := [], refs := 1 } u3 := by unfold getBlk; rw [hb3]
      have hpos : 0 < n := Nat.pos_of_ne_zero hn
      have hmax : max 0 n = n := by omega
      by_cases ha2 : cfg.allocOk (u3.gen + 1) n = true
      · have h3 : arefReserve cfg.base a n id 0 0 u3 = .ok 0 (({ u3 with gen := u3.gen + 1 } : St T).setBlk a
            (some { gen := u3.gen + 1, cells := junkFrom cfg.base (u3.gen + 1) 0 n, refs := 1 })) := by
          unfold arefReserve
          rw [bind_ok hgb]
          have : alloc cfg.base n u3 = .ok (u3.gen + 1) { u3 with gen := u3.gen + 1 } := by unfold alloc; exact if_pos ha2
          show (if 0 < n then _ else _ : M T Nat) u3 = _
          rw [if_pos hpos]
          show (alloc cfg.base (max 0 n) >>= _) u3 = _
          rw [hmax, bind_ok this]
          rfl
        rw [bind_ok h3]
        have ho4 : (({ u3 with gen := u3.gen + 1 } : St T).setBlk a
            (some { gen := u3.gen + 1, cells := junkFrom cfg.base (u3.gen + 1) 0 n, refs := 1 })).obj o = some { ref := some a } := ho3
        rw [bind_ok (getObj_eq ho4)]
        refine ⟨a, { gen := u3.gen + 1, cells := junkFrom cfg.base (u3.gen + 1) 0 n, refs := 1 }, St.obj_setObj_self _ (St.obj_lt ho4), ?_, ?_⟩
        · rw [St.blk_setObj]; exact St.blk_setBlk_self _ (St.blk_lt hb3)
        · unfold junkFrom; simp
      · have h3 : arefReserve cfg.base a n id 0 0 u3 = .throw .badAlloc { u3 with gen := u3.gen + 1 } := by
          unfold arefReserve
          rw [bind_ok hgb]
          have : alloc cfg.base n u3 = .throw .badAlloc { u3 with gen := u3.gen + 1 } := by unfold alloc; exact if_neg ha2
          show (if 0 < n then _ else _ : M T Nat) u3 = _
          rw [if_pos hpos]
          show (alloc cfg.base (max 0 n) >>= _) u3 = _
          rw [hmax]
          exact bind_throw this
        rw [bind_throw h3]
        trivial
    · have h1 : newRef cfg.base t = .throw .badAlloc { t with gen := t.gen + 1 } := by
        unfold newRef
        have : alloc cfg.base 1 t = .throw .badAlloc { t with gen := t.gen + 1 } := by unfold alloc; exact if_neg ha1
        exact bind_throw this
      rw [bind_throw h1]
      trivial
  unfold M.bind M.onThrow at h
  cases hk : reservePub cfg.base o n t with
  | ok x t' =>
    rw [hk] at key h
    cases h
    exact key
  | ub => rw [hk] at h; cases h
  | throw e t' =>
    rw [hk] at h
    dsimp only at h
    cases hd : destroy cfg.base o t' with
    | ok x t2 => rw [hd] at h; cases h
    | ub => rw [hd] at h; cases h
    | throw e t2 => rw [hd] at h; cases h

/-- **C03**, **C17** Such Strings are made by the constructor from an initializer list, whatever the list: its storage has room for the
elements only. -/
theorem c17_list_exact {s s' : St T} {xs : List T} {o : Nat}
    (hne : xs ≠ []) (hr : run cfg (.listCtor xs) s = .ok (.obj o) s') : capacity o s' = .ok xs.length s' ∧
      ∃ q, ptrTo o 0 s' = .ok q s' ∧ q.idx = 0 := by
  have hr : mapOut (listCtor cfg xs) Out.obj s = .ok (.obj o) s' := hr
  unfold mapOut at hr
  change M.bind (listCtor cfg xs) _ s = _ at hr
  unfold M.bind at hr
  cases hx : listCtor cfg xs s with
  | throw e t => rw [hx] at hr; cases hr
  | ub => rw [hx] at hr; cases hr
  | ok y t =>
    rw [hx] at hr
    cases hr
    unfold listCtor at hx
    change M.bind (sizeCtor cfg xs.length) _ s = _ at hx
    unfold M.bind at hx
    have hlen : xs.length ≠ 0 := fun e => hne (List.length_eq_zero_iff.mp e)
    cases hz : sizeCtor cfg xs.length s with
    | throw e t => rw [hz] at hx; cases hx
    | ub => rw [hz] at hx; cases hx
    | ok y u =>
      rw [hz] at hx
      obtain ⟨a, b, ho, hb, hbl⟩ := sizeCtor_exact hlen hz
      have hgb : (getBlk a : M T (Block T)) u = .ok b u := by unfold getBlk; rw [hb]
      have hw : writeRange y 0 xs u = .ok () (u.setBlk a (some { b with cells := overwrite b.cells 0 xs })) := by
        unfold writeRange
        rw [bind_ok (getObj_eq ho)]
        have : xs.isEmpty = false := by cases xs; exact absurd rfl hne; rfl
        rw [this]
        simp only [Bool.false_eq_true, if_false]
        rw [bind_ok hgb, if_pos (by omega)]
        rfl
      have ho2 : (u.setBlk a (some { b with cells := overwrite b.cells 0 xs })).obj y = some { ref := some a } := ho
      have hb2 : (u.setBlk a (some { b with cells := overwrite b.cells 0 xs })).blk a = some { b with cells := overwrite b.cells 0 xs } :=
        St.blk_setBlk_self _ (St.blk_lt hb)
      have hl2 : (overwrite b.cells 0 xs).length = xs.length := by rw [length_overwrite (by omega), hbl]
      generalize u.setBlk a (some { b with cells := overwrite b.cells 0 xs }) = u2 at hw ho2 hb2
      have hbody : (do writeRange y 0 xs
                       let ob ← getObj y
                       putObj y { ob with sublen := xs.length } : M T Unit) u = .ok () (u2.setObj y (some { ref := some a, sublen := xs.length })) := by
        rw [bind_ok hw, bind_ok (getObj_eq ho2)]
        rfl
      change M.bind (M.onThrow _ _) _ u = _ at hx
      unfold M.bind M.onThrow at hx
      rw [hbody] at hx
      cases hx
      have ho3 : (u2.setObj o (some { ref := some a, sublen := xs.length })).obj o = some { ref := some a, sublen := xs.length } :=
        St.obj_setObj_self _ (St.obj_lt ho2)
      have hb3 : (u2.setObj o (some { ref := some a, sublen := xs.length })).blk a = some { b with cells := overwrite b.cells 0 xs } := hb2
      refine ⟨?_, _, ptrTo_run ho3 rfl hb3, rfl⟩
      rw [capacity_run ho3 rfl hb3]
      dsimp only
      rw [hl2]

/-- **C03**, **C17** `String s({…}); s.c_str()` is undefined for every non-empty list, in every reachable state. -/
theorem c17_refuted_list (hv : cfg.Valid) (hp : cfg.Physical) {s s' : St T} {env : Env T} (h : Reach cfg s env) {xs : List T} {o : Nat}
    (hne : xs ≠ []) (hs : cfg.slack = 0) (hr : run cfg (.listCtor xs) s = .ok (.obj o) s') : run cfg (.cStr o) s' = .ub := by
  obtain ⟨h1, q, hq, hi⟩ := c17_list_exact hne hr
  obtain ⟨out, t, env', hres, hpost, hreach⟩ := h.call hv hp (op := .listCtor xs) hs
  rw [hr] at hres
  cases hres
  have ho : env' o = .val xs := by
    rcases hpost with ⟨o', -, ho', he⟩ | ⟨hx, -⟩
    · cases ho'; rw [he]; simp [Env.upd]
    · cases hx
  exact c17_refuted_end hv hp hreach ho hne hq h1 (by omega)

/-! ## Examples -/

/-- `a = {1,2,3,4,5}`, `b = a(1, 3)`: `b.front() = 9` changes `a` as well. -/
example : ∃ s', writeThrough 1 0 9 stA = .ok () s' ∧ Shows s' 1 [9, 3, 4] ∧ Shows s' 0 [1, 9, 3, 4, 5] := by
  obtain ⟨s', h1, h2, h3⟩ := c19_front_exact arrCfg_valid arrCfg_physical reachA (o := 1) (i := 0) (v := [2, 3, 4]) rfl (by decide) 9
  exact ⟨s', h1, h2, (h3 0 _ rfl).1 1 (by decide) rfl⟩

/-- Its hash is then the old one. -/
example : ∃ n s1 s2, run arrCfg (.hash 1) stA = .ok (.hash n) s1 ∧ writeThrough 1 0 9 s1 = .ok () s2 ∧ Shows s2 1 [9, 3, 4] ∧
    HashIs arrCfg s2 1 n := by
  obtain ⟨s2, h1, h2, h3⟩ := c04_front_stale arrCfg_valid arrCfg_physical reachA (o := 1) (i := 0) (v := [2, 3, 4]) rfl (by decide) 9 rfl
    (by decide)
  exact ⟨_, _, s2, rfl, h1, h2, h3⟩

/-- `b.reserve(5)` moves `b` to the front: `a` becomes `{2,3,4,4,5}` if moving leaves elements as they are. -/
example : ∃ q, ptrTo 1 0 stA = .ok q stA ∧ q.idx = 1 ∧ capacity 1 stA = .ok 5 stA ∧
    ∃ s', run arrCfg (.reserve 1 5) stA = .ok .unit s' ∧ Shows s' 1 [2, 3, 4] := by
  refine ⟨_, rfl, rfl, rfl, ?_⟩
  rcases c12_shared_exact_partial arrCfg_valid arrCfg_physical reachA (o := 1) (n := 5) (v := [2, 3, 4]) rfl (by decide) rfl rfl
    (fun h => nomatch h) rfl with ⟨t, -, hlt, -⟩ | ⟨s', h1, h2, -⟩
  · exact absurd hlt (by decide)
  · exact ⟨s', h1, h2⟩

/-- `a.reserve(100)` changes no value: `b` lies within `a`. -/
example : ∃ s', (run arrCfg (.reserve 0 100) stA = .ok .unit s' ∨ run arrCfg (.reserve 0 100) stA = .throw .badAlloc s') ∧ Shows s' 1 [2, 3, 4] := by
  obtain ⟨s', h1, h2⟩ := c12_copies_partial arrCfg_valid arrCfg_physical reachA (o := 0) (n := 100) (v := [1, 2, 3, 4, 5]) rfl (by decide) rfl rfl
    (fun h => nomatch h) rfl (by
      intro p w q' hw hq' ha
      match p with
      | 0 => cases hw; cases hq'; decide
      | 1 => cases hw; cases hq'; decide
      | p + 2 => cases hw)
  exact ⟨s', h1, h2 1 _ rfl⟩

example : ∃ s', run strCfg0 (.reserve 0 1) stF = .ok .unit s' ∧ Shows s' 0 [120, 0] :=
  c12_refuted_nul_general strCfg0_valid strCfg0_physical reachF (R := 2) rfl (v := [120, 120]) rfl (by decide) rfl rfl rfl (by decide) rfl (by decide)

example : ∃ s', run strCfg (.reserve 0 npos) stAbc = .ok .unit s' ∧ capacity 0 s' = .ok 4 s' :=
  c12_refuted_npos_general strCfg_valid strCfg_physical reachAbc rfl (v := [1, 2, 3]) rfl (by decide) rfl

example : run strCfg0 (.cStr 0) stF = .ub :=
  c17_refuted_end strCfg0_valid strCfg0_physical reachF (v := [120, 120]) rfl (by decide) rfl rfl rfl

example : ∃ s', run strCfg0 (.listCtor [97]) {} = .ok (.obj 0) s' ∧ run strCfg0 (.cStr 0) s' = .ub :=
  ⟨_, rfl, c17_refuted_list strCfg0_valid strCfg0_physical .init (xs := [97]) (by decide) rfl rfl⟩

end Bdlib.Rca
