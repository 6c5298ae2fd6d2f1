import Verif.Nest.Play

/-!
# `shift()` and `pop()` on an `Array` that is about to go away

The overloads for expiring arrays (`Array.h` 118-122, 135-139), on values and on arrays of strings.  They move the
element out of the buffer without asking whether the buffer is shared (only a debug build asserts that), and leave
length, offset and cached hash of the array alone.
-/

namespace Bdlib.Rca
open Bdlib

variable {T : Type}

/-- `std::move(a).shift()` (`Array.h` 118-122); the asserts are off. -/
def shiftMove (cfg : Cfg T) (o : Nat) : M T (Option T) := do
  let xs ← readRange o 0 1
  writeRange o 0 (xs.map cfg.moved)
  return xs.head?

/-- `std::move(a).pop()` (`Array.h` 135-139); the asserts are off. -/
def popMove (cfg : Cfg T) (o : Nat) : M T (Option T) := do
  let ob ← getObj o
  let xs ← readRange o (sub64 ob.sublen 1) 1
  writeRange o (sub64 ob.sublen 1) (xs.map cfg.moved)
  return xs.head?

end Bdlib.Rca

namespace Bdlib.Nest
open Bdlib Bdlib.Spec Bdlib.Rca
open P (strs arrs undef)

variable {c : Conf} {w : World} {α : Type}

/-- The element is moved out, shared or not. -/
def takeMove (c : Conf) (o i : Nat) : P Nat := do
  let h ← cell o i
  newMove c h

/-- `std::move(a).shift()` (`Array.h` 118-122). -/
def shiftMove (c : Conf) (o : Nat) : P Nat := takeMove c o 0

/-- `std::move(a).pop()` (`Array.h` 135-139). -/
def popMove (c : Conf) (o : Nat) : P Nat := do
  let ob ← arrs (getObj o)
  takeMove c o (sub64 ob.sublen 1)

/-- `String t(f().shift());` where `f()` returned array `o`: it is destroyed at the end of the statement. -/
def shiftTemp (c : Conf) (o : Nat) : P Nat := do
  let t ← shiftMove c o
  destroy c o
  return t

/-- `String t(f().pop());` -/
def popTemp (c : Conf) (o : Nat) : P Nat := do
  let t ← popMove c o
  destroy c o
  return t

/-! ## They are `shift()` and `pop()` if the buffer is not shared -/

theorem strs_at {m : M UInt8 α} (S : St UInt8) (A : St Nat) :
    strs m ⟨S, A⟩ = match m S with
      | .ok a s => .ok a ⟨s, A⟩
      | .throw e s => .throw e ⟨s, A⟩
      | .ub => .ub := rfl

/-- Destroying strings does not look at the arrays. -/
theorem deletes_at : ∀ (hs : List Nat) (S : St UInt8),
    (∃ S', ∀ A, deletes c hs ⟨S, A⟩ = .ok () ⟨S', A⟩) ∨ (∃ e S', ∀ A, deletes c hs ⟨S, A⟩ = .throw e ⟨S', A⟩) ∨
      ∀ A, deletes c hs ⟨S, A⟩ = .ub
  | [], S => .inl ⟨S, fun _ => rfl⟩
  | h :: hs, S => by
    have hd : ∀ A, deletes c (h :: hs) ⟨S, A⟩ = P.bind (delete c h) (fun _ => deletes c hs) ⟨S, A⟩ := fun _ => rfl
    cases hm : Rca.destroy c.str h S with
    | ub => exact .inr (.inr fun A => by rw [hd]; unfold P.bind delete; rw [strs_at, hm])
    | throw e s => exact .inr (.inl ⟨e, s, fun A => by rw [hd]; unfold P.bind delete; rw [strs_at, hm]⟩)
    | ok a s =>
      have hd' : ∀ A, deletes c (h :: hs) ⟨S, A⟩ = deletes c hs ⟨s, A⟩ := fun A => by
        rw [hd]; unfold P.bind delete; rw [strs_at, hm]
      rcases deletes_at hs s with ⟨S', h'⟩ | ⟨e, S', h'⟩ | h'
      · exact .inl ⟨S', fun A => by rw [hd', h']⟩
      · exact .inr (.inl ⟨e, S', fun A => by rw [hd', h']⟩)
      · exact .inr (.inr fun A => by rw [hd', h'])

theorem setObj_setObj {T : Type} (A : St T) (o : Nat) (x y : Option Obj) : (A.setObj o x).setObj o y = A.setObj o y := by
  unfold St.setObj
  simp

theorem arrs_at {m : M Nat α} (S : St UInt8) (A : St Nat) :
    arrs m ⟨S, A⟩ = match m A with
      | .ok a s => .ok a ⟨S, s⟩
      | .throw e s => .throw e ⟨S, s⟩
      | .ub => .ub := rfl

/-- The destructor in one piece. -/
def destroyAll (c : Conf) (o : Nat) (S : St UInt8) (A : St Nat) (r : Option Nat) : Res Unit :=
  match r with
  | none => .ok () ⟨S, A.setObj o none⟩
  | some a =>
    match A.blk a with
    | none => .ub
    | some b =>
      let A' := A.setBlk a (some { b with refs := b.refs - 1 })
      if b.refs - 1 < 1 then
        match deletes c b.cells ⟨S, A'⟩ with
        | .ok _ w => .ok () ⟨w.strs, ({ w.arrs with freed := b.cells :: w.arrs.freed }.setBlk a none).setObj o none⟩
        | .throw e w => .throw e w
        | .ub => .ub
      else .ok () ⟨S, A'.setObj o none⟩

theorem pbind_ub {β : Type} {m : P α} {f : α → P β} {w : World} (h : m w = .ub) : (m >>= f) w = .ub := by
  show P.bind m f w = _
  unfold P.bind
  rw [h]

theorem destroy_eq {S : St UInt8} {A : St Nat} {o : Nat} {ob : Obj} (ho : A.obj o = some ob) :
    destroy c o ⟨S, A⟩ = destroyAll c o S A ob.ref := by
  have e1 : arrs (getObj o) ⟨S, A⟩ = .ok ob ⟨S, A⟩ := by rw [arrs_at]; unfold getObj; rw [ho]
  unfold destroy destroyAll
  cases hrr : ob.ref with
  | none =>
    refine (pbind_ok (a := ()) (w' := ⟨S, A⟩) ?_).trans rfl
    unfold checkDeallocRef
    rw [pbind_ok e1]
    simp only [hrr]
    rfl
  | some a =>
    cases hB : A.blk a with
    | none =>
      simp only [hB]
      refine pbind_ub ?_
      unfold checkDeallocRef
      rw [pbind_ok e1]
      simp only [hrr]
      refine pbind_ub ?_
      have : Rca.decRef (some a) A = .ub := bind_ub (by unfold getBlk; rw [hB])
      rw [arrs_at, this]
    | some b =>
      have g0 : arrs (Rca.decRef (some a)) ⟨S, A⟩ = .ok () ⟨S, A.setBlk a (some { b with refs := b.refs - 1 })⟩ := by
        have : Rca.decRef (some a) A = .ok () (A.setBlk a (some { b with refs := b.refs - 1 })) :=
          (bind_ok (a := b) (s' := A) (by unfold getBlk; rw [hB])).trans rfl
        rw [arrs_at, this]
      have g1 : arrs (getBlk a) ⟨S, A.setBlk a (some { b with refs := b.refs - 1 })⟩ =
          .ok { b with refs := b.refs - 1 } ⟨S, A.setBlk a (some { b with refs := b.refs - 1 })⟩ := by
        rw [arrs_at]
        unfold getBlk; rw [St.blk_setBlk_self _ (St.blk_lt hB)]
      by_cases hz : b.refs - 1 < 1
      · cases hd : deletes c b.cells ⟨S, A.setBlk a (some { b with refs := b.refs - 1 })⟩ with
        | ub =>
          simp only [hB, hz, if_true, hd]
          refine pbind_ub ?_
          unfold checkDeallocRef
          rw [pbind_ok e1]
          simp only [hrr]
          rw [pbind_ok g0, pbind_ok g1, if_pos hz, pbind_ub hd]
        | throw e w =>
          simp only [hB, hz, if_true, hd]
          refine pbind_throw ?_
          unfold checkDeallocRef
          rw [pbind_ok e1]
          simp only [hrr]
          rw [pbind_ok g0, pbind_ok g1, if_pos hz, pbind_throw hd]
        | ok x w =>
          cases w with
          | mk S' A' =>
          simp only [hB, hz, if_true, hd]
          refine (pbind_ok (a := ()) (w' := ⟨S', ({ A' with freed := b.cells :: A'.freed }.setBlk a none).setObj o
            (some { ob with ref := none })⟩) ?_).trans ?_
          · unfold checkDeallocRef
            rw [pbind_ok e1]
            simp only [hrr]
            rw [pbind_ok g0, pbind_ok g1, if_pos hz, pbind_ok hd]
            rfl
          · show Res.ok () _ = _
            rw [setObj_setObj]
      · simp only [hB, hz, if_false]
        refine (pbind_ok (a := ()) (w' := ⟨S, A.setBlk a (some { b with refs := b.refs - 1 })⟩) ?_).trans rfl
        unfold checkDeallocRef
        rw [pbind_ok e1]
        simp only [hrr]
        rw [pbind_ok g0, pbind_ok g1, if_neg hz]
        rfl

/-- Destroying an array does not look at its window, unless it throws. -/
theorem destroy_window {S : St UInt8} {A : St Nat} {o : Nat} {ob ob' : Obj} (ho : A.obj o = some ob) (hr : ob'.ref = ob.ref)
    {w' : World} (h : destroy c o ⟨S, A.setObj o (some ob')⟩ = .ok () w') : destroy c o ⟨S, A⟩ = .ok () w' := by
  have ho' : (A.setObj o (some ob')).obj o = some ob' := St.obj_setObj_self _ (St.obj_lt ho)
  rw [destroy_eq ho', hr] at h
  rw [destroy_eq ho]
  unfold destroyAll at h ⊢
  cases hrr : ob.ref with
  | none => rw [hrr] at h; simp only [setObj_setObj] at h ⊢; exact h
  | some a =>
    rw [hrr] at h
    have hb : (A.setObj o (some ob')).blk a = A.blk a := rfl
    simp only [hb] at h ⊢
    cases hB : A.blk a with
    | none => rw [hB] at h; cases h
    | some b =>
      rw [hB] at h
      simp only at h ⊢
      split
      · rename_i hz
        rw [if_pos hz] at h
        rcases deletes_at (c := c) b.cells S with ⟨S', h'⟩ | ⟨e, S', h'⟩ | h'
        · rw [h'] at h ⊢
          rw [← h]
          simp [St.setObj, St.setBlk]
        · rw [h'] at h; cases h
        · rw [h'] at h; cases h
      · rename_i hz
        rw [if_neg hz] at h
        rw [← h]
        simp [St.setObj, St.setBlk]

theorem pbind_inv {β : Type} {m : P α} {f : α → P β} {w w' : World} {b : β} (h : (m >>= f) w = .ok b w') :
    ∃ a w1, m w = .ok a w1 ∧ f a w1 = .ok b w' := by
  change P.bind m f w = _ at h
  unfold P.bind at h
  cases hm : m w with
  | ok a w1 => rw [hm] at h; exact ⟨a, w1, rfl, h⟩
  | throw e w1 => rw [hm] at h; cases h
  | ub => rw [hm] at h; cases h

theorem arrs_inv {m : M Nat α} {w w' : World} {a : α} (h : arrs m w = .ok a w') :
    ∃ A, m w.arrs = .ok a A ∧ w' = ⟨w.strs, A⟩ := by
  unfold arrs at h
  cases hm : m w.arrs with
  | ok x A => rw [hm] at h; cases h; exact ⟨A, rfl, rfl⟩
  | throw e A => rw [hm] at h; cases h
  | ub => rw [hm] at h; cases h

theorem strs_inv {m : M UInt8 α} {w w' : World} {a : α} (h : strs m w = .ok a w') :
    ∃ S, m w.strs = .ok a S ∧ w' = ⟨S, w.arrs⟩ := by
  unfold strs at h
  cases hm : m w.strs with
  | ok x A => rw [hm] at h; cases h; exact ⟨A, rfl, rfl⟩
  | throw e A => rw [hm] at h; cases h
  | ub => rw [hm] at h; cases h

theorem cell_inv {o i h : Nat} {w w' : World} (hc : cell o i w = .ok h w') : w' = w := by
  unfold cell at hc
  obtain ⟨xs, w1, h1, h2⟩ := pbind_inv hc
  obtain ⟨A, h3, rfl⟩ := arrs_inv h1
  have := (readRange_inv h3).1
  subst A
  split at h2 <;> cases h2
  rfl

theorem takeMove_eq {o i t : Nat} {w w' : World} (hu : shared w.arrs o = false) (h : takeCell c o i w = .ok t w') :
    takeMove c o i w = .ok t w' ∧ w'.arrs = w.arrs := by
  unfold takeCell at h
  obtain ⟨u, w1, h1, h2⟩ := pbind_inv h
  have := cell_inv h1
  subst w1
  obtain ⟨b, w2, h3, h4⟩ := pbind_inv h2
  obtain ⟨A, h5, rfl⟩ := arrs_inv h3
  have hb : b = false ∧ A = w.arrs := by
    unfold Rca.isShared at h5
    obtain ⟨ob, s1, h6, h7⟩ := bind_inv h5
    obtain ⟨rfl, ho⟩ := getObj_inv h6
    unfold Rca.shared at hu
    rw [ho] at hu
    simp only at hu
    cases hr : ob.ref with
    | none => simp only [hr] at h7; cases h7; exact ⟨rfl, rfl⟩
    | some a =>
      simp only [hr] at hu h7
      obtain ⟨B, s2, h8, h9⟩ := bind_inv h7
      unfold getBlk at h8
      cases hB : w.arrs.blk a with
      | none => rw [hB] at h8; cases h8
      | some B' =>
        rw [hB] at h8 hu
        cases h8
        cases h9
        exact ⟨hu, rfl⟩
  obtain ⟨rfl, rfl⟩ := hb
  simp only [Bool.false_eq_true, if_false] at h4
  refine ⟨?_, ?_⟩
  · unfold takeMove
    rw [pbind_ok h1]
    exact h4
  · unfold newMove at h4
    obtain ⟨S, _, rfl⟩ := strs_inv h4
    rfl

/-- Nobody can tell that `shift()` of an expiring, unshared array does less. -/
theorem shiftTemp_eq {o t : Nat} {w w1 w2 : World} (hu : shared w.arrs o = false) (h : shift c o w = .ok t w1)
    (hd : destroy c o w1 = .ok () w2) : shiftTemp c o w = .ok t w2 := by
  unfold shift at h
  obtain ⟨t', w3, h1, h2⟩ := pbind_inv h
  obtain ⟨ob, w4, h3, h4⟩ := pbind_inv h2
  obtain ⟨A, h5, rfl⟩ := arrs_inv h3
  obtain ⟨rfl, ho⟩ := getObj_inv h5
  obtain ⟨_, w5, h6, h7⟩ := pbind_inv h4
  cases h6
  cases h7
  unfold shiftTemp shiftMove
  rw [pbind_ok (takeMove_eq hu h1).1, pbind_ok (destroy_window (c := c) ho (ob' := _) (by rfl) hd)]
  rfl

theorem popTemp_eq {o t : Nat} {w w1 w2 : World} (hu : shared w.arrs o = false) (h : pop c o w = .ok t w1)
    (hd : destroy c o w1 = .ok () w2) : popTemp c o w = .ok t w2 := by
  unfold pop at h
  obtain ⟨ob, w4, h3, h4⟩ := pbind_inv h
  have h3' := h3
  obtain ⟨A, h5, rfl⟩ := arrs_inv h3
  obtain ⟨rfl, ho⟩ := getObj_inv h5
  obtain ⟨t', w3, h1, h2⟩ := pbind_inv h4
  obtain ⟨_, w5, h6, h7⟩ := pbind_inv h2
  cases h7
  obtain ⟨e1, e2⟩ := takeMove_eq hu h1
  obtain ⟨A, h8, rfl⟩ := arrs_inv h6
  unfold Rca.popBack at h8
  obtain ⟨ob2, s2, h9, h10⟩ := bind_inv h8
  obtain ⟨rfl, ho2⟩ := getObj_inv h9
  cases h10
  unfold popTemp popMove
  rw [pbind_assoc, pbind_ok h3', pbind_ok e1, pbind_ok (destroy_window (c := c) ho2 (ob' := _) (by rfl) hd)]
  rfl

end Bdlib.Nest
