import Verif.Deep.Store

/-!
# Calls on arrays of objects stay in step
-/

namespace Bdlib.Deep
open Bdlib Bdlib.Spec Bdlib.Rca
open Pg (undef)

variable {c : Conf} {T : Type} {mv : Slot T} {θ : Slot T → UInt64} {R : c.elt.Mem → Env T → Prop} {us : Env T} {env : Env T} {σ : St (Slot T)} {w : World c} {α β γ δ : Type}

/-- A window over cells that are raw memory is empty. -/
def Fit (σ : St (Slot T)) (o : Nat) : Prop := ∀ ob, σ.obj o = some ob → (ob.ref = none → ob.sublen = 0) ∧
  ∀ a B, ob.ref = some a → σ.blk a = some B → B.cells = [] → ob.sublen = 0

theorem obj_setObj_self {T : Type} {s : St T} {o : Nat} {ob : Obj} (h : s.obj o = some ob) (x : Obj) :
    (s.setObj o (some x)).obj o = some x := St.obj_setObj_self _ (St.obj_lt h)

theorem bind_inv {T : Type} {m : M T α} {f : α → M T β} {s s' : St T} {b : β} (h : (m >>= f) s = .ok b s') :
    ∃ a s1, m s = .ok a s1 ∧ f a s1 = .ok b s' := by
  change M.bind m f s = _ at h
  unfold M.bind at h
  cases hm : m s with
  | ok a s1 => rw [hm] at h; exact ⟨a, s1, rfl, h⟩
  | throw e s1 => rw [hm] at h; cases h
  | ub => rw [hm] at h; cases h

theorem getObj_inv {T : Type} {o : Nat} {s s' : St T} {ob : Obj} (h : getObj o s = .ok ob s') :
    s' = s ∧ s.obj o = some ob := by
  unfold getObj at h
  cases hh : s.obj o with
  | none => rw [hh] at h; cases h
  | some x => rw [hh] at h; cases h; exact ⟨rfl, rfl⟩

theorem getBlk_inv {T : Type} {a : Nat} {s s' : St T} {b : Block T} (h : getBlk a s = .ok b s') :
    s' = s ∧ s.blk a = some b := by
  unfold getBlk at h
  cases hh : s.blk a with
  | none => rw [hh] at h; cases h
  | some x => rw [hh] at h; cases h; exact ⟨rfl, rfl⟩

theorem newRef_inv {T : Type} {cfg : Cfg T} {s s' : St T} {a : Nat} (h : newRef cfg s = .ok a s') :
    a = s.heap.length ∧ s'.objs = s.objs ∧ s'.blk a = some { gen := 0, cells := [], refs := 1 } ∧
      ∀ a', a' ≠ a → s'.blk a' = s.blk a' := by
  unfold newRef at h
  change M.bind _ _ s = _ at h
  unfold M.bind at h
  cases ha : alloc cfg 1 s with
  | ub => rw [ha] at h; cases h
  | throw e t => rw [ha] at h; cases h
  | ok g t =>
    rw [ha] at h
    unfold alloc at ha
    simp only at ha
    split at ha
    · cases ha
      cases h
      refine ⟨rfl, rfl, ?_, fun a' hne => ?_⟩
      · rw [blk_snoc, if_pos rfl]
      · rw [blk_snoc, if_neg hne]; rfl
    · cases ha

/-- The rest of `reserve`. -/
theorem match_reserveIn (hc : Good mv R) (h : Rel R us σ w) {o n a : Nat} {sc : Nat → Nat} {ob : Obj}
    (hs : ∀ B, σ.blk a = some B → B.cells = [] → ob.sublen = 0) :
    Match R us ((do
        let off ← arefReserve c a n sc ob.offset ob.sublen
        let ob ← arrs (getObj o)
        arrs (putObj o { ob with offset := off })) w) ((do
        let off ← Rca.arefReserve (c.val θ mv) a n sc ob.offset ob.sublen
        let ob ← getObj o
        putObj o { ob with offset := off } : M (Slot T) Unit) σ) fun _ _ us' _ _ => us' = us := by
  refine match_bind (match_arefReserve hc h hs) ?_
  rintro off _ us' w3 σ3 _ hR3 ⟨rfl, rfl⟩
  refine match_then (.getObj o) hR3 fun ob' w4 σ4 _ hR4 => ?_
  exact match_mono (match_arrs (.putObj _ _) hR4) fun _ _ _ _ _ hq => hq.2.1

theorem match_reserve (hc : Good mv R) (h : Rel R us σ w) {o n : Nat} {sc : Nat → Nat} (hf : Fit σ o) :
    Match R us (reserve c o n sc w) (rcaReserve (c.val θ mv) o n sc σ) fun _ _ us' _ _ => us' = us := by
  unfold reserve rcaReserve
  refine match_then (.getObj o) h fun ob w1 σ1 h1 hR1 => ?_
  obtain ⟨rfl, ho⟩ := getObj_inv h1
  cases hr : ob.ref with
  | some a => exact match_reserveIn hc hR1 fun B hB h0 => (hf ob ho).2 a B hr hB h0
  | none =>
    simp only
    refine match_then (.newRef rfl) hR1 fun a w2 σ2 _ hR2 => match_then (.putObj _ _) hR2 fun _ w3 σ3 _ hR3 => ?_
    exact match_reserveIn hc hR3 fun _ _ _ => (hf ob ho).1 hr

/-! ## Giving up storage -/

theorem match_checkDeallocRef (hc : Good mv R) (h : Rel R us σ w) {o : Nat} :
    Match R us (checkDeallocRef c o w) (Rca.checkDeallocRef o σ) fun _ _ us' _ _ => us' = us := by
  unfold checkDeallocRef Rca.checkDeallocRef
  refine match_then (.getObj o) h fun ob w1 σ1 h1 hR1 => ?_
  cases hr : ob.ref with
  | none => exact match_pure hR1 rfl
  | some a =>
    simp only
    refine match_then (.decRef _) hR1 fun _ w2 σ2 h2 hR2 => ?_
    obtain ⟨env, h⟩ := hR2
    cases hb : w2.arrs.blk a with
    | none => rw [bind_ub (getBlk_ub (by rw [h.like.blk, hb]; rfl))]; trivial
    | some b =>
      rw [bind_ok (getBlk_eq (h.like.blk_some hb)), pbind_ok (arrs_ok (getBlk_eq hb))]
      refine match_ite (fun _ => ?_) fun _ => match_pure ⟨env, h⟩ rfl
      obtain ⟨s', env', e1, hR, hin, hout⟩ := deletes_ok hc b.cells h.reach (fun x hx => h.live hb hx) (h.nodup_blk hb)
      rw [pbind_ok e1]
      have key := (h.freed ((mapBlk env b).cells :: σ2.freed) (b.cells :: w2.arrs.freed)).replace hR hb (x := none)
        (cs := []) rfl .nil (by simp) hin (fun y _ hy => hout y hy)
      have hR3 : Rel R us _ _ := ⟨env', key⟩
      exact match_mono (match_arrs (.putObj o { ob with ref := none }) hR3) fun _ _ _ _ _ hq => hq.2.1

theorem match_destroy (hc : Good mv R) (h : Rel R us σ w) {o : Nat} :
    Match R us (destroy c o w) (Rca.destroy (c.val θ mv) o σ) fun _ _ us' _ _ => us' = us := by
  show Match R us (destroy c o w) ((do Rca.checkDeallocRef o; Rca.dropObj o : M (Slot T) Unit) σ) _
  unfold destroy
  refine match_bind (match_checkDeallocRef hc h) ?_
  rintro _ _ us' w1 σ1 _ hR1 rfl
  exact match_mono (match_arrs (.dropObj _) hR1) fun _ _ _ _ _ hq => hq.2.1

theorem match_copyAssign (hc : Good mv R) (h : Rel R us σ w) {o r : Nat} :
    Match R us (copyAssign c o r w) (Rca.copyAssign o r σ) fun _ _ us' _ _ => us' = us := by
  unfold copyAssign Rca.copyAssign
  refine match_then (.getObj r) h fun rb w1 σ1 _ hR1 => match_then (.incRef _) hR1 fun _ w2 σ2 _ hR2 =>
    match_then (.getObj o) hR2 fun ob w3 σ3 _ hR3 => match_then (.putObj _ _) hR3 fun _ w4 σ4 _ hR4 =>
    match_bind (match_checkDeallocRef hc hR4) ?_
  rintro _ _ us' w5 σ5 _ hR5 rfl
  refine match_then (.getObj r) hR5 fun rb' w6 σ6 _ hR6 => match_then (.getObj o) hR6 fun ob' w7 σ7 _ hR7 => ?_
  exact match_mono (match_arrs (.putObj _ _) hR7) fun _ _ _ _ _ hq => hq.2.1

theorem match_moveAssign (hc : Good mv R) (h : Rel R us σ w) {o r : Nat} :
    Match R us (moveAssign c o r w) (Rca.moveAssign (c.val θ mv) o r σ) fun _ _ us' _ _ => us' = us := by
  unfold moveAssign Rca.moveAssign
  refine match_ite (fun _ => match_pure h rfl) fun _ => match_bind (match_checkDeallocRef hc h) ?_
  rintro _ _ us' w1 σ1 _ hR1 rfl
  refine match_then (.getObj r) hR1 fun rb w2 σ2 _ hR2 => match_then (.putObj _ _) hR2 fun _ w3 σ3 _ hR3 => ?_
  exact match_mono (match_arrs (.putObj _ _) hR3) fun _ _ _ _ _ hq => hq.2.1

/-! ## Own storage before a change -/

theorem doDetach_inv {T : Type} {o : Nat} {s s' : St T} (h : doDetach o s = .ok () s') :
    s'.obj o = some {} ∧ s'.heap.length = s.heap.length ∧
      ∀ ob a, s.obj o = some ob → ob.ref = some a → a < s.heap.length := by
  unfold doDetach at h
  obtain ⟨ob, s1, h1, h2⟩ := bind_inv h
  clear h
  obtain ⟨rfl, ho⟩ := getObj_inv h1
  obtain ⟨_, s2, h3, h4⟩ := bind_inv h2
  clear h2
  have hs2 : s2.objs = s1.objs ∧ s2.heap.length = s1.heap.length ∧ ∀ a, ob.ref = some a → a < s1.heap.length := by
    cases hr : ob.ref with
    | none => rw [hr] at h3; cases h3; exact ⟨rfl, rfl, fun a ha => by cases ha⟩
    | some a =>
      rw [hr] at h3
      obtain ⟨b, s3, h5, h6⟩ := bind_inv h3
      obtain ⟨rfl, hb⟩ := getBlk_inv h5
      cases h6
      exact ⟨rfl, by simp [St.setBlk], fun a' ha => by cases ha; exact St.blk_lt hb⟩
  cases h4
  have ho2 : s2.obj o = some ob := by unfold St.obj at ho ⊢; rw [hs2.1]; exact ho
  refine ⟨obj_setObj_self ho2 _, hs2.2.1, fun ob' a ho' hr => hs2.2.2 a ?_⟩
  rw [ho] at ho'
  cases ho'
  exact hr

theorem arefReserve_objs {T : Type} {cfg : Cfg T} {a n off sub x : Nat} {sc : Nat → Nat} {s s' : St T}
    (h : Rca.arefReserve cfg a n sc off sub s = .ok x s') : s'.objs = s.objs := by
  unfold Rca.arefReserve at h
  obtain ⟨b, s1, h1, h0⟩ := bind_inv h
  clear h
  obtain ⟨rfl, hb⟩ := getBlk_inv h1
  simp only at h0
  split at h0
  · obtain ⟨g, s2, h2, h3⟩ := bind_inv h0
    clear h0
    have hs2 : s2.objs = s1.objs := by
      unfold alloc at h2
      simp only at h2
      split at h2 <;> cases h2
      rfl
    split at h3
    · cases h3; exact hs2
    · split at h3
      · cases h3; exact hs2
      · cases h3
  · split at h0
    · split at h0
      · cases h0; rfl
      · cases h0
    · cases h0; rfl

/-- An array without storage gets a block that was not there. -/
theorem rcaReserve_new {T : Type} {cfg : Cfg T} {o n : Nat} {sc : Nat → Nat} {s s' : St T} (ho : s.obj o = some {})
    (h : rcaReserve cfg o n sc s = .ok () s') : ∃ ob, s'.obj o = some ob ∧ ob.ref = some s.heap.length := by
  unfold rcaReserve at h
  rw [bind_ok (getObj_eq ho)] at h
  simp only at h
  obtain ⟨a, s2, h2, h1⟩ := bind_inv h
  clear h
  obtain ⟨rfl, hobj, hblk, _⟩ := newRef_inv h2
  have ho2 : s2.obj o = some {} := by unfold St.obj at ho ⊢; rw [hobj]; exact ho
  obtain ⟨_, s3, h3, h4⟩ := bind_inv h1
  clear h1
  cases h3
  obtain ⟨a', s4', h9, h10⟩ := bind_inv h4
  clear h4
  cases h9
  obtain ⟨off, s4, h5, h6⟩ := bind_inv h10
  clear h10
  have ho4 := arefReserve_objs h5
  obtain ⟨ob, s5, h7, h8⟩ := bind_inv h6
  clear h6
  obtain ⟨rfl, ho5⟩ := getObj_inv h7
  cases h8
  refine ⟨_, obj_setObj_self ho5 _, ?_⟩
  have : s5.obj o = some { ref := some s.heap.length } := by
    have := obj_setObj_self ho2 { ref := some s.heap.length }
    unfold St.obj at this ⊢
    rw [ho4]; exact this
  rw [this] at ho5
  cases ho5
  rfl

theorem val_reserve (c : Conf) (o n : Nat) (sc : Nat → Nat) : Rca.reserve (c.val θ mv) o n sc = rcaReserve (c.val θ mv) o n sc := rfl

theorem fit_new (h : σ.obj o = some {}) : Fit σ o := by
  intro ob ho
  rw [h] at ho
  cases ho
  exact ⟨fun _ => rfl, fun _ _ _ _ _ => rfl⟩

theorem match_cow (hc : Good mv R) (h : Rel R us σ w) {o n : Nat} :
    Match R us (cow c o n w) (Rca.cow (c.val θ mv) o n σ) fun _ _ us' _ _ => us' = us := by
  unfold cow Rca.cow
  refine match_then (.getObj o) h fun ob w1 σ1 h1 hR1 => match_then (.doDetach o) hR1 fun _ w2 σ2 h2 hR2 => ?_
  obtain ⟨rfl, ho⟩ := getObj_inv h1
  obtain ⟨hd, hlen, hlt⟩ := doDetach_inv h2
  rw [val_reserve]
  refine match_bind (match_reserve hc hR2 (fit_new hd)) ?_
  rintro _ _ us' w3 σ3 h3 hR3 rfl
  obtain ⟨ob3, ho3, hr3⟩ := rcaReserve_new hd h3
  refine match_then (.getObj o) hR3 fun ob' w4 σ4 h4 hR4 => ?_
  obtain ⟨rfl, ho4⟩ := getObj_inv h4
  rw [ho3] at ho4
  cases ho4
  refine match_then (.putObj _ _) hR4 fun _ w5 σ5 h5 hR5 => ?_
  cases h5
  refine match_ite (fun _ => match_pure hR5 rfl) fun _ => ?_
  cases hr : ob.ref with
  | none => exact match_undef
  | some a =>
    simp only
    obtain ⟨env, h⟩ := hR5
    cases hb : w5.arrs.blk a with
    | none => rw [bind_ub (getBlk_ub (by rw [h.like.blk, hb]; rfl))]; trivial
    | some b =>
      rw [bind_ok (getBlk_eq (h.like.blk_some hb)), pbind_ok (arrs_ok (getBlk_eq hb))]
      have hlb : (mapBlk env b).cells.length = b.cells.length := by simp [mapBlk]
      rw [hlb]
      refine match_ite (fun hle => ?_) fun _ => match_undef
      have e : window (mapBlk env b).cells ob.offset (min ob.sublen n) =
        (window b.cells ob.offset (min ob.sublen n)).map env := window_map
      rw [e]
      refine match_mono (match_copyFrom hc h hb hle ?_) fun _ _ _ _ _ hq => hq.1
      intro ob' ho' hr' _
      have := hlt ob a ho hr
      rw [← h.like.obj, obj_setObj_self ho3] at ho'
      cases ho'
      rw [hr3] at hr'
      cases hr'
      omega

end Bdlib.Deep
