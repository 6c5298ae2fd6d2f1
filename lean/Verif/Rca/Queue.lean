import Verif.Rca.Growth

/-!
# How the calls of a queue change storage

As `Rca/Growth.lean`, for inserting one element anywhere, with bounds on the capacity from above, and for taking an element
from either end.
-/

namespace Bdlib.Rca
open Bdlib Bdlib.Spec St

variable {T α β : Type} {cfg : Cfg T}

/-- First reservation of an object without storage: how long its buffer becomes. -/
theorem rcaReserve_cap_none {o N : Nat} {scale : Nat → Nat} {s : St T} {ob : Obj} (ho : s.obj o = some ob)
    (hr : ob.ref = none) (hoff : ob.offset = 0) :
    (rcaReserve cfg o N scale s).Ok fun _ s' => ∃ g', s'.At o g' ∧ g'.off = 0 ∧ N ≤ g'.cap ∧ g'.cap ≤ max (scale 0) N ∧
      g'.len = ob.sublen ∧ g'.refs = 1 := by
  unfold rcaReserve
  apply ok_getObj
  intro ob1 ho1
  rw [ho] at ho1; cases ho1
  rw [hr, hoff]
  dsimp only
  apply ok_bind
  apply ok_bind
  unfold alloc
  dsimp only
  split
  case isFalse => trivial
  apply ok_bind
  show Res.Ok (Res.ok _ _) _
  rw [pure_bind']
  have hlt := obj_lt ho
  apply ok_bind
  refine ok_mono (arefReserve_geo (b := { gen := 0, cells := [], refs := 1 }) _ _ _ _ _ _ ?_) ?_
  · simp [St.blk, St.setObj]
  rintro f s1 ⟨hobjs, b', hb', hrefs', hcase⟩
  apply ok_getObj
  intro ob2 ho2
  rw [obj_of_objs hobjs, obj_setObj_self _ (by exact hlt)] at ho2; cases ho2
  refine ⟨⟨s.heap.length, b'.gen, b'.cells.length, f, ob.sublen, 1⟩,
    ⟨{ ref := some s.heap.length, offset := f, sublen := ob.sublen, hash := ob.hash }, b', ?_, rfl, rfl, rfl, hb', rfl, rfl,
    hrefs'⟩, ?_, ?_, ?_, rfl, rfl⟩
  · exact obj_setObj_self _ (by rw [hobjs]; simpa [St.setObj] using hlt)
  · rcases hcase with h | h | h
    · exact h.2.2.1
    · exact h.2.1
    · exact h.2.2
  · dsimp only
    rcases hcase with h | h | h
    · rw [h.2.1]; exact h.2.2.2.2
    · rw [h.1]; exact h.2.2.2
    · rw [h.2.1]; omega
  · dsimp only
    rcases hcase with h | h | h
    · rw [h.2.1]; simp
    · rw [h.1]; simp
    · rw [h.2.1]; exact Nat.le_refl _

theorem reserve_cap_none {o n : Nat} {scale : Nat → Nat} {s : St T} {ob : Obj} (ho : s.obj o = some ob)
    (hr : ob.ref = none) (hoff : ob.offset = 0) :
    (reserve cfg o n scale s).Ok fun _ s' => ∃ g', s'.At o g' ∧ g'.off = 0 ∧ room cfg n ≤ g'.cap ∧
      g'.cap ≤ max (scale 0) (room cfg n) ∧ g'.len = ob.sublen ∧ g'.refs = 1 := by
  unfold reserve room
  cases hc : cfg.nul with
  | some c =>
    have e : (if (some c).isSome = true ∧ n > 0 then n + 1 else n) = if n > 0 then n + 1 else n := by
      simp
    rw [e]
    show (strReserve cfg c o n scale s).Ok _
    unfold strReserve
    apply ok_bind
    refine ok_mono (rcaReserve_cap_none ho hr hoff) ?_
    rintro _ s1 ⟨g', h1, h2⟩
    refine ok_mono (strTail_alike c o s1) fun _ s2 h3 => ⟨g', h3.at h1, h2⟩
  | none => exact rcaReserve_cap_none ho hr hoff

theorem cow_cap {o n : Nat} {s : St T} {ob : Obj} (ho : s.obj o = some ob) (hn : ob.sublen ≤ n) :
    (cow cfg o n s).Ok fun _ s' => ∃ g', s'.At o g' ∧ g'.off = 0 ∧ room cfg n ≤ g'.cap ∧
      g'.cap ≤ max (cfg.scale 0) (room cfg n) ∧ g'.len = ob.sublen ∧ g'.refs = 1 := by
  unfold cow
  apply ok_getObj
  intro ob1 ho1
  rw [ho] at ho1; cases ho1
  apply ok_bind
  have hdet : (doDetach o s).Ok fun _ s1 => s1.obj o = some {} := by
    unfold doDetach
    apply ok_getObj
    intro ob2 _
    apply ok_bind
    have hdec : (decRef ob2.ref s).Ok fun _ s1 => s1.objs = s.objs := by
      unfold decRef
      cases hr : ob2.ref with
      | none => rfl
      | some a =>
        apply ok_getBlk
        intro b _
        rfl
    refine ok_mono hdec fun _ s1 h1 => ?_
    exact obj_setObj_self _ (by rw [h1]; exact obj_lt ho)
  refine ok_mono hdet fun _ s1 h1 => ?_
  apply ok_bind
  refine ok_mono (reserve_cap_none h1 rfl rfl) ?_
  rintro _ s2 ⟨g', ⟨ob2, b, e1, e2, e3, e4, e5, e6, e7, e8⟩, h2, h3, h3', h4, h5⟩
  apply ok_getObj
  intro ob3 ho3
  rw [e1] at ho3; cases ho3
  rw [bind_ok (by rfl : putObj o _ s2 = .ok () _)]
  have hat : (s2.setObj o (some { ob2 with sublen := min ob.sublen n })).At o { g' with len := ob.sublen } :=
    ⟨_, b, obj_setObj_self _ (obj_lt e1), e2, e3, by dsimp only; omega, e5, e6, e7, e8⟩
  have hres : ∀ s3 : St T, (s2.setObj o (some { ob2 with sublen := min ob.sublen n })).Alike s3 →
      ∃ g', s3.At o g' ∧ g'.off = 0 ∧ room cfg n ≤ g'.cap ∧ g'.cap ≤ max (cfg.scale 0) (room cfg n) ∧
        g'.len = ob.sublen ∧ g'.refs = 1 :=
    fun s3 ha => ⟨_, ha.at hat, h2, h3, h3', rfl, h5⟩
  split
  · exact hres _ (St.Alike.refl _)
  · cases hr : ob.ref with
    | none => trivial
    | some a =>
      apply ok_getBlk
      intro b1 _
      split
      · exact ok_mono (writeRange_alike _ _ _ _) fun _ s3 h => hres s3 h
      · trivial

/-- What inserting one element does to storage. -/
def Inserts (cfg : Cfg T) (g g' : Geo) : Prop :=
  g'.len = g.len + 1 ∧
  ((¬ g.refs > 1 ∧ g'.refs = g.refs ∧
    ((g'.blk = g.blk ∧ g'.gen = g.gen ∧ g'.cap = g.cap ∧ g'.off = g.off ∧ room cfg (g.len + 1) ≤ sub64 g.cap g.off ∧
       room cfg (g.len + 1) ≤ g.cap) ∨
     (g'.cap = g.cap ∧ g'.off = 0 ∧ sub64 g.cap g.off < room cfg (g.len + 1) ∧ room cfg (g.len + 1) ≤ g.cap) ∨
     (g.cap < room cfg (g.len + 1) ∧ g'.cap = max (cfg.scale g.cap) (room cfg (g.len + 1)) ∧ g'.off = 0))) ∨
   (g.refs > 1 ∧ g'.refs = 1 ∧ g'.off = 0 ∧ g'.cap ≤ max (cfg.scale 0) (room cfg (g.len + 1))))

theorem aboutToModify_ins {o : Nat} {s : St T} {g : Geo} (hg : s.At o g) :
    (aboutToModify cfg o (g.len + 1) s).Ok fun _ s' => ∃ g' : Geo, s'.At o ({ g' with len := g.len } : Geo) ∧
      Inserts cfg g ({ g' with len := g.len + 1 } : Geo) := by
  obtain ⟨ob, b, ho, hr, hf, hn, hb, hgen, hcap, hrefs⟩ := hg
  unfold aboutToModify
  apply ok_getObj
  intro ob1 ho1
  rw [ho] at ho1; cases ho1
  rw [bind_ok (by rfl : putObj o _ s = .ok () _)]
  have ho' := obj_setObj_self (some { ob with hash := 0 }) (obj_lt ho)
  have hg' : (s.setObj o (some { ob with hash := 0 })).At o g :=
    ⟨_, b, ho', hr, hf, hn, hb, hgen, hcap, hrefs⟩
  apply isShared_ok
  intro sh hsh
  have hval : sh = decide (g.refs > 1) := by
    unfold isShared at hsh
    rw [bind_ok (getObj_eq ho')] at hsh
    dsimp only at hsh
    rw [hr] at hsh
    dsimp only at hsh
    rw [bind_ok (by unfold getBlk; rw [blk_setObj, hb] : getBlk g.blk (s.setObj o _) = .ok b _)] at hsh
    cases hsh
    rw [hrefs]
  subst hval
  split
  · rename_i hshared
    have h1 : g.refs > 1 := by simpa using hshared
    refine ok_mono (cow_cap ho' (by dsimp only; omega)) ?_
    rintro _ s' ⟨g', hat, h2, _, h3, h4, h5⟩
    have h4' : g'.len = g.len := h4.trans hn
    refine ⟨g', ?_, rfl, Or.inr ⟨h1, h5, h2, h3⟩⟩
    rw [← h4']
    exact hat
  · rename_i hshared
    have h1 : ¬ g.refs > 1 := by simpa using hshared
    refine ok_mono (reserve_geo hg') ?_
    rintro _ s' ⟨g', hat, h2, h3, h4⟩
    refine ⟨g', by rw [← h2]; exact hat, rfl, Or.inl ⟨h1, h3, ?_⟩⟩
    exact h4

theorem insertItem_geo {s : St T} {o pos : Nat} {x : T} {g : Geo} (hg : s.At o g) {v : List T} (hv : s.view o = some v)
    (hlen : v.length = g.len) (hpos : pos ≤ v.length) :
    (insertItem cfg o pos x s).Ok fun _ s' => ∃ g', s'.At o g' ∧ Inserts cfg g g' := by
  unfold insertItem
  rw [bind_ok (validatePos_ok hv hpos), bind_ok (length_spec hv), hlen]
  apply ok_bind
  refine ok_mono (aboutToModify_ins hg) ?_
  rintro _ s1 ⟨g', hat, hap⟩
  apply ok_bind
  refine ok_mono (shiftRight_alike _ _ _ _) fun _ s2 h2 => ?_
  apply ok_bind
  refine ok_mono (writeRange_alike _ _ _ _) fun _ s3 h3 => ?_
  obtain ⟨ob, b, e1, e2, e3, e4, e5, e6, e7, e8⟩ := (h2.trans h3).at hat
  unfold bumpLength
  apply ok_getObj
  intro ob1 ho1
  rw [e1] at ho1; cases ho1
  exact ⟨{ g' with len := g.len + 1 }, ⟨_, b, obj_setObj_self _ (obj_lt e1), e2, e3, by dsimp only at e4 ⊢; omega, e5, e6, e7, e8⟩, hap⟩

/-- The first element of an object that has no storage. -/
theorem insertItem_geo_none {s : St T} {o pos : Nat} {x : T} {ob : Obj} (ho : s.obj o = some ob) (hr : ob.ref = none)
    (hoff : ob.offset = 0) (hsub : ob.sublen = 0) (hv : s.view o = some []) (hpos : pos ≤ 0) :
    (insertItem cfg o pos x s).Ok fun _ s' => ∃ g', s'.At o g' ∧ g'.off = 0 ∧ g'.len = 1 ∧ g'.refs = 1 ∧
      g'.cap ≤ max (cfg.scale 0) (room cfg 1) := by
  unfold insertItem
  rw [bind_ok (validatePos_ok hv hpos), bind_ok (length_spec hv)]
  apply ok_bind
  unfold aboutToModify
  apply ok_getObj
  intro ob1 ho1
  rw [ho] at ho1; cases ho1
  rw [bind_ok (by rfl : putObj o _ s = .ok () _)]
  have ho' := obj_setObj_self (some { ob with hash := 0 }) (obj_lt ho)
  apply isShared_ok
  intro sh hsh
  have hval : sh = false := by
    unfold isShared at hsh
    rw [bind_ok (getObj_eq ho')] at hsh
    dsimp only at hsh
    rw [hr] at hsh
    cases hsh
    rfl
  subst hval
  rw [if_neg (by simp)]
  refine ok_mono (reserve_cap_none ho' hr hoff) ?_
  rintro _ s1 ⟨g', hat, h1, h2, h2c, h3, h4⟩
  apply ok_bind
  refine ok_mono (shiftRight_alike _ _ _ _) fun _ s2 h2' => ?_
  apply ok_bind
  refine ok_mono (writeRange_alike _ _ _ _) fun _ s3 h3' => ?_
  obtain ⟨ob, b, e1, e2, e3, e4, e5, e6, e7, e8⟩ := (h2'.trans h3').at hat
  unfold bumpLength
  apply ok_getObj
  intro ob1 ho1
  rw [e1] at ho1; cases ho1
  exact ⟨{ g' with len := 1 }, ⟨_, b, obj_setObj_self _ (obj_lt e1), e2, e3, by dsimp only at e4 h3 ⊢; omega, e5, e6, e7, e8⟩,
    h1, rfl, h4, h2c⟩

theorem shift_geo {s : St T} {o : Nat} {g : Geo} (hg : s.At o g) (hpos : 0 < g.len) :
    (shift cfg o s).Ok fun _ s' => s'.At o { g with off := g.off + 1, len := g.len - 1 } := by
  unfold shift
  apply ok_bind
  refine ok_mono (readRange_same _ _ _ _) ?_
  rintro xs s1 rfl
  have tail : ∀ s2 : St T, s1.Alike s2 → ((do
      let ob ← getObj o
      putObj o { ref := ob.ref, offset := ob.offset + 1, sublen := sub64 ob.sublen 1 }
      pure xs.head? : M T (Option T)) s2).Ok fun _ s' => s'.At o { g with off := g.off + 1, len := g.len - 1 } := by
    intro s2 h2
    obtain ⟨ob, b, e1, e2, e3, e4, e5, e6, e7, e8⟩ := h2.at hg
    apply ok_getObj
    intro ob1 ho1
    rw [e1] at ho1; cases ho1
    rw [bind_ok (by rfl : putObj o _ s2 = .ok () _)]
    refine ⟨_, b, obj_setObj_self _ (obj_lt e1), e2, by dsimp only; omega, ?_, e5, e6, e7, e8⟩
    dsimp only
    unfold sub64
    rw [if_pos (by omega), e4]
  apply isShared_ok
  intro sh _
  cases sh with
  | true => exact tail _ (St.Alike.refl s1)
  | false => exact ok_bind (ok_mono (writeRange_alike _ _ _ _) fun _ s2 h2 => tail s2 h2)

theorem pop_geo {s : St T} {o : Nat} {g : Geo} (hg : s.At o g) (hpos : 0 < g.len) :
    (pop cfg o s).Ok fun _ s' => s'.At o { g with len := g.len - 1 } := by
  unfold pop
  apply ok_getObj
  intro ob0 _
  apply ok_bind
  refine ok_mono (readRange_same _ _ _ _) ?_
  rintro xs s1 rfl
  have tail : ∀ s2 : St T, s1.Alike s2 → ((do
      popBack o
      pure xs.head? : M T (Option T)) s2).Ok fun _ s' => s'.At o { g with len := g.len - 1 } := by
    intro s2 h2
    obtain ⟨ob, b, e1, e2, e3, e4, e5, e6, e7, e8⟩ := h2.at hg
    unfold popBack
    apply ok_bind
    apply ok_getObj
    intro ob1 ho1
    rw [e1] at ho1; cases ho1
    show Res.Ok (Res.ok _ _) _
    refine ⟨_, b, obj_setObj_self _ (obj_lt e1), e2, by dsimp only; omega, ?_, e5, e6, e7, e8⟩
    dsimp only
    unfold sub64
    rw [if_pos (by omega), e4]
  apply isShared_ok
  intro sh _
  cases sh with
  | true => exact tail _ (St.Alike.refl s1)
  | false => exact ok_bind (ok_mono (writeRange_alike _ _ _ _) fun _ s2 h2 => tail s2 h2)

end Bdlib.Rca
