import Verif.Rca.Reach

/-!
# How appending changes storage

Addresses, capacities and offsets only; the values are dealt with in `Rca/Ops.lean`.
-/

namespace Bdlib
open Rca St

variable {T α β : Type} {cfg : Cfg T}

/-- If `r` returned, `Q` holds. -/
def Res.Ok (r : Res T α) (Q : α → St T → Prop) : Prop :=
  match r with
  | .ok a s => Q a s
  | .throw _ _ => True
  | .ub => True

theorem ok_bind {m : M T α} {f : α → M T β} {s : St T} {Q : β → St T → Prop}
    (h : (m s).Ok fun a s' => (f a s').Ok Q) : ((m >>= f) s).Ok Q := by
  show (M.bind m f s).Ok Q
  unfold M.bind
  cases hm : m s with
  | ok a s' => rw [hm] at h; exact h
  | throw e s' => trivial
  | ub => trivial

theorem ok_mono {r : Res T α} {Q Q' : α → St T → Prop} (h : r.Ok Q) (hq : ∀ a s, Q a s → Q' a s) : r.Ok Q' := by
  cases r with
  | ok a s => exact hq _ _ h
  | throw e s => trivial
  | ub => trivial

theorem ok_getObj {o : Nat} {f : Obj → M T β} {s : St T} {Q : β → St T → Prop}
    (h : ∀ ob, s.obj o = some ob → (f ob s).Ok Q) : ((getObj o >>= f) s).Ok Q := by
  apply ok_bind
  unfold getObj
  cases ho : s.obj o with
  | none => trivial
  | some ob => exact h ob ho

theorem ok_getBlk {a : Nat} {f : Block T → M T β} {s : St T} {Q : β → St T → Prop}
    (h : ∀ b, s.blk a = some b → (f b s).Ok Q) : ((getBlk a >>= f) s).Ok Q := by
  apply ok_bind
  unfold getBlk
  cases ho : s.blk a with
  | none => trivial
  | some ob => exact h ob ho

theorem ok_alloc {n : Nat} {f : Nat → M T β} {s : St T} {Q : β → St T → Prop}
    (h : (f (s.gen + 1) { s with gen := s.gen + 1 }).Ok Q) : ((alloc cfg n >>= f) s).Ok Q := by
  apply ok_bind
  unfold alloc
  dsimp only
  split
  · exact h
  · trivial

theorem ok_undef {s : St T} {Q : β → St T → Prop} : ((M.undef : M T β) s).Ok Q := trivial

/-- Where an object's elements are, how much room its buffer has, and who else uses it. -/
structure Geo where
  blk : Nat
  gen : Nat
  cap : Nat
  off : Nat
  len : Nat
  refs : Int

def St.At (s : St T) (o : Nat) (g : Geo) : Prop :=
  ∃ ob b, s.obj o = some ob ∧ ob.ref = some g.blk ∧ ob.offset = g.off ∧ ob.sublen = g.len ∧
    s.blk g.blk = some b ∧ b.gen = g.gen ∧ b.cells.length = g.cap ∧ b.refs = g.refs

/-- Nothing but element values differs. -/
def St.Alike (s s' : St T) : Prop :=
  s'.objs = s.objs ∧ ∀ a b, s.blk a = some b → ∃ b', s'.blk a = some b' ∧ b'.gen = b.gen ∧
    b'.cells.length = b.cells.length ∧ b'.refs = b.refs

theorem St.Alike.refl (s : St T) : s.Alike s := ⟨rfl, fun _ b h => ⟨b, h, rfl, rfl, rfl⟩⟩

theorem St.Alike.trans {s s' s'' : St T} (h : s.Alike s') (h' : s'.Alike s'') : s.Alike s'' := by
  refine ⟨h'.1.trans h.1, fun a b hb => ?_⟩
  obtain ⟨b1, h1, e1, e2, e3⟩ := h.2 a b hb
  obtain ⟨b2, h2, f1, f2, f3⟩ := h'.2 a b1 h1
  exact ⟨b2, h2, f1.trans e1, f2.trans e2, f3.trans e3⟩

theorem St.Alike.at {s s' : St T} (h : s.Alike s') {o : Nat} {g : Geo} (hg : s.At o g) : s'.At o g := by
  obtain ⟨ob, b, h1, h2, h3, h4, h5, h6, h7, h8⟩ := hg
  obtain ⟨b', e1, e2, e3, e4⟩ := h.2 _ _ h5
  exact ⟨ob, b', by unfold St.obj; rw [h.1]; exact h1, h2, h3, h4, e1, e2.trans h6, e3.trans h7, e4.trans h8⟩

theorem alike_setBlk {s : St T} {a : Nat} {b b' : Block T} (hb : s.blk a = some b) (hg : b'.gen = b.gen)
    (hl : b'.cells.length = b.cells.length) (hr : b'.refs = b.refs) : s.Alike (s.setBlk a (some b')) := by
  refine ⟨rfl, fun a1 b1 h1 => ?_⟩
  by_cases e : a1 = a
  · subst e
    rw [hb] at h1; cases h1
    exact ⟨b', blk_setBlk_self _ (blk_lt hb), hg, hl, hr⟩
  · exact ⟨b1, by rw [blk_setBlk_ne _ e]; exact h1, rfl, rfl, rfl⟩

namespace Rca
open St

theorem writeRange_alike (o i : Nat) (vs : List T) (s : St T) :
    (writeRange o i vs s).Ok fun _ s' => s.Alike s' := by
  unfold writeRange
  apply ok_getObj
  intro ob ho
  split
  · exact St.Alike.refl s
  · cases hr : ob.ref with
    | none => trivial
    | some a =>
      apply ok_getBlk
      intro b hb
      split
      · exact alike_setBlk hb rfl (overwrite_length (by assumption)) rfl
      · trivial

theorem readRange_same (o i n : Nat) (s : St T) : (readRange o i n s).Ok fun _ s' => s' = s := by
  unfold readRange
  apply ok_getObj
  intro ob ho
  split
  · rfl
  · cases hr : ob.ref with
    | none => trivial
    | some a =>
      apply ok_getBlk
      intro b hb
      split
      · rfl
      · trivial

theorem shiftRight_alike (o pos k : Nat) (s : St T) : (shiftRight o pos k s).Ok fun _ s' => s.Alike s' := by
  unfold shiftRight
  apply ok_getObj
  intro ob ho
  apply ok_bind
  refine ok_mono (readRange_same _ _ _ _) ?_
  rintro xs s' rfl
  exact writeRange_alike _ _ _ _

/-- What `ArrayRef::reserve` does to a buffer: nothing, moving the elements to its start, or a bigger
buffer. -/
def Regrow (N : Nat) (scale : Nat → Nat) (g g' : Geo) : Prop :=
  g'.len = g.len ∧ g'.refs = g.refs ∧
  ((g'.blk = g.blk ∧ g'.gen = g.gen ∧ g'.cap = g.cap ∧ g'.off = g.off ∧ N ≤ sub64 g.cap g.off ∧ N ≤ g.cap) ∨
   (g'.cap = g.cap ∧ g'.off = 0 ∧ sub64 g.cap g.off < N ∧ N ≤ g.cap) ∨
   (g.cap < N ∧ g'.cap = max (scale g.cap) N ∧ g'.off = 0))

theorem arefReserve_geo (a N : Nat) (scale : Nat → Nat) (off len : Nat) (s : St T) {b : Block T}
    (hb : s.blk a = some b) :
    (arefReserve cfg a N scale off len s).Ok fun f s' => s'.objs = s.objs ∧ ∃ b', s'.blk a = some b' ∧
      b'.refs = b.refs ∧
      ((b'.gen = b.gen ∧ b'.cells.length = b.cells.length ∧ f = off ∧ N ≤ sub64 b.cells.length off ∧ N ≤ b.cells.length) ∨
       (b'.cells.length = b.cells.length ∧ f = 0 ∧ sub64 b.cells.length off < N ∧ N ≤ b.cells.length) ∨
       (b.cells.length < N ∧ b'.cells.length = max (scale b.cells.length) N ∧ f = 0)) := by
  unfold arefReserve
  apply ok_getBlk
  intro b1 hb1
  rw [hb] at hb1; cases hb1
  dsimp only
  split
  · rename_i hlt
    apply ok_alloc
    split
    · refine ⟨rfl, _, blk_setBlk_self (s := { s with gen := s.gen + 1 }) _ (blk_lt hb), rfl, Or.inr (Or.inr ⟨hlt, ?_, rfl⟩)⟩
      simp [junkFrom]
    · split
      · rename_i hle
        refine ⟨rfl, _, blk_setBlk_self (s := { s with gen := s.gen + 1, freed := _ }) _ (blk_lt hb), rfl,
          Or.inr (Or.inr ⟨hlt, ?_, rfl⟩)⟩
        simp [junkFrom, window]
        omega
      · trivial
  · split
    · split
      · rename_i h1 h2 h3
        refine ⟨rfl, _, blk_setBlk_self _ (blk_lt hb), rfl, Or.inr (Or.inl ⟨?_, rfl, h2, by omega⟩)⟩
        have hw : (window b.cells off len).length = len := by simp [window]; omega
        dsimp only
        rw [overwrite_length, overwrite_length]
        · rw [List.length_map, hw]; exact h3
        · rw [overwrite_length (by rw [List.length_map, hw]; exact h3), hw]; omega
      · trivial
    · rename_i h1 h2
      exact ⟨rfl, b, hb, rfl, Or.inl ⟨rfl, rfl, rfl, by omega, by omega⟩⟩

theorem obj_of_objs {s s' : St T} (h : s'.objs = s.objs) (o : Nat) : s'.obj o = s.obj o := by
  unfold St.obj; rw [h]

theorem rcaReserve_geo {o N : Nat} {scale : Nat → Nat} {s : St T} {g : Geo} (hg : s.At o g) :
    (rcaReserve cfg o N scale s).Ok fun _ s' => ∃ g', s'.At o g' ∧ Regrow N scale g g' := by
  obtain ⟨ob, b, ho, hr, hf, hn, hb, hgen, hcap, hrefs⟩ := hg
  unfold rcaReserve
  apply ok_getObj
  intro ob1 ho1
  rw [ho] at ho1; cases ho1
  rw [hr]
  dsimp only
  rw [pure_bind']
  apply ok_bind
  refine ok_mono (arefReserve_geo _ _ _ _ _ _ hb) ?_
  rintro f s1 ⟨hobjs, b', hb', hrefs', hcase⟩
  apply ok_getObj
  intro ob2 ho2
  rw [obj_of_objs hobjs, ho] at ho2; cases ho2
  refine ⟨⟨g.blk, b'.gen, b'.cells.length, f, g.len, g.refs⟩, ⟨{ ob with offset := f }, b', ?_, hr, rfl, hn, hb', rfl, rfl,
    hrefs'.trans hrefs⟩, rfl, rfl, ?_⟩
  · exact obj_setObj_self _ (by rw [hobjs]; exact obj_lt ho)
  · dsimp only
    rw [← hgen, ← hcap, ← hf]
    rcases hcase with h | h | h
    · exact Or.inl ⟨rfl, h⟩
    · exact Or.inr (Or.inl h)
    · exact Or.inr (Or.inr h)

/-- First reservation of an object without storage. -/
theorem rcaReserve_geo_none {o N : Nat} {scale : Nat → Nat} {s : St T} {ob : Obj} (ho : s.obj o = some ob)
    (hr : ob.ref = none) (hoff : ob.offset = 0) :
    (rcaReserve cfg o N scale s).Ok fun _ s' => ∃ g', s'.At o g' ∧ g'.off = 0 ∧ N ≤ g'.cap ∧
      g'.len = ob.sublen ∧ g'.refs = 1 := by
  unfold rcaReserve
  apply ok_getObj
  intro ob1 ho1
  rw [ho] at ho1; cases ho1
  rw [hr, hoff]
  dsimp only
  apply ok_bind
  apply ok_bind
  unfold alloc
  dsimp only
  split
  case isFalse => trivial
  apply ok_bind
  show Res.Ok (Res.ok _ _) _
  rw [pure_bind']
  have hlt := obj_lt ho
  apply ok_bind
  refine ok_mono (arefReserve_geo (b := { gen := 0, cells := [], refs := 1 }) _ _ _ _ _ _ ?_) ?_
  · simp [St.blk, St.setObj]
  rintro f s1 ⟨hobjs, b', hb', hrefs', hcase⟩
  apply ok_getObj
  intro ob2 ho2
  rw [obj_of_objs hobjs, obj_setObj_self _ (by exact hlt)] at ho2; cases ho2
  refine ⟨⟨s.heap.length, b'.gen, b'.cells.length, f, ob.sublen, 1⟩,
    ⟨{ ref := some s.heap.length, offset := f, sublen := ob.sublen, hash := ob.hash }, b', ?_, rfl, rfl, rfl, hb', rfl, rfl,
    hrefs'⟩, ?_, ?_, rfl, rfl⟩
  · exact obj_setObj_self _ (by rw [hobjs]; simpa [St.setObj] using hlt)
  · rcases hcase with h | h | h
    · exact h.2.2.1
    · exact h.2.1
    · exact h.2.2
  · dsimp only
    rcases hcase with h | h | h
    · rw [h.2.1]; exact h.2.2.2.2
    · rw [h.1]; exact h.2.2.2
    · rw [h.2.1]; omega

/-- `String::reserve` writes the terminator after reserving. -/
theorem strTail_alike (c : T) (o : Nat) (s : St T) :
    ((getObj o >>= fun ob => match ob.ref with
      | none => M.undef
      | some a => getBlk a >>= fun b =>
        if b.cells.length = 0 then (if ob.offset = 0 then pure () else M.undef)
        else putBlk a { b with cells := overwrite b.cells (b.cells.length - 1) [c] } : M T Unit) s).Ok
      fun _ s' => s.Alike s' := by
  apply ok_getObj
  intro ob ho
  cases hr : ob.ref with
  | none => trivial
  | some a =>
    apply ok_getBlk
    intro b hb
    split
    · split
      · exact St.Alike.refl s
      · trivial
    · exact alike_setBlk hb rfl (overwrite_length (by simp; omega)) rfl

theorem reserve_geo {o n : Nat} {scale : Nat → Nat} {s : St T} {g : Geo} (hg : s.At o g) :
    (reserve cfg o n scale s).Ok fun _ s' => ∃ g', s'.At o g' ∧ Regrow (room cfg n) scale g g' := by
  unfold reserve room
  cases hc : cfg.nul with
  | some c =>
    have e : (if (some c).isSome = true ∧ n > 0 then n + 1 else n) = if n > 0 then n + 1 else n := by
      simp
    rw [e]
    show (strReserve cfg c o n scale s).Ok _
    unfold strReserve
    apply ok_bind
    refine ok_mono (rcaReserve_geo hg) ?_
    rintro _ s1 ⟨g', h1, h2⟩
    refine ok_mono (strTail_alike c o s1) fun _ s2 h3 => ⟨g', h3.at h1, h2⟩
  | none => exact rcaReserve_geo hg

theorem reserve_geo_none {o n : Nat} {scale : Nat → Nat} {s : St T} {ob : Obj} (ho : s.obj o = some ob)
    (hr : ob.ref = none) (hoff : ob.offset = 0) :
    (reserve cfg o n scale s).Ok fun _ s' => ∃ g', s'.At o g' ∧ g'.off = 0 ∧ room cfg n ≤ g'.cap ∧
      g'.len = ob.sublen ∧ g'.refs = 1 := by
  unfold reserve room
  cases hc : cfg.nul with
  | some c =>
    have e : (if (some c).isSome = true ∧ n > 0 then n + 1 else n) = if n > 0 then n + 1 else n := by
      simp
    rw [e]
    show (strReserve cfg c o n scale s).Ok _
    unfold strReserve
    apply ok_bind
    refine ok_mono (rcaReserve_geo_none ho hr hoff) ?_
    rintro _ s1 ⟨g', h1, h2⟩
    refine ok_mono (strTail_alike c o s1) fun _ s2 h3 => ⟨g', h3.at h1, h2⟩
  | none => exact rcaReserve_geo_none ho hr hoff

theorem cow_geo {o n : Nat} {s : St T} {ob : Obj} (ho : s.obj o = some ob) (hn : ob.sublen ≤ n) :
    (cow cfg o n s).Ok fun _ s' => ∃ g', s'.At o g' ∧ g'.off = 0 ∧ room cfg n ≤ g'.cap ∧
      g'.len = ob.sublen ∧ g'.refs = 1 := by
  unfold cow
  apply ok_getObj
  intro ob1 ho1
  rw [ho] at ho1; cases ho1
  apply ok_bind
  have hdet : (doDetach o s).Ok fun _ s1 => s1.obj o = some {} := by
    unfold doDetach
    apply ok_getObj
    intro ob2 _
    apply ok_bind
    have hdec : (decRef ob2.ref s).Ok fun _ s1 => s1.objs = s.objs := by
      unfold decRef
      cases hr : ob2.ref with
      | none => rfl
      | some a =>
        apply ok_getBlk
        intro b _
        rfl
    refine ok_mono hdec fun _ s1 h1 => ?_
    exact obj_setObj_self _ (by rw [h1]; exact obj_lt ho)
  refine ok_mono hdet fun _ s1 h1 => ?_
  apply ok_bind
  refine ok_mono (reserve_geo_none h1 rfl rfl) ?_
  rintro _ s2 ⟨g', ⟨ob2, b, e1, e2, e3, e4, e5, e6, e7, e8⟩, h2, h3, h4, h5⟩
  apply ok_getObj
  intro ob3 ho3
  rw [e1] at ho3; cases ho3
  rw [bind_ok (by rfl : putObj o _ s2 = .ok () _)]
  have hat : (s2.setObj o (some { ob2 with sublen := min ob.sublen n })).At o { g' with len := ob.sublen } :=
    ⟨_, b, obj_setObj_self _ (obj_lt e1), e2, e3, by dsimp only; omega, e5, e6, e7, e8⟩
  have hres : ∀ s3 : St T, (s2.setObj o (some { ob2 with sublen := min ob.sublen n })).Alike s3 →
      ∃ g', s3.At o g' ∧ g'.off = 0 ∧ room cfg n ≤ g'.cap ∧ g'.len = ob.sublen ∧ g'.refs = 1 :=
    fun s3 ha => ⟨_, ha.at hat, h2, h3, rfl, h5⟩
  split
  · exact hres _ (St.Alike.refl _)
  · cases hr : ob.ref with
    | none => trivial
    | some a =>
      apply ok_getBlk
      intro b1 _
      split
      · exact ok_mono (writeRange_alike _ _ _ _) fun _ s3 h => hres s3 h
      · trivial

/-- What appending one element does to storage. -/
def Appends (cfg : Cfg T) (g g' : Geo) : Prop :=
  g'.len = g.len + 1 ∧
  ((¬ g.refs > 1 ∧ g'.refs = g.refs ∧
    ((g'.blk = g.blk ∧ g'.gen = g.gen ∧ g'.cap = g.cap ∧ g'.off = g.off ∧ room cfg (g.len + 1) ≤ g.cap) ∨
     (g'.cap = g.cap ∧ g'.off = 0 ∧ sub64 g.cap g.off < room cfg (g.len + 1) ∧ room cfg (g.len + 1) ≤ g.cap) ∨
     (g.cap < room cfg (g.len + 1) ∧ g'.cap = max (cfg.scale g.cap) (room cfg (g.len + 1)) ∧ g'.off = 0))) ∨
   (g.refs > 1 ∧ g'.refs = 1 ∧ g'.off = 0 ∧ room cfg (g.len + 1) ≤ g'.cap))

theorem isShared_ok {o : Nat} {f : Bool → M T β} {s : St T} {Q : β → St T → Prop}
    (h : ∀ b, isShared o s = .ok b s → (f b s).Ok Q) : ((isShared o >>= f) s).Ok Q := by
  apply ok_bind
  have hs : (isShared o s).Ok fun _ s' => s' = s := by
    unfold isShared
    apply ok_getObj
    intro ob _
    cases hr : ob.ref with
    | none => rfl
    | some a =>
      apply ok_getBlk
      intro b _
      rfl
  cases hm : isShared o s with
  | ok b s' =>
    rw [hm] at hs
    obtain rfl : s' = s := hs
    exact h b hm
  | throw e s' => trivial
  | ub => trivial

theorem aboutToModify_geo {o : Nat} {s : St T} {g : Geo} (hg : s.At o g) :
    (aboutToModify cfg o (g.len + 1) s).Ok fun _ s' => ∃ g' : Geo, s'.At o ({ g' with len := g.len } : Geo) ∧
      Appends cfg g ({ g' with len := g.len + 1 } : Geo) := by
  obtain ⟨ob, b, ho, hr, hf, hn, hb, hgen, hcap, hrefs⟩ := hg
  unfold aboutToModify
  apply ok_getObj
  intro ob1 ho1
  rw [ho] at ho1; cases ho1
  rw [bind_ok (by rfl : putObj o _ s = .ok () _)]
  have ho' := obj_setObj_self (some { ob with hash := 0 }) (obj_lt ho)
  have hg' : (s.setObj o (some { ob with hash := 0 })).At o g :=
    ⟨_, b, ho', hr, hf, hn, hb, hgen, hcap, hrefs⟩
  apply isShared_ok
  intro sh hsh
  have hval : sh = decide (g.refs > 1) := by
    unfold isShared at hsh
    rw [bind_ok (getObj_eq ho')] at hsh
    dsimp only at hsh
    rw [hr] at hsh
    dsimp only at hsh
    rw [bind_ok (by unfold getBlk; rw [blk_setObj, hb] : getBlk g.blk (s.setObj o _) = .ok b _)] at hsh
    cases hsh
    rw [hrefs]
  subst hval
  split
  · rename_i hshared
    have h1 : g.refs > 1 := by simpa using hshared
    refine ok_mono (cow_geo ho' (by dsimp only; omega)) ?_
    rintro _ s' ⟨g', hat, h2, h3, h4, h5⟩
    have h4' : g'.len = g.len := h4.trans hn
    refine ⟨g', ?_, rfl, Or.inr ⟨h1, h5, h2, h3⟩⟩
    rw [← h4']
    exact hat
  · rename_i hshared
    have h1 : ¬ g.refs > 1 := by simpa using hshared
    refine ok_mono (reserve_geo hg') ?_
    rintro _ s' ⟨g', hat, h2, h3, h4⟩
    refine ⟨g', by rw [← h2]; exact hat, rfl, Or.inl ⟨h1, h3, ?_⟩⟩
    rcases h4 with h | h | h
    · exact Or.inl ⟨h.1, h.2.1, h.2.2.1, h.2.2.2.1, h.2.2.2.2.2⟩
    · exact Or.inr (Or.inl h)
    · exact Or.inr (Or.inr h)

theorem append_geo {s : St T} {o : Nat} {x : T} {g : Geo} (hg : s.At o g) {v : List T} (hv : s.view o = some v)
    (hlen : v.length = g.len) :
    (append cfg o x s).Ok fun _ s' => ∃ g', s'.At o g' ∧ Appends cfg g g' := by
  unfold append insertItem
  rw [bind_ok (length_spec hv), bind_ok (validatePos_ok hv (Nat.le_refl _)), bind_ok (length_spec hv), hlen]
  apply ok_bind
  refine ok_mono (aboutToModify_geo hg) ?_
  rintro _ s1 ⟨g', hat, hap⟩
  apply ok_bind
  refine ok_mono (shiftRight_alike _ _ _ _) fun _ s2 h2 => ?_
  apply ok_bind
  refine ok_mono (writeRange_alike _ _ _ _) fun _ s3 h3 => ?_
  obtain ⟨ob, b, e1, e2, e3, e4, e5, e6, e7, e8⟩ := (h2.trans h3).at hat
  unfold bumpLength
  apply ok_getObj
  intro ob1 ho1
  rw [e1] at ho1; cases ho1
  exact ⟨{ g' with len := g.len + 1 }, ⟨_, b, obj_setObj_self _ (obj_lt e1), e2, e3, by dsimp only at e4 ⊢; omega, e5, e6, e7, e8⟩, hap⟩

/-- The first element of an object that has no storage. -/
theorem append_geo_none {s : St T} {o : Nat} {x : T} {ob : Obj} (ho : s.obj o = some ob) (hr : ob.ref = none)
    (hoff : ob.offset = 0) (hsub : ob.sublen = 0) (hv : s.view o = some []) :
    (append cfg o x s).Ok fun _ s' => ∃ g', s'.At o g' ∧ g'.off = 0 ∧ g'.len = 1 ∧ g'.refs = 1 := by
  unfold append insertItem
  rw [bind_ok (length_spec hv), bind_ok (validatePos_ok hv (Nat.le_refl _)), bind_ok (length_spec hv)]
  apply ok_bind
  unfold aboutToModify
  apply ok_getObj
  intro ob1 ho1
  rw [ho] at ho1; cases ho1
  rw [bind_ok (by rfl : putObj o _ s = .ok () _)]
  have ho' := obj_setObj_self (some { ob with hash := 0 }) (obj_lt ho)
  apply isShared_ok
  intro sh hsh
  have hval : sh = false := by
    unfold isShared at hsh
    rw [bind_ok (getObj_eq ho')] at hsh
    dsimp only at hsh
    rw [hr] at hsh
    cases hsh
    rfl
  subst hval
  rw [if_neg (by simp)]
  refine ok_mono (reserve_geo_none ho' hr hoff) ?_
  rintro _ s1 ⟨g', hat, h1, h2, h3, h4⟩
  apply ok_bind
  refine ok_mono (shiftRight_alike _ _ _ _) fun _ s2 h2' => ?_
  apply ok_bind
  refine ok_mono (writeRange_alike _ _ _ _) fun _ s3 h3' => ?_
  obtain ⟨ob, b, e1, e2, e3, e4, e5, e6, e7, e8⟩ := (h2'.trans h3').at hat
  unfold bumpLength
  apply ok_getObj
  intro ob1 ho1
  rw [e1] at ho1; cases ho1
  exact ⟨{ g' with len := 1 }, ⟨_, b, obj_setObj_self _ (obj_lt e1), e2, e3, by dsimp only at e4 h3 ⊢; omega, e5, e6, e7, e8⟩,
    h1, rfl, h4⟩

end Rca
end Bdlib
