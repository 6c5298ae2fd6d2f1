import Verif.Machine.WF
import Verif.Machine.Lists

/-!
# Specifications of the storage layer: reserve, copy-on-write, `AboutToModify`
-/

namespace Bdlib.Rca
open Bdlib

variable {T : Type} {cfg : Cfg T}

theorem _root_.Bdlib.WF.le {s : St T} {o a : Nat} {ob : Obj} (h : WF cfg s) (ho : s.obj o = some ob)
    (hr : ob.ref = some a) : ∃ b, s.blk a = some b ∧ ob.offset + ob.sublen ≤ b.cells.length := by
  obtain ⟨b, hb, hle⟩ := h.bounds o ob a ho hr
  have := cfg.le_need ob.sublen
  exact ⟨b, hb, by omega⟩

/-! ## Primitive steps -/

section Steps
variable {α β : Type} {Q : β → St T → Prop} {E : Exc → St T → Prop} {s : St T}

theorem sat_getObj {o : Nat} {ob : Obj} {f : Obj → M T β} (h : s.obj o = some ob)
    (hf : (f ob s).Sat Q E) : ((getObj o >>= f) s).Sat Q E := by
  apply sat_bind
  simp only [getObj, h]
  exact hf

theorem sat_putObj {o : Nat} {ob : Obj} {f : Unit → M T β}
    (hf : (f () (s.setObj o (some ob))).Sat Q E) : ((putObj o ob >>= f) s).Sat Q E := sat_bind hf

theorem sat_putObj_last {o : Nat} {ob : Obj} {Q : Unit → St T → Prop}
    (hf : Q () (s.setObj o (some ob))) : (putObj o ob s).Sat Q E := hf

theorem sat_getBlk {a : Nat} {b : Block T} {f : Block T → M T β} (h : s.blk a = some b)
    (hf : (f b s).Sat Q E) : ((getBlk a >>= f) s).Sat Q E := by
  apply sat_bind
  simp only [getBlk, h]
  exact hf

theorem sat_putBlk {a : Nat} {b : Block T} {f : Unit → M T β}
    (hf : (f () (s.setBlk a (some b))).Sat Q E) : ((putBlk a b >>= f) s).Sat Q E := sat_bind hf

theorem sat_length {o : Nat} {ob : Obj} {f : Nat → M T β} (h : s.obj o = some ob)
    (hf : (f ob.sublen s).Sat Q E) : ((length o >>= f) s).Sat Q E := by
  apply sat_bind
  exact sat_getObj h hf

theorem sat_alloc {n : Nat} {f : Nat → M T β}
    (hf : (f (s.gen + 1) { s with gen := s.gen + 1 }).Sat Q E)
    (he : E .badAlloc { s with gen := s.gen + 1 }) : ((alloc cfg n >>= f) s).Sat Q E := by
  apply sat_bind
  simp only [alloc]
  split
  · exact hf
  · exact he

theorem bind_assoc' {γ : Type} (m : M T α) (f : α → M T β) (g : β → M T γ) :
    ((m >>= f) >>= g) = (m >>= fun a => f a >>= g) := by
  funext s
  show M.bind (M.bind m f) g s = M.bind m (fun a => M.bind (f a) g) s
  unfold M.bind
  cases m s <;> rfl

theorem pure_bind' (a : α) (f : α → M T β) : ((pure a : M T α) >>= f) = f a := rfl

theorem sat_ite {c : Prop} [Decidable c] {m1 m2 : M T β}
    (h1 : c → (m1 s).Sat Q E) (h2 : ¬ c → (m2 s).Sat Q E) :
    ((if c then m1 else m2) s).Sat Q E := by
  by_cases h : c
  · rw [if_pos h]; exact h1 h
  · rw [if_neg h]; exact h2 h

end Steps

/-! ## Sole ownership -/

/-- Is the object's buffer shared with another object? -/
def shared (s : St T) (o : Nat) : Bool :=
  match s.obj o with
  | none => false
  | some ob =>
    match ob.ref with
    | none => false
    | some a =>
      match s.blk a with
      | none => false
      | some b => decide (b.refs > 1)

theorem shared_eq {s : St T} {o a : Nat} {ob : Obj} {b : Block T} (ho : s.obj o = some ob)
    (hr : ob.ref = some a) (hb : s.blk a = some b) : shared s o = decide (b.refs > 1) := by
  simp [shared, ho, hr, hb]

theorem shared_none {s : St T} {o : Nat} {ob : Obj} (ho : s.obj o = some ob)
    (hr : ob.ref = none) : shared s o = false := by
  simp [shared, ho, hr]

/-- Object `o` has members `ob`, is the sole owner of block `a = b`, its hash is stale, and
relative to the state `s0` nothing observable through another object has changed. -/
structure Own (cfg : Cfg T) (s0 s : St T) (o : Nat) (ob : Obj) (a : Nat) (b : Block T) : Prop where
  wf : WF cfg s
  frame : Frame s0 s o
  obj : s.obj o = some ob
  ref : ob.ref = some a
  blk : s.blk a = some b
  refs : b.refs = 1
  hash : ob.hash = 0

theorem Own.need {s0 s : St T} {o a : Nat} {ob : Obj} {b : Block T} (h : Own cfg s0 s o ob a b) :
    ob.offset + cfg.need ob.sublen ≤ b.cells.length := by
  obtain ⟨b', hb', hle⟩ := h.wf.bounds o ob a h.obj h.ref
  rw [h.blk] at hb'; cases hb'
  exact hle

theorem Own.bounds {s0 s : St T} {o a : Nat} {ob : Obj} {b : Block T} (h : Own cfg s0 s o ob a b) :
    ob.offset + ob.sublen ≤ b.cells.length := by
  have := h.need
  have := cfg.le_need ob.sublen
  omega

theorem Own.view {s0 s : St T} {o a : Nat} {ob : Obj} {b : Block T} (h : Own cfg s0 s o ob a b) :
    s.view o = some (window b.cells ob.offset ob.sublen) := by
  rw [view_eq h.obj, St.viewOf_some h.ref h.blk h.bounds]

/-- Change the window of a sole owner. -/
theorem Own.setObj {s0 s : St T} {o a : Nat} {ob ob' : Obj} {b : Block T}
    (h : Own cfg s0 s o ob a b) (hr : ob'.ref = some a) (hh : ob'.hash = 0)
    (hb : ob'.offset + cfg.need ob'.sublen ≤ b.cells.length) :
    Own cfg s0 (s.setObj o (some ob')) o ob' a b := by
  have := wf_updObj (ob' := ob') h.wf h.obj (by rw [hr, h.ref])
    (by intro a1 b1 h1 h2; rw [h.ref] at h1; cases h1; rw [h.blk] at h2; cases h2; exact hb)
    (by intro hne; exact absurd hh hne)
  exact ⟨this.1, h.frame.trans this.2.1, this.2.2, hr, h.blk, h.refs, hh⟩

/-- Change the cells of a sole owner. -/
theorem Own.setBlk {s0 s : St T} {o a : Nat} {ob : Obj} {b b' : Block T}
    (h : Own cfg s0 s o ob a b) (hr : b'.refs = 1) (hg : b'.gen ≤ s.gen)
    (hb : ob.offset + cfg.need ob.sublen ≤ b'.cells.length) :
    Own cfg s0 (s.setBlk a (some b')) o ob a b' := by
  have := wf_updOwn (b' := b') h.wf h.obj h.ref h.blk (by rw [h.refs]; decide)
    (by rw [hr, h.refs]) hg hb h.hash
  exact ⟨this.1, h.frame.trans this.2, h.obj, h.ref,
    St.blk_setBlk_self _ (St.blk_lt h.blk), hr, h.hash⟩

/-- The allocation counter and the ghost log do not matter. -/
theorem Own.gen {s0 s : St T} {o a : Nat} {ob : Obj} {b : Block T}
    (h : Own cfg s0 s o ob a b) (g : Nat) (hg : s.gen ≤ g) (fr : List (List T)) :
    Own cfg s0 { s with gen := g, freed := fr } o ob a b :=
  ⟨wf_gen h.wf g hg fr, h.frame, h.obj, h.ref, h.blk, h.refs, h.hash⟩

/-- `writeRange` by the sole owner. -/
theorem writeRange_own {s0 s : St T} {o a i : Nat} {ob : Obj} {b : Block T} {vs : List T}
    {Q : Unit → St T → Prop} {E : Exc → St T → Prop}
    (h : Own cfg s0 s o ob a b) (hb : ob.offset + i + vs.length ≤ b.cells.length)
    (hQ : ∀ s', Own cfg s0 s' o ob a { b with cells := overwrite b.cells (ob.offset + i) vs } →
      Q () s') : (writeRange o i vs s).Sat Q E := by
  unfold writeRange
  apply sat_getObj h.obj
  cases vs with
  | nil =>
    have := hQ s (by simpa [overwrite_nil] using h)
    exact this
  | cons x xs =>
    rw [if_neg (by simp), h.ref]
    apply sat_getBlk h.blk
    refine sat_ite (fun _ => ?_) (fun hc => absurd hb hc)
    apply hQ
    apply h.setBlk
    · exact h.refs
    · exact h.wf.gens a b h.blk
    · show _ ≤ (overwrite _ _ _).length
      rw [overwrite_length hb]
      exact h.need

/-- `readRange` on an object whose block is known. -/
theorem readRange_blk {s : St T} {o a i n : Nat} {ob : Obj} {b : Block T}
    {Q : List T → St T → Prop} {E : Exc → St T → Prop}
    (ho : s.obj o = some ob) (hr : ob.ref = some a) (hb : s.blk a = some b)
    (hle : ob.offset + i + n ≤ b.cells.length)
    (hQ : Q (window b.cells (ob.offset + i) n) s) : (readRange o i n s).Sat Q E := by
  unfold readRange
  apply sat_getObj ho
  by_cases hn : n = 0
  · subst hn
    rw [if_pos rfl]
    rw [window_zero] at hQ
    exact hQ
  · rw [if_neg hn, hr]
    apply sat_getBlk hb
    exact sat_ite (fun _ => hQ) (fun hc => absurd hle hc)

/-- `readRange` inside the elements of a determined object. -/
theorem readRange_view {s : St T} (hwf : WF cfg s) {o i n : Nat} {v : List T}
    {Q : List T → St T → Prop} {E : Exc → St T → Prop}
    (hv : s.view o = some v) (hle : i + n ≤ v.length)
    (hQ : Q (window v i n) s) : (readRange o i n s).Sat Q E := by
  obtain ⟨ob, ho, hvo⟩ := view_some hv
  have hlen := viewOf_length hvo
  cases hr : ob.ref with
  | none =>
    have h0 : v = [] := (St.viewOf_none_inv hr hvo).1
    subst h0
    have hn : n = 0 := by simp at hle; omega
    subst hn
    unfold readRange
    apply sat_getObj ho
    rw [if_pos rfl]
    have : window ([] : List T) i 0 = [] := by simp [window]
    rw [this] at hQ
    exact hQ
  | some a =>
    obtain ⟨b, hb, hle''⟩ := hwf.bounds o ob a ho hr
    have hle' : ob.offset + ob.sublen ≤ b.cells.length := by
      have := cfg.le_need ob.sublen
      omega
    rw [St.viewOf_some hr hb hle'] at hvo
    cases hvo
    apply readRange_blk ho hr hb (by omega)
    rw [window_window (by omega)] at hQ
    exact hQ

/-! ## reserve -/

theorem junkFrom_length (cfg : Cfg T) (g i n : Nat) : (junkFrom cfg g i n).length = n - i := by
  simp [junkFrom]

/-- `ArrayRef::reserve` called by the sole owner: either it throws and only the allocation counter
changed, or there is room for `n` elements from the returned offset, which starts the same
elements as before. -/
theorem arefReserve_own {s0 s : St T} {o a n : Nat} {scale : Nat → Nat} {ob : Obj} {b : Block T}
    {Q : Nat → St T → Prop} {E : Exc → St T → Prop}
    (h : Own cfg s0 s o ob a b)
    (hQ : ∀ off s' b', Own cfg s0 s' o ob a b' →
      window b'.cells off ob.sublen = window b.cells ob.offset ob.sublen →
      off + n ≤ b'.cells.length → off + cfg.need ob.sublen ≤ b'.cells.length →
      b.cells.length ≤ b'.cells.length →
      (ob.offset + ob.sublen < b.cells.length → off + ob.sublen < b'.cells.length) →
      (n ≤ b.cells.length → b'.cells.length = b.cells.length) →
      (¬ n ≤ b.cells.length → b'.cells.length = max (max (scale b.cells.length) n) ob.sublen) →
      Q off s')
    (hE : E .badAlloc { s with gen := s.gen + 1 }) :
    (arefReserve cfg a n scale ob.offset ob.sublen s).Sat Q E := by
  have hbd := h.bounds
  have hnd := h.need
  have hnl := cfg.le_need ob.sublen
  unfold arefReserve
  apply sat_getBlk h.blk
  simp only
  apply sat_ite
  · intro hlt
    apply sat_alloc _ hE
    have hown := h.gen (s.gen + 1) (Nat.le_succ _) s.freed
    apply sat_ite
    · intro h0
      apply sat_putBlk
      have hs0 : ob.sublen = 0 := by omega
      have ho0 : ob.offset = 0 := by omega
      apply hQ
      · apply hown.setBlk
        · exact h.refs
        · exact Nat.le_refl _
        · simp only [junkFrom_length]; omega
      · rw [hs0, window_zero, window_zero]
      · simp only [junkFrom_length]; omega
      · simp only [junkFrom_length]; omega
      · simp only [junkFrom_length]; omega
      · intro hc; omega
      · intro hc; omega
      · intro _; simp only [junkFrom_length]; omega
    · intro _
      rw [if_pos hbd]
      have hown2 := hown.gen (s.gen + 1) (Nat.le_refl _)
        ((window b.cells 0 ob.offset ++ (window b.cells ob.offset ob.sublen).map cfg.moved
          ++ b.cells.drop (ob.offset + ob.sublen)) :: s.freed)
      have hwl : (window b.cells ob.offset ob.sublen).length = ob.sublen := window_len hbd
      have hlen : (window b.cells ob.offset ob.sublen ++
          junkFrom cfg (s.gen + 1) ob.sublen (max (scale b.cells.length) n)).length
          = max ob.sublen (max (scale b.cells.length) n) := by
        rw [List.length_append, hwl, junkFrom_length]; omega
      apply hQ
      · apply hown2.setBlk
        · exact h.refs
        · exact Nat.le_refl _
        · simp only [hlen]; omega
      · have := window_append_left (l := window b.cells ob.offset ob.sublen)
          (r := junkFrom cfg (s.gen + 1) ob.sublen (max (scale b.cells.length) n))
        rw [hwl] at this
        exact this
      all_goals simp only [hlen]
      all_goals omega
  · intro hge
    apply sat_ite
    · intro hshift
      rw [if_pos hbd]
      apply sat_putBlk
      have hwl : (window b.cells ob.offset ob.sublen).length = ob.sublen := window_len hbd
      have hl1 : (overwrite b.cells ob.offset ((window b.cells ob.offset ob.sublen).map cfg.moved)).length
          = b.cells.length := overwrite_length (by rw [List.length_map, hwl]; exact hbd)
      have hl2 : (overwrite (overwrite b.cells ob.offset
          ((window b.cells ob.offset ob.sublen).map cfg.moved)) 0 (window b.cells ob.offset ob.sublen)).length
          = b.cells.length := by
        rw [overwrite_length (by rw [hwl, hl1]; omega), hl1]
      apply hQ
      · apply h.setBlk
        · exact h.refs
        · exact h.wf.gens a b h.blk
        · rw [hl2]; exact hnd
      · have := window_overwrite_self (cells := overwrite b.cells ob.offset
          ((window b.cells ob.offset ob.sublen).map cfg.moved)) (i := 0)
          (vs := window b.cells ob.offset ob.sublen) (by rw [hwl, hl1]; omega)
        rw [hwl] at this
        exact this
      all_goals (show _; simp only; rw [hl2])
      all_goals omega
    · intro hno
      simp only [sub64] at hno
      rw [if_pos (by omega)] at hno
      apply hQ ob.offset s b h rfl
      all_goals omega

/-- State in which `o` may call `reserve`: determined value `v`, not shared, hash already stale. -/
structure Ready (cfg : Cfg T) (s0 s : St T) (o : Nat) (ob : Obj) (v : List T) : Prop where
  wf : WF cfg s
  frame : Frame s0 s o
  obj : s.obj o = some ob
  view : s.viewOf ob = some v
  unshared : shared s o = false
  hash : ob.hash = 0

theorem Ready.own {s0 s : St T} {o a : Nat} {ob : Obj} {v : List T} (h : Ready cfg s0 s o ob v)
    (hr : ob.ref = some a) : ∃ b, Own cfg s0 s o ob a b ∧ window b.cells ob.offset ob.sublen = v := by
  obtain ⟨b, hb, hle'⟩ := h.wf.bounds o ob a h.obj hr
  have hle : ob.offset + ob.sublen ≤ b.cells.length := by
    have := cfg.le_need ob.sublen
    omega
  have hrefs := h.wf.refs a b hb
  have hsh := h.unshared
  rw [shared_eq h.obj hr hb] at hsh
  have hv := h.view
  rw [St.viewOf_some hr hb hle] at hv
  refine ⟨b, ⟨h.wf, h.frame, h.obj, hr, hb, ?_, h.hash⟩, by injection hv⟩
  simp at hsh
  omega

/-- `ReferenceCountedArray::reserve` on an unshared object. -/
theorem rcaReserve_own {s0 s : St T} {o n : Nat} {scale : Nat → Nat} {ob : Obj} {v : List T}
    {Q : Unit → St T → Prop} {E : Exc → St T → Prop}
    (h : Ready cfg s0 s o ob v)
    (hQ : ∀ s' ob' a b', Own cfg s0 s' o ob' a b' → ob'.sublen = v.length →
      window b'.cells ob'.offset v.length = v → ob'.offset + n ≤ b'.cells.length →
      (∀ a0 b0, ob.ref = some a0 → s.blk a0 = some b0 → b0.cells.length ≤ b'.cells.length ∧
        (ob.offset + ob.sublen < b0.cells.length → ob'.offset + v.length < b'.cells.length)) →
      Q () s')
    (hE : ∀ s' ob', WF cfg s' → Frame s0 s' o → s'.obj o = some ob' → s'.view o = some v →
      E .badAlloc s') :
    (rcaReserve cfg o n scale s).Sat Q E := by
  have hlen := viewOf_length h.view
  unfold rcaReserve
  apply sat_getObj h.obj
  cases hr : ob.ref with
  | none =>
    obtain ⟨hv0, hsl, hoff⟩ := St.viewOf_none_inv hr h.view
    subst hv0
    simp only [newRef]
    refine sat_bind (sat_alloc ?_ ?_)
    · -- allocation of the ArrayRef succeeded
      have hat := wf_attachNew (cfg := cfg) (s := s) (o := o) (ob := ob)
        (ob' := { ob with ref := some s.heap.length })
        (b := { gen := 0, cells := [], refs := 1 }) (g := s.gen + 1) h.wf h.obj hr rfl rfl
        (by simp [hsl, hoff, Cfg.need]) h.hash (by simp) (Nat.le_succ _)
      obtain ⟨hwf, hfr, hobj, hblk⟩ := hat
      have hown : Own cfg s0 _ o { ob with ref := some s.heap.length } s.heap.length
          { gen := 0, cells := [], refs := 1 } :=
        ⟨hwf, h.frame.trans hfr, hobj, rfl, hblk, rfl, h.hash⟩
      apply sat_putObj
      rw [pure_bind']
      refine sat_bind (arefReserve_own (ob := { ob with ref := some s.heap.length }) hown ?_ ?_)
      · intro off s' b' how hw h1 h2 h3 _ _ _
        apply sat_getObj how.obj
        refine hQ _ { ob with ref := some s.heap.length, offset := off } s.heap.length b'
          (how.setObj rfl h.hash h2) hsl ?_ h1 ?_
        · simp [window_zero]
        · intro a0 b0 h0; rw [hr] at h0; cases h0
      · have hg := hown.gen (s.gen + 1 + 1) (Nat.le_succ _) s.freed
        refine hE _ _ hg.wf hg.frame hg.obj ?_
        exact hg.view.trans (by simp [hsl, window_zero])
    · refine hE _ ob ?_ ?_ ?_ ?_
      · exact wf_gen h.wf _ (Nat.le_succ _) s.freed
      · exact h.frame
      · exact h.obj
      · exact (view_eq (s := { s with gen := s.gen + 1 }) h.obj).trans h.view
  | some a =>
    obtain ⟨b, hown, hw⟩ := h.own hr
    simp only [pure_bind']
    refine sat_bind (arefReserve_own hown ?_ ?_)
    · intro off s' b' how hw' h1 h2 h3 h4 _ _
      apply sat_getObj how.obj
      refine hQ _ { ob with offset := off } a b' (how.setObj hr h.hash h2) hlen.symm ?_ h1 ?_
      · rw [hlen, hw', hw]
      · intro a0 b0 h0 hb0
        rw [hr] at h0
        cases h0
        rw [hown.blk] at hb0; cases hb0
        rw [hlen]
        exact ⟨h3, h4⟩
    · have hg := hown.gen (s.gen + 1) (Nat.le_succ _) s.freed
      refine hE _ _ hg.wf hg.frame hg.obj ?_
      rw [hg.view, hw]

/-- Room for `n` elements from the object's offset; for strings one cell more if `n > 0`. -/
def room (cfg : Cfg T) (n : Nat) : Nat := if cfg.nul.isSome ∧ n > 0 then n + 1 else n

theorem need_le_room (hc : cfg.Valid) {m n : Nat} (h : m ≤ n) : cfg.need m ≤ room cfg n := by
  unfold Cfg.need room
  rcases hc with h0 | ⟨h1, h2⟩
  · split <;> split <;> omega
  · split
    · omega
    · rw [if_pos ⟨h2, by omega⟩]; omega

theorem le_room (cfg : Cfg T) (n : Nat) : n ≤ room cfg n := by
  unfold room; split <;> omega

/-- The virtual `reserve` on an unshared object.  For strings the terminating NUL is written into
the last cell, which must not be in use: guaranteed if `n` covers the current length or if there is
a spare cell already. -/
theorem reserve_own {s0 s : St T} {o n : Nat} {scale : Nat → Nat} {ob : Obj} {v : List T}
    {Q : Unit → St T → Prop} {E : Exc → St T → Prop}
    (h : Ready cfg s0 s o ob v)
    (hn : cfg.nul.isSome → v.length ≤ n ∨
      (∀ a0 b0, ob.ref = some a0 → s.blk a0 = some b0 → ob.offset + ob.sublen < b0.cells.length))
    (hQ : ∀ s' ob' a b', Own cfg s0 s' o ob' a b' → ob'.sublen = v.length →
      window b'.cells ob'.offset v.length = v → ob'.offset + room cfg n ≤ b'.cells.length →
      (∀ a0 b0, ob.ref = some a0 → s.blk a0 = some b0 → b0.cells.length ≤ b'.cells.length ∧
        (ob.offset + ob.sublen < b0.cells.length → ob'.offset + v.length < b'.cells.length)) →
      Q () s')
    (hE : ∀ s' ob', WF cfg s' → Frame s0 s' o → s'.obj o = some ob' → s'.view o = some v →
      E .badAlloc s') :
    (reserve cfg o n scale s).Sat Q E := by
  unfold reserve
  cases hnul : cfg.nul with
  | none =>
    simp only
    apply rcaReserve_own h _ hE
    intro s' ob' a b' how h1 h2 h3 h4
    refine hQ s' ob' a b' how h1 h2 ?_ h4
    simpa [room, hnul] using h3
  | some c =>
    simp only
    unfold strReserve
    refine sat_bind (rcaReserve_own h ?_ hE)
    intro s' ob' a b' how h1 h2 h3 h4
    apply sat_getObj how.obj
    rw [how.ref]
    apply sat_getBlk how.blk
    have hroom : ob'.offset + room cfg n ≤ b'.cells.length := by
      simp only [room, hnul, Option.isSome_some, true_and]
      exact h3
    apply sat_ite
    · intro h0
      have hb := how.bounds
      apply sat_ite
      · intro _
        exact hQ s' ob' a b' how h1 h2 hroom h4
      · intro hc; exact absurd (by omega) hc
    · intro h0
      have hspare : v = [] ∨ ob'.offset + v.length ≤ b'.cells.length - 1 := by
        by_cases hv0 : v = []
        · exact Or.inl hv0
        · right
          rcases hn (by simp [hnul]) with hle | hsp
          · have hpos : 0 < v.length := List.length_pos_iff.mpr hv0
            rw [if_pos (by omega)] at h3
            omega
          · cases hr : ob.ref with
            | none =>
              exact absurd (St.viewOf_none_inv hr h.view).1 hv0
            | some a0 =>
              obtain ⟨b0, hb0, _⟩ := h.wf.bounds o ob a0 h.obj hr
              have := (h4 a0 b0 hr hb0).2 (hsp a0 b0 hr hb0)
              omega
      have hlen : (overwrite b'.cells (b'.cells.length - 1) [c]).length = b'.cells.length :=
        overwrite_length (by simp; omega)
      have how' : Own cfg s0 (s'.setBlk a (some { b' with
          cells := overwrite b'.cells (b'.cells.length - 1) [c] })) o ob' a
          { b' with cells := overwrite b'.cells (b'.cells.length - 1) [c] } :=
        how.setBlk how.refs (how.wf.gens a b' how.blk) (by simp only [hlen]; exact how.need)
      refine hQ _ ob' a _ how' h1 ?_ ?_ ?_
      · rcases hspare with hv0 | hle
        · subst hv0; exact window_zero _ _
        · show window (overwrite _ _ _) _ _ = _
          rw [window_overwrite_after hle (by omega)]
          exact h2
      · simp only [hlen]; exact hroom
      · intro a0 b0 hr hb0
        simp only [hlen]
        exact h4 a0 b0 hr hb0

/-! ## Copy on write -/

theorem isShared_sat {s : St T} (hwf : WF cfg s) {o : Nat} {ob : Obj} {β : Type}
    {f : Bool → M T β} {Q : β → St T → Prop} {E : Exc → St T → Prop}
    (ho : s.obj o = some ob) (hf : (f (shared s o) s).Sat Q E) :
    ((isShared o >>= f) s).Sat Q E := by
  refine sat_bind ?_
  unfold isShared
  apply sat_getObj ho
  cases hr : ob.ref with
  | none =>
    rw [shared_none ho hr] at hf
    exact hf
  | some a =>
    obtain ⟨b, hb, _⟩ := hwf.bounds o ob a ho hr
    rw [shared_eq ho hr hb] at hf
    apply sat_getBlk hb
    exact hf

/-- Giving up a shared block. -/
theorem doDetach_spec {s : St T} (hwf : WF cfg s) {o : Nat} {ob : Obj}
    {Q : Unit → St T → Prop} {E : Exc → St T → Prop}
    (ho : s.obj o = some ob) (hsh : shared s o = true)
    (hQ : ∀ s', WF cfg s' → Frame s s' o → s'.obj o = some {} → Q () s') :
    (doDetach o s).Sat Q E := by
  unfold doDetach
  apply sat_getObj ho
  cases hr : ob.ref with
  | none => rw [shared_none ho hr] at hsh; cases hsh
  | some a =>
    obtain ⟨b, hb, _⟩ := hwf.bounds o ob a ho hr
    rw [shared_eq ho hr hb] at hsh
    have hgt : 1 < b.refs := by simpa using hsh
    refine sat_bind ?_
    show ((getBlk a >>= _) s).Sat _ _
    apply sat_getBlk hb
    have := wf_dropShared (cfg := cfg) (x := some {}) hwf ho hr hb hgt
      (by intro ob' h'; cases h'; exact ⟨rfl, fun hne => absurd rfl hne⟩)
    exact hQ _ this.1 this.2.1 this.2.2

/-- `AboutToModify(n)` on a determined object with `n` at least its length: afterwards the object
is the sole owner of its buffer, which has room for `n` elements, and still shows the same
elements; nobody else notices.  If memory runs out the object still shows its elements if it was
not shared, but has become empty if it was. -/
theorem aboutToModify_spec {s : St T} (hwf : WF cfg s) {o n : Nat} {v : List T}
    {Q : Unit → St T → Prop} {E : Exc → St T → Prop}
    (hv : s.view o = some v) (hn : v.length ≤ n)
    (hQ : ∀ s' ob' a b', Own cfg s s' o ob' a b' → ob'.sublen = v.length →
      window b'.cells ob'.offset v.length = v → ob'.offset + room cfg n ≤ b'.cells.length →
      Q () s')
    (hE : ∀ s' ob', WF cfg s' → Frame s s' o → s'.obj o = some ob' →
      s'.view o = some (if shared s o then [] else v) → E .badAlloc s') :
    (aboutToModify cfg o n s).Sat Q E := by
  obtain ⟨ob, ho, hvo⟩ := view_some hv
  have hlen := viewOf_length hvo
  unfold aboutToModify
  apply sat_getObj ho
  apply sat_putObj
  have hup := wf_updObj (ob' := { ob with hash := 0 }) hwf ho rfl
    (by
      intro a b hr hb
      obtain ⟨b', hb', hle⟩ := hwf.bounds o ob a ho hr
      rw [hb] at hb'; cases hb'
      exact hle)
    (by intro hne; exact absurd rfl hne)
  obtain ⟨hwf1, hfr1, ho1⟩ := hup
  have hsh1 : shared (s.setObj o (some { ob with hash := 0 })) o = shared s o := by
    have hcase : ob.ref = none ∨ ∃ a, ob.ref = some a := by cases ob.ref <;> simp
    rcases hcase with hr | ⟨a, hr⟩
    · rw [shared_none ho1 hr, shared_none ho hr]
    · obtain ⟨b, hb, _⟩ := hwf.bounds o ob a ho hr
      rw [shared_eq ho1 hr (by exact hb), shared_eq ho hr hb]
  have hv1 : (s.setObj o (some { ob with hash := 0 })).viewOf { ob with hash := 0 } = some v := hvo
  generalize hs1 : s.setObj o (some { ob with hash := 0 }) = s1 at *
  apply isShared_sat hwf1 ho1
  rw [hsh1]
  cases hsh : shared s o with
  | false =>
    rw [hsh] at hsh1 hE
    simp only [Bool.false_eq_true, if_false] at hE ⊢
    exact reserve_own ⟨hwf1, hfr1, ho1, hv1, hsh1, rfl⟩ (fun _ => Or.inl hn)
      (fun s' ob' a b' how h1 h2 h3 _ => hQ s' ob' a b' how h1 h2 h3) hE
  | true =>
    rw [hsh] at hsh1 hE
    simp only [if_true] at hE ⊢
    unfold cow
    apply sat_getObj ho1
    refine sat_bind (doDetach_spec hwf1 ho1 hsh1 ?_)
    intro s2 hwf2 hfr2 ho2
    have hready : Ready cfg s s2 o {} [] :=
      ⟨hwf2, hfr1.trans hfr2, ho2, rfl, shared_none ho2 rfl, rfl⟩
    refine sat_bind (reserve_own hready (fun _ => Or.inl (Nat.zero_le _)) ?_ hE)
    intro s3 ob3 a3 b3 how3 hsl3 _ hroom3 _
    have hmin : min ({ ob with hash := 0 } : Obj).sublen n = v.length := by
      show min ob.sublen n = _
      omega
    rw [hmin]
    apply sat_getObj how3.obj
    apply sat_putObj
    have hr3 := le_room cfg n
    have how4 : Own cfg s (s3.setObj o (some { ob3 with sublen := v.length })) o
        { ob3 with sublen := v.length } a3 b3 :=
      how3.setObj how3.ref how3.hash (by
        have := need_le_room hwf.valid hn
        simp only; omega)
    apply sat_ite
    · intro h0
      refine hQ _ _ a3 b3 how4 rfl ?_ hroom3
      have : v = [] := List.length_eq_zero_iff.mp (by omega)
      subst this
      exact window_zero _ _
    · intro hpos
      cases hr : ob.ref with
      | none =>
        exact absurd (by rw [(St.viewOf_none_inv hr hvo).1]; rfl) hpos
      | some a =>
        obtain ⟨b, hb, hle⟩ := hwf.le ho hr
        have hgt : 1 < b.refs := by
          rw [shared_eq ho hr hb] at hsh
          simpa using hsh
        have hown := hwf.refs a b hb
        obtain ⟨o2, ob2, hne2, ho2', hr2⟩ := exists_other_owner ho hr (by omega)
        have hvis := (how3.frame o2 hne2).2 ob2 a ho2' hr2
        rw [hb] at hvis
        cases hb3 : s3.blk a with
        | none => rw [hb3] at hvis; simp at hvis
        | some bb =>
          rw [hb3] at hvis
          simp only [Option.map_some, Block.vis, Option.some.injEq, Prod.mk.injEq] at hvis
          show ((getBlk a >>= _) _).Sat _ _
          apply sat_getBlk (b := bb) (by exact hb3)
          rw [hvis.2]
          apply sat_ite
          · intro _
            have hwv : window b.cells ob.offset v.length = v := by
              rw [St.viewOf_some hr hb hle] at hvo
              rw [hlen]; injection hvo
            show (writeRange o 0 (window b.cells ob.offset v.length) _).Sat _ _
            rw [hwv]
            apply writeRange_own how4
            · simp only; omega
            · intro s5 how5
              refine hQ s5 _ a3 _ how5 rfl ?_ ?_
              · refine window_overwrite_self ?_
                show ob3.offset + 0 + v.length ≤ _
                omega
              · simp only [Nat.add_zero]
                rw [overwrite_length (by omega)]
                exact hroom3
          · intro hc
            refine absurd ?_ hc
            show ob.offset + v.length ≤ _
            omega

end Bdlib.Rca
