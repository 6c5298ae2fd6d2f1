import Verif.Rca.Model

/-!
# Invariant of the memory machine and its preservation by elementary transitions
-/

namespace Bdlib
open Rca

variable {T : Type}

namespace St

/-- The elements an object with these members shows through the public interface, `none` if
they are not determined (moved-from object with stale `sublen` or `offset`). -/
def viewOf (s : St T) (ob : Obj) : Option (List T) :=
  match ob.ref with
  | none => if ob.sublen = 0 ∧ ob.offset = 0 then some [] else none
  | some a =>
    match s.blk a with
    | none => none
    | some b =>
      if ob.offset + ob.sublen ≤ b.cells.length then some (window b.cells ob.offset ob.sublen)
      else none

/-- The value of the object behind handle `o`, `none` if there is none or it is undetermined. -/
def view (s : St T) (o : Nat) : Option (List T) := (s.obj o).bind s.viewOf

/-- Number of live objects whose `Ref` is block `a`. -/
def owners (s : St T) (a : Nat) : Nat :=
  s.objs.countP (fun x => decide (x.bind Obj.ref = some a))

end St

/-- What `hash()` computes afresh for contents `v`. -/
def hashOf (cfg : Cfg T) (v : List T) : UInt64 := hashLoop cfg.hasher 5381 v &&& 0x7FFFFFFF

/-- The machine invariant. -/
structure WF (cfg : Cfg T) (s : St T) : Prop where
  bounds : ∀ o ob a, s.obj o = some ob → ob.ref = some a →
    ∃ b, s.blk a = some b ∧ ob.offset + cfg.need ob.sublen ≤ b.cells.length
  refs : ∀ a b, s.blk a = some b → b.refs = (s.owners a : Int) ∧ 1 ≤ s.owners a
  hash : ∀ o ob v, s.obj o = some ob → ob.hash ≠ 0 → s.viewOf ob = some v → ob.hash = hashOf cfg v
  gens : ∀ a b, s.blk a = some b → b.gen ≤ s.gen
  valid : cfg.Valid

/-- What a raw pointer into a block can observe: which buffer it is and its cells. -/
def Block.vis (b : Block T) : Nat × List T := (b.gen, b.cells)

/-- Every object other than `o` is exactly as before, and so are the buffers these objects use
(the same buffers, not merely equal elements).  Hence their views are unchanged, see `Frame.view`. -/
def Frame (s s' : St T) (o : Nat) : Prop :=
  ∀ o', o' ≠ o → s'.obj o' = s.obj o' ∧
    ∀ ob a, s.obj o' = some ob → ob.ref = some a → (s'.blk a).map Block.vis = (s.blk a).map Block.vis

/-- The initial state. -/
theorem wf_init (cfg : Cfg T) (hc : cfg.Valid) : WF cfg ({} : St T) := by
  constructor <;> intros <;> simp_all [St.obj, St.blk]

/-! ## Reading back updates -/

namespace St
variable {s : St T} {o o' a a' : Nat}

theorem obj_lt {ob : Obj} (h : s.obj o = some ob) : o < s.objs.length := by
  unfold obj at h
  by_cases hl : o < s.objs.length
  · exact hl
  · simp [List.getElem?_eq_none (Nat.le_of_not_lt hl)] at h

theorem blk_lt {b : Block T} (h : s.blk a = some b) : a < s.heap.length := by
  unfold blk at h
  by_cases hl : a < s.heap.length
  · exact hl
  · simp [List.getElem?_eq_none (Nat.le_of_not_lt hl)] at h

@[simp] theorem obj_setObj_ne (x : Option Obj) (h : o' ≠ o) : (s.setObj o x).obj o' = s.obj o' := by
  simp [obj, setObj, Ne.symm h]

theorem obj_setObj_self (x : Option Obj) (h : o < s.objs.length) : (s.setObj o x).obj o = x := by
  simp [obj, setObj, h]

@[simp] theorem blk_setObj (x : Option Obj) : (s.setObj o x).blk a = s.blk a := rfl
@[simp] theorem obj_setBlk (x : Option (Block T)) : (s.setBlk a x).obj o = s.obj o := rfl
@[simp] theorem owners_setBlk (x : Option (Block T)) : (s.setBlk a x).owners a' = s.owners a' := rfl
@[simp] theorem gen_setObj (x : Option Obj) : (s.setObj o x).gen = s.gen := rfl
@[simp] theorem gen_setBlk (x : Option (Block T)) : (s.setBlk a x).gen = s.gen := rfl
@[simp] theorem viewOf_setObj (x : Option Obj) (ob : Obj) : (s.setObj o x).viewOf ob = s.viewOf ob := rfl

@[simp] theorem blk_setBlk_ne (x : Option (Block T)) (h : a' ≠ a) : (s.setBlk a x).blk a' = s.blk a' := by
  simp [blk, setBlk, Ne.symm h]

theorem blk_setBlk_self (x : Option (Block T)) (h : a < s.heap.length) : (s.setBlk a x).blk a = x := by
  simp [blk, setBlk, h]

/-- Contribution of a slot to the owner count of block `a`. -/
def hit (x : Option Obj) (a : Nat) : Nat := if x.bind Obj.ref = some a then 1 else 0

theorem owners_setObj (x : Option Obj) {ob : Obj} (h : s.obj o = some ob) (a : Nat) :
    (s.setObj o x).owners a + hit (some ob) a = s.owners a + hit x a := by
  have hl := obj_lt h
  have hget : s.objs[o] = some ob := by
    unfold obj at h
    rw [List.getElem?_eq_getElem hl] at h
    simpa using h
  unfold owners setObj hit
  simp only
  rw [List.countP_set hl, hget]
  have : 0 < List.countP (fun x => decide (x.bind Obj.ref = some a)) s.objs ∨
      ¬ ((some ob).bind Obj.ref = some a) := by
    by_cases hh : (some ob).bind Obj.ref = some a
    · left
      rw [List.countP_pos_iff]
      exact ⟨some ob, hget ▸ List.getElem_mem hl, by simpa using hh⟩
    · exact Or.inr hh
  have hpos : (if (some ob).bind Obj.ref = some a then 1 else 0) ≤
      List.countP (fun x => decide (x.bind Obj.ref = some a)) s.objs := by
    split
    · rename_i hh
      rcases this with h' | h'
      · exact h'
      · exact absurd hh h'
    · exact Nat.zero_le _
  simp only [decide_eq_true_eq]
  omega

theorem owners_pos {ob : Obj} (h : s.obj o = some ob) (hr : ob.ref = some a) : 1 ≤ s.owners a := by
  have hl := obj_lt h
  have hget : s.objs[o] = some ob := by
    unfold obj at h
    rw [List.getElem?_eq_getElem hl] at h
    simpa using h
  have : 0 < s.owners a := by
    unfold owners
    rw [List.countP_pos_iff]
    exact ⟨some ob, hget ▸ List.getElem_mem hl, by simpa using hr⟩
  exact this

/-- If block `a` has one owner, two objects referring to it are the same. -/
theorem owners_two {ob ob' : Obj} (h : s.obj o = some ob) (hr : ob.ref = some a)
    (h' : s.obj o' = some ob') (hr' : ob'.ref = some a) (hne : o ≠ o') : 2 ≤ s.owners a := by
  have e := owners_setObj (s := s) (o := o) none h a
  have h2 : (s.setObj o none).obj o' = some ob' := by rw [obj_setObj_ne _ (Ne.symm hne)]; exact h'
  have := owners_pos h2 hr'
  simp only [hit, Option.bind_some, hr, Option.bind_none, if_true, reduceCtorEq, if_false] at e
  omega

theorem viewOf_none_ref {ob : Obj} (h : ob.ref = none) (hl : ob.sublen = 0) (ho : ob.offset = 0) :
    s.viewOf ob = some [] := by
  simp [viewOf, h, hl, ho]

theorem viewOf_none_inv {ob : Obj} {v : List T} (h : ob.ref = none) (hv : s.viewOf ob = some v) :
    v = [] ∧ ob.sublen = 0 ∧ ob.offset = 0 := by
  unfold viewOf at hv
  rw [h] at hv
  simp only at hv
  split at hv
  · rename_i h0; exact ⟨(Option.some.inj hv).symm, h0⟩
  · cases hv

theorem viewOf_some {ob : Obj} {b : Block T} (h : ob.ref = some a) (hb : s.blk a = some b)
    (hl : ob.offset + ob.sublen ≤ b.cells.length) :
    s.viewOf ob = some (window b.cells ob.offset ob.sublen) := by
  simp [viewOf, h, hb, hl]

/-- The view of an object depends only on its members and its block. -/
theorem viewOf_congr {s' : St T} {ob : Obj} (h : ∀ a, ob.ref = some a → s'.blk a = s.blk a) :
    s'.viewOf ob = s.viewOf ob := by
  unfold viewOf
  cases hr : ob.ref with
  | none => rfl
  | some a => simp only [h a hr]

/-- ... and of its block only through the cells. -/
theorem viewOf_congr_cells {s' : St T} {ob : Obj}
    (h : ∀ a, ob.ref = some a → (s'.blk a).map Block.vis = (s.blk a).map Block.vis) :
    s'.viewOf ob = s.viewOf ob := by
  unfold viewOf
  cases hr : ob.ref with
  | none => rfl
  | some a =>
    have := h a hr
    simp only
    cases h1 : s'.blk a <;> cases h2 : s.blk a <;> simp_all [Block.vis]

end St

theorem view_eq {s : St T} {o : Nat} {ob : Obj} (h : s.obj o = some ob) : s.view o = s.viewOf ob := by
  simp [St.view, h]

theorem view_some {s : St T} {o : Nat} {v : List T} (h : s.view o = some v) :
    ∃ ob, s.obj o = some ob ∧ s.viewOf ob = some v := by
  unfold St.view at h
  cases ho : s.obj o with
  | none => simp [ho] at h
  | some ob => exact ⟨ob, rfl, by simpa [ho] using h⟩

theorem window_length {cells : List T} {i n : Nat} (h : i + n ≤ cells.length) :
    (window cells i n).length = n := by
  simp [window]; omega

theorem viewOf_length {s : St T} {ob : Obj} {v : List T} (h : s.viewOf ob = some v) :
    v.length = ob.sublen := by
  unfold St.viewOf at h
  split at h
  · split at h
    · simp_all
    · simp at h
  · split at h
    · simp at h
    · split at h
      · rename_i hb _ hle
        simp only [Option.some.injEq] at h
        subst h
        exact window_length hle
      · simp at h

theorem Frame.refl (s : St T) (o : Nat) : Frame s s o := fun _ _ => ⟨rfl, fun _ _ _ _ => rfl⟩

theorem Frame.trans {s s' s'' : St T} {o : Nat} (h : Frame s s' o) (h' : Frame s' s'' o) :
    Frame s s'' o := fun o' hne =>
  ⟨(h' o' hne).1.trans (h o' hne).1, fun ob a ho hr =>
    ((h' o' hne).2 ob a ((h o' hne).1.trans ho) hr).trans ((h o' hne).2 ob a ho hr)⟩

theorem Frame.obj {s s' : St T} {o o' : Nat} (h : Frame s s' o) (hne : o' ≠ o) :
    s'.obj o' = s.obj o' := (h o' hne).1

theorem Frame.view {s s' : St T} {o o' : Nat} (h : Frame s s' o) (hne : o' ≠ o) :
    s'.view o' = s.view o' := by
  unfold St.view
  rw [h.obj hne]
  cases ho : s.obj o' with
  | none => rfl
  | some ob => exact St.viewOf_congr_cells (fun a hr => (h o' hne).2 ob a ho hr)

/-! ## Elementary transitions -/

section Transitions
variable {cfg : Cfg T} {s : St T}

/-- Changes that touch neither blocks nor objects (counter, ghost log). -/
theorem wf_gen (h : WF cfg s) (g : Nat) (hg : s.gen ≤ g) (fr : List (List T)) :
    WF cfg { s with gen := g, freed := fr } :=
  ⟨h.bounds, h.refs, h.hash, fun a b hb => Nat.le_trans (h.gens a b hb) hg, h.valid⟩

/-- T4: an object's window/hash changes, its `Ref` stays. -/
theorem wf_updObj (h : WF cfg s) {o : Nat} {ob ob' : Obj} (ho : s.obj o = some ob)
    (href : ob'.ref = ob.ref)
    (hb : ∀ a b, ob.ref = some a → s.blk a = some b → ob'.offset + cfg.need ob'.sublen ≤ b.cells.length)
    (hh : ob'.hash ≠ 0 → ∀ v, s.viewOf ob' = some v → ob'.hash = hashOf cfg v) :
    WF cfg (s.setObj o (some ob')) ∧ Frame s (s.setObj o (some ob')) o ∧
      (s.setObj o (some ob')).obj o = some ob' := by
  have hl := St.obj_lt ho
  have hown : ∀ a, (s.setObj o (some ob')).owners a = s.owners a := by
    intro a
    have := St.owners_setObj (some ob') ho a
    simp only [St.hit, Option.bind_some, href] at this
    omega
  refine ⟨⟨?_, ?_, ?_, h.gens, h.valid⟩, ?_, St.obj_setObj_self _ hl⟩
  · intro o1 ob1 a h1 hr
    by_cases he : o1 = o
    · subst he
      rw [St.obj_setObj_self _ hl] at h1
      cases h1
      obtain ⟨b, hb1, _⟩ := h.bounds o1 ob a ho (href ▸ hr)
      exact ⟨b, hb1, hb a b (href ▸ hr) hb1⟩
    · rw [St.obj_setObj_ne _ he] at h1
      exact h.bounds o1 ob1 a h1 hr
  · intro a b hb1
    rw [hown]
    exact h.refs a b hb1
  · intro o1 ob1 v h1 hne hv
    by_cases he : o1 = o
    · subst he
      rw [St.obj_setObj_self _ hl] at h1
      cases h1
      exact hh hne v hv
    · rw [St.obj_setObj_ne _ he] at h1
      exact h.hash o1 ob1 v h1 hne hv
  · intro o1 he
    exact ⟨St.obj_setObj_ne _ he, fun _ _ _ _ => rfl⟩

/-- T3: the sole owner of a block changes its contents. -/
theorem wf_updOwn (h : WF cfg s) {o a : Nat} {ob : Obj} {b b' : Block T} (ho : s.obj o = some ob)
    (hr : ob.ref = some a) (hb : s.blk a = some b) (hsole : b.refs ≤ 1) (hrefs : b'.refs = b.refs)
    (hgen : b'.gen ≤ s.gen)
    (hbd : ob.offset + cfg.need ob.sublen ≤ b'.cells.length)
    (hh : ob.hash = 0) :
    WF cfg (s.setBlk a (some b')) ∧ Frame s (s.setBlk a (some b')) o := by
  have hl := St.blk_lt hb
  have hown := h.refs a b hb
  have huniq : ∀ o1 ob1, s.obj o1 = some ob1 → ob1.ref = some a → o1 = o := by
    intro o1 ob1 h1 hr1
    apply Classical.byContradiction
    intro hne
    have := St.owners_two h1 hr1 ho hr hne
    omega
  have hbs := St.blk_setBlk_self (s := s) (some b') hl
  refine ⟨⟨?_, ?_, ?_, ?_, h.valid⟩, ?_⟩
  · intro o1 ob1 a1 h1 hr1
    by_cases he : a1 = a
    · subst he
      have := huniq o1 ob1 h1 hr1
      subst this
      rw [St.obj_setBlk, ho] at h1
      cases h1
      exact ⟨b', hbs, hbd⟩
    · rw [St.blk_setBlk_ne _ he]
      exact h.bounds o1 ob1 a1 h1 hr1
  · intro a1 b1 h1
    rw [St.owners_setBlk]
    by_cases he : a1 = a
    · subst he
      rw [hbs] at h1
      cases h1
      rw [hrefs]; exact hown
    · rw [St.blk_setBlk_ne _ he] at h1
      exact h.refs a1 b1 h1
  · intro o1 ob1 v h1 hne hv
    by_cases he : ob1.ref = some a
    · have := huniq o1 ob1 h1 he
      subst this
      rw [St.obj_setBlk, ho] at h1
      cases h1
      exact absurd hh hne
    · rw [St.viewOf_congr (s := s)] at hv
      · exact h.hash o1 ob1 v h1 hne hv
      · intro a2 hr2
        apply St.blk_setBlk_ne
        intro hc
        exact he (hc ▸ hr2)
  · intro a1 b1 h1
    by_cases he : a1 = a
    · subst he
      rw [hbs] at h1
      cases h1
      exact hgen
    · rw [St.blk_setBlk_ne _ he] at h1
      exact h.gens a1 b1 h1
  · intro o1 hne
    refine ⟨rfl, ?_⟩
    intro ob1 a2 h1 hr2
    rw [St.blk_setBlk_ne]
    intro hc
    subst hc
    exact hne (huniq o1 ob1 h1 hr2)

/-- T1/T6a: an object gives up a block that keeps other owners. -/
theorem wf_dropShared (h : WF cfg s) {o a : Nat} {ob : Obj} {x : Option Obj} {b : Block T}
    (ho : s.obj o = some ob) (hr : ob.ref = some a) (hb : s.blk a = some b) (hsh : 1 < b.refs)
    (hx : ∀ ob', x = some ob' → ob'.ref = none ∧
      (ob'.hash ≠ 0 → ∀ v, s.viewOf ob' = some v → ob'.hash = hashOf cfg v)) :
    let s' := (s.setBlk a (some { b with refs := b.refs - 1 })).setObj o x
    WF cfg s' ∧ Frame s s' o ∧ s'.obj o = x := by
  intro s'
  have hl := St.blk_lt hb
  have hlo := St.obj_lt ho
  have hown := h.refs a b hb
  have hbs : s'.blk a = some { b with refs := b.refs - 1 } := St.blk_setBlk_self (s := s) _ hl
  have hbn : ∀ a', a' ≠ a → s'.blk a' = s.blk a' := fun a' hne => St.blk_setBlk_ne (s := s) _ hne
  have hos : s'.obj o = x := St.obj_setObj_self _ hlo
  have hon : ∀ o', o' ≠ o → s'.obj o' = s.obj o' := fun o' hne => St.obj_setObj_ne _ hne
  have hxr : x.bind Obj.ref = none := by
    cases x with
    | none => rfl
    | some ob' => exact (hx ob' rfl).1
  have howners : ∀ a', s'.owners a' + St.hit (some ob) a' = s.owners a' := by
    intro a'
    have := St.owners_setObj (s := s.setBlk a (some { b with refs := b.refs - 1 })) x ho a'
    simp only [St.owners_setBlk, St.hit, hxr] at this
    simpa [St.hit] using this
  have hvis : ∀ a1, (s'.blk a1).map Block.vis = (s.blk a1).map Block.vis := by
    intro a1
    by_cases he : a1 = a
    · subst he; rw [hbs, hb]; rfl
    · rw [hbn _ he]
  have hvc : ∀ ob', s'.viewOf ob' = s.viewOf ob' :=
    fun ob' => St.viewOf_congr_cells (fun a1 _ => hvis a1)
  refine ⟨⟨?_, ?_, ?_, ?_, h.valid⟩, ?_, hos⟩
  · intro o1 ob1 a1 h1 hr1
    by_cases he : o1 = o
    · subst he
      rw [hos] at h1
      rw [(hx ob1 h1).1] at hr1
      cases hr1
    · rw [hon _ he] at h1
      obtain ⟨b1, hb1, hle⟩ := h.bounds o1 ob1 a1 h1 hr1
      by_cases hea : a1 = a
      · subst hea
        rw [hb] at hb1; cases hb1
        exact ⟨_, hbs, hle⟩
      · exact ⟨b1, by rw [hbn _ hea]; exact hb1, hle⟩
  · intro a1 b1 h1
    have e := howners a1
    by_cases hea : a1 = a
    · subst hea
      rw [hbs] at h1; cases h1
      simp only [St.hit, Option.bind_some, hr, if_true] at e
      simp only
      omega
    · rw [hbn _ hea] at h1
      have := h.refs a1 b1 h1
      have hz : St.hit (some ob) a1 = 0 := by
        simp [St.hit, hr, Ne.symm hea]
      omega
  · intro o1 ob1 v h1 hne hv
    rw [hvc] at hv
    by_cases he : o1 = o
    · subst he
      rw [hos] at h1
      exact (hx ob1 h1).2 hne v hv
    · rw [hon _ he] at h1
      exact h.hash o1 ob1 v h1 hne hv
  · intro a1 b1 h1
    by_cases hea : a1 = a
    · subst hea
      rw [hbs] at h1; cases h1
      exact h.gens a1 b hb
    · rw [hbn _ hea] at h1
      exact h.gens a1 b1 h1
  · exact fun o1 hne => ⟨hon _ hne, fun _ a1 _ _ => hvis a1⟩

/-- T6b: the last owner gives up a block, which is deleted. -/
theorem wf_dropLast (h : WF cfg s) {o a : Nat} {ob : Obj} {x : Option Obj} {b : Block T}
    (ho : s.obj o = some ob) (hr : ob.ref = some a) (hb : s.blk a = some b) (hsole : b.refs ≤ 1)
    (hx : ∀ ob', x = some ob' → ob'.ref = none ∧
      (ob'.hash ≠ 0 → ∀ v, s.viewOf ob' = some v → ob'.hash = hashOf cfg v)) :
    let s' := (s.setBlk a none).setObj o x
    WF cfg s' ∧ Frame s s' o ∧ s'.obj o = x := by
  intro s'
  have hl := St.blk_lt hb
  have hlo := St.obj_lt ho
  have hown := h.refs a b hb
  have huniq : ∀ o1 ob1, s.obj o1 = some ob1 → ob1.ref = some a → o1 = o := by
    intro o1 ob1 h1 hr1
    apply Classical.byContradiction
    intro hne
    have := St.owners_two h1 hr1 ho hr hne
    omega
  have hbs : s'.blk a = none := St.blk_setBlk_self (s := s) _ hl
  have hbn : ∀ a', a' ≠ a → s'.blk a' = s.blk a' := fun a' hne => St.blk_setBlk_ne (s := s) _ hne
  have hos : s'.obj o = x := St.obj_setObj_self _ hlo
  have hon : ∀ o', o' ≠ o → s'.obj o' = s.obj o' := fun o' hne => St.obj_setObj_ne _ hne
  have hxr : x.bind Obj.ref = none := by
    cases x with
    | none => rfl
    | some ob' => exact (hx ob' rfl).1
  have howners : ∀ a', s'.owners a' + St.hit (some ob) a' = s.owners a' := by
    intro a'
    have := St.owners_setObj (s := s.setBlk a none) x ho a'
    simp only [St.owners_setBlk, St.hit, hxr] at this
    simpa [St.hit] using this
  have hvc : ∀ ob', ob'.ref ≠ some a → s'.viewOf ob' = s.viewOf ob' := by
    intro ob' hne
    apply St.viewOf_congr
    intro a1 hr1
    exact hbn _ (fun hc => hne (hc ▸ hr1))
  refine ⟨⟨?_, ?_, ?_, ?_, h.valid⟩, ?_, hos⟩
  · intro o1 ob1 a1 h1 hr1
    by_cases he : o1 = o
    · subst he
      rw [hos] at h1
      rw [(hx ob1 h1).1] at hr1
      cases hr1
    · rw [hon _ he] at h1
      obtain ⟨b1, hb1, hle⟩ := h.bounds o1 ob1 a1 h1 hr1
      refine ⟨b1, ?_, hle⟩
      rw [hbn]
      · exact hb1
      · intro hc; subst hc; exact he (huniq o1 ob1 h1 hr1)
  · intro a1 b1 h1
    have e := howners a1
    by_cases hea : a1 = a
    · subst hea
      rw [hbs] at h1; cases h1
    · rw [hbn _ hea] at h1
      have := h.refs a1 b1 h1
      have hz : St.hit (some ob) a1 = 0 := by
        simp [St.hit, hr, Ne.symm hea]
      omega
  · intro o1 ob1 v h1 hne hv
    by_cases he : o1 = o
    · subst he
      rw [hos] at h1
      have hx1 := hx ob1 h1
      rw [hvc _ (by rw [hx1.1]; simp)] at hv
      exact hx1.2 hne v hv
    · rw [hon _ he] at h1
      rw [hvc _ (fun hc => he (huniq o1 ob1 h1 hc))] at hv
      exact h.hash o1 ob1 v h1 hne hv
  · intro a1 b1 h1
    by_cases hea : a1 = a
    · subst hea
      rw [hbs] at h1; cases h1
    · rw [hbn _ hea] at h1
      exact h.gens a1 b1 h1
  · intro o1 hne
    refine ⟨hon _ hne, ?_⟩
    intro ob1 a1 h1 hr1
    rw [hbn]
    intro hc; subst hc; exact hne (huniq o1 ob1 h1 hr1)

/-- T0: an object without block disappears or changes members. -/
theorem wf_noRef (h : WF cfg s) {o : Nat} {ob : Obj} {x : Option Obj}
    (ho : s.obj o = some ob) (hr : ob.ref = none)
    (hx : ∀ ob', x = some ob' → ob'.ref = none ∧
      (ob'.hash ≠ 0 → ∀ v, s.viewOf ob' = some v → ob'.hash = hashOf cfg v)) :
    let s' := s.setObj o x
    WF cfg s' ∧ Frame s s' o ∧ s'.obj o = x := by
  intro s'
  have hlo := St.obj_lt ho
  have hos : s'.obj o = x := St.obj_setObj_self _ hlo
  have hon : ∀ o', o' ≠ o → s'.obj o' = s.obj o' := fun o' hne => St.obj_setObj_ne _ hne
  have hxr : x.bind Obj.ref = none := by
    cases x with
    | none => rfl
    | some ob' => exact (hx ob' rfl).1
  have howners : ∀ a', s'.owners a' = s.owners a' := by
    intro a'
    have := St.owners_setObj (s := s) x ho a'
    simp only [St.hit, hxr, Option.bind_some, hr] at this
    simpa using this
  refine ⟨⟨?_, ?_, ?_, h.gens, h.valid⟩, ?_, hos⟩
  · intro o1 ob1 a1 h1 hr1
    by_cases he : o1 = o
    · subst he
      rw [hos] at h1
      rw [(hx ob1 h1).1] at hr1
      cases hr1
    · rw [hon _ he] at h1
      exact h.bounds o1 ob1 a1 h1 hr1
  · intro a1 b1 h1
    rw [howners]
    exact h.refs a1 b1 h1
  · intro o1 ob1 v h1 hne hv
    by_cases he : o1 = o
    · subst he
      rw [hos] at h1
      exact (hx ob1 h1).2 hne v hv
    · rw [hon _ he] at h1
      exact h.hash o1 ob1 v h1 hne hv
  · exact fun o1 hne => ⟨hon _ hne, fun _ _ _ _ => rfl⟩

/-- T2: an object without block gets a fresh one. -/
theorem wf_attachNew (h : WF cfg s) {o : Nat} {ob ob' : Obj} {b : Block T} {g : Nat}
    (ho : s.obj o = some ob) (hr : ob.ref = none) (hr' : ob'.ref = some s.heap.length)
    (hb : b.refs = 1) (hbd : ob'.offset + cfg.need ob'.sublen ≤ b.cells.length) (hh : ob'.hash = 0)
    (hgen : b.gen ≤ g) (hg : s.gen ≤ g) :
    let s' : St T := ({ s with heap := s.heap ++ [some b], gen := g }).setObj o (some ob')
    WF cfg s' ∧ Frame s s' o ∧ s'.obj o = some ob' ∧ s'.blk s.heap.length = some b := by
  intro s'
  have hlo := St.obj_lt ho
  have hos : s'.obj o = some ob' := St.obj_setObj_self _ hlo
  have hon : ∀ o', o' ≠ o → s'.obj o' = s.obj o' := fun o' hne => St.obj_setObj_ne _ hne
  have hbs : s'.blk s.heap.length = some b := by
    simp [s', St.blk, St.setObj]
  have hbn : ∀ a', a' ≠ s.heap.length → s'.blk a' = s.blk a' := by
    intro a' hne
    simp only [s', St.blk, St.setObj]
    by_cases hlt : a' < s.heap.length
    · rw [List.getElem?_append_left hlt]
    · rw [List.getElem?_eq_none (by simp; omega), List.getElem?_eq_none (by omega)]
  have hfresh : s.owners s.heap.length = 0 := by
    apply Classical.byContradiction
    intro hne
    have hpos : 0 < s.owners s.heap.length := Nat.pos_of_ne_zero hne
    unfold St.owners at hpos
    rw [List.countP_pos_iff] at hpos
    obtain ⟨x, hx, hpx⟩ := hpos
    cases x with
    | none => simp at hpx
    | some ox =>
      obtain ⟨i, hi, hie⟩ := List.getElem_of_mem hx
      have hoi : s.obj i = some ox := by
        simp [St.obj, List.getElem?_eq_getElem hi, hie]
      obtain ⟨b1, hb1, _⟩ := h.bounds i ox s.heap.length hoi (by simpa using hpx)
      exact absurd (St.blk_lt hb1) (Nat.lt_irrefl _)
  have howners : ∀ a', s'.owners a' = s.owners a' + St.hit (some ob') a' := by
    intro a'
    have e := St.owners_setObj (s := { s with heap := s.heap ++ [some b], gen := g }) (some ob') ho a'
    have hz : St.hit (some ob) a' = 0 := by simp [St.hit, hr]
    have : ({ s with heap := s.heap ++ [some b], gen := g } : St T).owners a' = s.owners a' := rfl
    rw [this] at e
    simp only [hz] at e
    exact e
  have hvc : ∀ o1 ob1, s.obj o1 = some ob1 → s'.viewOf ob1 = s.viewOf ob1 := by
    intro o1 ob1 h1
    apply St.viewOf_congr
    intro a1 hr1
    apply hbn
    obtain ⟨b1, hb1, _⟩ := h.bounds o1 ob1 a1 h1 hr1
    have := St.blk_lt hb1
    omega
  refine ⟨⟨?_, ?_, ?_, ?_, h.valid⟩, ?_, hos, hbs⟩
  · intro o1 ob1 a1 h1 hr1
    by_cases he : o1 = o
    · subst he
      rw [hos] at h1; cases h1
      rw [hr'] at hr1; cases hr1
      exact ⟨b, hbs, hbd⟩
    · rw [hon _ he] at h1
      obtain ⟨b1, hb1, hle⟩ := h.bounds o1 ob1 a1 h1 hr1
      refine ⟨b1, ?_, hle⟩
      rw [hbn]
      · exact hb1
      · have := St.blk_lt hb1; omega
  · intro a1 b1 h1
    rw [howners]
    by_cases hea : a1 = s.heap.length
    · subst hea
      rw [hbs] at h1; cases h1
      rw [hfresh, hb]
      simp [St.hit, hr']
    · rw [hbn _ hea] at h1
      have := h.refs a1 b1 h1
      have hz : St.hit (some ob') a1 = 0 := by
        simp [St.hit, hr', Ne.symm hea]
      omega
  · intro o1 ob1 v h1 hne hv
    by_cases he : o1 = o
    · subst he
      rw [hos] at h1; cases h1
      exact absurd hh hne
    · rw [hon _ he] at h1
      rw [hvc o1 ob1 h1] at hv
      exact h.hash o1 ob1 v h1 hne hv
  · intro a1 b1 h1
    show b1.gen ≤ g
    by_cases hea : a1 = s.heap.length
    · subst hea
      rw [hbs] at h1; cases h1
      exact hgen
    · rw [hbn _ hea] at h1
      exact Nat.le_trans (h.gens a1 b1 h1) hg
  · intro o1 hne
    refine ⟨hon _ hne, ?_⟩
    intro ob1 a1 h1 hr1
    rw [hbn]
    obtain ⟨b1, hb1, _⟩ := h.bounds o1 ob1 a1 h1 hr1
    have := St.blk_lt hb1
    omega

/-- T5a: a block gets one more owner, an object that had none. -/
theorem wf_share (h : WF cfg s) {o r a : Nat} {ob rb : Obj} {b : Block T}
    (ho : s.obj o = some ob) (hro : ob.ref = none) (hr : s.obj r = some rb) (hra : rb.ref = some a)
    (hb : s.blk a = some b) :
    let s' := (s.setBlk a (some { b with refs := b.refs + 1 })).setObj o (some rb)
    WF cfg s' ∧ Frame s s' o ∧ s'.obj o = some rb ∧ s'.view o = s.view r := by
  intro s'
  have hl := St.blk_lt hb
  have hlo := St.obj_lt ho
  have hown := h.refs a b hb
  have hbs : s'.blk a = some { b with refs := b.refs + 1 } := St.blk_setBlk_self (s := s) _ hl
  have hbn : ∀ a', a' ≠ a → s'.blk a' = s.blk a' := fun a' hne => St.blk_setBlk_ne (s := s) _ hne
  have hos : s'.obj o = some rb := St.obj_setObj_self _ hlo
  have hon : ∀ o', o' ≠ o → s'.obj o' = s.obj o' := fun o' hne => St.obj_setObj_ne _ hne
  have howners : ∀ a', s'.owners a' = s.owners a' + St.hit (some rb) a' := by
    intro a'
    have := St.owners_setObj (s := s.setBlk a (some { b with refs := b.refs + 1 })) (some rb) ho a'
    simp only [St.owners_setBlk, St.hit, hro, Option.bind_some] at this
    simpa [St.hit] using this
  have hvis : ∀ a1, (s'.blk a1).map Block.vis = (s.blk a1).map Block.vis := by
    intro a1
    by_cases he : a1 = a
    · subst he; rw [hbs, hb]; rfl
    · rw [hbn _ he]
  have hvc : ∀ ob', s'.viewOf ob' = s.viewOf ob' :=
    fun ob' => St.viewOf_congr_cells (fun a1 _ => hvis a1)
  have hfr : Frame s s' o := fun o1 hne => ⟨hon _ hne, fun _ a1 _ _ => hvis a1⟩
  refine ⟨⟨?_, ?_, ?_, ?_, h.valid⟩, hfr, hos, ?_⟩
  · intro o1 ob1 a1 h1 hr1
    have hb1 : ∃ b1, s.blk a1 = some b1 ∧ ob1.offset + cfg.need ob1.sublen ≤ b1.cells.length := by
      by_cases he : o1 = o
      · subst he
        rw [hos] at h1; cases h1
        exact h.bounds r rb a1 hr hr1
      · rw [hon _ he] at h1
        exact h.bounds o1 ob1 a1 h1 hr1
    obtain ⟨b1, hb1, hle⟩ := hb1
    by_cases hea : a1 = a
    · subst hea
      rw [hb] at hb1; cases hb1
      exact ⟨_, hbs, hle⟩
    · exact ⟨b1, by rw [hbn _ hea]; exact hb1, hle⟩
  · intro a1 b1 h1
    rw [howners a1]
    by_cases hea : a1 = a
    · subst hea
      rw [hbs] at h1; cases h1
      simp only [St.hit, Option.bind_some, hra, if_true]
      omega
    · rw [hbn _ hea] at h1
      have := h.refs a1 b1 h1
      have hz : St.hit (some rb) a1 = 0 := by
        simp [St.hit, hra, Ne.symm hea]
      omega
  · intro o1 ob1 v h1 hne hv
    rw [hvc] at hv
    by_cases he : o1 = o
    · subst he
      rw [hos] at h1; cases h1
      exact h.hash r rb v hr hne hv
    · rw [hon _ he] at h1
      exact h.hash o1 ob1 v h1 hne hv
  · intro a1 b1 h1
    by_cases hea : a1 = a
    · subst hea
      rw [hbs] at h1; cases h1
      exact h.gens a1 b hb
    · rw [hbn _ hea] at h1
      exact h.gens a1 b1 h1
  · rw [view_eq hos, view_eq hr, hvc]

/-- A new object without block. -/
theorem wf_newObj (h : WF cfg s) {ob : Obj} (hr : ob.ref = none)
    (hh : ob.hash ≠ 0 → ∀ v, s.viewOf ob = some v → ob.hash = hashOf cfg v) :
    let s' : St T := { s with objs := s.objs ++ [some ob] }
    WF cfg s' ∧ Frame s s' s.objs.length ∧ s'.obj s.objs.length = some ob := by
  intro s'
  have hos : s'.obj s.objs.length = some ob := by simp [s', St.obj]
  have hon : ∀ o', o' ≠ s.objs.length → s'.obj o' = s.obj o' := by
    intro o' hne
    simp only [s', St.obj]
    by_cases hlt : o' < s.objs.length
    · rw [List.getElem?_append_left hlt]
    · rw [List.getElem?_eq_none (by simp; omega), List.getElem?_eq_none (by omega)]
  have howners : ∀ a', s'.owners a' = s.owners a' := by
    intro a'
    simp [s', St.owners, List.countP_append, hr]
  have hvc : ∀ ob', s'.viewOf ob' = s.viewOf ob' := fun _ => rfl
  refine ⟨⟨?_, ?_, ?_, h.gens, h.valid⟩, ?_, hos⟩
  · intro o1 ob1 a1 h1 hr1
    by_cases he : o1 = s.objs.length
    · subst he
      rw [hos] at h1; cases h1
      rw [hr] at hr1; cases hr1
    · rw [hon _ he] at h1
      exact h.bounds o1 ob1 a1 h1 hr1
  · intro a1 b1 h1
    rw [howners]
    exact h.refs a1 b1 h1
  · intro o1 ob1 v h1 hne hv
    by_cases he : o1 = s.objs.length
    · subst he
      rw [hos] at h1; cases h1
      exact hh hne v hv
    · rw [hon _ he] at h1
      exact h.hash o1 ob1 v h1 hne hv
  · exact fun o1 hne => ⟨hon _ hne, fun _ _ _ _ => rfl⟩

/-- T7: exchanging the members of two objects (also covers ownership transfer). -/
theorem wf_exchange (h : WF cfg s) {o r : Nat} {ob rb ob' rb' : Obj} (hne : o ≠ r)
    (ho : s.obj o = some ob) (hr : s.obj r = some rb)
    (h1 : ob' = rb) (h2 : rb'.ref = ob.ref)
    (h2b : ∀ a b, ob.ref = some a → s.blk a = some b → rb'.offset + cfg.need rb'.sublen ≤ b.cells.length)
    (h2h : rb'.hash ≠ 0 → ∀ v, s.viewOf rb' = some v → rb'.hash = hashOf cfg v) :
    let s' := (s.setObj o (some ob')).setObj r (some rb')
    WF cfg s' ∧ (∀ o', o' ≠ o → o' ≠ r → s'.obj o' = s.obj o') ∧ (∀ a, s'.blk a = s.blk a) ∧
      s'.obj o = some rb ∧ s'.obj r = some rb' ∧ s'.view o = s.view r ∧
      s'.view r = s.viewOf rb' := by
  intro s'
  subst h1
  have hlo := St.obj_lt ho
  have hlr := St.obj_lt hr
  have hr1 : (s.setObj o (some ob')).obj r = some ob' := by
    rw [St.obj_setObj_ne _ (Ne.symm hne)]; exact hr
  have hlr' : r < (s.setObj o (some ob')).objs.length := St.obj_lt hr1
  have hor : s'.obj r = some rb' := St.obj_setObj_self _ hlr'
  have hoo : s'.obj o = some ob' := by
    show ((s.setObj o (some ob')).setObj r (some rb')).obj o = _
    rw [St.obj_setObj_ne _ hne, St.obj_setObj_self _ hlo]
  have hon : ∀ o', o' ≠ o → o' ≠ r → s'.obj o' = s.obj o' := by
    intro o' h1 h2
    show ((s.setObj o (some ob')).setObj r (some rb')).obj o' = _
    rw [St.obj_setObj_ne _ h2, St.obj_setObj_ne _ h1]
  have howners : ∀ a, s'.owners a = s.owners a := by
    intro a
    have e1 := St.owners_setObj (s := s) (some ob') ho a
    have e2 := St.owners_setObj (s := s.setObj o (some ob')) (some rb') hr1 a
    simp only [St.hit, Option.bind_some, h2] at e1 e2
    show ((s.setObj o (some ob')).setObj r (some rb')).owners a = _
    omega
  have hvc : ∀ ob', s'.viewOf ob' = s.viewOf ob' := fun _ => rfl
  refine ⟨⟨?_, ?_, ?_, h.gens, h.valid⟩, hon, fun _ => rfl, hoo, hor, ?_, ?_⟩
  · intro o1 ob1 a1 h1 hr1'
    by_cases her : o1 = r
    · subst her
      rw [hor] at h1; cases h1
      rw [h2] at hr1'
      obtain ⟨b, hb, _⟩ := h.bounds o ob a1 ho hr1'
      exact ⟨b, hb, h2b a1 b hr1' hb⟩
    · by_cases heo : o1 = o
      · subst heo
        rw [hoo] at h1; cases h1
        exact h.bounds r ob' a1 hr hr1'
      · rw [hon _ heo her] at h1
        exact h.bounds o1 ob1 a1 h1 hr1'
  · intro a1 b1 hb1
    rw [howners]
    exact h.refs a1 b1 hb1
  · intro o1 ob1 v h1 hn hv
    by_cases her : o1 = r
    · subst her
      rw [hor] at h1; cases h1
      exact h2h hn v hv
    · by_cases heo : o1 = o
      · subst heo
        rw [hoo] at h1; cases h1
        exact h.hash r ob' v hr hn hv
      · rw [hon _ heo her] at h1
        exact h.hash o1 ob1 v h1 hn hv
  · rw [view_eq hoo, view_eq hr, hvc]
  · rw [view_eq hor, hvc]

/-- Master transition: object `o` gives up its block (if any) and takes on members `x`, whose block
(if any) is live; counts are adjusted and blocks whose count drops below one are deleted. -/
theorem wf_reassign (h : WF cfg s) {o : Nat} {ob : Obj} {x : Option Obj} {s' : St T}
    (ho : s.obj o = some ob)
    (hxb : ∀ ob' a, x = some ob' → ob'.ref = some a →
      ∃ b, s.blk a = some b ∧ ob'.offset + cfg.need ob'.sublen ≤ b.cells.length)
    (hxh : ∀ ob' v, x = some ob' → ob'.hash ≠ 0 → s.viewOf ob' = some v → ob'.hash = hashOf cfg v)
    (hobjs : s'.objs = s.objs.set o x) (hgen : s.gen ≤ s'.gen)
    (hblk : ∀ a1, s'.blk a1 = (s.blk a1).bind (fun b =>
      if b.refs - St.hit (some ob) a1 + St.hit x a1 < 1 then none
      else some { b with refs := b.refs - St.hit (some ob) a1 + St.hit x a1 })) :
    WF cfg s' ∧ Frame s s' o ∧ s'.obj o = x ∧
      (∀ ob', x = some ob' → s'.viewOf ob' = s.viewOf ob') := by
  have hlo := St.obj_lt ho
  have hobj' : ∀ o1, s'.obj o1 = (s.setObj o x).obj o1 := by
    intro o1; simp only [St.obj, St.setObj, hobjs]
  have hos : s'.obj o = x := by rw [hobj']; exact St.obj_setObj_self _ hlo
  have hon : ∀ o', o' ≠ o → s'.obj o' = s.obj o' := by
    intro o' hne; rw [hobj']; exact St.obj_setObj_ne _ hne
  have hown : ∀ a, s'.owners a + St.hit (some ob) a = s.owners a + St.hit x a := by
    intro a
    have : s'.owners a = (s.setObj o x).owners a := by simp only [St.owners, St.setObj, hobjs]
    rw [this]
    exact St.owners_setObj x ho a
  -- a block that has an owner afterwards is still there, with the same contents
  have hkeep : ∀ a b, s.blk a = some b → 1 ≤ s'.owners a →
      s'.blk a = some { b with refs := (s'.owners a : Int) } := by
    intro a b hb hpos
    have hr := h.refs a b hb
    have e := hown a
    rw [hblk a, hb]
    simp only [Option.bind_some]
    have hval : b.refs - St.hit (some ob) a + St.hit x a = (s'.owners a : Int) := by omega
    rw [hval, if_neg (by omega)]
  have hkeep' : ∀ o1 ob1 a b, s'.obj o1 = some ob1 → ob1.ref = some a → s.blk a = some b →
      s'.blk a = some { b with refs := (s'.owners a : Int) } :=
    fun o1 ob1 a b h1 hr hb => hkeep a b hb (St.owners_pos h1 hr)
  have hvis : ∀ o1 ob1 a, s'.obj o1 = some ob1 → ob1.ref = some a → (∃ b, s.blk a = some b) →
      (s'.blk a).map Block.vis = (s.blk a).map Block.vis := by
    intro o1 ob1 a h1 hr hb
    obtain ⟨b, hb⟩ := hb
    rw [hkeep' o1 ob1 a b h1 hr hb, hb]; rfl
  have hxview : ∀ ob', x = some ob' → s'.viewOf ob' = s.viewOf ob' := by
    intro ob' hx
    apply St.viewOf_congr_cells
    intro a hr
    obtain ⟨b, hb, _⟩ := hxb ob' a hx hr
    exact hvis o ob' a (hos.trans hx) hr ⟨b, hb⟩
  have hoview : ∀ o1 ob1, o1 ≠ o → s.obj o1 = some ob1 → s'.viewOf ob1 = s.viewOf ob1 := by
    intro o1 ob1 hne h1
    apply St.viewOf_congr_cells
    intro a hr
    obtain ⟨b, hb, _⟩ := h.bounds o1 ob1 a h1 hr
    exact hvis o1 ob1 a ((hon o1 hne).trans h1) hr ⟨b, hb⟩
  refine ⟨⟨?_, ?_, ?_, ?_, h.valid⟩, ?_, hos, hxview⟩
  · intro o1 ob1 a h1 hr
    have hb : ∃ b, s.blk a = some b ∧ ob1.offset + cfg.need ob1.sublen ≤ b.cells.length := by
      by_cases he : o1 = o
      · subst he
        rw [hos] at h1
        exact hxb ob1 a h1 hr
      · rw [hon _ he] at h1
        exact h.bounds o1 ob1 a h1 hr
    obtain ⟨b, hb, hle⟩ := hb
    exact ⟨_, hkeep' o1 ob1 a b h1 hr hb, hle⟩
  · intro a b' hb'
    have hb0 : ∃ b, s.blk a = some b := by
      rw [hblk a] at hb'
      cases hb : s.blk a with
      | none => rw [hb] at hb'; cases hb'
      | some b => exact ⟨b, rfl⟩
    obtain ⟨b, hb⟩ := hb0
    have hr := h.refs a b hb
    have e := hown a
    have hval : b.refs - St.hit (some ob) a + St.hit x a = (s'.owners a : Int) := by omega
    rw [hblk a, hb] at hb'
    simp only [Option.bind_some, hval] at hb'
    split at hb'
    · cases hb'
    · cases hb'
      exact ⟨rfl, by omega⟩
  · intro o1 ob1 v h1 hne hv
    by_cases he : o1 = o
    · subst he
      rw [hos] at h1
      rw [hxview ob1 h1] at hv
      exact hxh ob1 v h1 hne hv
    · rw [hon _ he] at h1
      rw [hoview o1 ob1 he h1] at hv
      exact h.hash o1 ob1 v h1 hne hv
  · intro a b' hb'
    rw [hblk a] at hb'
    cases hb : s.blk a with
    | none => rw [hb] at hb'; cases hb'
    | some b =>
      rw [hb] at hb'
      simp only [Option.bind_some] at hb'
      split at hb'
      · cases hb'
      · cases hb'
        exact Nat.le_trans (h.gens a b hb) hgen
  · intro o1 hne
    refine ⟨hon o1 hne, ?_⟩
    intro ob1 a h1 hr
    obtain ⟨b, hb, _⟩ := h.bounds o1 ob1 a h1 hr
    exact hvis o1 ob1 a ((hon o1 hne).trans h1) hr ⟨b, hb⟩

/-- A shared block has another owner. -/
theorem exists_other_owner {o a : Nat} {ob : Obj} (ho : s.obj o = some ob) (hr : ob.ref = some a)
    (h2 : 2 ≤ s.owners a) : ∃ o' ob', o' ≠ o ∧ s.obj o' = some ob' ∧ ob'.ref = some a := by
  have e := St.owners_setObj (s := s) (o := o) none ho a
  simp only [St.hit, Option.bind_some, hr, Option.bind_none, if_true, reduceCtorEq, if_false] at e
  have hpos : 0 < (s.setObj o none).owners a := by omega
  unfold St.owners at hpos
  rw [List.countP_pos_iff] at hpos
  obtain ⟨x, hx, hpx⟩ := hpos
  cases x with
  | none => simp at hpx
  | some ox =>
    obtain ⟨i, hi, hie⟩ := List.getElem_of_mem hx
    have hoi : (s.setObj o none).obj i = some ox := by
      simp only [St.obj]
      rw [List.getElem?_eq_getElem hi, hie]; rfl
    have hne : i ≠ o := by
      intro hc
      subst hc
      rw [St.obj_setObj_self _ (St.obj_lt ho)] at hoi
      cases hoi
    rw [St.obj_setObj_ne _ hne] at hoi
    exact ⟨i, ox, hne, hoi, by simpa using hpx⟩

end Transitions

end Bdlib
