import Verif.Rca.Ops

/-!
# Specifications of copying, moving, assigning, swapping, clearing and destroying
-/

namespace Bdlib.Rca
open Bdlib

variable {T : Type} {cfg : Cfg T}

/-- Like `Frame` for operations on two objects. -/
def Frame2 (s s' : St T) (o r : Nat) : Prop :=
  ∀ o', o' ≠ o → o' ≠ r → s'.obj o' = s.obj o' ∧
    ∀ ob a, s.obj o' = some ob → ob.ref = some a → (s'.blk a).map Block.vis = (s.blk a).map Block.vis

theorem Frame.two {s s' : St T} {o : Nat} (h : Frame s s' o) (r : Nat) : Frame2 s s' o r :=
  fun o' h1 _ => h o' h1

theorem Frame2.trans {s s' s'' : St T} {o r : Nat} (h : Frame2 s s' o r) (h' : Frame2 s' s'' o r) :
    Frame2 s s'' o r := fun o' h1 h2 =>
  ⟨(h' o' h1 h2).1.trans (h o' h1 h2).1, fun ob a ho hr =>
    ((h' o' h1 h2).2 ob a ((h o' h1 h2).1.trans ho) hr).trans ((h o' h1 h2).2 ob a ho hr)⟩

theorem Frame2.view {s s' : St T} {o r o' : Nat} (h : Frame2 s s' o r) (h1 : o' ≠ o) (h2 : o' ≠ r) :
    s'.view o' = s.view o' := by
  have hf : Frame s { s' with objs := s'.objs } o' → True := fun _ => trivial
  obtain ⟨he, hv⟩ := h o' h1 h2
  unfold St.view
  rw [he]
  cases ho : s.obj o' with
  | none => rfl
  | some ob =>
    show s'.viewOf ob = s.viewOf ob
    apply St.viewOf_congr_cells
    intro a hr
    have := hv ob a ho hr
    cases h3 : s'.blk a <;> cases h4 : s.blk a <;> simp_all [Block.vis]

theorem set_self {l : List (Option Obj)} {o : Nat} {ob : Obj} (h : (l[o]?).join = some ob) :
    l.set o (some ob) = l := by
  apply List.ext_getElem?
  intro i
  rw [List.getElem?_set]
  split
  · subst i
    have hlt : o < l.length := St.obj_lt (T := Unit) (s := { objs := l }) h
    rw [if_pos hlt]
    rw [List.getElem?_eq_getElem hlt] at h ⊢
    cases hx : l[o] <;> rw [hx] at h <;> simp_all
  · rfl

theorem setObj_self {s : St T} {o : Nat} {ob : Obj} (h : s.obj o = some ob) :
    s.setObj o (some ob) = s := by
  unfold St.setObj
  rw [set_self h]

theorem setObj_setObj (s : St T) (o : Nat) (x y : Option Obj) :
    (s.setObj o x).setObj o y = s.setObj o y := by
  unfold St.setObj
  simp [List.set_set]

theorem incRef_run {s : St T} {r : Option Nat} (h : ∀ a, r = some a → ∃ b, s.blk a = some b) :
    (incRef r s).Sat (fun _ s' => s'.objs = s.objs ∧ s'.gen = s.gen ∧ s'.freed = s.freed ∧
        ∀ a1, s'.blk a1 = (s.blk a1).map
          (fun b => { b with refs := b.refs + (if r = some a1 then 1 else 0) }))
      (fun _ _ => False) := by
  cases r with
  | none =>
    refine ⟨rfl, rfl, rfl, fun a1 => ?_⟩
    cases s.blk a1 <;> simp
  | some a =>
    obtain ⟨b, hb⟩ := h a rfl
    show ((getBlk a >>= _) s).Sat _ _
    apply sat_getBlk hb
    refine ⟨rfl, rfl, rfl, fun a1 => ?_⟩
    by_cases hne : a1 = a
    · subst hne
      rw [St.blk_setBlk_self _ (St.blk_lt hb), hb]
      simp
    · rw [St.blk_setBlk_ne _ hne]
      have : ¬ (some a = some a1) := by intro h; cases h; exact hne rfl
      simp only [this, if_false]
      cases s.blk a1 <;> simp

theorem checkDealloc_run {s : St T} {o : Nat} {ob : Obj} (ho : s.obj o = some ob)
    (h : ∀ a, ob.ref = some a → ∃ b, s.blk a = some b) :
    (checkDeallocRef o s).Sat (fun _ s' => s'.gen = s.gen ∧
        (∃ ob' : Obj, s'.objs = s.objs.set o (some ob') ∧ ob'.offset = ob.offset ∧
          ob'.sublen = ob.sublen ∧ ob'.hash = ob.hash ∧ (ob.ref = none → ob'.ref = none) ∧
          (∀ a b, ob.ref = some a → s.blk a = some b → 1 < b.refs → ob'.ref = ob.ref)) ∧
        ∀ a1, s'.blk a1 = (s.blk a1).bind (fun b =>
          if ob.ref = some a1 then
            if b.refs - 1 < 1 then none else some { b with refs := b.refs - 1 }
          else some b))
      (fun _ _ => False) := by
  unfold checkDeallocRef
  apply sat_getObj ho
  have hcase : ob.ref = none ∨ ∃ a, ob.ref = some a := by cases ob.ref <;> simp
  rcases hcase with hr | ⟨a, hr⟩
  · rw [hr]
    refine ⟨rfl, ⟨ob, (set_self ho).symm, rfl, rfl, rfl, fun _ => hr, ?_⟩, fun a1 => ?_⟩
    · intro a b h0; cases h0
    · cases s.blk a1 <;> simp
  · rw [hr]
    obtain ⟨b, hb⟩ := h a hr
    have hlt := St.blk_lt hb
    apply sat_bind
    show ((getBlk a >>= _) s).Sat _ _
    apply sat_getBlk hb
    show ((getBlk a >>= _) (s.setBlk a (some { b with refs := b.refs - 1 }))).Sat _ _
    apply sat_getBlk (St.blk_setBlk_self _ hlt)
    apply sat_ite
    · intro hlt1
      refine ⟨rfl, ⟨{ ob with ref := none }, rfl, rfl, rfl, rfl, fun _ => rfl, ?_⟩, fun a1 => ?_⟩
      · intro a1 b1 h1 h2 h3
        cases h1
        rw [hb] at h2; cases h2
        simp only at hlt1
        omega
      · show (((s.setBlk a _).setBlk a none).blk a1) = _
        by_cases hne : a1 = a
        · subst hne
          rw [St.blk_setBlk_self _ (by simpa [St.setBlk] using hlt), hb]
          simp only at hlt1
          simp [hlt1]
        · rw [St.blk_setBlk_ne _ hne, St.blk_setBlk_ne _ hne]
          have : ¬ (some a = some a1) := by intro h; cases h; exact hne rfl
          simp only [this, if_false]
          cases s.blk a1 <;> simp
    · intro hge
      refine ⟨rfl, ⟨ob, (set_self ho).symm, rfl, rfl, rfl, (fun h => by cases h), fun _ _ _ _ _ => hr⟩, fun a1 => ?_⟩
      by_cases hne : a1 = a
      · subst hne
        rw [St.blk_setBlk_self _ hlt, hb]
        simp only at hge
        simp [hge]
      · rw [St.blk_setBlk_ne _ hne]
        have : ¬ (some a = some a1) := by intro h; cases h; exact hne rfl
        simp only [this, if_false]
        cases s.blk a1 <;> simp

theorem ref_live {s : St T} (hwf : WF cfg s) {o : Nat} {ob : Obj} (ho : s.obj o = some ob) :
    ∀ a, ob.ref = some a → ∃ b, s.blk a = some b := fun a hr => by
  obtain ⟨b, hb, _⟩ := hwf.bounds o ob a ho hr
  exact ⟨b, hb⟩

theorem hit_some (ob : Obj) (a : Nat) : St.hit (some ob) a = if ob.ref = some a then 1 else 0 := rfl

theorem hit_none (a : Nat) : St.hit none a = 0 := by simp [St.hit]

/-- Copy assignment; the receiver may be in any state (also moved-from), also `o = r`. -/
theorem copyAssign_spec {s : St T} (hwf : WF cfg s) {o r : Nat} {ob rb : Obj}
    (ho : s.obj o = some ob) (hrb : s.obj r = some rb) :
    (copyAssign o r s).Sat
      (fun _ s' => WF cfg s' ∧ Frame s s' o ∧ s'.obj o = s.obj r ∧ s'.view o = s.view r)
      (fun _ _ => False) := by
  unfold copyAssign
  apply sat_getObj hrb
  refine sat_bind' (incRef_run (ref_live hwf hrb)) ?_ (fun _ _ h => h)
  rintro _ s1 ⟨hobjs1, hgen1, _, hblk1⟩
  have ho1 : s1.obj o = some ob := by unfold St.obj; rw [hobjs1]; exact ho
  apply sat_getObj ho1
  apply sat_putObj
  have hlo := St.obj_lt ho
  have hlo1 := St.obj_lt ho1
  generalize hob2 : ({ ob with offset := rb.offset, sublen := rb.sublen, hash := rb.hash } : Obj) = ob2
  have hob2r : ob2.ref = ob.ref := by rw [← hob2]
  have ho2 : (s1.setObj o (some ob2)).obj o = some ob2 := St.obj_setObj_self _ hlo1
  refine sat_bind' (checkDealloc_run ho2 ?_) ?_ (fun _ _ h => h)
  · intro a hra
    rw [hob2r] at hra
    obtain ⟨b, hb⟩ := ref_live hwf ho a hra
    refine ⟨_, by rw [St.blk_setObj, hblk1, hb]; rfl⟩
  · rintro _ s3 ⟨hgen3, ⟨ob3, hobjs3, h3o, h3s, h3h, h3n, h3r⟩, hblk3⟩
    have hobjs3' : s3.objs = s.objs.set o (some ob3) := by
      rw [hobjs3]
      show ((s1.objs.set o _).set o _) = _
      rw [List.set_set, hobjs1]
    have ho3 : s3.obj o = some ob3 := by
      unfold St.obj
      rw [hobjs3', List.getElem?_set_self hlo]
      rfl
    have hr3 : ∃ rb', s3.obj r = some rb' ∧ rb'.ref = rb.ref := by
      by_cases hro : r = o
      · subst hro
        rw [ho] at hrb; cases hrb
        refine ⟨ob3, ho3, ?_⟩
        have hcase : ob.ref = none ∨ ∃ a, ob.ref = some a := by cases ob.ref <;> simp
        rcases hcase with hr | ⟨a, hr⟩
        · rw [hr]; exact h3n (by rw [hob2r, hr])
        · obtain ⟨b, hb⟩ := ref_live hwf ho a hr
          rw [← hob2r]
          refine h3r a { b with refs := b.refs + 1 } (by rw [hob2r, hr]) ?_ ?_
          · rw [St.blk_setObj, hblk1, hb]; simp [hr]
          · have := hwf.refs a b hb
            show 1 < b.refs + 1
            omega
      · refine ⟨rb, ?_, rfl⟩
        unfold St.obj
        rw [hobjs3', List.getElem?_set_ne (fun h => hro h.symm)]
        exact hrb
    obtain ⟨rb', hrb', hrr⟩ := hr3
    apply sat_getObj hrb'
    apply sat_getObj ho3
    apply sat_putObj_last
    have hfin : ({ ob3 with ref := rb'.ref } : Obj) = rb := by
      cases ob3; cases rb; subst hob2
      simp_all
    rw [hfin]
    have hall := wf_reassign (s' := s3.setObj o (some rb)) hwf ho (x := some rb)
      (fun ob' a hx hra => by cases hx; exact hwf.bounds r rb a hrb hra)
      (fun ob' v hx hne hv => by cases hx; exact hwf.hash r rb v hrb hne hv)
      (by show s3.objs.set o _ = _; rw [hobjs3', List.set_set])
      (by show s.gen ≤ s3.gen; rw [hgen3]; show s.gen ≤ s1.gen; omega)
      (by
        intro a1
        rw [St.blk_setObj, hblk3, St.blk_setObj, hblk1, hob2r]
        cases hb : s.blk a1 with
        | none => rfl
        | some b =>
          have hge := hwf.refs a1 b hb
          simp only [Option.map_some, Option.bind_some, hit_some]
          by_cases h1 : ob.ref = some a1 <;> by_cases h2 : rb.ref = some a1 <;> simp [h1, h2] <;> omega)
    obtain ⟨h1, h2, h3, h4⟩ := hall
    refine ⟨h1, h2, h3.trans hrb.symm, ?_⟩
    rw [view_eq h3, h4 rb rfl, view_eq hrb]

theorem obj_append_new (s : St T) (x : Option Obj) :
    ({ s with objs := s.objs ++ [x] } : St T).obj s.objs.length = x := by
  simp [St.obj]

theorem obj_append_old (s : St T) (x : Option Obj) {o : Nat} (h : o < s.objs.length) :
    ({ s with objs := s.objs ++ [x] } : St T).obj o = s.obj o := by
  unfold St.obj
  simp only
  rw [List.getElem?_append_left h]

theorem sat_newObj {β : Type} {s : St T} {ob : Obj} {f : Nat → M T β} {Q : β → St T → Prop}
    {E : Exc → St T → Prop} (h : (f s.objs.length { s with objs := s.objs ++ [some ob] }).Sat Q E) :
    ((newObj ob >>= f) s).Sat Q E := h

/-- Copy constructor. -/
theorem copyCtor_spec {s : St T} (hwf : WF cfg s) {r : Nat} {rb : Obj} (hrb : s.obj r = some rb) :
    (copyCtor r s).Sat
      (fun o s' => o = s.objs.length ∧ WF cfg s' ∧ Frame s s' o ∧ s'.obj o = s.obj r ∧
        s'.view o = s.view r ∧ s'.objs.length = s.objs.length + 1)
      (fun _ _ => False) := by
  unfold copyCtor
  apply sat_getObj hrb
  apply sat_bind
  show ((incRef rb.ref >>= _) { s with objs := s.objs ++ [some rb] }).Sat _ _
  have hlive : ∀ a, rb.ref = some a →
      ∃ b, ({ s with objs := s.objs ++ [some rb] } : St T).blk a = some b := ref_live hwf hrb
  refine sat_bind' (incRef_run hlive) ?_ (fun _ _ h => h)
  rintro _ s1 ⟨hobjs1, hgen1, _, hblk1⟩
  obtain ⟨hwfE, hfrE, hoE⟩ := wf_newObj (cfg := cfg) hwf (ob := {}) rfl (fun h => absurd rfl h)
  have hrE : ({ s with objs := s.objs ++ [some {}] } : St T).obj r = some rb := by
    rw [obj_append_old _ _ (St.obj_lt hrb)]; exact hrb
  have hall := wf_reassign (s' := s1) hwfE hoE (x := some rb)
    (fun ob' a hx hra => by cases hx; exact hwfE.bounds r rb a hrE hra)
    (fun ob' v hx hne hv => by cases hx; exact hwfE.hash r rb v hrE hne hv)
    (by rw [hobjs1]; simp)
    (by rw [hgen1]; exact Nat.le_refl _)
    (by
      intro a1
      rw [hblk1]
      show (s.blk a1).map _ = (s.blk a1).bind _
      cases hb : s.blk a1 with
      | none => rfl
      | some b =>
        have hge := hwf.refs a1 b hb
        simp only [Option.map_some, Option.bind_some, hit_some]
        by_cases h2 : rb.ref = some a1 <;> simp [h2] <;> omega)
  obtain ⟨h1, h2, h3, h4⟩ := hall
  refine ⟨rfl, h1, hfrE.trans h2, h3.trans hrb.symm, ?_, ?_⟩
  · rw [view_eq h3, h4 rb rfl, view_eq hrb]
    rfl
  · rw [hobjs1]; simp

theorem movedFrom_ref (rb : Obj) : (movedFrom cfg rb).ref = none := by
  unfold movedFrom; split <;> rfl

theorem movedFrom_hash {s : St T} (hwf : WF cfg s) {r : Nat} {rb : Obj} (hrb : s.obj r = some rb) :
    (movedFrom cfg rb).hash ≠ 0 → ∀ v, s.viewOf (movedFrom cfg rb) = some v →
      (movedFrom cfg rb).hash = hashOf cfg v := by
  intro hne v hv
  unfold movedFrom at *
  split at hne
  · exact absurd rfl hne
  · rename_i hc
    rw [if_neg hc] at hv ⊢
    obtain ⟨hv0, hsl, hoff⟩ := St.viewOf_none_inv (ob := { rb with ref := none }) rfl hv
    subst hv0
    simp only at hsl hoff hne ⊢
    apply hwf.hash r rb [] hrb hne
    have hcase : rb.ref = none ∨ ∃ a, rb.ref = some a := by cases rb.ref <;> simp
    rcases hcase with hr | ⟨a, hr⟩
    · exact St.viewOf_none_ref hr hsl hoff
    · obtain ⟨b, hb, hle⟩ := hwf.le hrb hr
      rw [St.viewOf_some hr hb hle, hsl, window_zero]

/-- Move constructor. -/
theorem moveCtor_spec {s : St T} (hwf : WF cfg s) {r : Nat} {rb : Obj} (hrb : s.obj r = some rb) :
    (moveCtor cfg r s).Sat
      (fun o s' => o = s.objs.length ∧ WF cfg s' ∧ Frame2 s s' o r ∧ s'.obj o = s.obj r ∧
        s'.view o = s.view r ∧ s'.obj r = some (movedFrom cfg rb) ∧
        s'.objs.length = s.objs.length + 1)
      (fun _ _ => False) := by
  unfold moveCtor
  apply sat_getObj hrb
  apply sat_newObj
  apply sat_putObj
  have hlr := St.obj_lt hrb
  obtain ⟨hwfE, hfrE, hoE⟩ := wf_newObj (cfg := cfg) hwf (ob := {}) rfl (fun h => absurd rfl h)
  have hrE : ({ s with objs := s.objs ++ [some {}] } : St T).obj r = some rb := by
    rw [obj_append_old _ _ hlr]; exact hrb
  have hall := wf_exchange (o := s.objs.length) (r := r) (rb' := movedFrom cfg rb) hwfE
    (by omega) hoE hrE rfl (movedFrom_ref rb)
    (by intro a b h; cases h)
    (fun hne v hv => movedFrom_hash hwf hrb hne v hv)
  have hst : (({ s with objs := s.objs ++ [some {}] } : St T).setObj s.objs.length (some rb)) =
      { s with objs := s.objs ++ [some rb] } := by
    unfold St.setObj; simp
  rw [hst] at hall
  obtain ⟨h1, h2, h3, h4, h5, h6, h7⟩ := hall
  refine ⟨rfl, h1, ?_, h4.trans hrb.symm, ?_, h5, ?_⟩
  · intro o' hne hner
    refine ⟨(h2 o' hne hner).trans (hfrE o' hne).1, fun ob a _ _ => ?_⟩
    rw [h3]; rfl
  · rw [h6, view_eq hrE, view_eq hrb]; rfl
  · simp [St.setObj]

/-- Move assignment between two objects; the receiver may be in any state. -/
theorem moveAssign_spec {s : St T} (hwf : WF cfg s) {o r : Nat} {ob rb : Obj} (hne : o ≠ r)
    (ho : s.obj o = some ob) (hrb : s.obj r = some rb) :
    (moveAssign cfg o r s).Sat
      (fun _ s' => WF cfg s' ∧ Frame2 s s' o r ∧ s'.obj o = s.obj r ∧ s'.view o = s.view r ∧
        s'.obj r = some (movedFrom cfg rb))
      (fun _ _ => False) := by
  unfold moveAssign
  refine sat_ite (fun h => absurd h hne) (fun _ => ?_)
  refine sat_bind' (checkDealloc_run ho (ref_live hwf ho)) ?_ (fun _ _ h => h)
  rintro _ s1 ⟨hgen1, ⟨ob1, hobjs1, _⟩, hblk1⟩
  have hlo := St.obj_lt ho
  -- the same state with `o` empty
  have hA := wf_reassign (s' := { s1 with objs := s.objs.set o (some {}) }) hwf ho (x := some {})
    (fun ob' a hx hra => by cases hx; cases hra)
    (fun ob' v hx hne _ => by cases hx; exact absurd rfl hne)
    rfl (by show s.gen ≤ s1.gen; omega)
    (by
      intro a1
      show s1.blk a1 = _
      rw [hblk1]
      cases hb : s.blk a1 with
      | none => rfl
      | some b =>
        have hge := hwf.refs a1 b hb
        simp only [Option.bind_some, hit_some]
        by_cases h1 : ob.ref = some a1 <;> simp [h1] <;> omega)
  obtain ⟨hwfA, hfrA, hoA, _⟩ := hA
  have hr1 : s1.obj r = some rb := by
    unfold St.obj
    rw [hobjs1, List.getElem?_set_ne hne]
    exact hrb
  have hrA : ({ s1 with objs := s.objs.set o (some {}) } : St T).obj r = some rb :=
    (hfrA.obj (fun h => hne h.symm)).trans hrb
  apply sat_getObj hr1
  apply sat_putObj
  apply sat_putObj_last
  have hall := wf_exchange (o := o) (r := r) (rb' := movedFrom cfg rb) hwfA hne hoA hrA rfl
    (movedFrom_ref rb) (by intro a b h; cases h)
    (fun hne v hv => movedFrom_hash hwfA hrA hne v hv)
  have hst : (({ s1 with objs := s.objs.set o (some {}) } : St T).setObj o (some rb)) =
      s1.setObj o (some rb) := by
    unfold St.setObj
    simp only [hobjs1, List.set_set]
  rw [hst] at hall
  obtain ⟨h1, h2, h3, h4, h5, h6, h7⟩ := hall
  refine ⟨h1, ?_, h4.trans hrb.symm, ?_, h5⟩
  · intro o' hne' hner
    refine ⟨(h2 o' hne' hner).trans (hfrA o' hne').1, fun ob a h8 h9 => ?_⟩
    rw [h3]
    exact (hfrA o' hne').2 ob a h8 h9
  · rw [h6, hfrA.view (fun h => hne h.symm)]

/-- Destructor; the object may be in any state. -/
theorem destroy_spec {s : St T} (hwf : WF cfg s) {o : Nat} {ob : Obj} (ho : s.obj o = some ob) :
    (destroy cfg o s).Sat
      (fun _ s' => WF cfg s' ∧ Frame s s' o ∧ s'.obj o = none ∧ s'.objs.length = s.objs.length)
      (fun _ _ => False) := by
  unfold destroy
  -- the wiping step only touches a buffer that is about to be released
  have hcl : (dtorBody cfg o s).Sat
      (fun _ s' => s'.objs = s.objs ∧ s'.gen = s.gen ∧
        ∀ a1, (s'.blk a1 = s.blk a1) ∨ (ob.ref = some a1 ∧ ∃ b cs, s.blk a1 = some b ∧ b.refs = 1 ∧
          s'.blk a1 = some { b with cells := cs })) (fun _ _ => False) := by
    unfold dtorBody
    apply sat_ite
    · intro _
      unfold cleanse
      apply sat_getObj ho
      have hcase : ob.ref = none ∨ ∃ a, ob.ref = some a := by cases ob.ref <;> simp
      rcases hcase with hr | ⟨a, hr⟩
      · rw [hr]
        exact ⟨rfl, rfl, fun _ => Or.inl rfl⟩
      · rw [hr]
        obtain ⟨b, hb⟩ := ref_live hwf ho a hr
        apply sat_getBlk hb
        apply sat_ite
        · intro h1
          refine ⟨rfl, rfl, fun a1 => ?_⟩
          by_cases hne : a1 = a
          · subst hne
            exact Or.inr ⟨rfl, b, _, hb, h1, St.blk_setBlk_self _ (St.blk_lt hb)⟩
          · exact Or.inl (St.blk_setBlk_ne _ hne)
        · intro _
          exact ⟨rfl, rfl, fun _ => Or.inl rfl⟩
    · intro _
      exact ⟨rfl, rfl, fun _ => Or.inl rfl⟩
  refine sat_bind' hcl ?_ (fun _ _ h => h)
  rintro _ s1 ⟨hobjs1, hgen1, hblk1⟩
  have ho1 : s1.obj o = some ob := by unfold St.obj; rw [hobjs1]; exact ho
  have hlive1 : ∀ a, ob.ref = some a → ∃ b, s1.blk a = some b := by
    intro a hr
    obtain ⟨b, hb⟩ := ref_live hwf ho a hr
    rcases hblk1 a with h | ⟨_, b, cs, _, _, h⟩
    · exact ⟨b, h.trans hb⟩
    · exact ⟨_, h⟩
  refine sat_bind' (checkDealloc_run ho1 hlive1) ?_ (fun _ _ h => h)
  rintro _ s2 ⟨hgen2, ⟨ob2, hobjs2, _⟩, hblk2⟩
  have hall := wf_reassign (s' := s2.setObj o none) hwf ho (x := none)
    (fun ob' a hx => by cases hx) (fun ob' v hx => by cases hx)
    (by show s2.objs.set o none = _; rw [hobjs2, List.set_set, hobjs1])
    (by show s.gen ≤ s2.gen; omega)
    (by
      intro a1
      rw [St.blk_setObj, hblk2]
      simp only [hit_some, hit_none]
      rcases hblk1 a1 with h | ⟨hr, b, cs, hb, h1, h⟩
      · rw [h]
        cases hb : s.blk a1 with
        | none => rfl
        | some b =>
          have hge := hwf.refs a1 b hb
          simp only [Option.bind_some]
          by_cases h1 : ob.ref = some a1 <;> simp [h1] <;> omega
      · rw [h, hb]
        simp [hr, h1])
  obtain ⟨h1, h2, h3, _⟩ := hall
  refine ⟨h1, h2, h3, ?_⟩
  show (s2.objs.set o none).length = _
  rw [List.length_set, hobjs2, List.length_set, hobjs1]

/-- `swap` of two distinct objects (in any state). -/
theorem swap_spec {s : St T} (hwf : WF cfg s) {o r : Nat} {ob rb : Obj} (hne : o ≠ r)
    (ho : s.obj o = some ob) (hrb : s.obj r = some rb) :
    (swap o r s).Sat
      (fun _ s' => WF cfg s' ∧ Frame2 s s' o r ∧ s'.view o = s.view r ∧ s'.view r = s.view o ∧
        s'.obj o = s.obj r ∧ s'.obj r = s.obj o)
      (fun _ _ => False) := by
  unfold swap
  apply sat_getObj ho
  apply sat_getObj hrb
  apply sat_putObj
  apply sat_putObj_last
  have hall := wf_exchange (o := o) (r := r) (rb' := ob) hwf hne ho hrb rfl rfl
    (by
      intro a b h hb
      obtain ⟨b', hb', hle⟩ := hwf.bounds o ob a ho h
      rw [hb] at hb'; cases hb'; exact hle)
    (fun hne v hv => hwf.hash o ob v ho hne hv)
  obtain ⟨h1, h2, h3, h4, h5, h6, h7⟩ := hall
  refine ⟨h1, ?_, h6, h7.trans (view_eq ho).symm, h4.trans hrb.symm, h5.trans ho.symm⟩
  intro o' hne' hner
  refine ⟨h2 o' hne' hner, fun ob a _ _ => ?_⟩
  rw [h3]

theorem swap_self {s : St T} {o : Nat} {ob : Obj} (ho : s.obj o = some ob) : swap o o s = .ok () s := by
  have : swap o o s = .ok () ((s.setObj o (some ob)).setObj o (some ob)) := by
    show M.bind (getObj o) _ s = _
    simp only [M.bind, getObj, ho]
    show M.bind (getObj o) _ s = _
    simp only [M.bind, getObj, ho]
    rfl
  rw [this, setObj_self ho, setObj_self ho]

/-- `clear`; the object may be in any state. -/
theorem clear_spec {s : St T} (hwf : WF cfg s) {o : Nat} {ob : Obj} (ho : s.obj o = some ob) :
    (clear o s).Sat (fun _ s' => WF cfg s' ∧ Frame s s' o ∧ s'.view o = some [] ∧
      ∃ ob', s'.obj o = some ob' ∧ ob'.hash = 0 ∧ shared s' o = false) (fun _ _ => False) := by
  unfold clear
  apply isShared_sat hwf ho
  cases hsh : shared s o with
  | true =>
    rw [if_pos rfl]
    apply doDetach_spec hwf ho hsh
    intro s' h1 h2 h3
    exact ⟨h1, h2, by rw [view_eq h3]; rfl, {}, h3, rfl, shared_none h3 rfl⟩
  | false =>
    rw [if_neg (by decide)]
    apply sat_getObj ho
    apply sat_putObj_last
    obtain ⟨h1, h2, h3⟩ := wf_updObj (ob' := { ob with offset := 0, sublen := 0, hash := 0 }) hwf ho rfl
      (by intro a b _ _; simp [Cfg.need]) (fun h => absurd rfl h)
    refine ⟨h1, h2, ?_, _, h3, rfl, ?_⟩
    · have hcase : ob.ref = none ∨ ∃ a, ob.ref = some a := by cases ob.ref <;> simp
      rw [view_eq h3]
      rcases hcase with hr | ⟨a, hr⟩
      · exact St.viewOf_none_ref hr rfl rfl
      · obtain ⟨b, hb⟩ := ref_live hwf ho a hr
        have := St.viewOf_some (ob := { ob with offset := 0, sublen := 0, hash := 0 })
          (s := s) (a := a) (b := b) hr hb (by simp)
        rw [window_zero] at this
        exact this
    · have hcase : ob.ref = none ∨ ∃ a, ob.ref = some a := by cases ob.ref <;> simp
      rcases hcase with hr | ⟨a, hr⟩
      · exact shared_none h3 hr
      · obtain ⟨b, hb⟩ := ref_live hwf ho a hr
        rw [shared_eq h3 hr (by exact hb), ← shared_eq ho hr hb, hsh]

end Bdlib.Rca
