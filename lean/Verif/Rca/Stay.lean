import Verif.Rca.Reach
import Verif.Spec.Touch

/-!
# Objects a call does not disturb keep their buffers

`step_refines` speaks about values.  Here the same case analysis is done once more for what raw pointers
observe: the buffer an object points into, where in it, and all of its cells.
-/

namespace Bdlib.Spec
open Bdlib

/-- The objects whose pointers, references and iterators a call may invalidate: those it may change, unless the call
only observes (`length()`, `read()`, `operator[] const`, `at()`, `hash()`). -/
def Op.Disturbs {T : Type} : Op T → Nat → Prop
  | .length _, _ | .read _ _, _ | .at _ _, _ | .hash _, _ => False
  | op, x => op.Touches x

end Bdlib.Spec

namespace Bdlib.Rca
open Bdlib Bdlib.Spec

variable {T : Type} {cfg : Cfg T}

/-- If `p` is alive it stays so, in the same place of the same buffer, whose cells are unchanged. -/
def Stay (s s' : St T) (p : Nat) : Prop := ∀ ob, s.obj p = some ob →
  ∃ ob', s'.obj p = some ob' ∧ ob'.ref = ob.ref ∧ ob'.offset = ob.offset ∧ ob'.sublen = ob.sublen ∧
    ∀ a, ob.ref = some a → (s'.blk a).map Block.vis = (s.blk a).map Block.vis

theorem Stay.refl (s : St T) (p : Nat) : Stay s s p := fun ob h => ⟨ob, h, rfl, rfl, rfl, fun _ _ => rfl⟩

theorem Stay.trans {s s1 s2 : St T} {p : Nat} (h : Stay s s1 p) (h' : Stay s1 s2 p) : Stay s s2 p := by
  intro ob hob
  obtain ⟨o1, g1, g2, g3, g4, g5⟩ := h ob hob
  obtain ⟨o2, k1, k2, k3, k4, k5⟩ := h' o1 g1
  exact ⟨o2, k1, k2.trans g2, k3.trans g3, k4.trans g4, fun a ha => (k5 a (g2.trans ha)).trans (g5 a ha)⟩

theorem Stay.frame {s s' : St T} {o p : Nat} (hf : Frame s s' o) (h : p ≠ o) : Stay s s' p :=
  fun ob hob => ⟨ob, (hf p h).1.trans hob, rfl, rfl, rfl, fun a ha => (hf p h).2 ob a hob ha⟩

theorem Stay.frame2 {s s' : St T} {o r p : Nat} (hf : Frame2 s s' o r) (h : p ≠ o) (h' : p ≠ r) : Stay s s' p :=
  fun ob hob => ⟨ob, (hf p h h').1.trans hob, rfl, rfl, rfl, fun a ha => (hf p h h').2 ob a hob ha⟩

theorem Stay.fresh {s s' : St T} {p : Nat} (hf : Frame s s' s.objs.length) : Stay s s' p := by
  intro ob hob
  exact Stay.frame hf (fun e => by rw [e, obj_length] at hob; cases hob) ob hob

/-- What `step_stays` establishes. -/
def Stays (s : St T) (op : Op T) {α : Type} (r : Res T α) : Prop :=
  r.Sat (fun _ s' => ∀ p, ¬ op.Disturbs p → Stay s s' p) (fun _ s' => ∀ p, ¬ op.Disturbs p → Stay s s' p)

section Helpers
variable {s : St T} {op : Op T} {o r : Nat} {v v' : List T}

theorem stays_out {α : Type} {m : M T α} {f : α → Out T} (h : Stays s op (m s)) : Stays s op (mapOut m f s) :=
  sat_mapOut h

theorem stays_sat {α : Type} {m : M T α} {f : α → Out T} {Q : α → St T → Prop} {E : Exc → St T → Prop}
    (h : (m s).Sat Q E) (hQ : ∀ x s', Q x s' → ∀ p, ¬ op.Disturbs p → Stay s s' p)
    (hE : ∀ x s', E x s' → ∀ p, ¬ op.Disturbs p → Stay s s' p) : Stays s op (mapOut m f s) :=
  stays_out (sat_mono h hQ hE)

theorem stays_mutates {m : M T Unit} {f : Unit → Out T} (h : Mutates cfg s o v v' (m s))
    (ho : ∀ p, ¬ op.Disturbs p → p ≠ o) : Stays s op (mapOut m f s) :=
  stays_sat h (fun _ _ h p hp => .frame h.2.1 (ho p hp)) (fun _ _ h p hp => .frame h.2.2.1 (ho p hp))

theorem stays_mutatesNT {m : M T Unit} {f : Unit → Out T} (h : MutatesNT cfg s o v' (m s))
    (ho : ∀ p, ¬ op.Disturbs p → p ≠ o) : Stays s op (mapOut m f s) :=
  stays_sat h (fun _ _ h p hp => .frame h.2.1 (ho p hp)) (fun _ _ h => h.elim)

theorem stays_move {m : M T Unit} {f : Unit → Out T} {steal : Prop} (h : MutatesMove cfg s o r steal v v' (m s))
    (ho : ∀ p, ¬ op.Disturbs p → p ≠ o ∧ p ≠ r) : Stays s op (mapOut m f s) := by
  refine stays_sat h ?_ (fun _ _ h p hp => .frame h.2.2.2.1 (ho p hp).1)
  rintro _ s' ⟨_, _, ⟨_, _, h3, _⟩ | ⟨_, h3⟩⟩ p hp
  · exact .frame2 h3 (ho p hp).1 (ho p hp).2
  · exact .frame h3 (ho p hp).1

theorem stays_creates {m : M T Nat} {f : Nat → Out T} (h : Creates cfg s v' (m s)) : Stays s op (mapOut m f s) :=
  stays_sat h (fun _ _ h _ _ => .fresh (h.1 ▸ h.2.2.1)) (fun _ _ h _ _ => .fresh h.2.2.1)

theorem stays_takes {m : M T (Option T)} {f : Option T → Out T} {x : Option T} (h : Takes cfg s o x v' (m s))
    (ho : ∀ p, ¬ op.Disturbs p → p ≠ o) : Stays s op (mapOut m f s) :=
  stays_sat h (fun _ _ h p hp => .frame h.2.2.1 (ho p hp)) (fun _ _ h => h.elim)

theorem stays_assigns {m : M T Unit} {f : Unit → Out T} (h : Assigns cfg s o v' (m s))
    (ho : ∀ p, ¬ op.Disturbs p → p ≠ o) : Stays s op (mapOut m f s) :=
  stays_sat h (fun _ _ h p hp => .frame h.2.1 (ho p hp)) (fun _ _ h p hp => .frame h.2.2.1 (ho p hp))

theorem stays_throw {α : Type} {m : M T α} {f : α → Out T} {e : Exc} (h : m s = .throw e s) :
    Stays s op (mapOut m f s) := by
  refine stays_out ?_
  rw [h]
  exact fun p _ => .refl s p

theorem stays_ok {α : Type} {m : M T α} {f : α → Out T} {x : α} (h : m s = .ok x s) : Stays s op (mapOut m f s) := by
  refine stays_out ?_
  rw [h]
  exact fun p _ => .refl s p

end Helpers

theorem hash_stay {s : St T} (hwf : WF cfg s) {o : Nat} {v : List T} (hv : s.view o = some v) (p : Nat) :
    (hash cfg o s).Sat (fun _ s' => Stay s s' p) (fun _ _ => False) := by
  obtain ⟨ob, ho, hvo, hl⟩ := obj_of_view hv
  unfold hash
  apply sat_getObj ho
  apply sat_ite
  · intro _
    exact .refl s p
  · intro _
    refine sat_bind (readRange_view hwf hv (by omega) ?_)
    apply sat_putObj
    intro pb hpb
    by_cases he : p = o
    · subst he
      rw [ho] at hpb
      cases hpb
      exact ⟨_, St.obj_setObj_self _ (St.obj_lt ho), rfl, rfl, rfl, fun _ _ => rfl⟩
    · exact ⟨pb, (St.obj_setObj_ne _ he).trans hpb, rfl, rfl, rfl, fun _ _ => rfl⟩

theorem assignCstr_stay {s : St T} (hwf : WF cfg s) {o : Nat} {ob : Obj} (ho : s.obj o = some ob) (nul : T)
    (xs : List T) (p : Nat) (hp : p ≠ o) :
    (assignCstr cfg nul o xs s).Sat (fun _ s' => Stay s s' p) (fun _ s' => Stay s s' p) := by
  have h := assignCstr_spec hwf ho nul xs
  cases hr : assignCstr cfg nul o xs s with
  | ub => rw [hr] at h; exact h.elim
  | ok x s' => rw [hr] at h; exact .frame h.2.1 hp
  | throw e s' =>
    have hc := strCtor_spec hwf nul xs
    unfold assignCstr at hr
    change M.bind (strCtor cfg nul xs) _ s = _ at hr
    unfold M.bind at hr
    cases hs : strCtor cfg nul xs s with
    | ub => rw [hs] at hr; cases hr
    | throw e1 s1 =>
      rw [hs] at hr hc
      cases hr
      exact .fresh hc.2.2.1
    | ok t s1 =>
      exfalso
      rw [hs] at hr hc
      obtain ⟨rfl, hw1, hf1, hv1⟩ := hc
      have hlo := St.obj_lt ho
      have hne : o ≠ s.objs.length := by omega
      obtain ⟨tb, htb, _⟩ := view_some hv1
      have ho1 := Frame.len hf1 hne ho
      have : ((moveAssign cfg o s.objs.length >>= fun _ => destroy cfg s.objs.length) s1).Sat (fun _ _ => True)
          (fun _ _ => False) := by
        refine sat_bind' (moveAssign_spec hw1 hne ho1 htb) ?_ (fun _ _ h => h.elim)
        rintro _ s2 ⟨hw2, hf2, ho2, hv2, hm2⟩
        exact sat_mono (destroy_spec hw2 hm2) (fun _ _ _ => trivial) (fun _ _ h => h.elim)
      rw [show (moveAssign cfg o s.objs.length >>= fun _ => destroy cfg s.objs.length) s1 = .throw e s' from hr] at this
      exact this

/-- Every in-contract call leaves the objects it does not disturb in place, whether it returns or throws. -/
theorem step_stays [DecidableEq T] {s : St T} {env : Env T} (hwf : WF cfg s) (hc : Caps s) (hA : Abs s env)
    {op : Op T} (hpre : Pre cfg (shared s) env op) : Stays s op (run cfg op s) := by
  cases op with
  | ctor => exact fun p _ => .fresh (ctor_spec hwf).2.2.1
  | copyCtor r =>
    obtain ⟨rb, hrb⟩ := hA.obj hpre
    exact stays_sat (copyCtor_spec hwf hrb) (fun _ _ h p _ => .fresh (h.1 ▸ h.2.2.1)) (fun _ _ h => h.elim)
  | moveCtor r =>
    obtain ⟨rb, hrb⟩ := hA.obj hpre
    refine stays_sat (moveCtor_spec hwf hrb) ?_ (fun _ _ h => h.elim)
    rintro _ s' ⟨rfl, _, h2, _⟩ p hp ob hob
    exact Stay.frame2 h2 (fun e => by rw [e, obj_length] at hob; cases hob) hp ob hob
  | sizeCtor n => exact stays_creates (sizeCtor_spec hwf n)
  | fillCtor n x => exact stays_creates (fillCtor_spec hwf hpre n x)
  | listCtor xs => exact stays_creates (listCtor_spec hwf hpre xs)
  | rangeCtor xs => exact stays_creates (rangeCtor_spec hwf hpre xs)
  | strCtor xs =>
    obtain ⟨c, hn⟩ := Option.isSome_iff_exists.mp hpre
    simp only [run, hn]
    exact stays_creates (strCtor_spec hwf c xs)
  | cstrCtor xs =>
    obtain ⟨c, hn⟩ := Option.isSome_iff_exists.mp hpre
    simp only [run, hn]
    exact stays_creates (cstrCtor_spec hwf c xs)
  | charCtor x =>
    obtain ⟨c, hn⟩ := Option.isSome_iff_exists.mp hpre
    simp only [run, hn]
    exact stays_creates (charCtor_spec hwf c x)
  | substring r start len =>
    exact stays_sat (substring_spec hwf (hA.view hpre.1) hpre.2) (fun _ _ h p _ => .fresh (h.1 ▸ h.2.2.1))
      (fun _ _ h => h.elim)
  | destroy o =>
    obtain ⟨ob, ho⟩ := hA.obj hpre
    exact stays_sat (destroy_spec hwf ho) (fun _ _ h p hp => .frame h.2.1 hp) (fun _ _ h => h.elim)
  | copyAssign o r =>
    obtain ⟨ob, ho⟩ := hA.obj hpre.1
    obtain ⟨rb, hrb⟩ := hA.obj hpre.2
    exact stays_sat (copyAssign_spec hwf ho hrb) (fun _ _ h p hp => .frame h.2.1 hp) (fun _ _ h => h.elim)
  | moveAssign o r =>
    obtain ⟨ob, ho⟩ := hA.obj hpre.1
    obtain ⟨rb, hrb⟩ := hA.obj hpre.2
    by_cases hne : o = r
    · refine stays_ok (x := ()) ?_
      unfold moveAssign
      rw [if_pos hne]
      rfl
    · exact stays_sat (moveAssign_spec hwf hne ho hrb)
        (fun _ _ h p hp => .frame2 h.2.1 (fun e => hp (Or.inl e)) (fun e => hp (Or.inr e))) (fun _ _ h => h.elim)
  | swap o r =>
    obtain ⟨ob, ho⟩ := hA.obj hpre.1
    obtain ⟨rb, hrb⟩ := hA.obj hpre.2
    by_cases hne : o = r
    · subst hne
      exact stays_ok (swap_self ho)
    · exact stays_sat (swap_spec hwf hne ho hrb)
        (fun _ _ h p hp => .frame2 h.2.1 (fun e => hp (Or.inl e)) (fun e => hp (Or.inr e))) (fun _ _ h => h.elim)
  | clear o =>
    obtain ⟨ob, ho⟩ := hA.obj hpre
    exact stays_sat (clear_spec hwf ho) (fun _ _ h p hp => .frame h.2.1 hp) (fun _ _ h => h.elim)
  | assignList o xs =>
    obtain ⟨ob, ho⟩ := hA.obj hpre
    exact stays_assigns (assignList_spec hwf ho xs) fun _ h => h
  | assignStd o xs =>
    obtain ⟨ob, ho⟩ := hA.obj hpre.1
    obtain ⟨c, hn⟩ := Option.isSome_iff_exists.mp hpre.2
    simp only [run, hn]
    exact stays_assigns (assignStd_spec hwf ho xs) fun _ h => h
  | assignCstr o xs =>
    obtain ⟨ob, ho⟩ := hA.obj hpre.1
    obtain ⟨c, hn⟩ := Option.isSome_iff_exists.mp hpre.2
    simp only [run, hn]
    refine stays_out ?_
    cases hr : assignCstr cfg c o xs s with
    | ub => have := assignCstr_spec hwf ho c xs; rw [hr] at this; exact this.elim
    | ok x s' => intro p hp; have := assignCstr_stay hwf ho c xs p hp; rw [hr] at this; exact this
    | throw e s' => intro p hp; have := assignCstr_stay hwf ho c xs p hp; rw [hr] at this; exact this
  | length o => exact stays_ok (length_spec (hA.view hpre))
  | read o i =>
    refine stays_sat (read_spec hwf (hA.view hpre.1) hpre.2) ?_ fun _ _ h => h.elim
    rintro _ s' ⟨rfl, rfl⟩ p _
    exact .refl _ p
  | «at» o i =>
    by_cases hi : i < (env.get o).length
    · refine stays_sat (at_spec hwf (hA.view hpre) hi) ?_ fun _ _ h => h.elim
      rintro _ s' ⟨rfl, rfl⟩ p _
      exact .refl _ p
    · exact stays_throw (at_throw (hA.view hpre) (by omega))
  | hash o =>
    refine stays_out ?_
    cases hr : hash cfg o s with
    | ub => have := hash_stay hwf (hA.view hpre) 0; rw [hr] at this; exact this.elim
    | ok x s' => intro p hp; have := hash_stay hwf (hA.view hpre) p; rw [hr] at this; exact this
    | throw e s' => have := hash_stay hwf (hA.view hpre) 0; rw [hr] at this; exact this.elim
  | cStr o =>
    obtain ⟨h1, h2, h3⟩ := hpre
    obtain ⟨c, hn⟩ := Option.isSome_iff_exists.mp h2
    simp only [run, hn]
    exact stays_sat (cStr_spec hwf h3 (hA.view h1)) (fun _ _ h p hp => .frame h.2.2.1 hp)
      (fun _ _ h p hp => .frame h.2.2.1 hp)
  | begin o =>
    refine stays_out (getOwnCopy_spec hwf (hA.view hpre) ?_ ?_)
    · intro s' ob' a b' how _ _ _ p hp
      exact .frame how.frame hp
    · intro s' ob' _ h2 _ _ p hp
      exact .frame h2 hp
  | reserve o n =>
    obtain ⟨h1, h2, h3⟩ := hpre
    exact stays_sat (reservePub_spec hwf (hA.view h1) h2 h3) (fun _ _ h p hp => .frame h.2.1 hp)
      (fun _ _ h p hp => .frame h.2.2.1 hp)
  | resize o n =>
    by_cases hlt : n < (env.get o).length
    · exact stays_mutatesNT (resize_shrink hwf (hA.view hpre.1) hlt) fun _ h => h
    · exact stays_sat (resize_grow hwf (hA.view hpre.1) (by omega) hpre.2) (fun _ _ h p hp => .frame h.2.1 hp)
        (fun _ _ h p hp => .frame h.2.2.1 hp)
  | resizeFill o n x =>
    by_cases hlt : n < (env.get o).length
    · exact stays_mutatesNT (resizeFill_shrink hwf (hA.view hpre.1) hlt) fun _ h => h
    · exact stays_mutates (resizeFill_grow hwf (hA.view hpre.1) (by omega) hpre.2) fun _ h => h
  | write o i x => exact stays_mutates (write_spec hwf (hA.view hpre.1) hpre.2) fun _ h => h
  | slice o start len => exact stays_mutatesNT (slice_spec hwf (hA.view hpre.1) hpre.2) fun _ h => h
  | append o x => exact stays_mutates (append_spec hwf (hA.view hpre)) fun _ h => h
  | appendRca o r n => exact stays_mutates (appendRca_spec hwf (hA.view hpre.1) (hA.view hpre.2)) fun _ h => h
  | appendMove o r n =>
    exact stays_move (appendMove_spec hwf (hA.view hpre.1) (hA.view hpre.2))
      fun _ h => ⟨fun e => h (Or.inl e), fun e => h (Or.inr e)⟩
  | insertItem o pos x =>
    by_cases hp : pos ≤ (env.get o).length
    · exact stays_mutates (insertItem_spec hwf (hA.view hpre) hp) fun _ h => h
    · exact stays_throw (insertItem_throw (hA.view hpre) (by omega))
  | insertRca o pos r =>
    obtain ⟨h1, h2, h3, h4⟩ := hpre
    by_cases hp : pos ≤ (env.get o).length
    · exact stays_mutates (insertRca_spec hwf (hA.view h1) (hA.view h2) hp h3) fun _ h => h
    · exact stays_throw (insertRca_throw (hA.view h1) (by omega))
  | insertRcaN o pos r n =>
    obtain ⟨h1, h2, h3, h4⟩ := hpre
    by_cases hn : n = 0
    · subst hn
      exact stays_ok insertRcaN_zero
    · by_cases hp : pos ≤ (env.get o).length
      · exact stays_mutates (insertRcaN_spec hwf (hA.view h1) (hA.view h2) hp hn h3) fun _ h => h
      · exact stays_throw (insertRcaN_throw (hA.view h1) (by omega) hn)
  | insertMove o pos r =>
    obtain ⟨h1, h2, h3, h4⟩ := hpre
    by_cases hp : pos ≤ (env.get o).length
    · exact stays_move (insertMove_spec hwf (hA.view h1) (hA.view h2) hp h3)
        fun _ h => ⟨fun e => h (Or.inl e), fun e => h (Or.inr e)⟩
    · exact stays_throw (bind_throw (validatePos_throw (hA.view h1) (by omega)))
  | insertMoveN o pos r n =>
    obtain ⟨h1, h2, h3, h4⟩ := hpre
    by_cases hn : n = 0
    · subst hn
      exact stays_ok (x := ()) rfl
    · by_cases hp : pos ≤ (env.get o).length
      · exact stays_move (insertMoveN_spec hwf (hA.view h1) (hA.view h2) hp hn h3)
          fun _ h => ⟨fun e => h (Or.inl e), fun e => h (Or.inr e)⟩
      · refine stays_throw (e := .outOfRange) ?_
        unfold insertMoveN
        rw [if_neg hn]
        exact bind_throw (validatePos_throw (hA.view h1) (by omega))
  | insertRange o pos xs => exact stays_mutates (insertRange_spec hwf (hA.view hpre.1) hpre.2) fun _ h => h
  | insertC o pos xs =>
    by_cases hp : pos ≤ (env.get o).length
    · exact stays_mutates (insertC_spec hwf (hA.view hpre) hp) fun _ h => h
    · exact stays_throw (insertC_throw (hA.view hpre) (by omega))
  | replaceItem o pos x =>
    obtain ⟨h1, h2⟩ := hpre
    by_cases hp : pos ≤ (env.get o).length
    · exact stays_mutates (replaceItem_spec hwf (hA.view h1) (by omega)) fun _ h => h
    · exact stays_throw (replaceItem_throw (hA.view h1) (by omega))
  | replaceRca o pos r n =>
    obtain ⟨h1, h2, h3⟩ := hpre
    by_cases hn : n = 0
    · subst hn
      exact stays_ok (x := ()) rfl
    · by_cases hp : pos ≤ (env.get o).length
      · exact stays_mutates (replaceRca_spec (n := n) hwf (hA.view h1) (hA.view h2) hp
          (view_len_npos hwf hc (hA.view h2)) h3) fun _ h => h
      · exact stays_throw (replaceRca_throw (hA.view h1) (by omega) hn)
  | replaceMove o pos r n =>
    obtain ⟨h1, h2, h3⟩ := hpre
    by_cases hn : n = 0
    · subst hn
      exact stays_ok (x := ()) rfl
    · by_cases hp : pos ≤ (env.get o).length
      · exact stays_move (replaceMove_spec (n := n) hwf (hA.view h1) (hA.view h2) hp
          (view_len_npos hwf hc (hA.view h2)) h3 hn) fun _ h => ⟨fun e => h (Or.inl e), fun e => h (Or.inr e)⟩
      · refine stays_throw (e := .outOfRange) ?_
        unfold replaceMove
        rw [if_neg hn]
        exact bind_throw (validatePos_throw (hA.view h1) (by omega))
  | replaceC o pos xs =>
    by_cases hp : pos ≤ (env.get o).length
    · exact stays_mutates (replaceC_spec hwf (hA.view hpre) hp) fun _ h => h
    · exact stays_throw (replaceC_throw (hA.view hpre) (by omega))
  | popBack o => exact stays_mutatesNT (popBack_spec hwf (hA.view hpre.1) hpre.2) fun _ h => h
  | dropFront o n => exact stays_mutatesNT (dropFront_spec hwf (hA.view hpre)) fun _ h => h
  | dropBack o n => exact stays_mutatesNT (dropBack_spec hwf (hA.view hpre)) fun _ h => h
  | arrDropFront o n =>
    refine stays_mutatesNT (arrDropFront_spec hwf (hA.view hpre.1) hpre.2 ?_) fun _ h => h
    intro ob ho
    have hv := hA.view hpre.1
    rw [view_eq ho] at hv
    have := caps_obj hwf hc ho hv
    unfold maxCells at this
    unfold two64
    omega
  | arrDropBack o n => exact stays_mutatesNT (arrDropBack_spec hwf (hA.view hpre.1) hpre.2) fun _ h => h
  | shift o =>
    obtain ⟨h1, h2⟩ := hpre
    obtain ⟨x, t, hx⟩ := List.exists_cons_of_ne_nil h2
    exact stays_takes (shift_spec hwf (hx ▸ hA.view h1)) fun _ h => h
  | pop o =>
    obtain ⟨h1, h2⟩ := hpre
    have hx := List.dropLast_concat_getLast h2
    exact stays_takes (pop_spec (x := (env.get o).getLast h2) (t := (env.get o).dropLast) hwf
      (hx.symm ▸ hA.view h1)) fun _ h => h

end Bdlib.Rca
