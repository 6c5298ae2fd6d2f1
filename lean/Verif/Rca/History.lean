import Verif.Rca.Caps

/-!
# Histories of calls

`run` maps the calls of `Spec.Op` to the modelled code.  `step_refines` shows that every in-contract call
has the effect the specification says, from every state satisfying the invariant; `Reach` are the
states that histories of in-contract calls can produce.
-/

namespace Bdlib.Rca
open Bdlib Bdlib.Spec

variable {T : Type} {cfg : Cfg T}

def mapOut {α : Type} (m : M T α) (f : α → Out T) : M T (Out T) := do
  let a ← m
  return f a

/-- The modelled code behind each call. -/
def run [DecidableEq T] (cfg : Cfg T) : Op T → M T (Out T)
  | .ctor => mapOut ctor .obj
  | .copyCtor r => mapOut (copyCtor r) .obj
  | .moveCtor r => mapOut (moveCtor cfg r) .obj
  | .sizeCtor n => mapOut (sizeCtor cfg n) .obj
  | .fillCtor n x => mapOut (fillCtor cfg n x) .obj
  | .listCtor xs => mapOut (listCtor cfg xs) .obj
  | .rangeCtor xs => mapOut (rangeCtor cfg xs) .obj
  | .strCtor xs => match cfg.nul with
    | some c => mapOut (strCtor cfg c xs) .obj
    | none => M.undef
  | .cstrCtor xs => match cfg.nul with
    | some c => mapOut (cstrCtor cfg c xs) .obj
    | none => M.undef
  | .charCtor x => match cfg.nul with
    | some c => mapOut (charCtor cfg c x) .obj
    | none => M.undef
  | .substring r start len => mapOut (substring r start len) .obj
  | .destroy o => mapOut (destroy cfg o) fun _ => .unit
  | .copyAssign o r => mapOut (copyAssign o r) fun _ => .unit
  | .moveAssign o r => mapOut (moveAssign cfg o r) fun _ => .unit
  | .swap o r => mapOut (swap o r) fun _ => .unit
  | .clear o => mapOut (clear o) fun _ => .unit
  | .assignList o xs => mapOut (assignList cfg o xs) fun _ => .unit
  | .assignStd o xs => match cfg.nul with
    | some c => mapOut (assignStd cfg c o xs) fun _ => .unit
    | none => M.undef
  | .assignCstr o xs => match cfg.nul with
    | some c => mapOut (assignCstr cfg c o xs) fun _ => .unit
    | none => M.undef
  | .length o => mapOut (length o) .num
  | .read o i => mapOut (read o i) .elem
  | .at o i => mapOut (at' o i) .elem
  | .hash o => mapOut (hash cfg o) fun h => .hash h.toNat
  | .cStr o => match cfg.nul with
    | some c => mapOut (cStr cfg c o) .bytes
    | none => M.undef
  | .begin o => mapOut (getOwnCopy cfg o) fun _ => .unit
  | .reserve o n => mapOut (reservePub cfg o n) fun _ => .unit
  | .resize o n => mapOut (resize cfg o n) fun _ => .unit
  | .resizeFill o n x => mapOut (resizeFill cfg o n x) fun _ => .unit
  | .write o i x => mapOut (write cfg o i x) fun _ => .unit
  | .slice o start len => mapOut (slice o start len) fun _ => .unit
  | .append o x => mapOut (append cfg o x) fun _ => .unit
  | .appendRca o r n => mapOut (appendRca cfg o r n) fun _ => .unit
  | .appendMove o r n => mapOut (appendMove cfg o r n) fun _ => .unit
  | .insertItem o pos x => mapOut (insertItem cfg o pos x) fun _ => .unit
  | .insertRca o pos r => mapOut (insertRca cfg o pos r) fun _ => .unit
  | .insertRcaN o pos r n => mapOut (insertRcaN cfg o pos r n) fun _ => .unit
  | .insertMove o pos r => mapOut (insertMove cfg o pos r) fun _ => .unit
  | .insertMoveN o pos r n => mapOut (insertMoveN cfg o pos r n) fun _ => .unit
  | .insertRange o pos xs => mapOut (insertRange cfg o pos xs) fun _ => .unit
  | .insertC o pos xs => mapOut (insertC cfg o pos xs false) fun _ => .unit
  | .replaceItem o pos x => mapOut (replaceItem cfg o pos x) fun _ => .unit
  | .replaceRca o pos r n => mapOut (replaceRca cfg o pos r n) fun _ => .unit
  | .replaceMove o pos r n => mapOut (replaceMove cfg o pos r n) fun _ => .unit
  | .replaceC o pos xs => mapOut (replaceC cfg o pos xs false) fun _ => .unit
  | .popBack o => mapOut (popBack o) fun _ => .unit
  | .dropFront o n => mapOut (dropFront o n) fun _ => .unit
  | .dropBack o n => mapOut (dropBack o n) fun _ => .unit
  | .arrDropFront o n => mapOut (arrDropFront o n) fun _ => .unit
  | .arrDropBack o n => mapOut (arrDropBack o n) fun _ => .unit
  | .shift o => mapOut (shift cfg o) .elem
  | .pop o => mapOut (pop cfg o) .elem

theorem sat_mapOut {α : Type} {m : M T α} {f : α → Out T} {s : St T} {Q : Out T → St T → Prop}
    {E : Exc → St T → Prop} (h : (m s).Sat (fun a s' => Q (f a) s') E) : (mapOut m f s).Sat Q E :=
  sat_bind (sat_mono h (fun _ _ h => h) fun _ _ h => h)

theorem Pres.mapOut {α : Type} {ok : Nat → Nat → Bool} {L : Law T ok} {m : M T α} {f : α → Out T} (h : Pres L m) :
    Pres L (mapOut m f) :=
  Pres.bind h fun _ => Pres.pure _

theorem pres_run [DecidableEq T] {L : Law T cfg.allocOk} (op : Op T) : Pres L (run cfg op) := by
  cases op with
  | strCtor xs => simp only [run]; split; exact .mapOut (.strCtor _ _); exact .undef
  | cstrCtor xs => simp only [run]; split; exact .mapOut (.cstrCtor _ _); exact .undef
  | charCtor x => simp only [run]; split; exact .mapOut (.charCtor _ _); exact .undef
  | assignStd o xs => simp only [run]; split; exact .mapOut (.assignStd _ _ _); exact .undef
  | assignCstr o xs => simp only [run]; split; exact .mapOut (.assignCstr _ _ _); exact .undef
  | cStr o => simp only [run]; split; exact .mapOut (.cStr _ _); exact .undef
  | ctor => exact .mapOut (.newObj _)
  | copyCtor r => exact .mapOut (.copyCtor _)
  | moveCtor r => exact .mapOut (.moveCtor _)
  | sizeCtor n => exact .mapOut (.sizeCtor _)
  | fillCtor n x => exact .mapOut (.fillCtor _ _)
  | listCtor xs => exact .mapOut (.listCtor _)
  | rangeCtor xs => exact .mapOut (.rangeCtor _)
  | substring r a b => exact .mapOut (.substring _ _ _)
  | destroy o => exact .mapOut (.destroy _ _)
  | copyAssign o r => exact .mapOut (.copyAssign _ _)
  | moveAssign o r => exact .mapOut (.moveAssign _ _)
  | swap o r => exact .mapOut (.swap _ _)
  | clear o => exact .mapOut (.clear _)
  | assignList o xs => exact .mapOut (.assignList _ _)
  | length o => exact .mapOut (.length _)
  | read o i => exact .mapOut (.read _ _)
  | «at» o i => exact .mapOut (.at' _ _)
  | hash o => exact .mapOut (.hash _ _)
  | begin o => exact .mapOut (.getOwnCopy _)
  | reserve o n => exact .mapOut (.reserve _ _ _)
  | resize o n => exact .mapOut (.resize _ _)
  | resizeFill o n x => exact .mapOut (.resizeFill _ _ _)
  | write o i x => exact .mapOut (.write _ _ _)
  | slice o a b => exact .mapOut (.slice _ _ _)
  | append o x => exact .mapOut (.append _ _)
  | appendRca o r n => exact .mapOut (.bind (.length _) fun _ => .insertRcaN _ _ _ _)
  | appendMove o r n => exact .mapOut (.bind (.length _) fun _ => .insertMoveN _ _ _ _)
  | insertItem o p x => exact .mapOut (.insertItem _ _ _)
  | insertRca o p r => exact .mapOut (.insertRca _ _ _)
  | insertRcaN o p r n => exact .mapOut (.insertRcaN _ _ _ _)
  | insertMove o p r => exact .mapOut (.insertMove _ _ _)
  | insertMoveN o p r n => exact .mapOut (.insertMoveN _ _ _ _)
  | insertRange o p xs => exact .mapOut (.insertRange _ _ _)
  | insertC o p xs => exact .mapOut (.insertC _ _ _ _)
  | replaceItem o p x => exact .mapOut (.replaceItem _ _ _)
  | replaceRca o p r n => exact .mapOut (.replaceRca _ _ _ _)
  | replaceMove o p r n => exact .mapOut (.replaceMove _ _ _ _)
  | replaceC o p xs => exact .mapOut (.replaceC _ _ _ _)
  | popBack o => exact .mapOut (.popBack _)
  | dropFront o n => exact .mapOut (.dropFront _ _)
  | dropBack o n => exact .mapOut (.dropBack _ _)
  | arrDropFront o n => exact .mapOut (.arrDropFront _ _)
  | arrDropBack o n => exact .mapOut (.arrDropBack _ _)
  | shift o => exact .mapOut (.shift _ _)
  | pop o => exact .mapOut (.pop _ _)

/-! ## Abstraction -/

/-- The machine state agrees with what the environment says about handle `o`. -/
def SlotRel (s : St T) (o : Nat) : Slot T → Prop
  | .dead => s.obj o = none
  | .unspec => ∃ ob, s.obj o = some ob
  | .val v => s.view o = some v

/-- The machine state agrees with the environment. -/
def Abs (s : St T) (env : Env T) : Prop := ∀ o, SlotRel s o (env o)

theorem slotRel_congr {s s' : St T} {o r : Nat} {x : Slot T} (h : SlotRel s r x) (h1 : s'.obj o = s.obj r)
    (h2 : s'.view o = s.view r) : SlotRel s' o x := by
  cases x with
  | dead => exact h1.trans h
  | unspec => exact h.imp fun ob h => h1.trans h
  | val v => exact h2.trans h

theorem Abs.view {s : St T} {env : Env T} (h : Abs s env) {o : Nat} (ho : env.Has o) :
    s.view o = some (env.get o) := by
  obtain ⟨v, hv⟩ := ho
  have := h o
  rw [hv] at this
  unfold Env.get
  rw [hv]
  exact this

theorem Abs.obj {s : St T} {env : Env T} (h : Abs s env) {o : Nat} (ho : env.Live o) :
    ∃ ob, s.obj o = some ob := by
  have := h o
  unfold Env.Live at ho
  cases hx : env o with
  | dead => exact absurd hx ho
  | unspec => rw [hx] at this; exact this
  | val v => rw [hx] at this; obtain ⟨ob, h1, _⟩ := view_some this; exact ⟨ob, h1⟩

theorem Abs.fresh {s : St T} {env : Env T} (h : Abs s env) {o : Nat} (ho : s.obj o = none) : env o = .dead := by
  have := h o
  cases hx : env o with
  | dead => rfl
  | unspec => rw [hx] at this; obtain ⟨ob, h1⟩ := this; rw [ho] at h1; cases h1
  | val v => rw [hx] at this; obtain ⟨ob, h1, _⟩ := view_some this; rw [ho] at h1; cases h1

theorem obj_length (s : St T) : s.obj s.objs.length = none := by simp [St.obj]

theorem Abs.upd {s s' : St T} {env : Env T} (h : Abs s env) {o : Nat} (hf : Frame s s' o) {x : Slot T}
    (hx : SlotRel s' o x) : Abs s' (env.upd o x) := by
  intro i
  unfold Env.upd
  by_cases hi : i = o
  · subst hi; rw [if_pos rfl]; exact hx
  · rw [if_neg hi]
    exact slotRel_congr (h i) (hf i hi).1 (hf.view hi)

theorem Abs.same {s s' : St T} {env : Env T} (h : Abs s env) {o : Nat} (hf : Frame s s' o)
    (hx : SlotRel s' o (env o)) : Abs s' env := by
  intro i
  by_cases hi : i = o
  · subst hi; exact hx
  · exact slotRel_congr (h i) (hf i hi).1 (hf.view hi)

theorem Abs.upd2 {s s' : St T} {env : Env T} (h : Abs s env) {o r : Nat} (hf : Frame2 s s' o r) {x y : Slot T}
    (hx : SlotRel s' o x) (hy : r ≠ o → SlotRel s' r y) : Abs s' ((env.upd r y).upd o x) := by
  intro i
  unfold Env.upd
  by_cases hi : i = o
  · subst hi; rw [if_pos rfl]; exact hx
  · rw [if_neg hi]
    by_cases hr : i = r
    · subst hr; rw [if_pos rfl]; exact hy hi
    · rw [if_neg hr]
      exact slotRel_congr (h i) (hf i hi hr).1 (hf.view hi hr)

theorem slot_of_has {env : Env T} {o : Nat} (h : env.Has o) : env o = .val (env.get o) := by
  obtain ⟨v, hv⟩ := h
  unfold Env.get
  rw [hv]

theorem slot_moved {s' : St T} {r : Nat} {rb : Obj} (h : s'.obj r = some (movedFrom cfg rb)) :
    SlotRel s' r (movedSlot cfg) := by
  unfold movedSlot
  by_cases hm : cfg.resetMoved = true
  · rw [if_pos hm]
    show s'.view r = some []
    rw [view_eq h]
    unfold movedFrom St.viewOf
    rw [if_pos hm]
    rfl
  · rw [if_neg hm]; exact ⟨_, h⟩

/-- What `step_refines` establishes about the outcome of a call. -/
def Good (cfg : Cfg T) (s : St T) (env : Env T) (op : Op T) (r : Res T (Out T)) : Prop :=
  r.Sat (fun x s' => ∃ env', Post cfg (shared s) env op (.ret x) env' ∧ WF cfg s' ∧ Abs s' env')
    (fun e s' => ∃ env', Post cfg (shared s) env op (.exc e) env' ∧ WF cfg s' ∧ Abs s' env')

section Helpers
variable {s : St T} {env : Env T} {op : Op T} {o r : Nat} {v' : List T}

theorem good_nomem (hA : Abs s env) (ho : env.Has o) {s' : St T} (hw : WF cfg s') (hf : Frame s s' o)
    (hv : s'.view o = some (if shared s o then [] else env.get o))
    (hP : ∀ env', NoMem (shared s) env o (.exc .badAlloc) env' → Post cfg (shared s) env op (.exc .badAlloc) env') :
    ∃ env', Post cfg (shared s) env op (.exc .badAlloc) env' ∧ WF cfg s' ∧ Abs s' env' := by
  refine ⟨_, hP _ ⟨rfl, rfl⟩, hw, ?_⟩
  by_cases hs : shared s o = true
  · rw [if_pos hs] at hv ⊢
    exact hA.upd hf hv
  · rw [if_neg hs] at hv ⊢
    refine hA.same hf ?_
    rw [slot_of_has ho]; exact hv

theorem good_mutates {m : M T Unit} (hA : Abs s env) (ho : env.Has o)
    (h : Mutates cfg s o (env.get o) v' (m s))
    (hP : ∀ out env', SetsOrFails (shared s) env o v' out env' → Post cfg (shared s) env op out env') :
    Good cfg s env op (mapOut m (fun _ => .unit) s) := by
  refine sat_mapOut (sat_mono h ?_ ?_)
  · rintro _ s' ⟨h1, h2, h3⟩
    exact ⟨_, hP _ _ (Or.inl ⟨rfl, rfl⟩), h1, hA.upd h2 h3⟩
  · rintro e s' ⟨rfl, h1, h2, h3⟩
    exact good_nomem hA ho h1 h2 h3 fun env' h => hP _ _ (Or.inr h)

theorem good_mutatesNT {m : M T Unit} (hA : Abs s env) (h : MutatesNT cfg s o v' (m s))
    (hP : ∀ out env', Sets env o v' out env' → Post cfg (shared s) env op out env') :
    Good cfg s env op (mapOut m (fun _ => .unit) s) := by
  refine sat_mapOut (sat_mono h ?_ fun _ _ h => h.elim)
  rintro _ s' ⟨h1, h2, h3⟩
  exact ⟨_, hP _ _ ⟨rfl, rfl⟩, h1, hA.upd h2 h3⟩

theorem good_move {m : M T Unit} {steal : Prop} (hA : Abs s env) (ho : env.Has o)
    (h : MutatesMove cfg s o r steal (env.get o) v' (m s))
    (hP : ∀ out env', SetsMoving cfg (shared s) env o r steal v' out env' → Post cfg (shared s) env op out env') :
    Good cfg s env op (mapOut m (fun _ => .unit) s) := by
  refine sat_mapOut (sat_mono h ?_ ?_)
  · rintro _ s' ⟨h1, h2, ⟨hne, hst, h3, rb, h5, h6⟩ | ⟨hst, h3⟩⟩
    · exact ⟨_, hP _ _ (Or.inl ⟨hst, rfl, rfl⟩), h1, hA.upd2 h3 h2 fun _ => slot_moved h6⟩
    · exact ⟨_, hP _ _ (Or.inr ⟨hst, Or.inl ⟨rfl, rfl⟩⟩), h1, hA.upd h3 h2⟩
  · rintro e s' ⟨hst, rfl, h1, h2, h3⟩
    exact good_nomem hA ho h1 h2 h3 fun env' h => hP _ _ (Or.inr ⟨hst, Or.inr h⟩)

theorem good_creates {m : M T Nat} (hA : Abs s env) (h : Creates cfg s v' (m s))
    (hP : ∀ out env', MakesOrFails env v' out env' → Post cfg (shared s) env op out env') :
    Good cfg s env op (mapOut m .obj s) := by
  refine sat_mapOut (sat_mono h ?_ ?_)
  · rintro _ s' ⟨rfl, h1, h2, h3⟩
    exact ⟨_, hP _ _ (Or.inl ⟨_, hA.fresh (obj_length s), rfl, rfl⟩), h1, hA.upd h2 h3⟩
  · rintro e s' ⟨rfl, h1, h2, h3⟩
    refine ⟨_, hP _ _ (Or.inr ⟨rfl, rfl⟩), h1, hA.same h2 ?_⟩
    rw [hA.fresh (obj_length s)]
    exact h3

theorem good_takes {m : M T (Option T)} {x : Option T} (hA : Abs s env) (h : Takes cfg s o x v' (m s))
    (hP : ∀ out env', TakesOut env o x v' out env' → Post cfg (shared s) env op out env') :
    Good cfg s env op (mapOut m .elem s) := by
  refine sat_mapOut (sat_mono h ?_ fun _ _ h => h.elim)
  rintro _ s' ⟨rfl, h1, h2, h3⟩
  exact ⟨_, hP _ _ ⟨rfl, rfl⟩, h1, hA.upd h2 h3⟩

theorem good_assigns {m : M T Unit} (hA : Abs s env) (h : Assigns cfg s o v' (m s))
    (hP : ∀ out env', AssignsOrFails env o v' out env' → Post cfg (shared s) env op out env') :
    Good cfg s env op (mapOut m (fun _ => .unit) s) := by
  refine sat_mapOut (sat_mono h ?_ ?_)
  · rintro _ s' ⟨h1, h2, h3⟩
    exact ⟨_, hP _ _ (Or.inl ⟨rfl, rfl⟩), h1, hA.upd h2 h3⟩
  · rintro e s' ⟨rfl, h1, h2, h3⟩
    exact ⟨_, hP _ _ (Or.inr ⟨rfl, rfl⟩), h1, hA.upd h2 h3⟩

theorem good_throw {α : Type} {m : M T α} {f : α → Out T} (hwf : WF cfg s) (hA : Abs s env)
    (h : m s = .throw .outOfRange s)
    (hP : ∀ out env', Rejects env out env' → Post cfg (shared s) env op out env') :
    Good cfg s env op (mapOut m f s) := by
  refine sat_mapOut ?_
  rw [h]
  exact ⟨_, hP _ _ ⟨rfl, rfl⟩, hwf, hA⟩

theorem good_ok {α : Type} {m : M T α} {f : α → Out T} {x : α} (hwf : WF cfg s) (hA : Abs s env)
    (h : m s = .ok x s)
    (hP : ∀ out env', Observes env (f x) out env' → Post cfg (shared s) env op out env') :
    Good cfg s env op (mapOut m f s) := by
  refine sat_mapOut ?_
  rw [h]
  exact ⟨_, hP _ _ ⟨rfl, rfl⟩, hwf, hA⟩

theorem has_live (h : env.Has o) : env.Live o := by
  obtain ⟨v, hv⟩ := h
  unfold Env.Live; rw [hv]; simp

end Helpers

/-! ## The hash -/

theorem hashLoop_toNat (h : T → UInt64) (xs : List T) : ∀ acc : UInt64,
    (hashLoop h acc xs).toNat = xs.foldl (fun a x => a * 33 + (h x).toNat) acc.toNat % 18446744073709551616 := by
  induction xs with
  | nil => intro acc; simp [hashLoop, Nat.mod_eq_of_lt acc.toNat_lt]
  | cons x xs ih =>
    intro acc
    rw [hashLoop, ih, List.foldl_cons]
    have key : ∀ (ys : List T) (a b : Nat), a % 18446744073709551616 = b % 18446744073709551616 →
        ys.foldl (fun a x => a * 33 + (h x).toNat) a % 18446744073709551616 =
        ys.foldl (fun a x => a * 33 + (h x).toNat) b % 18446744073709551616 := by
      intro ys
      induction ys with
      | nil => intro a b h; exact h
      | cons y ys ih => intro a b h; exact ih _ _ (by simp only; omega)
    apply key
    have : (acc <<< 5).toNat = acc.toNat * 32 % 18446744073709551616 := by
      rw [UInt64.toNat_shiftLeft]
      simp [Nat.shiftLeft_eq]
    simp only [UInt64.toNat_add, this]
    omega

theorem hashOf_djb (cfg : Cfg T) (v : List T) :
    (hashOf cfg v).toNat = djb (fun x => (cfg.hasher x).toNat) v := by
  unfold hashOf djb
  rw [UInt64.toNat_and, hashLoop_toNat]
  have : (0x7FFFFFFF : UInt64).toNat = 2 ^ 31 - 1 := by decide
  rw [this, Nat.and_two_pow_sub_one_eq_mod]
  have h5 : (5381 : UInt64).toNat = 5381 := by decide
  rw [h5]
  simp only
  omega


/-! ## One call -/

theorem caps_obj {s : St T} (hwf : WF cfg s) (hc : Caps s) {o : Nat} {ob : Obj} {v : List T}
    (ho : s.obj o = some ob) (hv : s.viewOf ob = some v) : ob.offset + ob.sublen < maxCells := by
  have hcase : ob.ref = none ∨ ∃ a, ob.ref = some a := by cases ob.ref <;> simp
  rcases hcase with hr | ⟨a, hr⟩
  · unfold St.viewOf at hv
    rw [hr] at hv
    by_cases h : ob.sublen = 0 ∧ ob.offset = 0
    · rw [h.1, h.2]; decide
    · simp only [if_neg h] at hv; cases hv
  · obtain ⟨b, hb, hle⟩ := hwf.le ho hr
    have := hc a b hb
    omega

theorem view_len_npos {s : St T} (hwf : WF cfg s) (hc : Caps s) {o : Nat} {v : List T} (hv : s.view o = some v) :
    v.length ≤ npos := by
  obtain ⟨ob, ho, h1, h2⟩ := obj_of_view hv
  have := caps_obj hwf hc ho h1
  unfold maxCells at this
  unfold npos
  omega

theorem insertResult_spec {v w : List T} {pos n : Nat} (h : Longer v w pos n → v = []) :
    insertResult v w pos n = insertAt v pos (w.take n) := by
  by_cases hs : Shortcut v w pos n
  · rw [insertResult_pos hs, h hs, hs.2.2]
    unfold insertAt
    simp
  · rw [insertResult_neg hs]; rfl

theorem replaceResult_spec (v w : List T) (pos n : Nat) : replaceResult v w pos n = replaceAt v pos (w.take n) := by
  unfold replaceResult replaceAt
  rw [List.length_take]

/-- Every in-contract call, from every state satisfying the invariant, is defined, has the effect
the specification says and re-establishes the invariant. -/
theorem step_refines [DecidableEq T] {s : St T} {env : Env T} (hwf : WF cfg s) (hc : Caps s) (hA : Abs s env)
    {op : Op T} (hpre : Pre cfg (shared s) env op) : Good cfg s env op (run cfg op s) := by
  cases op with
  | ctor =>
    have h := ctor_spec hwf
    exact ⟨_, ⟨_, hA.fresh (obj_length s), rfl, rfl⟩, h.2.1, hA.upd h.2.2.1 h.2.2.2⟩
  | copyCtor r =>
    obtain ⟨rb, hrb⟩ := hA.obj hpre
    refine sat_mapOut (sat_mono (copyCtor_spec hwf hrb) ?_ fun _ _ h => h.elim)
    rintro _ s' ⟨rfl, h1, h2, h3, h4, _⟩
    exact ⟨_, ⟨_, hA.fresh (obj_length s), rfl, rfl⟩, h1, hA.upd h2 (slotRel_congr (hA r) h3 h4)⟩
  | moveCtor r =>
    obtain ⟨rb, hrb⟩ := hA.obj hpre
    refine sat_mapOut (sat_mono (moveCtor_spec hwf hrb) ?_ fun _ _ h => h.elim)
    rintro _ s' ⟨rfl, h1, h2, h3, h4, h5, _⟩
    have hne : s.objs.length ≠ r := fun h => by
      rw [← h, obj_length] at hrb; cases hrb
    refine ⟨_, ⟨_, ?_, rfl, rfl⟩, h1, hA.upd2 h2 (slotRel_congr (hA r) h3 h4) fun _ => slot_moved h5⟩
    unfold Env.upd
    rw [if_neg hne]
    exact hA.fresh (obj_length s)
  | sizeCtor n => exact good_creates hA (sizeCtor_spec hwf n) fun _ _ h => h
  | fillCtor n x => exact good_creates hA (fillCtor_spec hwf hpre n x) fun _ _ h => h
  | listCtor xs => exact good_creates hA (listCtor_spec hwf hpre xs) fun _ _ h => h
  | rangeCtor xs => exact good_creates hA (rangeCtor_spec hwf hpre xs) fun _ _ h => h
  | strCtor xs =>
    obtain ⟨c, hn⟩ := Option.isSome_iff_exists.mp hpre
    simp only [run, hn]
    exact good_creates hA (strCtor_spec hwf c xs) fun _ _ h => h
  | cstrCtor xs =>
    obtain ⟨c, hn⟩ := Option.isSome_iff_exists.mp hpre
    simp only [run, hn]
    exact good_creates hA (cstrCtor_spec hwf c xs) fun _ _ h => h
  | charCtor x =>
    obtain ⟨c, hn⟩ := Option.isSome_iff_exists.mp hpre
    simp only [run, hn]
    exact good_creates hA (charCtor_spec hwf c x) fun _ _ h => h
  | substring r start len =>
    refine sat_mapOut (sat_mono (substring_spec hwf (hA.view hpre.1) hpre.2) ?_ fun _ _ h => h.elim)
    rintro _ s' ⟨rfl, h1, h2, h3⟩
    exact ⟨_, ⟨_, hA.fresh (obj_length s), rfl, rfl⟩, h1, hA.upd h2 h3⟩
  | destroy o =>
    obtain ⟨ob, ho⟩ := hA.obj hpre
    refine sat_mapOut (sat_mono (destroy_spec hwf ho) ?_ fun _ _ h => h.elim)
    rintro _ s' ⟨h1, h2, h3, _⟩
    exact ⟨_, ⟨rfl, rfl⟩, h1, hA.upd h2 h3⟩
  | copyAssign o r =>
    obtain ⟨ob, ho⟩ := hA.obj hpre.1
    obtain ⟨rb, hrb⟩ := hA.obj hpre.2
    refine sat_mapOut (sat_mono (copyAssign_spec hwf ho hrb) ?_ fun _ _ h => h.elim)
    rintro _ s' ⟨h1, h2, h3, h4⟩
    exact ⟨_, ⟨rfl, rfl⟩, h1, hA.upd h2 (slotRel_congr (hA r) h3 h4)⟩
  | moveAssign o r =>
    obtain ⟨ob, ho⟩ := hA.obj hpre.1
    obtain ⟨rb, hrb⟩ := hA.obj hpre.2
    by_cases hne : o = r
    · refine sat_mapOut ?_
      unfold moveAssign
      rw [if_pos hne]
      exact ⟨_, ⟨rfl, rfl⟩, hwf, by rw [if_pos hne]; exact hA⟩
    · refine sat_mapOut (sat_mono (moveAssign_spec hwf hne ho hrb) ?_ fun _ _ h => h.elim)
      rintro _ s' ⟨h1, h2, h3, h4, h5⟩
      refine ⟨_, ⟨rfl, rfl⟩, h1, ?_⟩
      rw [if_neg hne]
      exact hA.upd2 h2 (slotRel_congr (hA r) h3 h4) fun _ => slot_moved h5
  | swap o r =>
    obtain ⟨ob, ho⟩ := hA.obj hpre.1
    obtain ⟨rb, hrb⟩ := hA.obj hpre.2
    by_cases hne : o = r
    · subst hne
      refine sat_mapOut ?_
      rw [swap_self ho]
      refine ⟨_, ⟨rfl, rfl⟩, hwf, ?_⟩
      intro i
      unfold Env.upd
      by_cases hi : i = o
      · subst hi; simp only [if_true]; exact hA i
      · simp only [if_neg hi]; exact hA i
    · refine sat_mapOut (sat_mono (swap_spec hwf hne ho hrb) ?_ fun _ _ h => h.elim)
      rintro _ s' ⟨h1, h2, h3, h4, h5, h6⟩
      refine ⟨_, ⟨rfl, rfl⟩, h1, ?_⟩
      have h2' : Frame2 s s' r o := fun i h h' => h2 i h' h
      exact hA.upd2 h2' (slotRel_congr (hA o) h6 h4) fun _ => slotRel_congr (hA r) h5 h3
  | clear o =>
    obtain ⟨ob, ho⟩ := hA.obj hpre
    refine sat_mapOut (sat_mono (clear_spec hwf ho) ?_ fun _ _ h => h.elim)
    rintro _ s' ⟨h1, h2, h3, _⟩
    exact ⟨_, ⟨rfl, rfl⟩, h1, hA.upd h2 h3⟩
  | assignList o xs =>
    obtain ⟨ob, ho⟩ := hA.obj hpre
    exact good_assigns hA (assignList_spec hwf ho xs) fun _ _ h => h
  | assignStd o xs =>
    obtain ⟨ob, ho⟩ := hA.obj hpre.1
    obtain ⟨c, hn⟩ := Option.isSome_iff_exists.mp hpre.2
    simp only [run, hn]
    exact good_assigns hA (assignStd_spec hwf ho xs) fun _ _ h => h
  | assignCstr o xs =>
    obtain ⟨ob, ho⟩ := hA.obj hpre.1
    obtain ⟨c, hn⟩ := Option.isSome_iff_exists.mp hpre.2
    simp only [run, hn]
    refine sat_mapOut (sat_mono (assignCstr_spec hwf ho c xs) ?_ ?_)
    · rintro _ s' ⟨h1, h2, h3⟩
      exact ⟨_, Or.inl ⟨rfl, rfl⟩, h1, hA.upd h2 h3⟩
    · rintro e s' ⟨rfl, h1, h2⟩
      exact ⟨_, Or.inr ⟨rfl, rfl⟩, h1, fun i => slotRel_congr (hA i) (h2 i).1 (h2 i).2⟩
  | length o => exact good_ok hwf hA (length_spec (hA.view hpre)) fun _ _ h => h
  | read o i =>
    refine sat_mapOut (sat_mono (read_spec hwf (hA.view hpre.1) hpre.2) ?_ fun _ _ h => h.elim)
    rintro _ s' ⟨rfl, rfl⟩
    exact ⟨_, ⟨rfl, rfl⟩, hwf, hA⟩
  | «at» o i =>
    by_cases hi : i < (env.get o).length
    · refine sat_mapOut (sat_mono (at_spec hwf (hA.view hpre) hi) ?_ fun _ _ h => h.elim)
      rintro _ s' ⟨rfl, rfl⟩
      exact ⟨env, by simp only [Post, if_pos hi]; exact ⟨rfl, rfl⟩, hwf, hA⟩
    · refine good_throw hwf hA (at_throw (hA.view hpre) (by omega)) fun _ _ h => ?_
      simp only [Post, if_neg hi]; exact h
  | hash o =>
    refine sat_mapOut (sat_mono (hash_spec hwf (hA.view hpre)) ?_ fun _ _ h => h.elim)
    rintro _ s' ⟨rfl, h1, h2, h3⟩
    refine ⟨env, ⟨by rw [hashOf_djb], rfl⟩, h1, hA.same h2 ?_⟩
    rw [slot_of_has hpre]; exact h3
  | cStr o =>
    obtain ⟨h1, h2, h3⟩ := hpre
    obtain ⟨c, hn⟩ := Option.isSome_iff_exists.mp h2
    simp only [run, hn]
    refine sat_mapOut (sat_mono (cStr_spec hwf h3 (hA.view h1)) ?_ ?_)
    · rintro _ s' ⟨rfl, h4, h5, h6⟩
      refine ⟨env, Or.inl ⟨c, hn, rfl, rfl⟩, h4, hA.same h5 ?_⟩
      rw [slot_of_has h1]; exact h6
    · rintro e s' ⟨rfl, h4, h5, h6⟩
      exact good_nomem hA h1 h4 h5 h6 fun _ h => Or.inr h
  | begin o =>
    refine sat_mapOut (getOwnCopy_spec hwf (hA.view hpre) ?_ ?_)
    · intro s' ob' a b' how h1 h2 _
      refine ⟨env, Or.inl ⟨rfl, rfl⟩, how.wf, hA.same how.frame ?_⟩
      rw [slot_of_has hpre]
      show s'.view o = _
      rw [how.view, h1, h2]
    · intro s' ob' h1 h2 _ h3
      exact good_nomem hA hpre h1 h2 h3 fun _ h => Or.inr h
  | reserve o n =>
    obtain ⟨h1, h2, h3⟩ := hpre
    refine sat_mapOut (sat_mono (reservePub_spec hwf (hA.view h1) h2 h3) ?_ ?_)
    · rintro _ s' ⟨h4, h5, h6, _⟩
      refine ⟨env, Or.inl ⟨rfl, rfl⟩, h4, hA.same h5 ?_⟩
      rw [slot_of_has h1]; exact h6
    · rintro e s' ⟨rfl, h4, h5, h6⟩
      refine ⟨env, Or.inr ⟨rfl, rfl⟩, h4, hA.same h5 ?_⟩
      rw [slot_of_has h1]; exact h6
  | resize o n =>
    by_cases hlt : n < (env.get o).length
    · refine good_mutatesNT hA (resize_shrink hwf (hA.view hpre.1) hlt) fun _ _ h => Or.inl ⟨[], ?_, ?_⟩
      · simp; omega
      · simpa using h
    · have hle : (env.get o).length ≤ n := by omega
      refine sat_mapOut (sat_mono (resize_grow hwf (hA.view hpre.1) hle hpre.2) ?_ ?_)
      · rintro _ s' ⟨h1, h2, js, h3, h4⟩
        refine ⟨_, Or.inl ⟨js, h3, rfl, rfl⟩, h1, hA.upd h2 ?_⟩
        rw [List.take_of_length_le hle]; exact h4
      · rintro e s' ⟨rfl, h1, h2, h3⟩
        exact good_nomem hA hpre.1 h1 h2 h3 fun _ h => Or.inr ⟨hle, h⟩
  | resizeFill o n x =>
    by_cases hlt : n < (env.get o).length
    · refine good_mutatesNT hA (resizeFill_shrink hwf (hA.view hpre.1) hlt) fun _ _ h => Or.inl ?_
      have : n - (env.get o).length = 0 := by omega
      rw [this]; simpa using h
    · have hle : (env.get o).length ≤ n := by omega
      refine good_mutates hA hpre.1 (resizeFill_grow hwf (hA.view hpre.1) hle hpre.2) fun _ _ h => ?_
      show _ ∨ _
      rw [List.take_of_length_le hle]
      exact h.imp id fun h => ⟨hle, h⟩
  | write o i x => exact good_mutates hA hpre.1 (write_spec hwf (hA.view hpre.1) hpre.2) fun _ _ h => h
  | slice o start len => exact good_mutatesNT hA (slice_spec hwf (hA.view hpre.1) hpre.2) fun _ _ h => h
  | append o x => exact good_mutates hA hpre (append_spec hwf (hA.view hpre)) fun _ _ h => h
  | appendRca o r n =>
    exact good_mutates hA hpre.1 (appendRca_spec hwf (hA.view hpre.1) (hA.view hpre.2)) fun _ _ h => h
  | appendMove o r n =>
    exact good_move hA hpre.1 (appendMove_spec hwf (hA.view hpre.1) (hA.view hpre.2)) fun _ _ h => h
  | insertItem o pos x =>
    by_cases hp : pos ≤ (env.get o).length
    · refine good_mutates hA hpre (insertItem_spec hwf (hA.view hpre) hp) fun _ _ h => ?_
      simp only [Post, Checked, if_pos hp]; exact h
    · refine good_throw hwf hA (insertItem_throw (hA.view hpre) (by omega)) fun _ _ h => ?_
      simp only [Post, Checked, if_neg hp]; exact h
  | insertRca o pos r =>
    obtain ⟨h1, h2, h3, h4⟩ := hpre
    by_cases hp : pos ≤ (env.get o).length
    · have := insertRca_spec hwf (hA.view h1) (hA.view h2) hp h3
      rw [insertResult_spec h4, List.take_length] at this
      refine good_mutates hA h1 this fun _ _ h => ?_
      simp only [Post, Checked, if_pos hp]; exact h
    · refine good_throw hwf hA (insertRca_throw (hA.view h1) (by omega)) fun _ _ h => ?_
      simp only [Post, Checked, if_neg hp]; exact h
  | insertRcaN o pos r n =>
    obtain ⟨h1, h2, h3, h4⟩ := hpre
    by_cases hn : n = 0
    · subst hn
      refine good_ok hwf hA insertRcaN_zero fun _ _ h => ?_
      simp only [Post, if_true]; exact h
    · by_cases hp : pos ≤ (env.get o).length
      · have := insertRcaN_spec hwf (hA.view h1) (hA.view h2) hp hn h3
        rw [insertResult_spec h4] at this
        refine good_mutates hA h1 this fun _ _ h => ?_
        simp only [Post, Checked, if_pos hp, if_neg hn]; exact h
      · refine good_throw hwf hA (insertRcaN_throw (hA.view h1) (by omega) hn) fun _ _ h => ?_
        simp only [Post, Checked, if_neg hp, if_neg hn]; exact h
  | insertMove o pos r =>
    obtain ⟨h1, h2, h3, h4⟩ := hpre
    by_cases hp : pos ≤ (env.get o).length
    · have := insertMove_spec hwf (hA.view h1) (hA.view h2) hp h3
      rw [insertResult_spec h4, List.take_length] at this
      refine good_move hA h1 this fun _ _ h => ?_
      simp only [Post, Checked, if_pos hp]; exact h
    · refine good_throw hwf hA (bind_throw (validatePos_throw (hA.view h1) (by omega))) fun _ _ h => ?_
      simp only [Post, Checked, if_neg hp]; exact h
  | insertMoveN o pos r n =>
    obtain ⟨h1, h2, h3, h4⟩ := hpre
    by_cases hn : n = 0
    · subst hn
      refine good_ok (x := ()) hwf hA rfl fun _ _ h => ?_
      simp only [Post, if_true]; exact h
    · by_cases hp : pos ≤ (env.get o).length
      · have := insertMoveN_spec hwf (hA.view h1) (hA.view h2) hp hn h3
        rw [insertResult_spec h4] at this
        refine good_move hA h1 this fun _ _ h => ?_
        simp only [Post, Checked, if_pos hp, if_neg hn]; exact h
      · have : insertMoveN cfg o pos r n s = .throw .outOfRange s := by
          unfold insertMoveN
          rw [if_neg hn]
          exact bind_throw (validatePos_throw (hA.view h1) (by omega))
        refine good_throw hwf hA this fun _ _ h => ?_
        simp only [Post, Checked, if_neg hp, if_neg hn]; exact h
  | insertRange o pos xs =>
    exact good_mutates hA hpre.1 (insertRange_spec hwf (hA.view hpre.1) hpre.2) fun _ _ h => h
  | insertC o pos xs =>
    by_cases hp : pos ≤ (env.get o).length
    · refine good_mutates hA hpre (insertC_spec hwf (hA.view hpre) hp) fun _ _ h => ?_
      simp only [Post, Checked, if_pos hp]; exact h
    · refine good_throw hwf hA (insertC_throw (hA.view hpre) (by omega)) fun _ _ h => ?_
      simp only [Post, Checked, if_neg hp]; exact h
  | replaceItem o pos x =>
    obtain ⟨h1, h2⟩ := hpre
    by_cases hp : pos ≤ (env.get o).length
    · refine good_mutates hA h1 (replaceItem_spec hwf (hA.view h1) (by omega)) fun _ _ h => ?_
      simp only [Post, Checked, if_pos hp]; exact h
    · refine good_throw hwf hA (replaceItem_throw (hA.view h1) (by omega)) fun _ _ h => ?_
      simp only [Post, Checked, if_neg hp]; exact h
  | replaceRca o pos r n =>
    obtain ⟨h1, h2, h3⟩ := hpre
    by_cases hn : n = 0
    · subst hn
      refine good_ok (x := ()) hwf hA rfl fun _ _ h => ?_
      simp only [Post, if_true]; exact h
    · by_cases hp : pos ≤ (env.get o).length
      · have := replaceRca_spec (n := n) hwf (hA.view h1) (hA.view h2) hp (view_len_npos hwf hc (hA.view h2)) h3
        rw [replaceResult_spec] at this
        refine good_mutates hA h1 this fun _ _ h => ?_
        simp only [Post, Checked, if_pos hp, if_neg hn]; exact h
      · refine good_throw hwf hA (replaceRca_throw (hA.view h1) (by omega) hn) fun _ _ h => ?_
        simp only [Post, Checked, if_neg hp, if_neg hn]; exact h
  | replaceMove o pos r n =>
    obtain ⟨h1, h2, h3⟩ := hpre
    by_cases hn : n = 0
    · subst hn
      refine good_ok (x := ()) hwf hA rfl fun _ _ h => ?_
      simp only [Post, if_true]; exact h
    · by_cases hp : pos ≤ (env.get o).length
      · have := replaceMove_spec (n := n) hwf (hA.view h1) (hA.view h2) hp (view_len_npos hwf hc (hA.view h2)) h3 hn
        rw [replaceResult_spec] at this
        refine good_move hA h1 this fun _ _ h => ?_
        simp only [Post, Checked, if_pos hp, if_neg hn]; exact h
      · have : replaceMove cfg o pos r n s = .throw .outOfRange s := by
          unfold replaceMove
          rw [if_neg hn]
          exact bind_throw (validatePos_throw (hA.view h1) (by omega))
        refine good_throw hwf hA this fun _ _ h => ?_
        simp only [Post, Checked, if_neg hp, if_neg hn]; exact h
  | replaceC o pos xs =>
    by_cases hp : pos ≤ (env.get o).length
    · refine good_mutates hA hpre (replaceC_spec hwf (hA.view hpre) hp) fun _ _ h => ?_
      simp only [Post, Checked, if_pos hp]; exact h
    · refine good_throw hwf hA (replaceC_throw (hA.view hpre) (by omega)) fun _ _ h => ?_
      simp only [Post, Checked, if_neg hp]; exact h
  | popBack o => exact good_mutatesNT hA (popBack_spec hwf (hA.view hpre.1) hpre.2) fun _ _ h => h
  | dropFront o n => exact good_mutatesNT hA (dropFront_spec hwf (hA.view hpre)) fun _ _ h => h
  | dropBack o n => exact good_mutatesNT hA (dropBack_spec hwf (hA.view hpre)) fun _ _ h => h
  | arrDropFront o n =>
    refine good_mutatesNT hA (arrDropFront_spec hwf (hA.view hpre.1) hpre.2 ?_) fun _ _ h => h
    intro ob ho
    have hv := hA.view hpre.1
    rw [view_eq ho] at hv
    have := caps_obj hwf hc ho hv
    unfold maxCells at this
    unfold two64
    omega
  | arrDropBack o n => exact good_mutatesNT hA (arrDropBack_spec hwf (hA.view hpre.1) hpre.2) fun _ _ h => h
  | shift o =>
    obtain ⟨h1, h2⟩ := hpre
    obtain ⟨x, t, hx⟩ := List.exists_cons_of_ne_nil h2
    have := shift_spec hwf (hx ▸ hA.view h1)
    refine good_takes hA this fun _ _ h => ?_
    simp only [Post, hx]; exact h
  | pop o =>
    obtain ⟨h1, h2⟩ := hpre
    have hx := List.dropLast_concat_getLast h2
    have := pop_spec (x := (env.get o).getLast h2) (t := (env.get o).dropLast) hwf (hx.symm ▸ hA.view h1)
    refine good_takes hA this fun _ _ h => ?_
    simp only [Post, List.getLast?_eq_some_getLast h2]; exact h

end Bdlib.Rca
