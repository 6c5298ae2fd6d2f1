import Verif.Props.C12

/-!
# C13 A failed allocation does not corrupt data
-/

namespace Bdlib.Rca
open Bdlib Bdlib.Spec

variable {T : Type} [DecidableEq T] {cfg : Cfg T}

/-- Assignment of a whole new value (initializer list, `std::string`): gives up the old value first. -/
def Op.Overwrites : Op T → Prop
  | .assignList _ _ => True
  | .assignStd _ _ => True
  | _ => False

theorem noMem_keeps {sh : Nat → Bool} {env env' : Env T} {o p : Nat} {out : Outcome T}
    (h : NoMem sh env o out env') (hp : sh p = false) : env' p = env p := by
  obtain ⟨_, rfl⟩ := h
  by_cases he : p = o
  · subst he; rw [hp]; rfl
  · split
    · exact Env.upd_ne he
    · rfl

theorem keeps_sets {sh : Nat → Bool} {env env' : Env T} {o p : Nat} {v : List T} {out : Outcome T}
    (h : SetsOrFails sh env o v out env') (hout : out = .exc .badAlloc) (hp : sh p = false) : env' p = env p := by
  rcases h with ⟨h, _⟩ | h
  · rw [hout] at h; cases h
  · exact noMem_keeps h hp

theorem keeps_moving {sh : Nat → Bool} {env env' : Env T} {o r p : Nat} {st : Prop} {v : List T} {out : Outcome T}
    (h : SetsMoving cfg sh env o r st v out env') (hout : out = .exc .badAlloc) (hp : sh p = false) : env' p = env p := by
  rcases h with ⟨_, h, _⟩ | ⟨_, h⟩
  · rw [hout] at h; cases h
  · exact keeps_sets h hout hp

theorem keeps_makes {env env' : Env T} {x : Slot T} {p : Nat} {out : Outcome T} (h : Makes env x out env')
    (hout : out = .exc .badAlloc) : env' p = env p := by
  obtain ⟨o, _, h, _⟩ := h
  rw [hout] at h; cases h

theorem keeps_makesF {env env' : Env T} {v : List T} {p : Nat} {out : Outcome T} (h : MakesOrFails env v out env')
    (hout : out = .exc .badAlloc) : env' p = env p := by
  rcases h with h | ⟨_, rfl⟩
  · exact keeps_makes h hout
  · rfl

theorem keeps_checked {env env' : Env T} {o pos p : Nat} {P : Prop} {out : Outcome T} (h : Checked env o pos P out env')
    (hP : P → env' p = env p) : env' p = env p := h.frame hP

theorem keeps_spec {sh : Nat → Bool} {env env' : Env T} {op : Op T} {out : Outcome T} {p : Nat}
    (h : Post cfg sh env op out env') (hout : out = .exc .badAlloc) (hop : ¬ Op.Overwrites op) (hp : sh p = false) :
    env' p = env p := by
  have kill : ∀ {x : Out T}, out = .ret x → False := fun h => by rw [hout] at h; cases h
  cases op with
  | ctor => exact keeps_makes h hout
  | copyCtor r => exact keeps_makes h hout
  | moveCtor r =>
    obtain ⟨o, _, h, _⟩ := h
    exact (kill h).elim
  | substring r a b => exact keeps_makes h hout
  | sizeCtor n => exact keeps_makesF h hout
  | fillCtor n y => exact keeps_makesF h hout
  | listCtor xs => exact keeps_makesF h hout
  | rangeCtor xs => exact keeps_makesF h hout
  | strCtor xs => exact keeps_makesF h hout
  | cstrCtor xs => exact keeps_makesF h hout
  | charCtor y => exact keeps_makesF h hout
  | destroy o => exact (kill h.1).elim
  | copyAssign o r => exact (kill h.1).elim
  | moveAssign o r => exact (kill h.1).elim
  | swap o r => exact (kill h.1).elim
  | clear o => exact (kill h.1).elim
  | slice o a b => exact (kill h.1).elim
  | popBack o => exact (kill h.1).elim
  | dropFront o n => exact (kill h.1).elim
  | dropBack o n => exact (kill h.1).elim
  | arrDropFront o n => exact (kill h.1).elim
  | arrDropBack o n => exact (kill h.1).elim
  | shift o => exact (kill h.1).elim
  | pop o => exact (kill h.1).elim
  | length o => exact (kill h.1).elim
  | read o i => exact (kill h.1).elim
  | hash o => exact (kill h.1).elim
  | «at» o i =>
    simp only [Post] at h
    split at h
    · exact (kill h.1).elim
    · rw [h.2]
  | assignList o xs => exact (hop trivial).elim
  | assignStd o xs => exact (hop trivial).elim
  | assignCstr o xs =>
    rcases h with ⟨h, _⟩ | ⟨_, rfl⟩
    · exact (kill h).elim
    · rfl
  | reserve o n =>
    rcases h with ⟨h, _⟩ | ⟨_, rfl⟩
    · exact (kill h).elim
    · rfl
  | begin o =>
    rcases h with ⟨h, _⟩ | h
    · exact (kill h).elim
    · exact noMem_keeps h hp
  | cStr o =>
    rcases h with ⟨_, _, h, _⟩ | h
    · exact (kill h).elim
    · exact noMem_keeps h hp
  | resize o n =>
    rcases h with ⟨_, _, h, _⟩ | ⟨_, h⟩
    · exact (kill h).elim
    · exact noMem_keeps h hp
  | resizeFill o n y =>
    rcases h with ⟨h, _⟩ | ⟨_, h⟩
    · exact (kill h).elim
    · exact noMem_keeps h hp
  | write o i y => exact keeps_sets h hout hp
  | append o y => exact keeps_sets h hout hp
  | appendRca o r n => exact keeps_sets h hout hp
  | insertRange o q xs => exact keeps_sets h hout hp
  | appendMove o r n => exact keeps_moving h hout hp
  | insertItem o q y => exact keeps_checked h fun h => keeps_sets h hout hp
  | insertRca o q r => exact keeps_checked h fun h => keeps_sets h hout hp
  | insertC o q xs => exact keeps_checked h fun h => keeps_sets h hout hp
  | insertMove o q r => exact keeps_checked h fun h => keeps_moving h hout hp
  | replaceItem o q y => exact keeps_checked h fun h => keeps_sets h hout hp
  | replaceC o q xs => exact keeps_checked h fun h => keeps_sets h hout hp
  | insertRcaN o q r n =>
    simp only [Post] at h
    split at h
    · exact (kill h.1).elim
    · exact keeps_checked h fun h => keeps_sets h hout hp
  | insertMoveN o q r n =>
    simp only [Post] at h
    split at h
    · exact (kill h.1).elim
    · exact keeps_checked h fun h => keeps_moving h hout hp
  | replaceRca o q r n =>
    simp only [Post] at h
    split at h
    · exact (kill h.1).elim
    · exact keeps_checked h fun h => keeps_sets h hout hp
  | replaceMove o q r n =>
    simp only [Post] at h
    split at h
    · exact (kill h.1).elim
    · exact keeps_checked h fun h => keeps_moving h hout hp

/-- `bad_alloc` leaves an in-contract call only if the allocator refused a request made during it, for no more than the call
needs (`Spec/Need.lean`); then
every object the call is not applied to keeps its value, and so does the receiver if its storage was not
shared (unless the call is an assignment of a whole new value).  The program can go on with all objects.

Partial: a receiver that shares its storage becomes empty (`c13_refuted_shared`); a failed
`operator=(initializer_list)`/`operator=(std::string)` leaves the receiver empty
(`c13_refuted_assign`). -/
theorem c13_bad_alloc_partial (hv : cfg.Valid) (hp : cfg.Physical) {s s' : St T} {env : Env T} (h : Reach cfg s env)
    {op : Op T} (hpre : Pre cfg (shared s) env op) (hrun : run cfg op s = .throw .badAlloc s') :
    RefusedAt (op.demand cfg.scale env) cfg.allocOk s s' ∧
    (∀ p w, env p = .val w → (¬ op.Touches p ∨ (isShared p s = .ok false s ∧ ¬ Op.Overwrites op)) → Shows s' p w) ∧
    ∃ env', Reach cfg s' env' := by
  obtain ⟨out, s1, env1, hres, hpost, hreach⟩ := h.call hv hp hpre
  rw [hrun] at hres
  cases hres
  refine ⟨refusedAt_of_throw hv hp h hpre hrun, fun p w hw hcase => hreach.shows hv hp ?_, env1, hreach⟩
  rcases hcase with ht | ⟨hsh, hop⟩
  · rw [post_frame hpost ht (live_val hw)]; exact hw
  · rw [keeps_spec hpost rfl hop (isShared_run hsh)]; exact hw

/-- The receiver of a call that changes elements in place or adds some. -/
def Op.Edits : Op T → Nat → Prop
  | .cStr o, x | .begin o, x | .resize o _, x | .resizeFill o _ _, x | .write o _ _, x | .append o _, x | .appendRca o _ _, x
  | .appendMove o _ _, x | .insertItem o _ _, x | .insertRca o _ _, x | .insertRcaN o _ _ _, x | .insertMove o _ _, x
  | .insertMoveN o _ _ _, x | .insertRange o _ _, x | .insertC o _ _, x | .replaceItem o _ _, x | .replaceRca o _ _ _, x
  | .replaceMove o _ _ _, x | .replaceC o _ _, x => x = o
  | _, _ => False

theorem lost_noMem {sh : Nat → Bool} {env env' : Env T} {o : Nat} {out : Outcome T} (h : NoMem sh env o out env')
    (hs : sh o = true) : env' o = .val [] := by
  obtain ⟨_, rfl⟩ := h
  rw [if_pos hs, Env.upd_self]

theorem lost_sets {sh : Nat → Bool} {env env' : Env T} {o : Nat} {v : List T} (h : SetsOrFails sh env o v (.exc .badAlloc) env')
    (hs : sh o = true) : env' o = .val [] := by
  rcases h with ⟨h, _⟩ | h
  · cases h
  · exact lost_noMem h hs

theorem lost_moving {sh : Nat → Bool} {env env' : Env T} {o r : Nat} {st : Prop} {v : List T}
    (h : SetsMoving cfg sh env o r st v (.exc .badAlloc) env') (hs : sh o = true) : env' o = .val [] := by
  rcases h with ⟨_, h, _⟩ | ⟨_, h⟩
  · cases h
  · exact lost_sets h hs

theorem lost_checked {env env' : Env T} {o pos : Nat} {P : Prop} (h : Checked env o pos P (.exc .badAlloc) env')
    (hP : P → env' o = .val []) : env' o = .val [] := by
  unfold Checked at h
  split at h
  · exact hP h
  · cases h.1

theorem lost_spec {sh : Nat → Bool} {env env' : Env T} {op : Op T} {o : Nat} (he : Op.Edits op o)
    (h : Post cfg sh env op (.exc .badAlloc) env') (hs : sh o = true) : env' o = .val [] := by
  cases op with
  | cStr p =>
    obtain rfl : o = p := he
    rcases h with ⟨_, _, h, _⟩ | h
    · cases h
    · exact lost_noMem h hs
  | begin p =>
    obtain rfl : o = p := he
    rcases h with ⟨h, _⟩ | h
    · cases h
    · exact lost_noMem h hs
  | resize p n =>
    obtain rfl : o = p := he
    rcases h with ⟨_, _, h, _⟩ | ⟨_, h⟩
    · cases h
    · exact lost_noMem h hs
  | resizeFill p n x =>
    obtain rfl : o = p := he
    rcases h with ⟨h, _⟩ | ⟨_, h⟩
    · cases h
    · exact lost_noMem h hs
  | write p i x => obtain rfl : o = p := he; exact lost_sets h hs
  | append p x => obtain rfl : o = p := he; exact lost_sets h hs
  | appendRca p r n => obtain rfl : o = p := he; exact lost_sets h hs
  | appendMove p r n => obtain rfl : o = p := he; exact lost_moving h hs
  | insertItem p q x => obtain rfl : o = p := he; exact lost_checked h fun h => lost_sets h hs
  | insertRca p q r => obtain rfl : o = p := he; exact lost_checked h fun h => lost_sets h hs
  | insertRcaN p q r n =>
    obtain rfl : o = p := he
    simp only [Post] at h
    split at h
    · cases h.1
    · exact lost_checked h fun h => lost_sets h hs
  | insertMove p q r => obtain rfl : o = p := he; exact lost_checked h fun h => lost_moving h hs
  | insertMoveN p q r n =>
    obtain rfl : o = p := he
    simp only [Post] at h
    split at h
    · cases h.1
    · exact lost_checked h fun h => lost_moving h hs
  | insertRange p q xs => obtain rfl : o = p := he; exact lost_sets h hs
  | insertC p q xs => obtain rfl : o = p := he; exact lost_checked h fun h => lost_sets h hs
  | replaceItem p q x => obtain rfl : o = p := he; exact lost_checked h fun h => lost_sets h hs
  | replaceRca p q r n =>
    obtain rfl : o = p := he
    simp only [Post] at h
    split at h
    · cases h.1
    · exact lost_checked h fun h => lost_sets h hs
  | replaceMove p q r n =>
    obtain rfl : o = p := he
    simp only [Post] at h
    split at h
    · cases h.1
    · exact lost_checked h fun h => lost_moving h hs
  | replaceC p q xs => obtain rfl : o = p := he; exact lost_checked h fun h => lost_sets h hs
  | _ => exact he.elim

/-- Exactly when the receiver's value is lost: every call that edits an object whose storage is shared, and that runs out of
memory, leaves the receiver empty (the other owners of the storage keep the value, `c13_bad_alloc_partial`). -/
theorem c13_shared_lost (hv : cfg.Valid) (hp : cfg.Physical) {s s' : St T} {env : Env T} (h : Reach cfg s env)
    {op : Op T} (hpre : Pre cfg (shared s) env op) (hrun : run cfg op s = .throw .badAlloc s') {o : Nat} (he : Op.Edits op o)
    (hs : isShared o s = .ok true s) : Shows s' o [] := by
  obtain ⟨out, s1, env1, hres, hpost, hreach⟩ := h.call hv hp hpre
  rw [hrun] at hres
  cases hres
  exact hreach.shows hv hp (lost_spec he hpost (isShared_run hs))

/-- ... and a failed assignment of an initializer list or `std::string` always does. -/
theorem c13_assign_lost (hv : cfg.Valid) (hp : cfg.Physical) {s s' : St T} {env : Env T} (h : Reach cfg s env)
    {o : Nat} (xs : List T) (ho : env.Live o) :
    (run cfg (.assignList o xs) s = .throw .badAlloc s' → Shows s' o []) ∧
    (IsStr cfg → run cfg (.assignStd o xs) s = .throw .badAlloc s' → Shows s' o []) := by
  refine ⟨fun hrun => ?_, fun hstr hrun => ?_⟩
  · obtain ⟨out, s1, env1, hres, hpost, hreach⟩ := h.call hv hp (op := .assignList o xs) ho
    rw [hrun] at hres
    cases hres
    rcases hpost with ⟨h, _⟩ | ⟨_, rfl⟩
    · cases h
    · exact hreach.shows hv hp Env.upd_self
  · obtain ⟨out, s1, env1, hres, hpost, hreach⟩ := h.call hv hp (op := .assignStd o xs) ⟨ho, hstr⟩
    rw [hrun] at hres
    cases hres
    rcases hpost with ⟨h, _⟩ | ⟨_, rfl⟩
    · cases h
    · exact hreach.shows hv hp Env.upd_self

/-- A machine that refuses every allocation after the third. -/
def tightCfg : Cfg Nat := { arrCfg with allocOk := fun g n => decide (n < maxCells) && decide (g ≤ 2) }

theorem tightCfg_valid : tightCfg.Valid := Or.inl rfl
theorem tightCfg_physical : tightCfg.Physical := by
  intro g n h
  simp [tightCfg]; intro h'; unfold maxCells at *; omega

def stTight1 : St Nat := (exec tightCfg {} [.listCtor [1, 2, 3]]).getD {}
def stTight2 : St Nat := (exec tightCfg {} [.listCtor [1, 2, 3], .copyCtor 0]).getD {}

theorem reachTight1 : Reach tightCfg stTight1 (Env.empty.upd 0 (.val [1, 2, 3])) :=
  Reach.next tightCfg_valid tightCfg_physical .init (op := .listCtor [1, 2, 3]) (x := .obj 0) rfl rfl (fun h => h)
    (Or.inl ⟨0, rfl, rfl, rfl⟩)

theorem reachTight2 : Reach tightCfg stTight2 ((Env.empty.upd 0 (.val [1, 2, 3])).upd 1 (.val [1, 2, 3])) :=
  Reach.next tightCfg_valid tightCfg_physical reachTight1 (op := .copyCtor 0) (x := .obj 1)
    (by intro h; cases h) rfl (fun h => h) ⟨1, rfl, rfl, rfl⟩

/-- A failing append on an unshared array. -/
example : ∃ s', run tightCfg (.append 0 4) stTight1 = .throw .badAlloc s' ∧ isShared 0 stTight1 = .ok false stTight1 ∧
    Shows s' 0 [1, 2, 3] := by
  refine ⟨_, rfl, rfl, rfl, fun i hi => ?_⟩
  match i, hi with
  | 0, _ => rfl
  | 1, _ => rfl
  | 2, _ => rfl

/-- A failing append on an array that shares its storage: the receiver is emptied. -/
theorem c13_refuted_shared : ∃ s', Reach tightCfg stTight2 ((Env.empty.upd 0 (.val [1, 2, 3])).upd 1 (.val [1, 2, 3])) ∧
    run tightCfg (.append 1 4) stTight2 = .throw .badAlloc s' ∧ Shows s' 1 [] :=
  ⟨_, reachTight2, rfl, rfl, fun i hi => by cases hi⟩

/-- The hypotheses of `c13_shared_lost` are met there. -/
example : ∃ s', run tightCfg (.append 1 4) stTight2 = .throw .badAlloc s' ∧ Op.Edits (.append 1 4 : Op Nat) 1 ∧
    isShared 1 stTight2 = .ok true stTight2 := ⟨_, rfl, rfl, rfl⟩

/-- A failing `a = {1,2,3,4}`: the receiver is emptied. -/
theorem c13_refuted_assign : ∃ s', Reach tightCfg stTight1 (Env.empty.upd 0 (.val [1, 2, 3])) ∧
    run tightCfg (.assignList 0 [1, 2, 3, 4]) stTight1 = .throw .badAlloc s' ∧ Shows s' 0 [] :=
  ⟨_, reachTight1, rfl, rfl, fun i hi => by cases hi⟩

end Bdlib.Rca
