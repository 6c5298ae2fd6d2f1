import Verif.Spec.Values

/-!
# Which objects a call may change

`Op.Touches op o`: object `o` is the receiver of the call, or an rvalue (or swap) argument of it.
-/

namespace Bdlib.Spec
open Bdlib

variable {T : Type} {cfg : Cfg T} {sh : Nat → Bool} {env env' : Env T} {out : Outcome T}

def Op.Touches : Op T → Nat → Prop
  | .ctor, _ | .copyCtor _, _ | .sizeCtor _, _ | .fillCtor _ _, _ | .listCtor _, _ | .rangeCtor _, _
  | .strCtor _, _ | .cstrCtor _, _ | .charCtor _, _ | .substring _ _ _, _ => False
  | .moveCtor r, x => x = r
  | .moveAssign o r, x | .swap o r, x | .appendMove o r _, x | .insertMove o _ r, x
  | .insertMoveN o _ r _, x | .replaceMove o _ r _, x => x = o ∨ x = r
  | .destroy o, x | .copyAssign o _, x | .clear o, x | .assignList o _, x | .assignStd o _, x
  | .assignCstr o _, x | .length o, x | .read o _, x | .at o _, x | .hash o, x | .cStr o, x | .begin o, x
  | .reserve o _, x | .resize o _, x | .resizeFill o _ _, x | .write o _ _, x | .slice o _ _, x
  | .append o _, x | .appendRca o _ _, x | .insertItem o _ _, x | .insertRca o _ _, x | .insertRcaN o _ _ _, x
  | .insertRange o _ _, x | .insertC o _ _, x | .replaceItem o _ _, x | .replaceRca o _ _ _, x
  | .replaceC o _ _, x | .popBack o, x | .dropFront o _, x | .dropBack o _, x | .arrDropFront o _, x
  | .arrDropBack o _, x | .shift o, x | .pop o, x => x = o

theorem Env.upd_ne {o x : Nat} {y : Slot T} (h : x ≠ o) : (env.upd o y) x = env x := by simp [Env.upd, h]
theorem Env.upd_self {o : Nat} {y : Slot T} : (env.upd o y) o = y := by simp [Env.upd]

theorem Makes.frame {y : Slot T} (h : Makes env y out env') {x : Nat} (hx : env x ≠ .dead) : env' x = env x := by
  obtain ⟨o, hd, _, rfl⟩ := h
  exact Env.upd_ne fun he => hx (he ▸ hd)

theorem MakesOrFails.frame {v : List T} (h : MakesOrFails env v out env') {x : Nat} (hx : env x ≠ .dead) :
    env' x = env x := by
  rcases h with h | ⟨_, rfl⟩
  · exact h.frame hx
  · rfl

theorem NoMem.frame {o : Nat} (h : NoMem sh env o out env') {x : Nat} (hx : x ≠ o) : env' x = env x := by
  obtain ⟨_, rfl⟩ := h
  split
  · exact Env.upd_ne hx
  · rfl

theorem SetsOrFails.frame {o : Nat} {v : List T} (h : SetsOrFails sh env o v out env') {x : Nat} (hx : x ≠ o) :
    env' x = env x := by
  rcases h with ⟨_, rfl⟩ | h
  · exact Env.upd_ne hx
  · exact h.frame hx

theorem SetsMoving.frame {o r : Nat} {st : Prop} {v : List T} (h : SetsMoving cfg sh env o r st v out env') {x : Nat}
    (hx : ¬ (x = o ∨ x = r)) : env' x = env x := by
  rcases h with ⟨_, _, rfl⟩ | ⟨_, h⟩
  · rw [Env.upd_ne fun he => hx (Or.inl he), Env.upd_ne fun he => hx (Or.inr he)]
  · exact h.frame fun he => hx (Or.inl he)

theorem Checked.frame {o pos : Nat} {P : Prop} {x : Nat} (h : Checked env o pos P out env')
    (hP : P → env' x = env x) : env' x = env x := by
  unfold Checked at h
  split at h
  · exact hP h
  · rw [h.2]

/-- A call changes no existing object except those it touches. -/
theorem post_frame {op : Op T} (h : Post cfg sh env op out env') {x : Nat} (ht : ¬ op.Touches x)
    (hx : env x ≠ .dead) : env' x = env x := by
  cases op with
  | ctor => exact Makes.frame h hx
  | copyCtor r => exact Makes.frame h hx
  | moveCtor r =>
    have hne : x ≠ r := ht
    have := Makes.frame h (x := x) (by rw [Env.upd_ne hne]; exact hx)
    rw [this, Env.upd_ne hne]
  | substring r a b => exact Makes.frame h hx
  | sizeCtor n => exact MakesOrFails.frame h hx
  | fillCtor n y => exact MakesOrFails.frame h hx
  | listCtor xs => exact MakesOrFails.frame h hx
  | rangeCtor xs => exact MakesOrFails.frame h hx
  | strCtor xs => exact MakesOrFails.frame h hx
  | cstrCtor xs => exact MakesOrFails.frame h hx
  | charCtor y => exact MakesOrFails.frame h hx
  | destroy o => rw [h.2]; exact Env.upd_ne ht
  | copyAssign o r => rw [h.2]; exact Env.upd_ne ht
  | moveAssign o r =>
    rw [h.2]
    split
    · rfl
    · rw [Env.upd_ne fun he => ht (Or.inl he), Env.upd_ne fun he => ht (Or.inr he)]
  | swap o r => rw [h.2, Env.upd_ne fun he => ht (Or.inr he), Env.upd_ne fun he => ht (Or.inl he)]
  | clear o => rw [h.2]; exact Env.upd_ne ht
  | slice o a b => rw [h.2]; exact Env.upd_ne ht
  | popBack o => rw [h.2]; exact Env.upd_ne ht
  | dropFront o n => rw [h.2]; exact Env.upd_ne ht
  | dropBack o n => rw [h.2]; exact Env.upd_ne ht
  | arrDropFront o n => rw [h.2]; exact Env.upd_ne ht
  | arrDropBack o n => rw [h.2]; exact Env.upd_ne ht
  | shift o => rw [h.2]; exact Env.upd_ne ht
  | pop o => rw [h.2]; exact Env.upd_ne ht
  | length o => rw [h.2]
  | read o i => rw [h.2]
  | hash o => rw [h.2]
  | «at» o i =>
    simp only [Post] at h
    split at h <;> rw [h.2]
  | assignList o xs => rcases h with ⟨_, rfl⟩ | ⟨_, rfl⟩ <;> exact Env.upd_ne ht
  | assignStd o xs => rcases h with ⟨_, rfl⟩ | ⟨_, rfl⟩ <;> exact Env.upd_ne ht
  | assignCstr o xs =>
    rcases h with ⟨_, rfl⟩ | ⟨_, rfl⟩
    · exact Env.upd_ne ht
    · rfl
  | reserve o n => rcases h with ⟨_, rfl⟩ | ⟨_, rfl⟩ <;> rfl
  | begin o =>
    rcases h with ⟨_, rfl⟩ | h
    · rfl
    · exact h.frame ht
  | cStr o =>
    rcases h with ⟨_, _, _, rfl⟩ | h
    · rfl
    · exact h.frame ht
  | resize o n =>
    rcases h with ⟨_, _, _, rfl⟩ | ⟨_, h⟩
    · exact Env.upd_ne ht
    · exact h.frame ht
  | resizeFill o n y =>
    rcases h with ⟨_, rfl⟩ | ⟨_, h⟩
    · exact Env.upd_ne ht
    · exact h.frame ht
  | write o i y => exact SetsOrFails.frame h ht
  | append o y => exact SetsOrFails.frame h ht
  | appendRca o r n => exact SetsOrFails.frame h ht
  | insertRange o p xs => exact SetsOrFails.frame h ht
  | appendMove o r n => exact SetsMoving.frame h ht
  | insertItem o p y => exact Checked.frame h fun h => SetsOrFails.frame h ht
  | insertRca o p r => exact Checked.frame h fun h => SetsOrFails.frame h ht
  | insertC o p xs => exact Checked.frame h fun h => SetsOrFails.frame h ht
  | insertRcaN o p r n =>
    simp only [Post] at h
    split at h
    · rw [h.2]
    · exact Checked.frame h fun h => SetsOrFails.frame h ht
  | insertMove o p r => exact Checked.frame h fun h => SetsMoving.frame h ht
  | insertMoveN o p r n =>
    simp only [Post] at h
    split at h
    · rw [h.2]
    · exact Checked.frame h fun h => SetsMoving.frame h ht
  | replaceItem o p y => exact Checked.frame h fun h => SetsOrFails.frame h ht
  | replaceC o p xs => exact Checked.frame h fun h => SetsOrFails.frame h ht
  | replaceRca o p r n =>
    simp only [Post] at h
    split at h
    · rw [h.2]
    · exact Checked.frame h fun h => SetsOrFails.frame h ht
  | replaceMove o p r n =>
    simp only [Post] at h
    split at h
    · rw [h.2]
    · exact Checked.frame h fun h => SetsMoving.frame h ht

end Bdlib.Spec
