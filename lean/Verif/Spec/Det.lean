import Verif.Spec.Values

/-!
# The specification of a call determines its effect

Given how a call ended, `Post` leaves no freedom in what every object holds afterwards, except for the
contents of the elements added by `resize(n)` without a fill value.
-/

namespace Bdlib.Spec
open Bdlib

variable {T : Type} {cfg : Cfg T} {sh : Nat → Bool} {env e1 e2 : Env T} {out : Outcome T}

theorem Makes.det {x : Slot T} (h1 : Makes env x out e1) (h2 : Makes env x out e2) : e1 = e2 := by
  obtain ⟨o, _, h, rfl⟩ := h1
  obtain ⟨o', _, h', rfl⟩ := h2
  rw [h] at h'
  cases h'
  rfl

theorem MakesOrFails.det {v : List T} (h1 : MakesOrFails env v out e1) (h2 : MakesOrFails env v out e2) : e1 = e2 := by
  rcases h1 with h1 | ⟨ha, rfl⟩ <;> rcases h2 with h2 | ⟨hb, rfl⟩
  · exact h1.det h2
  · obtain ⟨_, _, h, _⟩ := h1; rw [hb] at h; cases h
  · obtain ⟨_, _, h, _⟩ := h2; rw [ha] at h; cases h
  · rfl

theorem SetsOrFails.det {o : Nat} {v : List T} (h1 : SetsOrFails sh env o v out e1)
    (h2 : SetsOrFails sh env o v out e2) : e1 = e2 := by
  rcases h1 with ⟨ha, rfl⟩ | ⟨ha, rfl⟩ <;> rcases h2 with ⟨hb, rfl⟩ | ⟨hb, rfl⟩
  · rfl
  · rw [hb] at ha; cases ha
  · rw [hb] at ha; cases ha
  · rfl

theorem SetsMoving.det {o r : Nat} {st : Prop} {v : List T} (h1 : SetsMoving cfg sh env o r st v out e1)
    (h2 : SetsMoving cfg sh env o r st v out e2) : e1 = e2 := by
  rcases h1 with ⟨s1, _, rfl⟩ | ⟨s1, h1⟩ <;> rcases h2 with ⟨s2, _, rfl⟩ | ⟨s2, h2⟩
  · rfl
  · exact absurd s1 s2
  · exact absurd s2 s1
  · exact h1.det h2

theorem Checked.det {o pos : Nat} {P : Env T → Prop} (hP : ∀ a b, P a → P b → a = b)
    (h1 : Checked env o pos (P e1) out e1) (h2 : Checked env o pos (P e2) out e2) : e1 = e2 := by
  unfold Checked at h1 h2
  split at h1
  · rw [if_pos ‹_›] at h2; exact hP _ _ h1 h2
  · rw [if_neg ‹_›] at h2; rw [h1.2, h2.2]

/-- `resize(n)` is the only call whose effect is not fully determined. -/
def IsResize : Op T → Prop
  | .resize _ _ => True
  | _ => False

theorem post_det {op : Op T} (hop : ¬ IsResize op) (h1 : Post cfg sh env op out e1)
    (h2 : Post cfg sh env op out e2) : e1 = e2 := by
  cases op with
  | resize o n => exact absurd trivial hop
  | ctor => exact Makes.det h1 h2
  | copyCtor r => exact Makes.det h1 h2
  | moveCtor r => exact Makes.det h1 h2
  | substring r a b => exact Makes.det h1 h2
  | sizeCtor n => exact MakesOrFails.det h1 h2
  | fillCtor n x => exact MakesOrFails.det h1 h2
  | listCtor xs => exact MakesOrFails.det h1 h2
  | rangeCtor xs => exact MakesOrFails.det h1 h2
  | strCtor xs => exact MakesOrFails.det h1 h2
  | cstrCtor xs => exact MakesOrFails.det h1 h2
  | charCtor x => exact MakesOrFails.det h1 h2
  | destroy o => exact h1.2.trans h2.2.symm
  | copyAssign o r => exact h1.2.trans h2.2.symm
  | moveAssign o r => exact h1.2.trans h2.2.symm
  | swap o r => exact h1.2.trans h2.2.symm
  | clear o => exact h1.2.trans h2.2.symm
  | slice o a b => exact h1.2.trans h2.2.symm
  | popBack o => exact h1.2.trans h2.2.symm
  | dropFront o n => exact h1.2.trans h2.2.symm
  | dropBack o n => exact h1.2.trans h2.2.symm
  | arrDropFront o n => exact h1.2.trans h2.2.symm
  | arrDropBack o n => exact h1.2.trans h2.2.symm
  | shift o => exact h1.2.trans h2.2.symm
  | pop o => exact h1.2.trans h2.2.symm
  | length o => exact h1.2.trans h2.2.symm
  | read o i => exact h1.2.trans h2.2.symm
  | hash o => exact h1.2.trans h2.2.symm
  | «at» o i =>
    simp only [Post] at h1 h2
    split at h1
    · rw [if_pos ‹_›] at h2; exact h1.2.trans h2.2.symm
    · rw [if_neg ‹_›] at h2; exact h1.2.trans h2.2.symm
  | assignList o xs =>
    rcases h1 with ⟨ha, rfl⟩ | ⟨ha, rfl⟩ <;> rcases h2 with ⟨hb, rfl⟩ | ⟨hb, rfl⟩ <;>
      first | rfl | (rw [hb] at ha; cases ha)
  | assignStd o xs =>
    rcases h1 with ⟨ha, rfl⟩ | ⟨ha, rfl⟩ <;> rcases h2 with ⟨hb, rfl⟩ | ⟨hb, rfl⟩ <;>
      first | rfl | (rw [hb] at ha; cases ha)
  | assignCstr o xs =>
    rcases h1 with ⟨ha, rfl⟩ | ⟨ha, rfl⟩ <;> rcases h2 with ⟨hb, rfl⟩ | ⟨hb, rfl⟩ <;>
      first | rfl | (rw [hb] at ha; cases ha)
  | reserve o n =>
    rcases h1 with ⟨ha, rfl⟩ | ⟨ha, rfl⟩ <;> rcases h2 with ⟨hb, rfl⟩ | ⟨hb, rfl⟩ <;>
      first | rfl | (rw [hb] at ha; cases ha)
  | begin o =>
    rcases h1 with ⟨ha, rfl⟩ | ⟨ha, rfl⟩ <;> rcases h2 with ⟨hb, rfl⟩ | ⟨hb, rfl⟩ <;>
      first | rfl | (rw [hb] at ha; cases ha)
  | cStr o =>
    rcases h1 with ⟨_, _, ha, rfl⟩ | ⟨ha, rfl⟩ <;> rcases h2 with ⟨_, _, hb, rfl⟩ | ⟨hb, rfl⟩ <;>
      first | rfl | (rw [hb] at ha; cases ha)
  | resizeFill o n x =>
    rcases h1 with ⟨ha, rfl⟩ | ⟨_, ha, rfl⟩ <;> rcases h2 with ⟨hb, rfl⟩ | ⟨_, hb, rfl⟩ <;>
      first | rfl | (rw [hb] at ha; cases ha)
  | write o i x => exact SetsOrFails.det h1 h2
  | append o x => exact SetsOrFails.det h1 h2
  | appendRca o r n => exact SetsOrFails.det h1 h2
  | insertRange o p xs => exact SetsOrFails.det h1 h2
  | appendMove o r n => exact SetsMoving.det h1 h2
  | insertItem o p x => exact Checked.det (P := fun e => SetsOrFails _ _ _ _ _ e) (fun _ _ => SetsOrFails.det) h1 h2
  | insertRca o p r => exact Checked.det (P := fun e => SetsOrFails _ _ _ _ _ e) (fun _ _ => SetsOrFails.det) h1 h2
  | insertMove o p r => exact Checked.det (P := fun e => SetsMoving _ _ _ _ _ _ _ _ e) (fun _ _ => SetsMoving.det) h1 h2
  | insertC o p xs => exact Checked.det (P := fun e => SetsOrFails _ _ _ _ _ e) (fun _ _ => SetsOrFails.det) h1 h2
  | replaceItem o p x => exact Checked.det (P := fun e => SetsOrFails _ _ _ _ _ e) (fun _ _ => SetsOrFails.det) h1 h2
  | replaceC o p xs => exact Checked.det (P := fun e => SetsOrFails _ _ _ _ _ e) (fun _ _ => SetsOrFails.det) h1 h2
  | insertRcaN o p r n =>
    simp only [Post] at h1 h2
    split at h1
    · rw [if_pos ‹_›] at h2; exact h1.2.trans h2.2.symm
    · rw [if_neg ‹_›] at h2
      exact Checked.det (P := fun e => SetsOrFails _ _ _ _ _ e) (fun _ _ => SetsOrFails.det) h1 h2
  | replaceRca o p r n =>
    simp only [Post] at h1 h2
    split at h1
    · rw [if_pos ‹_›] at h2; exact h1.2.trans h2.2.symm
    · rw [if_neg ‹_›] at h2
      exact Checked.det (P := fun e => SetsOrFails _ _ _ _ _ e) (fun _ _ => SetsOrFails.det) h1 h2
  | insertMoveN o p r n =>
    simp only [Post] at h1 h2
    split at h1
    · rw [if_pos ‹_›] at h2; exact h1.2.trans h2.2.symm
    · rw [if_neg ‹_›] at h2
      exact Checked.det (P := fun e => SetsMoving _ _ _ _ _ _ _ _ e) (fun _ _ => SetsMoving.det) h1 h2
  | replaceMove o p r n =>
    simp only [Post] at h1 h2
    split at h1
    · rw [if_pos ‹_›] at h2; exact h1.2.trans h2.2.symm
    · rw [if_neg ‹_›] at h2
      exact Checked.det (P := fun e => SetsMoving _ _ _ _ _ _ _ _ e) (fun _ _ => SetsMoving.det) h1 h2

/-- In any case it is determined which objects hold a known value. -/
theorem post_has {op : Op T} (h1 : Post cfg sh env op out e1) (h2 : Post cfg sh env op out e2) {o : Nat}
    (h : e1.Has o) : e2.Has o := by
  by_cases hop : IsResize op
  · cases op <;> try exact hop.elim
    rename_i o' n
    rcases h1 with ⟨j1, _, ha, rfl⟩ | ⟨_, ha, rfl⟩ <;> rcases h2 with ⟨j2, _, hb, rfl⟩ | ⟨_, hb, rfl⟩
    · unfold Env.Has Env.upd at h ⊢
      by_cases ho : o = o'
      · simp [ho]
      · simpa [ho] using h
    · rw [hb] at ha; cases ha
    · rw [hb] at ha; cases ha
    · exact h
  · rw [← post_det hop h1 h2]; exact h

end Bdlib.Spec
