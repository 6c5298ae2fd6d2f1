import Verif.Spec.Touch

/-!
# Hiding objects

A call does not depend on objects it does not name: its contract and its effect are the same if some of the
objects it does not name are left out of the picture.
-/

namespace Bdlib.Spec
open Bdlib

variable {T : Type} {cfg : Cfg T} {sh : Nat → Bool} {env env' : Env T} {out : Outcome T} {C : Nat → Prop}

/-- The environment without the objects in `C`. -/
noncomputable def cut (C : Nat → Prop) (env : Env T) : Env T := fun x =>
  open Classical in if C x then .dead else env x

theorem cut_in {x : Nat} (h : C x) : cut C env x = .dead := by unfold cut; rw [if_pos h]
theorem cut_out {x : Nat} (h : ¬ C x) : cut C env x = env x := by unfold cut; rw [if_neg h]

theorem cut_live {x : Nat} (h : (cut C env).Live x) : ¬ C x := fun hc => h (cut_in hc)
theorem cut_has {x : Nat} (h : (cut C env).Has x) : ¬ C x := fun hc => by
  obtain ⟨v, hv⟩ := h
  rw [cut_in hc] at hv; cases hv

theorem live_cut {x : Nat} (h : (cut C env).Live x) : env.Live x := by
  have := cut_out (env := env) (cut_live h)
  unfold Env.Live at h ⊢
  rwa [this] at h
theorem has_cut {x : Nat} (h : (cut C env).Has x) : env.Has x := by
  have := cut_out (env := env) (cut_has h)
  unfold Env.Has at h ⊢
  rwa [this] at h
theorem get_cut {x : Nat} (h : ¬ C x) : (cut C env).get x = env.get x := by
  unfold Env.get; rw [cut_out h]

theorem cut_upd {o : Nat} (h : ¬ C o) (y : Slot T) : cut C (env.upd o y) = (cut C env).upd o y := by
  funext x
  by_cases hx : C x
  · have hne : x ≠ o := fun he => h (he ▸ hx)
    rw [cut_in hx, Env.upd_ne hne, cut_in hx]
  · rw [cut_out hx]
    by_cases he : x = o
    · subst he; rw [Env.upd_self, Env.upd_self]
    · rw [Env.upd_ne he, Env.upd_ne he, cut_out hx]

theorem touches_live {op : Op T} (h : Pre cfg sh env op) {x : Nat} (ht : op.Touches x) : env.Live x := by
  have hhas : ∀ {o}, env.Has o → env.Live o := fun ⟨v, hv⟩ => by unfold Env.Live; rw [hv]; intro hc; cases hc
  cases op <;> simp only [Op.Touches] at ht <;> simp only [Pre] at h <;>
    first
    | exact ht.elim
    | (subst ht; first | exact h | exact h.1 | exact hhas h | exact hhas h.1)
    | (rcases ht with rfl | rfl <;> first | exact h.1 | exact h.2 | exact hhas h.1 | exact hhas h.2 | exact hhas h.2.1)

theorem pre_cut {op : Op T} (h : Pre cfg sh (cut C env) op) : Pre cfg sh env op := by
  cases op <;> simp only [Pre] at h ⊢ <;>
    first
    | exact h
    | exact live_cut h
    | exact has_cut h
    | exact ⟨live_cut h.1, live_cut h.2⟩
    | exact ⟨live_cut h.1, h.2⟩
    | exact ⟨has_cut h.1, has_cut h.2⟩
    | exact ⟨has_cut h.1, h.2⟩
    | (have h1 := get_cut (env := env) (cut_has h.1)
       rw [h1] at h
       exact ⟨has_cut h.1, h.2⟩)
    | (have h1 := get_cut (env := env) (cut_has h.1)
       have h2 := get_cut (env := env) (cut_has h.2.1)
       rw [h2] at h
       exact ⟨has_cut h.1, has_cut h.2.1, h.2.2⟩)
    | (have h1 := get_cut (env := env) (cut_has h.1)
       have h2 := get_cut (env := env) (cut_has h.2.1)
       rw [h2, h1] at h
       exact ⟨has_cut h.1, has_cut h.2.1, h.2.2⟩)

section
variable (hl : ∀ x, C x → env x ≠ .dead)
include hl

theorem Makes.cut {y : Slot T} (h : Makes env y out env') : Makes (cut C env) y out (cut C env') := by
  obtain ⟨o, hd, he, rfl⟩ := h
  have ho : ¬ C o := fun hc => hl o hc hd
  exact ⟨o, by rw [cut_out ho]; exact hd, he, cut_upd ho _⟩

theorem MakesOrFails.cut {v : List T} (h : MakesOrFails env v out env') : MakesOrFails (cut C env) v out (cut C env') := by
  rcases h with h | ⟨h, rfl⟩
  · exact .inl (h.cut hl)
  · exact .inr ⟨h, rfl⟩
end

theorem Sets.cut {o : Nat} (ho : ¬ C o) {v : List T} (h : Sets env o v out env') : Sets (cut C env) o v out (cut C env') := by
  obtain ⟨h, rfl⟩ := h
  exact ⟨h, cut_upd ho _⟩

theorem NoMem.cut {o : Nat} (ho : ¬ C o) (h : NoMem sh env o out env') : NoMem sh (cut C env) o out (cut C env') := by
  obtain ⟨h, rfl⟩ := h
  refine ⟨h, ?_⟩
  cases sh o
  · rfl
  · exact cut_upd ho _

theorem SetsOrFails.cut {o : Nat} (ho : ¬ C o) {v : List T} (h : SetsOrFails sh env o v out env') :
    SetsOrFails sh (cut C env) o v out (cut C env') := by
  rcases h with h | h
  · exact .inl (h.cut ho)
  · exact .inr (h.cut ho)

theorem AssignsOrFails.cut {o : Nat} (ho : ¬ C o) {v : List T} (h : AssignsOrFails env o v out env') :
    AssignsOrFails (cut C env) o v out (cut C env') := by
  rcases h with h | ⟨h, rfl⟩
  · exact .inl (h.cut ho)
  · exact .inr ⟨h, cut_upd ho _⟩

theorem SetsMoving.cut {o r : Nat} (ho : ¬ C o) (hr : ¬ C r) {st : Prop} {v : List T}
    (h : SetsMoving cfg sh env o r st v out env') : SetsMoving cfg sh (cut C env) o r st v out (cut C env') := by
  rcases h with ⟨h1, h2, rfl⟩ | ⟨h1, h2⟩
  · exact .inl ⟨h1, h2, by rw [cut_upd ho, cut_upd hr]⟩
  · exact .inr ⟨h1, h2.cut ho⟩

theorem Observes.cut {x : Out T} (h : Observes env x out env') : Observes (cut C env) x out (cut C env') := by
  obtain ⟨h, rfl⟩ := h
  exact ⟨h, rfl⟩

theorem Rejects.cut (h : Rejects env out env') : Rejects (cut C env) out (cut C env') := by
  obtain ⟨h, rfl⟩ := h
  exact ⟨h, rfl⟩

theorem TakesOut.cut {o : Nat} (ho : ¬ C o) {x : Option T} {v : List T} (h : TakesOut env o x v out env') :
    TakesOut (cut C env) o x v out (cut C env') := by
  obtain ⟨h, rfl⟩ := h
  exact ⟨h, cut_upd ho _⟩

theorem Checked.cut {o pos : Nat} (ho : ¬ C o) {p p' : Prop} (hp : p → p') (h : Checked env o pos p out env') :
    Checked (cut C env) o pos p' out (cut C env') := by
  unfold Checked at h ⊢
  rw [get_cut ho]
  split
  · rename_i hle; rw [if_pos hle] at h; exact hp h
  · rename_i hle; rw [if_neg hle] at h; exact h.cut

theorem post_cut (hl : ∀ x, C x → env x ≠ .dead) {op : Op T} (hpre : Pre cfg sh (cut C env) op)
    (h : Post cfg sh env op out env') : Post cfg sh (cut C env) op out (cut C env') := by
  cases op with
  | ctor => exact Makes.cut hl h
  | copyCtor r =>
    unfold Post; dsimp only
    rw [cut_out (cut_live hpre)]; exact Makes.cut hl h
  | moveCtor r =>
    have hr := cut_live hpre
    unfold Post; dsimp only
    obtain ⟨o, hd, he, rfl⟩ := h
    have hor : o ≠ r := by
      rintro rfl
      rw [Env.upd_self] at hd
      unfold movedSlot at hd
      split at hd <;> cases hd
    rw [Env.upd_ne hor] at hd
    have ho : ¬ C o := fun hc => hl o hc hd
    rw [cut_out hr]
    exact ⟨o, by rw [Env.upd_ne hor, cut_out ho]; exact hd, he, by rw [cut_upd ho, cut_upd hr]⟩
  | sizeCtor n => exact MakesOrFails.cut hl h
  | fillCtor n x => exact MakesOrFails.cut hl h
  | listCtor n => exact MakesOrFails.cut hl h
  | rangeCtor n => exact MakesOrFails.cut hl h
  | strCtor n => exact MakesOrFails.cut hl h
  | cstrCtor n => exact MakesOrFails.cut hl h
  | charCtor n => exact MakesOrFails.cut hl h
  | substring r a b =>
    unfold Post; dsimp only
    rw [get_cut (cut_has hpre.1)]; exact Makes.cut hl h
  | destroy o =>
    obtain ⟨h, rfl⟩ := h
    exact ⟨h, cut_upd (cut_live hpre) _⟩
  | copyAssign o r =>
    obtain ⟨h, rfl⟩ := h
    exact ⟨h, by rw [cut_upd (cut_live hpre.1), cut_out (cut_live hpre.2)]⟩
  | moveAssign o r =>
    obtain ⟨h, rfl⟩ := h
    refine ⟨h, ?_⟩
    split
    · rfl
    · rw [cut_upd (cut_live hpre.1), cut_upd (cut_live hpre.2), cut_out (cut_live hpre.2)]
  | swap o r =>
    obtain ⟨h, rfl⟩ := h
    exact ⟨h, by rw [cut_upd (cut_live hpre.2), cut_upd (cut_live hpre.1), cut_out (cut_live hpre.2), cut_out (cut_live hpre.1)]⟩
  | clear o => exact Sets.cut (cut_live hpre) h
  | assignList o xs => exact AssignsOrFails.cut (cut_live hpre) h
  | assignStd o xs => exact AssignsOrFails.cut (cut_live hpre.1) h
  | assignCstr o xs =>
    rcases h with h | ⟨h, rfl⟩
    · exact .inl (h.cut (cut_live hpre.1))
    · exact .inr ⟨h, rfl⟩
  | length o => unfold Post; dsimp only; rw [get_cut (cut_has hpre)]; exact Observes.cut h
  | read o i => unfold Post; dsimp only; rw [get_cut (cut_has hpre.1)]; exact Observes.cut h
  | «at» o i =>
    unfold Post at h ⊢; dsimp only at h ⊢; rw [get_cut (cut_has hpre)]
    split
    · rename_i hlt; rw [if_pos hlt] at h; exact Observes.cut h
    · rename_i hlt; rw [if_neg hlt] at h; exact Rejects.cut h
  | hash o => unfold Post; dsimp only; rw [get_cut (cut_has hpre)]; exact Observes.cut h
  | cStr o =>
    unfold Post; dsimp only; rw [get_cut (cut_has hpre.1)]
    rcases h with ⟨c, hc, h⟩ | h
    · exact .inl ⟨c, hc, h.cut⟩
    · exact .inr (h.cut (cut_has hpre.1))
  | begin o =>
    rcases h with h | h
    · exact .inl h.cut
    · exact .inr (h.cut (cut_has hpre))
  | reserve o n =>
    rcases h with h | ⟨h, rfl⟩
    · exact .inl h.cut
    · exact .inr ⟨h, rfl⟩
  | resize o n =>
    unfold Post; dsimp only; rw [get_cut (cut_has hpre.1)]
    rcases h with ⟨js, hj, h⟩ | ⟨hle, h⟩
    · exact .inl ⟨js, hj, h.cut (cut_has hpre.1)⟩
    · exact .inr ⟨hle, h.cut (cut_has hpre.1)⟩
  | resizeFill o n x =>
    unfold Post; dsimp only; rw [get_cut (cut_has hpre.1)]
    rcases h with h | ⟨hle, h⟩
    · exact .inl (h.cut (cut_has hpre.1))
    · exact .inr ⟨hle, h.cut (cut_has hpre.1)⟩
  | write o i x => unfold Post; dsimp only; rw [get_cut (cut_has hpre.1)]; exact SetsOrFails.cut (cut_has hpre.1) h
  | slice o a b => unfold Post; dsimp only; rw [get_cut (cut_has hpre.1)]; exact Sets.cut (cut_has hpre.1) h
  | append o x => unfold Post; dsimp only; rw [get_cut (cut_has hpre)]; exact SetsOrFails.cut (cut_has hpre) h
  | appendRca o r n =>
    unfold Post; dsimp only; rw [get_cut (cut_has hpre.1), get_cut (cut_has hpre.2)]
    exact SetsOrFails.cut (cut_has hpre.1) h
  | appendMove o r n =>
    unfold Post; dsimp only; rw [get_cut (cut_has hpre.1), get_cut (cut_has hpre.2)]
    exact SetsMoving.cut (cut_has hpre.1) (cut_has hpre.2) h
  | insertItem o pos x =>
    unfold Post; dsimp only; rw [get_cut (cut_has hpre)]
    exact Checked.cut (cut_has hpre) (SetsOrFails.cut (cut_has hpre)) h
  | insertRca o pos r =>
    unfold Post; dsimp only; rw [get_cut (cut_has hpre.1), get_cut (cut_has hpre.2.1)]
    exact Checked.cut (cut_has hpre.1) (SetsOrFails.cut (cut_has hpre.1)) h
  | insertRcaN o pos r n =>
    unfold Post at h ⊢; dsimp only at h ⊢; rw [get_cut (cut_has hpre.1), get_cut (cut_has hpre.2.1)]
    split
    · rename_i h0; rw [if_pos h0] at h; exact Observes.cut h
    · rename_i h0; rw [if_neg h0] at h; exact Checked.cut (cut_has hpre.1) (SetsOrFails.cut (cut_has hpre.1)) h
  | insertMove o pos r =>
    unfold Post; dsimp only; rw [get_cut (cut_has hpre.1), get_cut (cut_has hpre.2.1)]
    exact Checked.cut (cut_has hpre.1) (SetsMoving.cut (cut_has hpre.1) (cut_has hpre.2.1)) h
  | insertMoveN o pos r n =>
    unfold Post at h ⊢; dsimp only at h ⊢; rw [get_cut (cut_has hpre.1), get_cut (cut_has hpre.2.1)]
    split
    · rename_i h0; rw [if_pos h0] at h; exact Observes.cut h
    · rename_i h0; rw [if_neg h0] at h
      exact Checked.cut (cut_has hpre.1) (SetsMoving.cut (cut_has hpre.1) (cut_has hpre.2.1)) h
  | insertRange o pos xs =>
    unfold Post; dsimp only; rw [get_cut (cut_has hpre.1)]; exact SetsOrFails.cut (cut_has hpre.1) h
  | insertC o pos xs =>
    unfold Post; dsimp only; rw [get_cut (cut_has hpre)]
    exact Checked.cut (cut_has hpre) (SetsOrFails.cut (cut_has hpre)) h
  | replaceItem o pos x =>
    unfold Post; dsimp only; rw [get_cut (cut_has hpre.1)]
    exact Checked.cut (cut_has hpre.1) (SetsOrFails.cut (cut_has hpre.1)) h
  | replaceRca o pos r n =>
    unfold Post at h ⊢; dsimp only at h ⊢; rw [get_cut (cut_has hpre.1), get_cut (cut_has hpre.2.1)]
    split
    · rename_i h0; rw [if_pos h0] at h; exact Observes.cut h
    · rename_i h0; rw [if_neg h0] at h; exact Checked.cut (cut_has hpre.1) (SetsOrFails.cut (cut_has hpre.1)) h
  | replaceMove o pos r n =>
    unfold Post at h ⊢; dsimp only at h ⊢; rw [get_cut (cut_has hpre.1), get_cut (cut_has hpre.2.1)]
    split
    · rename_i h0; rw [if_pos h0] at h; exact Observes.cut h
    · rename_i h0; rw [if_neg h0] at h
      exact Checked.cut (cut_has hpre.1) (SetsMoving.cut (cut_has hpre.1) (cut_has hpre.2.1)) h
  | replaceC o pos xs =>
    unfold Post; dsimp only; rw [get_cut (cut_has hpre)]
    exact Checked.cut (cut_has hpre) (SetsOrFails.cut (cut_has hpre)) h
  | popBack o => unfold Post; dsimp only; rw [get_cut (cut_has hpre.1)]; exact Sets.cut (cut_has hpre.1) h
  | dropFront o n => unfold Post; dsimp only; rw [get_cut (cut_has hpre)]; exact Sets.cut (cut_has hpre) h
  | dropBack o n => unfold Post; dsimp only; rw [get_cut (cut_has hpre)]; exact Sets.cut (cut_has hpre) h
  | arrDropFront o n => unfold Post; dsimp only; rw [get_cut (cut_has hpre.1)]; exact Sets.cut (cut_has hpre.1) h
  | arrDropBack o n => unfold Post; dsimp only; rw [get_cut (cut_has hpre.1)]; exact Sets.cut (cut_has hpre.1) h
  | shift o => unfold Post; dsimp only; rw [get_cut (cut_has hpre.1)]; exact TakesOut.cut (cut_has hpre.1) h
  | pop o => unfold Post; dsimp only; rw [get_cut (cut_has hpre.1)]; exact TakesOut.cut (cut_has hpre.1) h

/-- Hidden objects stay as they are. -/
theorem hidden_same (hl : ∀ x, C x → env x ≠ .dead) {op : Op T} (hpre : Pre cfg sh (cut C env) op)
    (h : Post cfg sh env op out env') {x : Nat} (hx : C x) : env' x = env x :=
  post_frame h (fun ht => cut_live (touches_live hpre ht) hx) (hl x hx)

end Bdlib.Spec
