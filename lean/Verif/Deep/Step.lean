import Verif.Deep.Calls
import Verif.Props.C02

/-!
# Calls on arrays have the specified effect
-/

namespace Bdlib.Deep
open Bdlib Bdlib.Spec Bdlib.Rca
open Pg (undef)

variable {c : Conf} {T : Type} [DecidableEq T] {mv : Slot T} {θ : Slot T → UInt64} {R : c.elt.Mem → Env T → Prop} {us : Env T} {env : Env T} {σ : St (Slot T)} {w : World c} {es : Env T} {ea : Env (Slot T)}
  {α β γ δ : Type}

theorem val_valid {T : Type} (c : Conf) (θ : Slot T → UInt64) (mv : Slot T) : (c.val θ mv).Valid := .inl rfl
theorem val_phys (hc : Good mv R) : (c.val θ mv).Physical := hc.arr

/-- The memory matches an array memory over values which in-contract calls can produce. -/
def Inv {c : Conf} {T : Type} [DecidableEq T] (θ : Slot T → UInt64) (mv : Slot T) (R : c.elt.Mem → Env T → Prop) (w : World c) (es : Env T) (ea : Env (Slot T)) : Prop :=
  ∃ σ, Rel R es σ w ∧ Reach (c.val θ mv) σ ea

theorem Rel.shared (h : Rel R es σ w) : shared σ = shared w.arrs := by
  obtain ⟨env, h⟩ := h
  funext o
  unfold Rca.shared
  rw [h.like.obj]
  cases w.arrs.obj o with
  | none => rfl
  | some ob =>
    cases hr : ob.ref with
    | none => simp only [hr]
    | some a =>
      simp only [hr]
      rw [h.like.blk]
      cases w.arrs.blk a <;> rfl

theorem fit_of (hc : Good mv R) (hA : Reach (c.val θ mv) σ ea) {o : Nat} (ho : ea.Has o) : Fit σ o := by
  obtain ⟨hwf, _, hab⟩ := hA.inv (val_valid c θ mv) (val_phys hc)
  obtain ⟨v, hv⟩ := ho
  have hs : σ.view o = some v := by have := hab o; rw [hv] at this; exact this
  intro ob hob
  rw [view_eq hob] at hs
  refine ⟨fun hr => ?_, fun a B hr hB hnil => ?_⟩
  · unfold St.viewOf at hs
    rw [hr] at hs
    simp only at hs
    split at hs
    · rename_i hz; exact hz.1
    · cases hs
  · obtain ⟨b, hb, hle⟩ := hwf.le hob hr
    rw [hB] at hb
    cases hb
    rw [hnil] at hle
    simp at hle
    omega

theorem match_out {m : P c α} {m' : M (Slot T) β} {f : α → P c γ} {g : β → Out (Slot T)} {Q : α → β → Env T → World c → St (Slot T) → Prop}
    {Q' : γ → Out (Slot T) → Env T → World c → St (Slot T) → Prop} (h : Match R us (m w) (m' σ) Q)
    (hq : ∀ a b us' w' σ', Rel R us' σ' w' → Q a b us' w' σ' → ∃ x, f a w' = .ok x w' ∧ Q' x (g b) us' w' σ') :
    Match R us ((m >>= f) w) (mapOut m' g σ) Q' := by
  unfold mapOut
  refine match_bind h ?_
  intro a b us' w' σ' _ hR hQ
  obtain ⟨x, hx, hx'⟩ := hq a b us' w' σ' hR hQ
  exact ⟨x, w', us', hx, hR, hx'⟩

/-- A call whose code matches has the specified effect. -/
theorem step_of_match (hc : Good mv R) {op : Op (Slot T)} {m : P c α} {Q : α → Out (Slot T) → Env T → World c → St (Slot T) → Prop}
    (hA : Reach (c.val θ mv) σ ea) (hpre : Spec.Pre (c.val θ mv) (shared σ) ea op) (hm : Match R es (m w) (Rca.run (c.val θ mv) op σ) Q) :
    (∃ x b σ' w' es' ea', m w = .ok x w' ∧ Rel R es' σ' w' ∧ Q x b es' w' σ' ∧
      Spec.Post (c.val θ mv) (shared σ) ea op (.ret b) ea' ∧ Reach (c.val θ mv) σ' ea') ∨
    ∃ e σ' w' ea', m w = .throw e w' ∧ Rel R es σ' w' ∧
      Spec.Post (c.val θ mv) (shared σ) ea op (.exc e) ea' ∧ Reach (c.val θ mv) σ' ea' := by
  obtain ⟨out, σ', ea', hr, hp, hR⟩ := hA.call (val_valid c θ mv) (val_phys hc) hpre
  cases hrun : Rca.run (c.val θ mv) op σ with
  | ub => rw [hrun] at hr; cases hr
  | ok b σ1 =>
    rw [hrun] at hr hm
    cases hr
    obtain ⟨x, w', es', h1, h2, h3⟩ := hm
    exact .inl ⟨x, b, σ', w', es', ea', h1, h2, h3, hp, hR⟩
  | throw e σ1 =>
    rw [hrun] at hr hm
    cases hr
    obtain ⟨w', h1, h2⟩ := hm
    exact .inr ⟨e, σ', w', ea', h1, h2, hp, hR⟩

/-! ## Array calls without elements -/

theorem match_plain (hc : Good mv R) (h : Rel R us σ w) (hA : Reach (c.val θ mv) σ ea) {op : Op (Slot T)} (hpl : Plain op)
    (hpre : Spec.Pre (c.val θ mv) (shared σ) ea op) :
    Match R us (runArr c op w) (Rca.run (c.val θ mv) op σ) fun x b us' _ _ => x = b ∧ us' = us := by
  have unit : ∀ {m : P c Unit} {m' : M (Slot T) Unit}, Match R us (m w) (m' σ) (fun _ _ us' _ _ => us' = us) →
      Match R us ((do m; return .unit : P c (Out (Slot T))) w) (mapOut m' (fun _ => .unit) σ) fun x b us' _ _ => x = b ∧ us' = us :=
    fun hm => match_out hm fun a b us' w' σ' _ hq => ⟨_, rfl, rfl, hq⟩
  have obj : ∀ {m : P c Nat} {m' : M (Slot T) Nat}, Match R us (m w) (m' σ) (fun x y us' _ _ => x = y ∧ us' = us) →
      Match R us ((do let o ← m; return .obj o : P c (Out (Slot T))) w) (mapOut m' .obj σ) fun x b us' _ _ => x = b ∧ us' = us :=
    fun hm => match_out hm fun a b us' w' σ' _ hq => ⟨_, rfl, by rw [hq.1], hq.2⟩
  have par : ∀ {m : M Nat Unit} {m' : M (Slot T) Unit}, Par m m' → Match R us (arrs m w) (m' σ) (fun _ _ us' _ _ => us' = us) :=
    fun hp => match_mono (match_arrs hp h) fun _ _ _ _ _ hq => hq.2.1
  have paro : ∀ {m : M Nat Nat} {m' : M (Slot T) Nat}, Par m m' →
      Match R us (arrs m w) (m' σ) (fun x y us' _ _ => x = y ∧ us' = us) :=
    fun hp => match_mono (match_arrs hp h) fun _ _ _ _ _ hq => ⟨hq.1, hq.2.1⟩
  have fit : ∀ {o}, ea.Has o → Fit σ o := fun ho => fit_of hc hA ho
  cases op <;> simp only [Plain] at hpl <;> simp only [Spec.Pre] at hpre <;> simp only [runArr, Rca.run]
  case ctor => exact obj (paro (.newObj _))
  case copyCtor r => exact obj (paro (.copyCtor r))
  case moveCtor r => exact obj (paro (.moveCtor rfl r))
  case sizeCtor n => exact obj (match_sizeCtor hc h)
  case substring r a b => exact obj (paro (.substring r a b))
  case destroy o => exact unit (match_destroy hc h)
  case copyAssign o r => exact unit (match_copyAssign hc h)
  case moveAssign o r => exact unit (match_moveAssign hc h)
  case swap o r => exact unit (par (.swap o r))
  case clear o => exact unit (par (.clear o))
  case length o => exact match_out (paro (.length o)) fun a b us' w' σ' _ hq => ⟨_, rfl, by rw [hq.1], hq.2⟩
  case begin o => exact unit (match_getOwnCopy hc h (fit hpre))
  case reserve o n => exact unit (match_reserve hc h (fit hpre.1))
  case resize o n => exact unit (match_resize hc h (fit hpre.1))
  case slice o a b => exact unit (par (.slice o a b))
  case appendRca o r n => exact unit (match_appendArr hc h (fit hpre.1))
  case appendMove o r n => exact unit (match_appendArrMove hc h (fit hpre.1))
  case insertRca o p r => exact unit (match_insertArr hc h (fit hpre.1))
  case insertRcaN o p r n => exact unit (match_insertArrN hc h (fit hpre.1))
  case insertMove o p r => exact unit (match_insertArrMove hc h (fit hpre.1))
  case insertMoveN o p r n => exact unit (match_insertArrMoveN hc h (fit hpre.1))
  case replaceRca o p r n => exact unit (match_replaceArr hc h (fit hpre.1))
  case replaceMove o p r n => exact unit (match_replaceArrMove hc h (fit hpre.1))
  case popBack o => exact unit (par (.popBack o))
  case arrDropFront o n => exact unit (par (.arrDropFront o n))
  case arrDropBack o n => exact unit (par (.arrDropBack o n))

/-! ## Objects of the program and elements -/

theorem RelE.cut (h : RelE R env us σ w) : us = cut (fun x => ∃ a, x ∈ cellsAt w.arrs a) env := by
  funext x
  by_cases hx : ∃ a, x ∈ cellsAt w.arrs a
  · obtain ⟨a, ha⟩ := hx
    rw [cut_in ⟨a, ha⟩]; exact (h.cell a x ha).2
  · rw [cut_out hx]; exact h.rest x fun a ha => hx ⟨a, ha⟩

theorem writeRange_do {T : Type} {o i a : Nat} {s : St T} {ob : Obj} {b : Block T} {x : T} (ho : s.obj o = some ob)
    (hr : ob.ref = some a) (hb : s.blk a = some b) (hle : ob.offset + i + 1 ≤ b.cells.length) :
    writeRange o i [x] s = .ok () (s.setBlk a (some { b with cells := overwrite b.cells (ob.offset + i) [x] })) := by
  unfold writeRange
  rw [bind_ok (getObj_eq ho)]
  simp only [List.isEmpty_cons, Bool.false_eq_true, if_false, hr]
  rw [bind_ok (getBlk_eq hb), if_pos (by simpa using hle)]
  rfl

end Bdlib.Deep
