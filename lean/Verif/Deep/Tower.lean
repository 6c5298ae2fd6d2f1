import Verif.Deep.Step
import Verif.Nest.Play

/-!
# Arrays of objects are objects

If the operations of a class act on values then so do those of the arrays of that class; by induction, those of
arrays nested to any depth.
-/

namespace Bdlib.Deep
open Bdlib Bdlib.Spec Bdlib.Rca
open Pg (undef)

section
variable {c : Conf} {T : Type} [DecidableEq T] {mv : Slot T} {θ : Slot T → UInt64} {R : c.elt.Mem → Env T → Prop} {w : World c} {es : Env T}
  {ea : Env (Slot T)}

theorem Inv.shared (h : Inv θ mv R w es ea) : ∃ σ, Rel R es σ w ∧ Reach (c.val θ mv) σ ea ∧ shared σ = shared w.arrs := by
  obtain ⟨σ, h1, h2⟩ := h
  exact ⟨σ, h1, h2, h1.shared⟩

theorem plain_step (hc : Good mv R) (h : Inv θ mv R w es ea) {op : Op (Slot T)} (hpl : Plain op)
    (hpre : Spec.Pre (c.val θ mv) (Rca.shared w.arrs) ea op) :
    (∃ x w' ea', runArr c op w = .ok x w' ∧ Spec.Post (c.val θ mv) (Rca.shared w.arrs) ea op (.ret x) ea' ∧ Inv θ mv R w' es ea') ∨
    ∃ e w' ea', runArr c op w = .throw e w' ∧ Spec.Post (c.val θ mv) (Rca.shared w.arrs) ea op (.exc e) ea' ∧ Inv θ mv R w' es ea' := by
  obtain ⟨σ, hR, hA, hs⟩ := h.shared
  rw [← hs] at hpre ⊢
  rcases step_of_match hc hA hpre (match_plain hc hR hA hpl hpre) with
    ⟨x, b, σ', w', es', ea', h1, h2, ⟨rfl, rfl⟩, h4, h5⟩ | ⟨e, σ', w', ea', h1, h2, h4, h5⟩
  · exact .inl ⟨x, w', ea', h1, h4, σ', h2, h5⟩
  · exact .inr ⟨e, w', ea', h1, h4, σ', h2, h5⟩

theorem ret_inv {S α β : Type} {m : Pg S α} {f : α → β} {s s' : S} {b : β}
    (h : (do let a ← m; return f a : Pg S β) s = .ok b s') : ∃ a, m s = .ok a s' ∧ b = f a := by
  change Pg.bind m _ s = _ at h
  unfold Pg.bind at h
  cases hm : m s with
  | ok a s1 => rw [hm] at h; cases h; exact ⟨a, rfl, rfl⟩
  | throw e s1 => rw [hm] at h; cases h
  | ub => rw [hm] at h; cases h

/-- The operations of arrays act on values. -/
theorem array_laws (hc : Good mv R) (es : Env T) :
    Laws (arrayOf c) (movedSlot (c.val θ mv)) fun w ea => Inv θ mv R (c := c) w es ea where
  ne := by unfold movedSlot; split <;> intro h <;> cases h
  new {w ea} h := by
    rcases plain_step hc h (op := .ctor) trivial trivial with ⟨x, w', ea', h1, ⟨o, hd, hx, rfl⟩, h3⟩ | ⟨e, w', ea', h1, ⟨o, hd, hx, _⟩, h3⟩
    · obtain ⟨a, ha, rfl⟩ := ret_inv h1
      cases hx
      exact ⟨o, w', ha, hd, h3⟩
    · cases hx
  newCopy {w ea} h r hr := by
    rcases plain_step hc h (op := .copyCtor r) trivial hr with ⟨x, w', ea', h1, ⟨o, hd, hx, rfl⟩, h3⟩ | ⟨e, w', ea', h1, ⟨o, hd, hx, _⟩, h3⟩
    · obtain ⟨a, ha, rfl⟩ := ret_inv h1
      cases hx
      exact ⟨o, w', ha, hd, h3⟩
    · cases hx
  newMove {w ea} h r hr := by
    rcases plain_step hc h (op := .moveCtor r) trivial hr with ⟨x, w', ea', h1, ⟨o, hd, hx, rfl⟩, h3⟩ | ⟨e, w', ea', h1, ⟨o, hd, hx, _⟩, h3⟩
    · obtain ⟨a, ha, rfl⟩ := ret_inv h1
      cases hx
      have hne : o ≠ r := by
        rintro rfl
        rw [Env.upd_self] at hd
        unfold movedSlot at hd
        split at hd <;> cases hd
      exact ⟨o, w', ha, by rwa [Env.upd_ne hne] at hd, hne, h3⟩
    · cases hx
  assign {w ea} h o r ho hr := by
    rcases plain_step hc h (op := .copyAssign o r) trivial ⟨ho, hr⟩ with ⟨x, w', ea', h1, ⟨hx, rfl⟩, h3⟩ | ⟨e, w', ea', h1, ⟨hx, _⟩, h3⟩
    · obtain ⟨a, ha, rfl⟩ := ret_inv (f := fun _ : Unit => (Out.unit : Out (Slot T))) h1
      exact ⟨w', ha, h3⟩
    · cases hx
  assignMove {w ea} h o r ho hr := by
    rcases plain_step hc h (op := .moveAssign o r) trivial ⟨ho, hr⟩ with ⟨x, w', ea', h1, ⟨hx, rfl⟩, h3⟩ | ⟨e, w', ea', h1, ⟨hx, _⟩, h3⟩
    · obtain ⟨a, ha, rfl⟩ := ret_inv (f := fun _ : Unit => (Out.unit : Out (Slot T))) h1
      exact ⟨w', ha, h3⟩
    · cases hx
  delete {w ea} h o ho := by
    rcases plain_step hc h (op := .destroy o) trivial ho with ⟨x, w', ea', h1, ⟨hx, rfl⟩, h3⟩ | ⟨e, w', ea', h1, ⟨hx, _⟩, h3⟩
    · obtain ⟨a, ha, rfl⟩ := ret_inv (f := fun _ : Unit => (Out.unit : Out (Slot T))) h1
      exact ⟨w', ha, h3⟩
    · cases hx
end

theorem ofM_ok {T α : Type} {m : M T α} {s s' : St T} {a : α} (h : m s = .ok a s') : Pg.ofM m s = .ok a s' := by
  simp only [Pg.ofM, h]

/-- The operations of strings act on values. -/
theorem string_laws {cfg : Cfg UInt8} (hv : cfg.Valid) (hp : cfg.Physical) :
    Laws (stringClass cfg) (movedSlot cfg) fun s env => Reach cfg s env where
  ne := by unfold movedSlot; split <;> intro h <;> cases h
  new {s env} h := by
    obtain ⟨o, s', h1, h2, h3⟩ := Nest.do_ctor hv hp h
    exact ⟨o, s', ofM_ok h1, h2, h3⟩
  newCopy {s env} h r hr := by
    obtain ⟨o, s', h1, h2, h3⟩ := Nest.do_copyCtor hv hp h hr
    exact ⟨o, s', ofM_ok h1, h2, h3⟩
  newMove {s env} h r hr := by
    obtain ⟨o, s', h1, h2, h3⟩ := Nest.do_moveCtor hv hp h hr
    exact ⟨o, s', ofM_ok h1, h2, h3⟩
  assign {s env} h o r ho hr := by
    obtain ⟨s', h1, h2⟩ := Nest.do_copyAssign hv hp h ho hr
    exact ⟨s', ofM_ok h1, h2⟩
  assignMove {s env} h o r ho hr := by
    obtain ⟨s', h1, h2⟩ := Nest.do_moveAssign hv hp h ho hr
    exact ⟨s', ofM_ok h1, h2⟩
  delete {s env} h o ho := by
    obtain ⟨s', h1, h2⟩ := Nest.do_destroy hv hp h ho
    exact ⟨s', ofM_ok h1, h2⟩

/-! ## Every depth -/

/-- The parameters make sense. -/
structure Params.Good (p : Params) : Prop where
  valid : p.str.Valid
  phys : p.str.Physical
  libc : p.libc.Ok
  arr : ∀ n g k, maxCells ≤ k → p.allocOk n g k = false

@[simp] theorem Envs.top_put : ∀ {n : Nat} (E : Envs n) (e : Env (Ty n)), (E.put e).top = e
  | 0, _, _ => rfl
  | _ + 1, _, _ => rfl
@[simp] theorem Envs.put_put : ∀ {n : Nat} (E : Envs n) (e f : Env (Ty n)), (E.put e).put f = E.put f
  | 0, _, _, _ => rfl
  | _ + 1, _, _, _ => rfl
@[simp] theorem Envs.put_top : ∀ {n : Nat} (E : Envs n), E.put E.top = E
  | 0, _ => rfl
  | _ + 1, _ => rfl

/-- The memory holds what the environments say; the one of the greatest depth includes objects the program does
not know (the elements of arrays one depth above). -/
def Keeps (p : Params) : {n : Nat} → Mem p n → Envs n → Prop
  | 0, s, E => Reach (T := UInt8) p.str s E
  | n + 1, w, E => Inv (c := level p n) (code p n) (left p n) (fun m env => Keeps p m (E.1.put env)) w E.1.top E.2

theorem left_succ (p : Params) (n : Nat) : left p (n + 1) = movedSlot (vals p n) := rfl

theorem tower_laws {p : Params} (hp : p.Good) : ∀ (n : Nat) (E : Envs n),
    Laws (tower p n) (left p n) fun m env => Keeps p m (E.put env)
  | 0, _ => string_laws hp.valid hp.phys
  | n + 1, E => array_laws (c := level p n) (mv := left p n) ⟨tower_laws hp n E.1, hp.arr n⟩ E.1.top

theorem tower_good {p : Params} (hp : p.Good) (n : Nat) (E : Envs n) :
    Good (c := level p n) (left p n) fun m env => Keeps p m (E.put env) := ⟨tower_laws hp n E, hp.arr n⟩

end Bdlib.Deep
