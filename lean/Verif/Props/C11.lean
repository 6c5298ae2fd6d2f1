import Verif.Props.C05

/-!
# C11 out_of_range is thrown exactly for invalid positions and changes nothing
-/

namespace Bdlib.Rca
open Bdlib Bdlib.Spec

variable {T : Type} [DecidableEq T] {cfg : Cfg T}

/-- The position argument of a call: the receiver and the smallest length the receiver must have. -/
def Op.position : Op T → Option (Nat × Nat)
  | .at o i => some (o, i + 1)
  | .insertItem o pos _ | .insertRca o pos _ | .insertMove o pos _ | .insertC o pos _
  | .replaceItem o pos _ | .replaceC o pos _ => some (o, pos)
  | .insertRcaN o pos _ n | .insertMoveN o pos _ n | .replaceRca o pos _ n | .replaceMove o pos _ n =>
    if n = 0 then none else some (o, pos)
  | _ => none

theorem throw_mapOut {α : Type} {m : M T α} {f : α → Out T} {s s' : St T} {e : Exc} (h : m s = .throw e s') :
    mapOut m f s = .throw e s' := bind_throw h

/-- A position behind the end: `out_of_range`, and the whole state is exactly as before. -/
theorem c11_throws (hv : cfg.Valid) (hp : cfg.Physical) {s : St T} {env : Env T} (h : Reach cfg s env) {op : Op T}
    {o m : Nat} (hop : Op.position op = some (o, m)) {v : List T} (ho : env o = .val v) (hlt : v.length < m) :
    run cfg op s = .throw .outOfRange s := by
  have hview := h.view_eq hv hp ho
  cases op with
  | «at» o1 i =>
    simp only [Op.position, Option.some.injEq, Prod.mk.injEq] at hop
    obtain ⟨rfl, rfl⟩ := hop
    exact throw_mapOut (bind_throw (validateIndex_throw hview (by omega)))
  | insertItem o1 pos x =>
    simp only [Op.position, Option.some.injEq, Prod.mk.injEq] at hop
    obtain ⟨rfl, rfl⟩ := hop
    exact throw_mapOut (bind_throw (validatePos_throw hview hlt))
  | insertRca o1 pos r =>
    simp only [Op.position, Option.some.injEq, Prod.mk.injEq] at hop
    obtain ⟨rfl, rfl⟩ := hop
    exact throw_mapOut (bind_throw (validatePos_throw hview hlt))
  | insertMove o1 pos r =>
    simp only [Op.position, Option.some.injEq, Prod.mk.injEq] at hop
    obtain ⟨rfl, rfl⟩ := hop
    exact throw_mapOut (bind_throw (validatePos_throw hview hlt))
  | insertC o1 pos xs =>
    simp only [Op.position, Option.some.injEq, Prod.mk.injEq] at hop
    obtain ⟨rfl, rfl⟩ := hop
    exact throw_mapOut (bind_throw (validatePos_throw hview hlt))
  | replaceItem o1 pos x =>
    simp only [Op.position, Option.some.injEq, Prod.mk.injEq] at hop
    obtain ⟨rfl, rfl⟩ := hop
    exact throw_mapOut (bind_throw (validatePos_throw hview hlt))
  | replaceC o1 pos xs =>
    simp only [Op.position, Option.some.injEq, Prod.mk.injEq] at hop
    obtain ⟨rfl, rfl⟩ := hop
    exact throw_mapOut (bind_throw (validatePos_throw hview hlt))
  | insertRcaN o1 pos r n =>
    simp only [Op.position] at hop
    split at hop
    · cases hop
    · rename_i hn
      simp only [Option.some.injEq, Prod.mk.injEq] at hop
      obtain ⟨rfl, rfl⟩ := hop
      refine throw_mapOut ?_
      unfold insertRcaN
      rw [if_neg hn]
      exact bind_throw (validatePos_throw hview hlt)
  | insertMoveN o1 pos r n =>
    simp only [Op.position] at hop
    split at hop
    · cases hop
    · rename_i hn
      simp only [Option.some.injEq, Prod.mk.injEq] at hop
      obtain ⟨rfl, rfl⟩ := hop
      refine throw_mapOut ?_
      unfold insertMoveN
      rw [if_neg hn]
      exact bind_throw (validatePos_throw hview hlt)
  | replaceRca o1 pos r n =>
    simp only [Op.position] at hop
    split at hop
    · cases hop
    · rename_i hn
      simp only [Option.some.injEq, Prod.mk.injEq] at hop
      obtain ⟨rfl, rfl⟩ := hop
      refine throw_mapOut ?_
      unfold replaceRca
      rw [if_neg hn]
      exact bind_throw (validatePos_throw hview hlt)
  | replaceMove o1 pos r n =>
    simp only [Op.position] at hop
    split at hop
    · cases hop
    · rename_i hn
      simp only [Option.some.injEq, Prod.mk.injEq] at hop
      obtain ⟨rfl, rfl⟩ := hop
      refine throw_mapOut ?_
      unfold replaceMove
      rw [if_neg hn]
      exact bind_throw (validatePos_throw hview hlt)
  | _ => cases hop

theorem noRange_sets {sh : Nat → Bool} {env env' : Env T} {o : Nat} {v : List T} {out : Outcome T}
    (h : SetsOrFails sh env o v out env') : out ≠ .exc .outOfRange := by
  rcases h with ⟨h, _⟩ | ⟨h, _⟩ <;> rw [h] <;> intro hc <;> cases hc

theorem noRange_moving {sh : Nat → Bool} {env env' : Env T} {o r : Nat} {st : Prop} {v : List T} {out : Outcome T}
    (h : SetsMoving cfg sh env o r st v out env') : out ≠ .exc .outOfRange := by
  rcases h with ⟨_, h, _⟩ | ⟨_, h⟩
  · rw [h]; intro hc; cases hc
  · exact noRange_sets h

theorem noRange_makes {env env' : Env T} {x : Slot T} {out : Outcome T} (h : Makes env x out env') :
    out ≠ .exc .outOfRange := by
  obtain ⟨o, _, h, _⟩ := h
  rw [h]; intro hc; cases hc

theorem noRange_makesF {env env' : Env T} {v : List T} {out : Outcome T} (h : MakesOrFails env v out env') :
    out ≠ .exc .outOfRange := by
  rcases h with h | ⟨h, _⟩
  · exact noRange_makes h
  · rw [h]; intro hc; cases hc

theorem range_checked {env env' : Env T} {o pos : Nat} {P : Prop} {out : Outcome T} (h : Checked env o pos P out env')
    (hout : out = .exc .outOfRange) (hP : P → out ≠ .exc .outOfRange) : (env.get o).length < pos := by
  unfold Checked at h
  split at h
  · exact absurd hout (hP h)
  · omega

theorem range_spec {sh : Nat → Bool} {env env' : Env T} {op : Op T} {out : Outcome T}
    (h : Post cfg sh env op out env') (hout : out = .exc .outOfRange) :
    ∃ o m, Op.position op = some (o, m) ∧ (env.get o).length < m := by
  have kill : ∀ {x : Out T}, out = .ret x → False := fun h => by rw [hout] at h; cases h
  have killA : out = .exc .badAlloc → False := fun h => by rw [hout] at h; cases h
  cases op with
  | ctor => exact absurd hout (noRange_makes h)
  | copyCtor r => exact absurd hout (noRange_makes h)
  | moveCtor r => exact absurd hout (noRange_makes h)
  | substring r a b => exact absurd hout (noRange_makes h)
  | sizeCtor n => exact absurd hout (noRange_makesF h)
  | fillCtor n y => exact absurd hout (noRange_makesF h)
  | listCtor xs => exact absurd hout (noRange_makesF h)
  | rangeCtor xs => exact absurd hout (noRange_makesF h)
  | strCtor xs => exact absurd hout (noRange_makesF h)
  | cstrCtor xs => exact absurd hout (noRange_makesF h)
  | charCtor y => exact absurd hout (noRange_makesF h)
  | destroy o => exact (kill h.1).elim
  | copyAssign o r => exact (kill h.1).elim
  | moveAssign o r => exact (kill h.1).elim
  | swap o r => exact (kill h.1).elim
  | clear o => exact (kill h.1).elim
  | slice o a b => exact (kill h.1).elim
  | popBack o => exact (kill h.1).elim
  | dropFront o n => exact (kill h.1).elim
  | dropBack o n => exact (kill h.1).elim
  | arrDropFront o n => exact (kill h.1).elim
  | arrDropBack o n => exact (kill h.1).elim
  | shift o => exact (kill h.1).elim
  | pop o => exact (kill h.1).elim
  | length o => exact (kill h.1).elim
  | read o i => exact (kill h.1).elim
  | hash o => exact (kill h.1).elim
  | «at» o i =>
    simp only [Post] at h
    split at h
    · exact (kill h.1).elim
    · exact ⟨o, i + 1, rfl, by omega⟩
  | assignList o xs => rcases h with ⟨h, _⟩ | ⟨h, _⟩; exact (kill h).elim; exact (killA h).elim
  | assignStd o xs => rcases h with ⟨h, _⟩ | ⟨h, _⟩; exact (kill h).elim; exact (killA h).elim
  | assignCstr o xs => rcases h with ⟨h, _⟩ | ⟨h, _⟩; exact (kill h).elim; exact (killA h).elim
  | reserve o n => rcases h with ⟨h, _⟩ | ⟨h, _⟩; exact (kill h).elim; exact (killA h).elim
  | begin o => rcases h with ⟨h, _⟩ | ⟨h, _⟩; exact (kill h).elim; exact (killA h).elim
  | cStr o => rcases h with ⟨_, _, h, _⟩ | ⟨h, _⟩; exact (kill h).elim; exact (killA h).elim
  | resize o n => rcases h with ⟨_, _, h, _⟩ | ⟨_, h, _⟩; exact (kill h).elim; exact (killA h).elim
  | resizeFill o n y => rcases h with ⟨h, _⟩ | ⟨_, h, _⟩; exact (kill h).elim; exact (killA h).elim
  | write o i y => exact absurd hout (noRange_sets h)
  | append o y => exact absurd hout (noRange_sets h)
  | appendRca o r n => exact absurd hout (noRange_sets h)
  | insertRange o p xs => exact absurd hout (noRange_sets h)
  | appendMove o r n => exact absurd hout (noRange_moving h)
  | insertItem o p y => exact ⟨o, p, rfl, range_checked h hout noRange_sets⟩
  | insertRca o p r => exact ⟨o, p, rfl, range_checked h hout noRange_sets⟩
  | insertC o p xs => exact ⟨o, p, rfl, range_checked h hout noRange_sets⟩
  | insertMove o p r => exact ⟨o, p, rfl, range_checked h hout noRange_moving⟩
  | replaceItem o p y => exact ⟨o, p, rfl, range_checked h hout noRange_sets⟩
  | replaceC o p xs => exact ⟨o, p, rfl, range_checked h hout noRange_sets⟩
  | insertRcaN o p r n =>
    simp only [Post] at h
    split at h
    · exact (kill h.1).elim
    · exact ⟨o, p, by simp [Op.position, *], range_checked h hout noRange_sets⟩
  | insertMoveN o p r n =>
    simp only [Post] at h
    split at h
    · exact (kill h.1).elim
    · exact ⟨o, p, by simp [Op.position, *], range_checked h hout noRange_moving⟩
  | replaceRca o p r n =>
    simp only [Post] at h
    split at h
    · exact (kill h.1).elim
    · exact ⟨o, p, by simp [Op.position, *], range_checked h hout noRange_sets⟩
  | replaceMove o p r n =>
    simp only [Post] at h
    split at h
    · exact (kill h.1).elim
    · exact ⟨o, p, by simp [Op.position, *], range_checked h hout noRange_moving⟩

/-- An in-contract call throws `out_of_range` only if its position argument is behind the end. -/
theorem c11_only_then (hv : cfg.Valid) (hp : cfg.Physical) {s s' : St T} {env : Env T} (h : Reach cfg s env) {op : Op T}
    (hpre : Pre cfg (shared s) env op) (hrun : run cfg op s = .throw .outOfRange s') :
    ∃ o m, Op.position op = some (o, m) ∧ (env.get o).length < m := by
  obtain ⟨out, s1, env1, hres, hpost, _⟩ := h.call hv hp hpre
  rw [hrun] at hres
  cases hres
  exact range_spec hpost rfl

/-- `at(i)` in full: the element if `i < length()`, otherwise `out_of_range`; nothing changes. -/
theorem c11_at (hv : cfg.Valid) (hp : cfg.Physical) {s : St T} {env : Env T} (h : Reach cfg s env) {o : Nat} {v : List T}
    (ho : env o = .val v) (i : Nat) :
    run cfg (.at o i) s = if i < v.length then .ok (.elem v[i]?) s else .throw .outOfRange s := by
  split
  · rename_i hi
    have hs := (h.shows hv hp ho).2 i hi
    have hview := h.view_eq hv hp ho
    show mapOut (at' o i) .elem s = _
    unfold mapOut at'
    rw [bind_assoc', bind_ok (validateIndex_ok hview hi), bind_ok hs]
    rfl
  · exact c11_throws hv hp h (op := .at o i) rfl ho (by omega)

example : Op.position (.insertRcaN 0 6 1 2 : Op Nat) = some (0, 6) ∧ envA 0 = .val [1, 2, 3, 4, 5] ∧
    run arrCfg (.insertRcaN 0 6 1 2) stA = .throw .outOfRange stA := ⟨rfl, rfl, rfl⟩

end Bdlib.Rca
