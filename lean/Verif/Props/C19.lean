import Verif.Props.C16

/-!
# C19 Writable iterators detach first
-/

namespace Bdlib.Rca
open Bdlib Bdlib.Spec

variable {T : Type} [DecidableEq T] {cfg : Cfg T}

/-- Assignments `*(it + i) = x` through an iterator pointing to the first element. -/
def storeAll (p : Ptr) : List (Nat × T) → M T Unit
  | [] => pure ()
  | (i, x) :: ws => do
    storePtr { p with idx := p.idx + i } x
    storeAll p ws

theorem storePtr_eq {s0 s : St T} {o a i : Nat} {ob : Obj} {b : Block T} {x : T} (h : Own cfg s0 s o ob a b)
    (hi : ob.offset + i < b.cells.length) :
    storePtr ⟨a, b.gen, ob.offset + i⟩ x s = writeRange o i [x] s := by
  unfold storePtr writeRange
  have hg : getBlk a s = .ok b s := by unfold getBlk; rw [h.blk]
  rw [bind_ok (getObj_eq h.obj)]
  simp only [h.ref, List.isEmpty_cons, Bool.false_eq_true, if_false, List.length_singleton]
  rw [bind_ok hg, bind_ok hg, if_pos ⟨rfl, hi⟩, if_pos (by omega)]
  have : b.cells.set (ob.offset + i) x = overwrite b.cells (ob.offset + i) [x] := by
    rw [← set_eq_splice hi]; rfl
  rw [this]

theorem storeAll_spec {s0 : St T} {o a : Nat} {ob : Obj} {E : Exc → St T → Prop} : ∀ (ws : List (Nat × T)) {s : St T}
    {b : Block T} {v : List T}, Own cfg s0 s o ob a b → ob.sublen = v.length → window b.cells ob.offset v.length = v →
    ob.offset + v.length ≤ b.cells.length → (∀ w ∈ ws, w.1 < v.length) →
    (storeAll ⟨a, b.gen, ob.offset⟩ ws s).Sat (fun _ s' => WF cfg s' ∧ Frame s0 s' o ∧
      s'.view o = some (ws.foldl (fun u w => u.set w.1 w.2) v)) E
  | [], s, b, v, how, hsl, hw, hroom, _ => by
    refine ⟨how.wf, how.frame, ?_⟩
    rw [how.view, hsl, hw]
    rfl
  | (i, x) :: ws, s, b, v, how, hsl, hw, hroom, hi => by
    unfold storeAll
    have hi0 : i < v.length := hi (i, x) (by simp)
    apply sat_bind
    simp only
    rw [storePtr_eq how (by omega)]
    apply writeRange_own how (by simp only [List.length_singleton]; omega)
    intro s2 how2
    have hwin := overwrite_view (xs := [x]) (N := v.length) (Nat.le_of_lt hi0) hw
      (by simp only [List.length_singleton]; split <;> omega) (by omega)
    simp only [List.length_singleton] at hwin
    have hset : window (overwrite b.cells (ob.offset + i) [x]) ob.offset v.length = v.set i x := by
      rw [hwin, set_eq_splice hi0]
    refine storeAll_spec ws (b := { b with cells := overwrite b.cells (ob.offset + i) [x] }) (v := v.set i x) how2 (by simpa using hsl) (by simpa using hset) ?_ ?_
    · simp only [List.length_set]
      rw [overwrite_length (by simp only [List.length_singleton]; omega)]
      exact hroom
    · intro w hwm
      simp only [List.length_set]
      exact hi w (by simp [hwm])

/-- `auto it = a.begin();` (`mdata()`, `Cref::mget()`): if it returns, `a`'s storage is shared with nobody,
and any number of assignments through `it` changes `a` accordingly and is invisible through every other
object.

Partial: `front()`, `back()` and non-const `read()` also return writable references but do not detach,
see `c19_refuted_front`. -/
theorem c19_begin_partial (hv : cfg.Valid) (hp : cfg.Physical) {s : St T} {env : Env T} (h : Reach cfg s env)
    {o : Nat} {v : List T} (ho : env o = .val v) {s1 : St T} (hrun : run cfg (.begin o) s = .ok .unit s1) :
    isShared o s1 = .ok false s1 ∧ Shows s1 o v ∧ OthersKeep env o s1 ∧
    ∃ it, ptrTo o 0 s1 = .ok it s1 ∧ ∀ ws : List (Nat × T), (∀ w ∈ ws, w.1 < v.length) →
      ∃ s2, storeAll it ws s1 = .ok () s2 ∧ Shows s2 o (ws.foldl (fun u w => u.set w.1 w.2) v) ∧ OthersKeep env o s2 := by
  obtain ⟨hwf, _, hA⟩ := h.inv hv hp
  have hview := h.view_eq hv hp ho
  have hkeep : ∀ s', WF cfg s' → Frame s s' o → OthersKeep env o s' := by
    intro s' hw hf p w hp hpw
    have := hA.view (has_val hpw)
    rw [get_val hpw] at this
    exact shows_of_view hw (by rw [hf.view hp]; exact this)
  have hsat : (getOwnCopy cfg o s).Sat (fun _ s1 => isShared o s1 = .ok false s1 ∧ Shows s1 o v ∧ OthersKeep env o s1 ∧
      ∃ it, ptrTo o 0 s1 = .ok it s1 ∧ ∀ ws : List (Nat × T), (∀ w ∈ ws, w.1 < v.length) →
        ∃ s2, storeAll it ws s1 = .ok () s2 ∧ Shows s2 o (ws.foldl (fun u w => u.set w.1 w.2) v) ∧
          OthersKeep env o s2) (fun _ _ => True) := by
    refine getOwnCopy_spec hwf hview ?_ fun _ _ _ _ _ _ => trivial
    intro s1 ob a b how hsl hw hroom
    have hrm := le_room cfg v.length
    have hgb : getBlk a s1 = .ok b s1 := by unfold getBlk; rw [how.blk]
    refine ⟨?_, shows_of_view how.wf (by rw [how.view, hsl, hw]), hkeep _ how.wf how.frame, ⟨a, b.gen, ob.offset⟩, ?_, ?_⟩
    · unfold isShared
      rw [bind_ok (getObj_eq how.obj)]
      simp only [how.ref]
      rw [bind_ok hgb, how.refs]
      rfl
    · unfold ptrTo
      rw [bind_ok (getObj_eq how.obj)]
      simp only [how.ref]
      rw [bind_ok hgb]
      rfl
    · intro ws hws
      have := storeAll_spec (E := fun _ _ => False) ws how hsl hw (by omega) hws
      cases hr : storeAll ⟨a, b.gen, ob.offset⟩ ws s1 with
      | ok u s2 =>
        rw [hr] at this
        obtain ⟨h1, h2, h3⟩ := this
        exact ⟨s2, rfl, shows_of_view h1 h3, hkeep _ h1 h2⟩
      | throw e s2 => rw [hr] at this; exact this.elim
      | ub => rw [hr] at this; exact this.elim
  have hb : ∃ u, getOwnCopy cfg o s = .ok u s1 := by
    change M.bind (getOwnCopy cfg o) _ s = _ at hrun
    unfold M.bind at hrun
    cases hg : getOwnCopy cfg o s with
    | ok u t => rw [hg] at hrun; cases hrun; exact ⟨u, rfl⟩
    | throw e t => rw [hg] at hrun; cases hrun
    | ub => rw [hg] at hrun; cases hrun
  obtain ⟨u, hb⟩ := hb
  rw [hb] at hsat
  exact hsat

/-- The shared `{1,2,3,4,5}`: `it = a.begin(); it[1] = 9; it[4] = 7`. -/
example : ∃ s2, (do
    let _ ← run arrCfg (.begin 0)
    let it ← ptrTo 0 0
    storeAll it [(1, 9), (4, 7)]
    let x ← read 0 1
    let y ← read 1 0
    return (x, y) : M Nat (Option Nat × Option Nat)) stA = .ok (some 9, some 2) s2 := ⟨_, by simp only [storeAll]; rfl⟩

/-- `a.read(1) = 9` (also `front()`, `back()`) on an array that shares storage with `b = {2,3,4}`: `b`
becomes `{9,3,4}`. -/
theorem c19_refuted_front : Reach arrCfg stA envA ∧ envA 1 = .val [2, 3, 4] ∧
    ∃ s', writeThrough 0 1 9 stA = .ok () s' ∧ Shows s' 1 [9, 3, 4] := by
  refine ⟨reachA, rfl, _, rfl, rfl, fun i hi => ?_⟩
  match i, hi with
  | 0, _ => rfl
  | 1, _ => rfl
  | 2, _ => rfl

end Bdlib.Rca
