import Verif.Rca.Core

/-!
# Specifications of the operations

Every theorem says: from a well-formed state, the operation is not undefined behaviour, its
normal result shows the stated list through the receiver, and nothing else is observable through
other objects.
-/

namespace Bdlib.Rca
open Bdlib

variable {T : Type} {cfg : Cfg T}

/-- Outcome of a mutator on receiver `o` that shows `v` before and should show `v'` afterwards.
The only exception is `bad_alloc`; then the receiver keeps its value if its buffer was not shared
and becomes empty if it was. -/
def Mutates (cfg : Cfg T) (s : St T) (o : Nat) (v v' : List T) (r : Res T Unit) : Prop :=
  r.Sat (fun _ s' => WF cfg s' ∧ Frame s s' o ∧ s'.view o = some v')
    (fun e s' => e = .badAlloc ∧ WF cfg s' ∧ Frame s s' o ∧
      s'.view o = some (if shared s o then [] else v))

/-- Outcome of a mutator that cannot throw. -/
def MutatesNT (cfg : Cfg T) (s : St T) (o : Nat) (v' : List T) (r : Res T Unit) : Prop :=
  r.Sat (fun _ s' => WF cfg s' ∧ Frame s s' o ∧ s'.view o = some v') (fun _ _ => False)

/-- Outcome of a constructor: a new handle showing `v`; on `bad_alloc` no object remains. -/
def Creates (cfg : Cfg T) (s : St T) (v : List T) (r : Res T Nat) : Prop :=
  r.Sat (fun o s' => o = s.objs.length ∧ WF cfg s' ∧ Frame s s' o ∧ s'.view o = some v)
    (fun e s' => e = .badAlloc ∧ WF cfg s' ∧ Frame s s' s.objs.length ∧ s'.obj s.objs.length = none)

theorem obj_of_view {s : St T} {o : Nat} {v : List T} (h : s.view o = some v) :
    ∃ ob, s.obj o = some ob ∧ s.viewOf ob = some v ∧ ob.sublen = v.length := by
  obtain ⟨ob, ho, hv⟩ := view_some h
  exact ⟨ob, ho, hv, (viewOf_length hv).symm⟩

/-! ## Reading -/

theorem length_spec {s : St T} {o : Nat} {v : List T} (hv : s.view o = some v) :
    (length o s) = .ok v.length s := by
  obtain ⟨ob, ho, _, hl⟩ := obj_of_view hv
  show (M.bind (getObj o) _) s = _
  simp only [M.bind, getObj, ho]
  rw [← hl]; rfl

theorem read_spec {s : St T} (hwf : WF cfg s) {o i : Nat} {v : List T} (hv : s.view o = some v)
    (hi : i < v.length) : (read o i s).Sat (fun x s' => x = v[i]? ∧ s' = s) (fun _ _ => False) := by
  unfold read
  refine sat_bind (readRange_view hwf hv (by omega) ?_)
  refine ⟨?_, rfl⟩
  have : (window v i 1)[0]? = v[i]? := by rw [getElem?_window]; simp
  rw [← this]
  cases window v i 1 <;> rfl

theorem validateIndex_throw {s : St T} {o pos : Nat} {v : List T} (hv : s.view o = some v)
    (h : v.length ≤ pos) : validateIndex o pos s = .throw .outOfRange s := by
  show (M.bind (length o) _) s = _
  simp only [M.bind, length_spec hv]
  simp only [ge_iff_le, h, if_true]
  rfl

theorem validateIndex_ok {s : St T} {o pos : Nat} {v : List T} (hv : s.view o = some v)
    (h : pos < v.length) : validateIndex o pos s = .ok () s := by
  show (M.bind (length o) _) s = _
  simp only [M.bind, length_spec hv]
  rw [if_neg (by omega)]
  rfl

theorem validatePos_throw {s : St T} {o pos : Nat} {v : List T} (hv : s.view o = some v)
    (h : v.length < pos) : validatePos o pos s = .throw .outOfRange s := by
  unfold validatePos
  rw [if_pos (by omega)]
  exact validateIndex_throw hv (by omega)

theorem validatePos_ok {s : St T} {o pos : Nat} {v : List T} (hv : s.view o = some v)
    (h : pos ≤ v.length) : validatePos o pos s = .ok () s := by
  unfold validatePos
  split
  · exact validateIndex_ok hv (by omega)
  · rfl

theorem sat_of_eq_ok {α β : Type} {m : M T α} {f : α → M T β} {s s' : St T} {a : α}
    {Q : β → St T → Prop} {E : Exc → St T → Prop}
    (h : m s = .ok a s') (hf : (f a s').Sat Q E) : ((m >>= f) s).Sat Q E := by
  apply sat_bind
  rw [h]
  exact hf

theorem bind_throw {α β : Type} {m : M T α} {f : α → M T β} {s s' : St T} {e : Exc}
    (h : m s = .throw e s') : (m >>= f) s = .throw e s' := by
  show M.bind m f s = _
  simp only [M.bind, h]

/-! ## Sole-owner building blocks -/

/-- `shiftRight` by the sole owner with room. -/
theorem shiftRight_own {s0 s : St T} {o a pos k : Nat} {ob : Obj} {b : Block T} {v : List T}
    {β : Type} {f : Unit → M T β} {Q : β → St T → Prop} {E : Exc → St T → Prop}
    (h : Own cfg s0 s o ob a b) (hsl : ob.sublen = v.length)
    (hw : window b.cells ob.offset v.length = v) (hp : pos ≤ v.length)
    (hroom : ob.offset + (v.length + k) ≤ b.cells.length)
    (hQ : ∀ s' b', Own cfg s0 s' o ob a b' → b'.cells.length = b.cells.length →
      (∀ xs : List T, xs.length = k →
        window (overwrite b'.cells (ob.offset + pos) xs) ob.offset (v.length + k)
          = v.take pos ++ xs ++ v.drop pos) →
      window b'.cells ob.offset pos = v.take pos →
      (f () s').Sat Q E) :
    ((shiftRight o pos k >>= f) s).Sat Q E := by
  apply sat_bind
  unfold shiftRight
  apply sat_getObj h.obj
  rw [hsl]
  refine sat_bind (readRange_blk h.obj h.ref h.blk (by omega) ?_)
  have hxs : window b.cells (ob.offset + pos) (v.length - pos) = v.drop pos := by
    have e : window v pos (v.length - pos) = v.drop pos := by
      unfold window; rw [List.take_of_length_le]; simp
    rw [← e]
    conv => rhs; rw [← hw]
    rw [window_window (by rw [hw]; omega), hw]
  rw [hxs]
  have hdl : (v.drop pos).length = v.length - pos := by simp
  have htake : window b.cells ob.offset pos = v.take pos := by
    rw [← window_prefix (n := v.length) (by omega), hw]
  apply writeRange_own h (by rw [hdl]; omega)
  intro s2 how2
  have hl2 : (overwrite b.cells (ob.offset + (pos + k)) (v.drop pos)).length = b.cells.length :=
    overwrite_length (by rw [hdl]; omega)
  refine hQ s2 _ how2 hl2 ?_ ?_
  · intro xs hx
    simp only
    rw [window_overwrite (by omega) (by rw [hl2]; omega), window_overwrite (by rw [hdl]; omega) (by omega)]
    have hwl : (window b.cells ob.offset (v.length + k)).length = v.length + k := window_len hroom
    rw [← hx]
    apply splice_window
    · rw [hx]; exact hwl
    · rw [hx, window_prefix (by omega)]; exact hw
    · exact hp
  · simp only
    rw [window_overwrite_after (by omega) (by omega)]
    exact htake

/-- `bumpLength` by the sole owner. -/
theorem bumpLength_own {s0 s : St T} {o a k : Nat} {ob : Obj} {b : Block T}
    {Q : Unit → St T → Prop} {E : Exc → St T → Prop}
    (h : Own cfg s0 s o ob a b) (hroom : ob.offset + cfg.need (ob.sublen + k) ≤ b.cells.length)
    (hQ : ∀ s', Own cfg s0 s' o { ob with sublen := ob.sublen + k } a b → Q () s') :
    (bumpLength o k s).Sat Q E := by
  unfold bumpLength
  apply sat_getObj h.obj
  apply sat_putObj_last
  exact hQ _ (h.setObj h.ref h.hash hroom)

/-- `std::copy` from an object into the sole owner's buffer: from another object, or from its own
first elements when the destination does not overlap them. -/
theorem copyRange_own {s0 s : St T} {o r a n pos : Nat} {ob : Obj} {b : Block T} {w : List T}
    {β : Type} {f : Unit → M T β} {Q : β → St T → Prop} {E : Exc → St T → Prop}
    (h : Own cfg s0 s o ob a b) (hwr : r ≠ o → s0.view r = some w ∧ n ≤ w.length)
    (hself : r = o → (pos = 0 ∨ n ≤ pos) ∧ window b.cells ob.offset n = w.take n ∧
      ob.offset + n ≤ b.cells.length ∧ n ≤ w.length)
    (hroom : ob.offset + pos + n ≤ b.cells.length)
    (hQ : ∀ s', Own cfg s0 s' o ob a { b with cells := overwrite b.cells (ob.offset + pos) (w.take n) } →
      (f () s').Sat Q E) :
    ((copyRange r n o pos >>= f) s).Sat Q E := by
  apply sat_bind
  unfold copyRange
  by_cases hro : r = o
  · subst hro
    obtain ⟨hnov, hw, hle, hnw⟩ := hself rfl
    apply sat_getObj h.obj
    apply sat_getObj h.obj
    rw [if_neg (by omega)]
    refine sat_bind (readRange_blk h.obj h.ref h.blk (by omega) ?_)
    simp only [Nat.add_zero, hw]
    apply writeRange_own h (by simp; omega)
    exact hQ
  · obtain ⟨hv0, hn⟩ := hwr hro
    have hv : s.view r = some w := (h.frame.view hro).trans hv0
    obtain ⟨rb, hrb, hvr⟩ := view_some hv
    apply sat_getObj hrb
    apply sat_getObj h.obj
    have hne : ¬ (rb.ref = ob.ref) := by
      intro hc
      rw [h.ref] at hc
      have h2 := St.owners_two hrb hc h.obj h.ref hro
      have := h.wf.refs a b h.blk
      have := h.refs
      omega
    rw [if_neg (fun hc => hne hc.1)]
    refine sat_bind (readRange_view h.wf hv (by omega) ?_)
    have e : window w 0 n = w.take n := by simp [window]
    rw [e]
    apply writeRange_own h (by simp; omega)
    exact hQ

/-- Exception clause of `Mutates` from `AboutToModify`. -/
theorem mutates_exc {s : St T} {o : Nat} {v : List T} :
    ∀ s' ob', WF cfg s' → Frame s s' o → s'.obj o = some ob' →
      s'.view o = some (if shared s o then [] else v) →
      (Exc.badAlloc = Exc.badAlloc ∧ WF cfg s' ∧ Frame s s' o ∧
        s'.view o = some (if shared s o then [] else v)) :=
  fun _ _ h1 h2 _ h4 => ⟨rfl, h1, h2, h4⟩

/-! ## Insertion -/

theorem insertItem_spec {s : St T} (hwf : WF cfg s) {o pos : Nat} {v : List T} {x : T}
    (hv : s.view o = some v) (hp : pos ≤ v.length) :
    Mutates cfg s o v (v.take pos ++ [x] ++ v.drop pos) (insertItem cfg o pos x s) := by
  unfold insertItem Mutates
  apply sat_of_eq_ok (validatePos_ok hv hp)
  apply sat_of_eq_ok (length_spec hv)
  refine sat_bind (aboutToModify_spec hwf hv (Nat.le_succ _) ?_ mutates_exc)
  intro s1 ob a b how hsl hw hroom
  have hr := le_room cfg (v.length + 1)
  have hnr := need_le_room hwf.valid (Nat.le_refl (v.length + 1))
  apply shiftRight_own how hsl hw hp (by omega)
  intro s2 b2 how2 hl2 hsplice _
  apply sat_bind
  apply writeRange_own how2 (by simp; omega)
  intro s3 how3
  have hl3 : (overwrite b2.cells (ob.offset + pos) [x]).length = b2.cells.length :=
    overwrite_length (by simp; omega)
  apply bumpLength_own how3 (by simp only [hl3, hsl]; omega)
  intro s4 how4
  refine ⟨how4.wf, how4.frame, ?_⟩
  rw [how4.view]
  simp only [hsl]
  rw [hsplice [x] rfl]

theorem insertItem_throw {s : St T} {o pos : Nat} {v : List T} {x : T}
    (hv : s.view o = some v) (hp : v.length < pos) :
    insertItem cfg o pos x s = .throw .outOfRange s :=
  bind_throw (validatePos_throw hv hp)

theorem append_spec {s : St T} (hwf : WF cfg s) {o : Nat} {v : List T} {x : T}
    (hv : s.view o = some v) : Mutates cfg s o v (v ++ [x]) (append cfg o x s) := by
  unfold append Mutates
  apply sat_of_eq_ok (length_spec hv)
  have := insertItem_spec (x := x) hwf hv (Nat.le_refl _)
  simpa [Mutates] using this

theorem insertBody_spec {s : St T} (hwf : WF cfg s) {o pos r k : Nat} {v w : List T}
    (hv : s.view o = some v) (hr : s.view r = some w) (hp : pos ≤ v.length) (hk : k ≤ w.length)
    (hself : r = o → k ≤ pos) :
    Mutates cfg s o v (v.take pos ++ w.take k ++ v.drop pos) (insertBody cfg o pos r k s) := by
  unfold insertBody Mutates
  apply sat_of_eq_ok (length_spec hv)
  refine sat_bind (aboutToModify_spec hwf hv (Nat.le_add_right _ _) ?_ mutates_exc)
  intro s1 ob a b how hsl hw hroom
  have hrm := le_room cfg (v.length + k)
  have hnr := need_le_room hwf.valid (Nat.le_refl (v.length + k))
  apply shiftRight_own how hsl hw hp (by omega)
  intro s2 b2 how2 hl2 hsplice hpre
  have hwk : (w.take k).length = k := by simp; omega
  apply copyRange_own (w := w) how2 (fun _ => ⟨hr, hk⟩) _ (by omega)
  · intro s3 how3
    have hl3 : (overwrite b2.cells (ob.offset + pos) (w.take k)).length = b2.cells.length :=
      overwrite_length (by omega)
    apply bumpLength_own how3 (by simp only [hl3, hsl]; omega)
    intro s4 how4
    refine ⟨how4.wf, how4.frame, ?_⟩
    rw [how4.view]
    simp only [hsl]
    rw [hsplice _ hwk]
  · intro hro
    subst hro
    rw [hv] at hr; cases hr
    have hkp := hself rfl
    refine ⟨Or.inr hkp, ?_, by omega, hk⟩
    rw [← window_prefix hkp, hpre, List.take_take, Nat.min_eq_left hkp]

end Bdlib.Rca
