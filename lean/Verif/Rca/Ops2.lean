import Verif.Rca.Life

/-!
# Specifications of the remaining mutators
-/

namespace Bdlib.Rca
open Bdlib

variable {T : Type} {cfg : Cfg T}

/-- Outcome of a mutator with an rvalue argument `r`.  If `steal` holds the argument object was moved
from (it is still alive); otherwise as `Mutates`. -/
def MutatesMove (cfg : Cfg T) (s : St T) (o r : Nat) (steal : Prop) (v v' : List T) (x : Res T Unit) : Prop :=
  x.Sat (fun _ s' => WF cfg s' ∧ s'.view o = some v' ∧
      (r ≠ o ∧ steal ∧ Frame2 s s' o r ∧ (∃ rb, s.obj r = some rb ∧ s'.obj r = some (movedFrom cfg rb)) ∨
        ¬ steal ∧ Frame s s' o))
    (fun e s' => ¬ steal ∧ e = .badAlloc ∧ WF cfg s' ∧ Frame s s' o ∧
      s'.view o = some (if shared s o then [] else v))

theorem Mutates.move {s : St T} {o r : Nat} {steal : Prop} {v v' : List T} {x : Res T Unit}
    (h : Mutates cfg s o v v' x) (hn : ¬ steal) : MutatesMove cfg s o r steal v v' x :=
  sat_mono h (fun _ _ ⟨h1, h2, h3⟩ => ⟨h1, h3, Or.inr ⟨hn, h2⟩⟩) (fun _ _ h => ⟨hn, h⟩)

/-! ## Inserting another array -/

theorem take_min_length {w : List T} {n : Nat} : w.take (min n w.length) = w.take n := by
  rw [Nat.min_comm, ← List.take_take, List.take_of_length_le (l := w.take n)]
  simp; omega

/-- The condition under which `insert(pos, array, n)` takes the assignment shortcut although the
receiver is not empty. -/
def Shortcut (v w : List T) (pos n : Nat) : Prop := pos = 0 ∧ v.length < w.length ∧ n = w.length

instance (v w : List T) (pos n : Nat) : Decidable (Shortcut v w pos n) := by
  unfold Shortcut; infer_instance

theorem copyAssign_mutates {s : St T} (hwf : WF cfg s) {o r : Nat} {v w : List T}
    (hv : s.view o = some v) (hr : s.view r = some w) : Mutates cfg s o v w (copyAssign o r s) := by
  obtain ⟨ob, ho, _⟩ := view_some hv
  obtain ⟨rb, hrb, _⟩ := view_some hr
  exact sat_mono (copyAssign_spec hwf ho hrb) (fun _ _ ⟨h1, h2, _, h4⟩ => ⟨h1, h2, h4.trans hr⟩)
    (fun _ _ h => h.elim)

theorem moveAssign_mutates {s : St T} (hwf : WF cfg s) {o r : Nat} {steal : Prop} {v w : List T} (hne : o ≠ r)
    (hst : steal) (hv : s.view o = some v) (hr : s.view r = some w) :
    MutatesMove cfg s o r steal v w (moveAssign cfg o r s) := by
  obtain ⟨ob, ho, _⟩ := view_some hv
  obtain ⟨rb, hrb, _⟩ := view_some hr
  exact sat_mono (moveAssign_spec hwf hne ho hrb)
    (fun _ _ ⟨h1, h2, _, h4, h5⟩ => ⟨h1, h4.trans hr, Or.inl ⟨hne.symm, hst, h2, rb, hrb, h5⟩⟩)
    (fun _ _ h => h.elim)

/-- What the array inserts produce, including the shortcut. -/
def insertResult (v w : List T) (pos n : Nat) : List T :=
  if Shortcut v w pos n then w else v.take pos ++ w.take n ++ v.drop pos

theorem insertResult_pos {v w : List T} {pos n : Nat} (h : Shortcut v w pos n) :
    insertResult v w pos n = w := if_pos h

theorem insertResult_neg {v w : List T} {pos n : Nat} (h : ¬ Shortcut v w pos n) :
    insertResult v w pos n = v.take pos ++ w.take n ++ v.drop pos := if_neg h

theorem insertRcaN_spec {s : St T} (hwf : WF cfg s) {o pos r n : Nat} {v w : List T}
    (hv : s.view o = some v) (hr : s.view r = some w) (hp : pos ≤ v.length) (hn : n ≠ 0)
    (hself : r = o → min n w.length ≤ pos) :
    Mutates cfg s o v (insertResult v w pos n) (insertRcaN cfg o pos r n s) := by
  unfold insertRcaN Mutates
  rw [if_neg hn]
  apply sat_of_eq_ok (validatePos_ok hv hp)
  apply sat_of_eq_ok (length_spec hr)
  apply sat_of_eq_ok (length_spec hv)
  apply sat_ite
  · intro hc
    rw [insertResult_pos hc]
    exact copyAssign_mutates hwf hv hr
  · intro hc
    rw [insertResult_neg hc]
    have := insertBody_spec hwf hv hr hp (Nat.min_le_right n w.length) hself
    rw [take_min_length] at this
    exact this

theorem insertRcaN_zero {s : St T} {o pos r : Nat} : insertRcaN cfg o pos r 0 s = .ok () s := rfl

theorem insertRcaN_throw {s : St T} {o pos r n : Nat} {v : List T}
    (hv : s.view o = some v) (hp : v.length < pos) (hn : n ≠ 0) :
    insertRcaN cfg o pos r n s = .throw .outOfRange s := by
  unfold insertRcaN
  rw [if_neg hn]
  exact bind_throw (validatePos_throw hv hp)

theorem insertRca_spec {s : St T} (hwf : WF cfg s) {o pos r : Nat} {v w : List T}
    (hv : s.view o = some v) (hr : s.view r = some w) (hp : pos ≤ v.length)
    (hself : r = o → w.length ≤ pos) :
    Mutates cfg s o v (insertResult v w pos w.length) (insertRca cfg o pos r s) := by
  unfold insertRca Mutates
  apply sat_of_eq_ok (validatePos_ok hv hp)
  apply sat_of_eq_ok (length_spec hr)
  apply sat_of_eq_ok (length_spec hv)
  apply sat_ite
  · intro hc
    rw [insertResult_pos ⟨hc.1, hc.2, rfl⟩]
    exact copyAssign_mutates hwf hv hr
  · intro hc
    rw [insertResult_neg (fun h => hc ⟨h.1, h.2.1⟩)]
    exact insertBody_spec hwf hv hr hp (Nat.le_refl _) hself

theorem insertRca_throw {s : St T} {o pos r : Nat} {v : List T}
    (hv : s.view o = some v) (hp : v.length < pos) :
    insertRca cfg o pos r s = .throw .outOfRange s :=
  bind_throw (validatePos_throw hv hp)

theorem insertMoveN_spec {s : St T} (hwf : WF cfg s) {o pos r n : Nat} {v w : List T}
    (hv : s.view o = some v) (hr : s.view r = some w) (hp : pos ≤ v.length) (hn : n ≠ 0)
    (hself : r = o → min n w.length ≤ pos) :
    MutatesMove cfg s o r (Shortcut v w pos n) v (insertResult v w pos n) (insertMoveN cfg o pos r n s) := by
  unfold insertMoveN MutatesMove
  rw [if_neg hn]
  apply sat_of_eq_ok (validatePos_ok hv hp)
  apply sat_of_eq_ok (length_spec hr)
  apply sat_of_eq_ok (length_spec hv)
  apply sat_ite
  · intro hc
    rw [insertResult_pos hc]
    refine moveAssign_mutates hwf ?_ hc hv hr
    rintro rfl
    rw [hv] at hr; cases hr
    omega
  · intro hc
    rw [insertResult_neg hc]
    have := insertBody_spec hwf hv hr hp (Nat.min_le_right n w.length) hself
    rw [take_min_length] at this
    exact this.move hc

theorem insertMove_spec {s : St T} (hwf : WF cfg s) {o pos r : Nat} {v w : List T}
    (hv : s.view o = some v) (hr : s.view r = some w) (hp : pos ≤ v.length)
    (hself : r = o → w.length ≤ pos) :
    MutatesMove cfg s o r (Shortcut v w pos w.length) v (insertResult v w pos w.length) (insertMove cfg o pos r s) := by
  unfold insertMove MutatesMove
  apply sat_of_eq_ok (validatePos_ok hv hp)
  apply sat_of_eq_ok (length_spec hr)
  apply sat_of_eq_ok (length_spec hv)
  apply sat_ite
  · intro hc
    rw [insertResult_pos ⟨hc.1, hc.2, rfl⟩]
    refine moveAssign_mutates hwf ?_ ⟨hc.1, hc.2, rfl⟩ hv hr
    rintro rfl
    rw [hv] at hr; cases hr
    omega
  · intro hc
    rw [insertResult_neg (fun h => hc ⟨h.1, h.2.1⟩)]
    exact (insertBody_spec hwf hv hr hp (Nat.le_refl _) hself).move fun h => hc ⟨h.1, h.2.1⟩

/-- `append(array, n)` never loses elements: the shortcut applies only to an empty receiver. -/
theorem insertResult_append (v w : List T) (n : Nat) : insertResult v w v.length n = v ++ w.take n := by
  by_cases h : Shortcut v w v.length n
  · rw [insertResult_pos h]
    have : v = [] := List.length_eq_zero_iff.mp h.1
    subst this
    rw [h.2.2]; simp
  · rw [insertResult_neg h]; simp

theorem appendRca_spec {s : St T} (hwf : WF cfg s) {o r n : Nat} {v w : List T}
    (hv : s.view o = some v) (hr : s.view r = some w) :
    Mutates cfg s o v (v ++ w.take n) (appendRca cfg o r n s) := by
  unfold appendRca Mutates
  apply sat_of_eq_ok (length_spec hv)
  by_cases hn : n = 0
  · subst hn
    refine ⟨hwf, Frame.refl s o, ?_⟩
    simp [hv]
  · have := insertRcaN_spec hwf hv hr (Nat.le_refl _) hn (by rintro rfl; rw [hv] at hr; cases hr; omega)
    rw [insertResult_append] at this
    exact this

theorem appendMove_spec {s : St T} (hwf : WF cfg s) {o r n : Nat} {v w : List T}
    (hv : s.view o = some v) (hr : s.view r = some w) :
    MutatesMove cfg s o r (Shortcut v w v.length n) v (v ++ w.take n) (appendMove cfg o r n s) := by
  unfold appendMove MutatesMove
  apply sat_of_eq_ok (length_spec hv)
  by_cases hn : n = 0
  · subst hn
    refine ⟨hwf, ?_, Or.inr ⟨fun h => ?_, Frame.refl s o⟩⟩
    rotate_left
    · have := h.2.1; have := h.2.2; omega
    simp [hv]
  · have := insertMoveN_spec hwf hv hr (Nat.le_refl _) hn (by rintro rfl; rw [hv] at hr; cases hr; omega)
    rw [insertResult_append] at this
    exact this

theorem insertC_spec {s : St T} (hwf : WF cfg s) {o pos : Nat} {v xs : List T}
    (hv : s.view o = some v) (hp : pos ≤ v.length) :
    Mutates cfg s o v (v.take pos ++ xs ++ v.drop pos) (insertC cfg o pos xs false s) := by
  unfold insertC Mutates
  rw [if_neg (by decide)]
  apply sat_of_eq_ok (validatePos_ok hv hp)
  apply sat_of_eq_ok (length_spec hv)
  refine sat_bind (aboutToModify_spec hwf hv (Nat.le_add_right _ _) ?_ mutates_exc)
  intro s1 ob a b how hsl hw hroom
  have hrm := le_room cfg (v.length + xs.length)
  have hnr := need_le_room hwf.valid (Nat.le_refl (v.length + xs.length))
  apply shiftRight_own how hsl hw hp (by omega)
  intro s2 b2 how2 hl2 hsplice hpre
  apply sat_bind
  apply bumpLength_own how2 (by rw [hsl]; omega)
  intro s3 how3
  apply writeRange_own how3 (by show ob.offset + pos + xs.length ≤ _; omega)
  intro s4 how4
  refine ⟨how4.wf, how4.frame, ?_⟩
  rw [how4.view]
  simp only [hsl]
  rw [hsplice xs rfl]

theorem insertC_throw {s : St T} {o pos : Nat} {v xs : List T}
    (hv : s.view o = some v) (hp : v.length < pos) :
    insertC cfg o pos xs false s = .throw .outOfRange s := by
  unfold insertC
  rw [if_neg (by decide)]
  exact bind_throw (validatePos_throw hv hp)

/-! ## Replacement -/

/-- `k` elements written over `v` from `pos` on, extending it if necessary. -/
theorem overwrite_view {cells v xs : List T} {off pos N : Nat} (hp : pos ≤ v.length)
    (hw : window cells off v.length = v) (hN : N = if pos + xs.length < v.length then v.length else pos + xs.length)
    (hle : off + N ≤ cells.length) :
    window (overwrite cells (off + pos) xs) off N = v.take pos ++ xs ++ v.drop (pos + xs.length) := by
  have hvN : v.length ≤ N := by split at hN <;> omega
  have hxN : pos + xs.length ≤ N := by split at hN <;> omega
  rw [window_overwrite hxN hle]
  unfold overwrite
  have htake : (window cells off N).take v.length = v := by
    conv => rhs; rw [← hw]
    unfold window
    rw [List.take_take, Nat.min_eq_left hvN]
  have hlen : (window cells off N).length = N := window_len hle
  have h1 : (window cells off N).take pos = v.take pos := by
    conv => rhs; rw [← htake]
    rw [List.take_take, Nat.min_eq_left hp]
  rw [h1]
  congr 1
  split at hN
  · subst hN
    have : window cells off v.length = v := hw
    rw [this]
  · subst hN
    rw [List.drop_eq_nil_of_le (by omega), List.drop_eq_nil_of_le (by omega)]

theorem replaceBody_spec {s : St T} (hwf : WF cfg s) {o pos r k : Nat} {v w : List T}
    (hv : s.view o = some v) (hr : s.view r = some w) (hp : pos ≤ v.length) (hk : k ≤ w.length)
    (hself : r = o → pos = 0 ∨ k ≤ pos) :
    Mutates cfg s o v (v.take pos ++ w.take k ++ v.drop (pos + k)) (replaceBody cfg o pos r k s) := by
  unfold replaceBody Mutates
  apply sat_of_eq_ok (length_spec hv)
  generalize hN : (if pos + k < v.length then v.length else pos + k) = N
  have hvN : v.length ≤ N := by split at hN <;> omega
  have hxN : pos + k ≤ N := by split at hN <;> omega
  refine sat_bind (aboutToModify_spec hwf hv hvN ?_ mutates_exc)
  intro s1 ob a b how hsl hw hroom
  have hrm := le_room cfg N
  have hnr := need_le_room hwf.valid (Nat.le_refl N)
  have hwk : (w.take k).length = k := by simp; omega
  apply copyRange_own (w := w) how (fun _ => ⟨hr, hk⟩) _ (by omega)
  · intro s2 how2
    have hl : (overwrite b.cells (ob.offset + pos) (w.take k)).length = b.cells.length :=
      overwrite_length (by omega)
    apply sat_getObj how2.obj
    apply sat_putObj_last
    have how3 := how2.setObj (ob' := { ob with sublen := N }) how2.ref how2.hash
      (by simp only [hl]; omega)
    refine ⟨how3.wf, how3.frame, ?_⟩
    rw [how3.view]
    have := overwrite_view (xs := w.take k) (N := N) hp hw (by rw [hwk]; exact hN.symm) (by omega)
    simp only
    rw [this, hwk]
  · intro hro
    subst hro
    rw [hv] at hr; cases hr
    refine ⟨hself rfl, ?_, by omega, hk⟩
    rw [← window_prefix hk, hw]

/-- What `replace` should produce. -/
def replaceResult (v w : List T) (pos n : Nat) : List T :=
  v.take pos ++ w.take n ++ v.drop (pos + min n w.length)

theorem replaceRca_spec {s : St T} (hwf : WF cfg s) {o pos r n : Nat} {v w : List T}
    (hv : s.view o = some v) (hr : s.view r = some w) (hp : pos ≤ v.length) (hw : w.length ≤ npos)
    (hself : r = o → pos = 0 ∨ min n w.length ≤ pos) :
    Mutates cfg s o v (replaceResult v w pos n) (replaceRca cfg o pos r n s) := by
  unfold replaceRca Mutates
  apply sat_ite
  · intro hn
    subst hn
    refine ⟨hwf, Frame.refl s o, ?_⟩
    simp [replaceResult, hv]
  · intro hn
    apply sat_of_eq_ok (validatePos_ok hv hp)
    apply sat_of_eq_ok (length_spec hr)
    apply sat_of_eq_ok (length_spec hv)
    apply sat_ite
    · intro hc
      have : replaceResult v w pos n = w := by
        unfold replaceResult
        have hle : w.length ≤ n := by rcases hc.2.2 with h | h <;> omega
        rw [hc.1, Nat.min_eq_right hle, List.take_of_length_le hle, List.drop_eq_nil_of_le (by omega)]
        simp
      rw [this]
      exact copyAssign_mutates hwf hv hr
    · intro _
      have hk : (if n = npos ∨ n > w.length then w.length else n) = min n w.length := by
        split <;> omega
      rw [hk]
      have := replaceBody_spec hwf hv hr hp (Nat.min_le_right n w.length) hself
      rw [take_min_length] at this
      exact this

theorem replaceMove_spec {s : St T} (hwf : WF cfg s) {o pos r n : Nat} {v w : List T}
    (hv : s.view o = some v) (hr : s.view r = some w) (hp : pos ≤ v.length) (hw : w.length ≤ npos)
    (hself : r = o → pos = 0 ∨ min n w.length ≤ pos) (hn : n ≠ 0) :
    MutatesMove cfg s o r (pos = 0 ∧ v.length < w.length ∧ (n = npos ∨ n = w.length)) v (replaceResult v w pos n) (replaceMove cfg o pos r n s) := by
  unfold replaceMove MutatesMove
  apply sat_ite
  · intro h; exact absurd h hn
  · intro _
    apply sat_of_eq_ok (validatePos_ok hv hp)
    apply sat_of_eq_ok (length_spec hr)
    apply sat_of_eq_ok (length_spec hv)
    apply sat_ite
    · intro hc
      have : replaceResult v w pos n = w := by
        unfold replaceResult
        have hle : w.length ≤ n := by rcases hc.2.2 with h | h <;> omega
        rw [hc.1, Nat.min_eq_right hle, List.take_of_length_le hle, List.drop_eq_nil_of_le (by omega)]
        simp
      rw [this]
      refine moveAssign_mutates hwf ?_ hc hv hr
      rintro rfl
      rw [hv] at hr; cases hr
      omega
    · intro hc
      have hk : (if n = npos ∨ n > w.length then w.length else n) = min n w.length := by
        split <;> omega
      rw [hk]
      have := replaceBody_spec hwf hv hr hp (Nat.min_le_right n w.length) hself
      rw [take_min_length] at this
      exact this.move hc

theorem replaceRca_throw {s : St T} {o pos r n : Nat} {v : List T}
    (hv : s.view o = some v) (hp : v.length < pos) (hn : n ≠ 0) :
    replaceRca cfg o pos r n s = .throw .outOfRange s := by
  unfold replaceRca
  rw [if_neg hn]
  exact bind_throw (validatePos_throw hv hp)

theorem replaceC_spec {s : St T} (hwf : WF cfg s) {o pos : Nat} {v xs : List T}
    (hv : s.view o = some v) (hp : pos ≤ v.length) :
    Mutates cfg s o v (v.take pos ++ xs ++ v.drop (pos + xs.length)) (replaceC cfg o pos xs false s) := by
  unfold replaceC Mutates
  rw [if_neg (by decide)]
  apply sat_of_eq_ok (validatePos_ok hv hp)
  apply sat_of_eq_ok (length_spec hv)
  generalize hN : (if pos + xs.length < v.length then v.length else pos + xs.length) = N
  have hvN : v.length ≤ N := by split at hN <;> omega
  have hxN : pos + xs.length ≤ N := by split at hN <;> omega
  refine sat_bind (aboutToModify_spec hwf hv hvN ?_ mutates_exc)
  intro s1 ob a b how hsl hw hroom
  have hrm := le_room cfg N
  have hnr := need_le_room hwf.valid (Nat.le_refl N)
  apply sat_getObj how.obj
  apply sat_putObj
  have how2 := how.setObj (ob' := { ob with sublen := N }) how.ref how.hash (by simp only; omega)
  apply writeRange_own how2 (by show ob.offset + pos + xs.length ≤ _; omega)
  intro s3 how3
  refine ⟨how3.wf, how3.frame, ?_⟩
  rw [how3.view]
  have := overwrite_view (xs := xs) (N := N) hp hw hN.symm (by omega)
  simp only
  rw [this]

theorem replaceC_throw {s : St T} {o pos : Nat} {v xs : List T}
    (hv : s.view o = some v) (hp : v.length < pos) :
    replaceC cfg o pos xs false s = .throw .outOfRange s := by
  unfold replaceC
  rw [if_neg (by decide)]
  exact bind_throw (validatePos_throw hv hp)

theorem set_eq_splice {v : List T} {i : Nat} {x : T} (h : i < v.length) :
    v.take i ++ [x] ++ v.drop (i + 1) = v.set i x := by
  rw [List.set_eq_take_append_cons_drop, if_pos h]
  simp

/-- `getOwnCopy`: same value, sole owner, stale hash. -/
theorem getOwnCopy_spec {s : St T} (hwf : WF cfg s) {o : Nat} {v : List T} (hv : s.view o = some v)
    {Q : Unit → St T → Prop} {E : Exc → St T → Prop}
    (hQ : ∀ s' ob' a b', Own cfg s s' o ob' a b' → ob'.sublen = v.length →
      window b'.cells ob'.offset v.length = v → ob'.offset + room cfg v.length ≤ b'.cells.length →
      Q () s')
    (hE : ∀ s' ob', WF cfg s' → Frame s s' o → s'.obj o = some ob' →
      s'.view o = some (if shared s o then [] else v) → E .badAlloc s') :
    (getOwnCopy cfg o s).Sat Q E := by
  unfold getOwnCopy
  apply sat_of_eq_ok (length_spec hv)
  exact aboutToModify_spec hwf hv (Nat.le_refl _) hQ hE

theorem write_own {s : St T} (hwf : WF cfg s) {o i : Nat} {v : List T} {x : T}
    (hv : s.view o = some v) (hi : i < v.length) :
    Mutates cfg s o v (v.set i x) ((getOwnCopy cfg o >>= fun _ => writeRange o i [x]) s) := by
  refine sat_bind (getOwnCopy_spec hwf hv ?_ mutates_exc)
  intro s1 ob a b how hsl hw hroom
  have hrm := le_room cfg v.length
  apply writeRange_own how (by simp only [List.length_singleton]; omega)
  intro s2 how2
  refine ⟨how2.wf, how2.frame, ?_⟩
  rw [how2.view]
  have := overwrite_view (xs := [x]) (N := v.length) (Nat.le_of_lt hi) hw
    (by simp only [List.length_singleton]; split <;> omega) (by omega)
  simp only [hsl]
  rw [this]
  simp only [List.length_singleton]
  rw [set_eq_splice hi]

theorem write_spec {s : St T} (hwf : WF cfg s) {o i : Nat} {v : List T} {x : T}
    (hv : s.view o = some v) (hi : i < v.length) :
    Mutates cfg s o v (v.set i x) (write cfg o i x s) := write_own hwf hv hi

theorem replaceItem_spec {s : St T} (hwf : WF cfg s) {o i : Nat} {v : List T} {x : T}
    (hv : s.view o = some v) (hi : i < v.length) :
    Mutates cfg s o v (v.set i x) (replaceItem cfg o i x s) := by
  unfold replaceItem Mutates
  apply sat_of_eq_ok (validatePos_ok hv (Nat.le_of_lt hi))
  exact write_own hwf hv hi

theorem replaceItem_throw {s : St T} {o pos : Nat} {v : List T} {x : T}
    (hv : s.view o = some v) (hp : v.length < pos) :
    replaceItem cfg o pos x s = .throw .outOfRange s :=
  bind_throw (validatePos_throw hv hp)

/-! ## Windows -/

theorem viewOf_window {s : St T} {ob : Obj} {v : List T} {off n k : Nat} {h : UInt64}
    (hwf : WF cfg s) {o : Nat} (ho : s.obj o = some ob) (hv : s.viewOf ob = some v)
    (hoff : off = ob.offset + k) (hk : k + n ≤ v.length) :
    s.viewOf { ob with offset := off, sublen := n, hash := h } =
      if ob.ref = none ∧ off ≠ 0 then none else some (window v k n) := by
  have hlen := viewOf_length hv
  have hcase : ob.ref = none ∨ ∃ a, ob.ref = some a := by cases ob.ref <;> simp
  rcases hcase with hr | ⟨a, hr⟩
  · obtain ⟨hv0, hsl, ho0⟩ := St.viewOf_none_inv hr hv
    subst hv0
    have hk0 : k = 0 := by simp at hk; omega
    have hn0 : n = 0 := by simp at hk; omega
    subst hk0; subst hn0
    rw [if_neg (by rintro ⟨_, h⟩; omega)]
    rw [St.viewOf_none_ref (ob := { ob with offset := off, sublen := 0, hash := h }) hr rfl
      (by show off = 0; omega)]
    simp [window]
  · obtain ⟨b, hb, hle⟩ := hwf.le ho hr
    rw [St.viewOf_some hr hb hle] at hv
    cases hv
    rw [if_neg (by rintro ⟨h, _⟩; rw [hr] at h; cases h)]
    have hwl : (window b.cells ob.offset ob.sublen).length = ob.sublen := window_len hle
    have h1 := St.viewOf_some (ob := { ob with offset := off, sublen := n, hash := h }) hr hb
      (by show off + n ≤ _; omega)
    rw [h1]
    simp only
    rw [hoff, window_window (by omega)]

/-- Narrowing the window: elements `[k, k+n)` remain. -/
theorem narrow_spec {s : St T} (hwf : WF cfg s) {o k n off : Nat} {ob : Obj} {v : List T}
    (ho : s.obj o = some ob) (hv : s.viewOf ob = some v)
    (hoff : off = ob.offset + k ∨ n = 0 ∧ off ≤ ob.offset + ob.sublen ∧ (ob.ref = none → off = 0))
    (hk : k + n ≤ v.length) :
    MutatesNT cfg s o (window v k n)
      (putObj o { ob with offset := off, sublen := n, hash := 0 } s) := by
  have hlen := viewOf_length hv
  obtain ⟨h1, h2, h3⟩ := wf_updObj (ob' := { ob with offset := off, sublen := n, hash := 0 }) hwf ho rfl
    (by
      intro a b hr hb
      obtain ⟨b', hb', hle⟩ := hwf.bounds o ob a ho hr
      rw [hb] at hb'; cases hb'
      show off + cfg.need n ≤ _
      unfold Cfg.need at hle ⊢
      split
      · split at hle <;> rcases hoff with h | h <;> omega
      · rename_i hn0
        rw [if_neg (by omega)] at hle
        rcases hoff with h | h <;> omega)
    (fun h => absurd rfl h)
  refine ⟨h1, h2, ?_⟩
  rw [view_eq h3]
  have hcase : ob.ref = none ∨ ∃ a, ob.ref = some a := by cases ob.ref <;> simp
  rcases hcase with hr | ⟨a, hr⟩
  · obtain ⟨hv0, hsl, ho0⟩ := St.viewOf_none_inv hr hv
    subst hv0
    have hk0 : k = 0 := by simp at hk; omega
    have hn0 : n = 0 := by simp at hk; omega
    subst hk0; subst hn0
    have : off = 0 := by
      rcases hoff with h | h
      · omega
      · exact h.2.2 hr
    subst this
    rw [St.viewOf_none_ref (ob := { ob with offset := 0, sublen := 0, hash := 0 }) hr rfl rfl]
    simp [window]
  · rcases hoff with h | h
    · have := viewOf_window (h := 0) hwf ho hv h hk
      rw [if_neg (by rintro ⟨h, _⟩; rw [hr] at h; cases h)] at this
      exact this
    · obtain ⟨hn, hle, _⟩ := h
      subst hn
      obtain ⟨b, hb, hle'⟩ := hwf.le ho hr
      have := St.viewOf_some (s := s) (ob := { ob with offset := off, sublen := 0, hash := 0 }) hr hb
        (by show off + 0 ≤ _; omega)
      rw [window_zero] at this
      rw [window_zero]
      exact this

theorem window_zero_take {v : List T} {n : Nat} : window v 0 n = v.take n := by simp [window]

theorem window_drop {v : List T} {k : Nat} : window v k (v.length - k) = v.drop k := by
  unfold window
  rw [List.take_of_length_le]; simp

theorem window_nil' {v : List T} {k : Nat} : window v k 0 = [] := by simp [window]

theorem dropFront_spec {s : St T} (hwf : WF cfg s) {o n : Nat} {v : List T} (hv : s.view o = some v) :
    MutatesNT cfg s o (v.drop n) (dropFront o n s) := by
  obtain ⟨ob, ho, hvo, hl⟩ := obj_of_view hv
  unfold dropFront MutatesNT
  apply sat_getObj ho
  apply sat_ite
  · intro h0
    have : v = [] := List.length_eq_zero_iff.mp (by omega)
    subst this
    exact ⟨hwf, Frame.refl s o, by simp [hv]⟩
  · intro h0
    apply sat_ite
    · intro hgt
      have := narrow_spec hwf ho hvo (k := 0) (n := 0) (off := ob.sublen)
        (Or.inr ⟨rfl, by omega, fun hr => (St.viewOf_none_inv hr hvo).2.1⟩) (by omega)
      rw [window_nil'] at this
      rw [List.drop_eq_nil_of_le (by omega)]
      exact this
    · intro hle
      have := narrow_spec hwf ho hvo (k := n) (n := ob.sublen - n) (Or.inl rfl) (by omega)
      rw [hl, window_drop] at this
      rw [hl]
      exact this

theorem dropBack_spec {s : St T} (hwf : WF cfg s) {o n : Nat} {v : List T} (hv : s.view o = some v) :
    MutatesNT cfg s o (v.take (v.length - n)) (dropBack o n s) := by
  obtain ⟨ob, ho, hvo, hl⟩ := obj_of_view hv
  unfold dropBack MutatesNT
  apply sat_getObj ho
  apply sat_ite
  · intro h0
    have : v = [] := List.length_eq_zero_iff.mp (by omega)
    subst this
    exact ⟨hwf, Frame.refl s o, by simp [hv]⟩
  · intro h0
    apply sat_ite
    · intro hgt
      have := narrow_spec hwf ho hvo (k := 0) (n := 0) (off := ob.sublen)
        (Or.inr ⟨rfl, by omega, fun hr => (St.viewOf_none_inv hr hvo).2.1⟩) (by omega)
      rw [window_nil'] at this
      have h0 : v.length - n = 0 := by omega
      rw [h0, List.take_zero]
      exact this
    · intro hle
      have := narrow_spec hwf ho hvo (k := 0) (n := ob.sublen - n) (off := ob.offset) (Or.inl rfl) (by omega)
      rw [hl, window_zero_take] at this
      rw [hl]
      exact this

theorem popBack_spec {s : St T} (hwf : WF cfg s) {o : Nat} {v : List T} (hv : s.view o = some v)
    (hne : v ≠ []) : MutatesNT cfg s o v.dropLast (popBack o s) := by
  obtain ⟨ob, ho, hvo, hl⟩ := obj_of_view hv
  unfold popBack MutatesNT
  apply sat_getObj ho
  have hpos : 0 < v.length := List.length_pos_iff.mpr hne
  have hsub : sub64 ob.sublen 1 = v.length - 1 := by unfold sub64; rw [if_pos (by omega)]; omega
  rw [hsub]
  have := narrow_spec hwf ho hvo (k := 0) (n := v.length - 1) (off := ob.offset) (Or.inl rfl) (by omega)
  rw [window_zero_take, ← List.dropLast_eq_take] at this
  exact this

theorem toInt32_small {n : Nat} (h : n < 2147483648) : toInt32 n = n := by
  unfold toInt32
  simp only
  rw [Nat.mod_eq_of_lt (by omega), if_pos h]

theorem arrDropFront_spec {s : St T} (hwf : WF cfg s) {o n : Nat} {v : List T} (hv : s.view o = some v)
    (hlen : v.length < 2147483648) (hcap : ∀ ob, s.obj o = some ob → ob.offset + ob.sublen < two64) :
    MutatesNT cfg s o (v.drop n) (arrDropFront o n s) := by
  obtain ⟨ob, ho, hvo, hl⟩ := obj_of_view hv
  have hc := hcap ob ho
  unfold arrDropFront MutatesNT
  apply sat_getObj ho
  apply sat_ite
  · intro h0
    have : v = [] := List.length_eq_zero_iff.mp (by omega)
    subst this
    exact ⟨hwf, Frame.refl s o, by simp [hv]⟩
  · intro h0
    rw [toInt32_small (by omega)]
    apply sat_ite
    · intro hgt
      have := narrow_spec hwf ho hvo (k := 0) (n := 0) (off := ob.sublen)
        (Or.inr ⟨rfl, by omega, fun hr => (St.viewOf_none_inv hr hvo).2.1⟩) (by omega)
      rw [window_nil'] at this
      rw [List.drop_eq_nil_of_le (by omega)]
      exact this
    · intro hle
      have h1 : (((ob.offset : Int) + (n : Int)) % (two64 : Int)).toNat = ob.offset + n := by
        rw [Int.emod_eq_of_lt (by omega) (by unfold two64 at hc ⊢; omega)]
        omega
      have h2 : (((ob.sublen : Int) - (n : Int)) % (two64 : Int)).toNat = ob.sublen - n := by
        rw [Int.emod_eq_of_lt (by omega) (by unfold two64 at hc ⊢; omega)]
        omega
      rw [h1, h2]
      have := narrow_spec hwf ho hvo (k := n) (n := ob.sublen - n) (Or.inl rfl) (by omega)
      rw [hl, window_drop] at this
      rw [hl]
      exact this

theorem arrDropBack_spec {s : St T} (hwf : WF cfg s) {o n : Nat} {v : List T} (hv : s.view o = some v)
    (hlen : v.length < 2147483648) :
    MutatesNT cfg s o (v.take (v.length - n)) (arrDropBack o n s) := by
  obtain ⟨ob, ho, hvo, hl⟩ := obj_of_view hv
  unfold arrDropBack MutatesNT
  apply sat_getObj ho
  apply sat_ite
  · intro h0
    have : v = [] := List.length_eq_zero_iff.mp (by omega)
    subst this
    exact ⟨hwf, Frame.refl s o, by simp [hv]⟩
  · intro h0
    rw [toInt32_small (by omega)]
    apply sat_ite
    · intro hgt
      have := narrow_spec hwf ho hvo (k := 0) (n := 0) (off := ob.sublen)
        (Or.inr ⟨rfl, by omega, fun hr => (St.viewOf_none_inv hr hvo).2.1⟩) (by omega)
      rw [window_nil'] at this
      have h0 : v.length - n = 0 := by omega
      rw [h0, List.take_zero]
      exact this
    · intro hle
      have h2 : (((ob.sublen : Int) - (n : Int)) % (two64 : Int)).toNat = ob.sublen - n := by
        rw [Int.emod_eq_of_lt (by omega) (by unfold two64; omega)]
        omega
      rw [h2]
      have := narrow_spec hwf ho hvo (k := 0) (n := ob.sublen - n) (off := ob.offset) (Or.inl rfl) (by omega)
      rw [hl, window_zero_take] at this
      rw [hl]
      exact this

/-! ## resize -/

theorem setLength_spec {s : St T} (hwf : WF cfg s) {o n : Nat} {v : List T} (hv : s.view o = some v)
    (hn : n ≤ v.length) : MutatesNT cfg s o (v.take n) (setLength o n s) := by
  obtain ⟨ob, ho, hvo, hl⟩ := obj_of_view hv
  unfold setLength MutatesNT
  apply sat_getObj ho
  have := narrow_spec hwf ho hvo (k := 0) (n := n) (off := ob.offset) (Or.inl rfl) (by omega)
  rw [window_zero_take] at this
  exact this

theorem MutatesNT.mutates {s : St T} {o : Nat} {v v' : List T} {x : Res T Unit}
    (h : MutatesNT cfg s o v' x) : Mutates cfg s o v v' x :=
  sat_mono h (fun _ _ h => h) (fun _ _ h => h.elim)

theorem resize_shrink {s : St T} (hwf : WF cfg s) {o n : Nat} {v : List T} (hv : s.view o = some v)
    (hn : n < v.length) : MutatesNT cfg s o (v.take n) (resize cfg o n s) := by
  unfold resize MutatesNT
  apply sat_of_eq_ok (length_spec hv)
  rw [if_pos hn]
  exact setLength_spec hwf hv (Nat.le_of_lt hn)

theorem window_extend {cells v : List T} {off n : Nat} (hw : window cells off v.length = v)
    (hn : v.length ≤ n) : (window cells off n).take v.length = v := by
  conv => rhs; rw [← hw]
  unfold window
  rw [List.take_take, Nat.min_eq_left hn]

theorem growTo_eq {o n : Nat} (hn : cfg.nul.isSome → n ≠ npos) : growTo cfg o n = aboutToModify cfg o n := by
  unfold growTo
  rw [if_pos (fun h => hn h.1 h.2)]

/-- Growing: the old elements stay, the new ones are whatever the buffer holds. -/
theorem resize_grow {s : St T} (hwf : WF cfg s) {o n : Nat} {v : List T} (hv : s.view o = some v)
    (hn : v.length ≤ n) (hmax : cfg.nul.isSome → n ≠ npos) :
    (resize cfg o n s).Sat
      (fun _ s' => WF cfg s' ∧ Frame s s' o ∧ ∃ js, js.length = n - v.length ∧ s'.view o = some (v ++ js))
      (fun e s' => e = .badAlloc ∧ WF cfg s' ∧ Frame s s' o ∧
        s'.view o = some (if shared s o then [] else v)) := by
  unfold resize
  apply sat_of_eq_ok (length_spec hv)
  rw [if_neg (by omega), growTo_eq hmax]
  refine sat_bind (aboutToModify_spec hwf hv hn ?_ mutates_exc)
  intro s1 ob a b how hsl hw hroom
  have hrm := le_room cfg n
  have hnr := need_le_room hwf.valid (Nat.le_refl n)
  apply sat_getObj how.obj
  apply sat_putObj_last
  have how2 := how.setObj (ob' := { ob with sublen := n }) how.ref how.hash (by simp only; omega)
  refine ⟨how2.wf, how2.frame, (window b.cells ob.offset n).drop v.length, ?_, ?_⟩
  · rw [List.length_drop, window_len (by omega)]
  · rw [how2.view]
    have := window_extend hw hn
    conv => rhs; rw [← this]
    simp only [List.take_append_drop]
    have h2 : ((window b.cells ob.offset n).take v.length).length = v.length := by rw [this]
    rw [h2, List.take_append_drop]

theorem resizeFill_shrink {s : St T} (hwf : WF cfg s) {o n : Nat} {v : List T} {x : T}
    (hv : s.view o = some v) (hn : n < v.length) :
    MutatesNT cfg s o (v.take n) (resizeFill cfg o n x s) := by
  unfold resizeFill MutatesNT
  apply sat_of_eq_ok (length_spec hv)
  rw [if_pos hn]
  exact setLength_spec hwf hv (Nat.le_of_lt hn)

theorem resizeFill_grow {s : St T} (hwf : WF cfg s) {o n : Nat} {v : List T} {x : T}
    (hv : s.view o = some v) (hn : v.length ≤ n)
    (hmax : cfg.nul.isSome → n ≠ npos) :
    Mutates cfg s o v (v ++ List.replicate (n - v.length) x) (resizeFill cfg o n x s) := by
  unfold resizeFill Mutates
  apply sat_of_eq_ok (length_spec hv)
  rw [if_neg (by omega), growTo_eq hmax]
  refine sat_bind (aboutToModify_spec hwf hv hn ?_ mutates_exc)
  intro s1 ob a b how hsl hw hroom
  have hrm := le_room cfg n
  have hnr := need_le_room hwf.valid (Nat.le_refl n)
  apply sat_getObj how.obj
  rw [hsl]
  apply sat_bind
  apply writeRange_own how (by simp; omega)
  intro s2 how2
  apply sat_getObj how2.obj
  apply sat_putObj_last
  have hl : (overwrite b.cells (ob.offset + v.length) (List.replicate (n - v.length) x)).length
      = b.cells.length := overwrite_length (by simp; omega)
  have how3 := how2.setObj (ob' := { ob with sublen := n }) how2.ref how2.hash
    (by simp only [hl]; omega)
  refine ⟨how3.wf, how3.frame, ?_⟩
  rw [how3.view]
  have := overwrite_view (xs := List.replicate (n - v.length) x) (N := n) (Nat.le_refl _) hw
    (by rw [List.length_replicate, if_neg (by omega)]; omega) (by omega)
  simp only
  rw [this]
  simp

end Bdlib.Rca
