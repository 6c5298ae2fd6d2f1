import Verif.Rca.Ops3

/-!
# Specifications: constructors from values, iterator ranges, whole-value assignment, `c_str`
-/

namespace Bdlib.Rca
open Bdlib

variable {T : Type} {cfg : Cfg T}

/-! ## With room already reserved nothing can throw -/

theorem arefReserve_noop {s : St T} {a n off sl : Nat} {scale : Nat → Nat} {b : Block T}
    (hb : s.blk a = some b) (hle : off + n ≤ b.cells.length) :
    arefReserve cfg a n scale off sl s = .ok off s := by
  unfold arefReserve
  rw [bind_ok (s' := s) (a := b) (by simp only [getBlk, hb])]
  simp only
  rw [if_neg (by omega), if_neg (by unfold sub64; rw [if_pos (by omega)]; omega)]
  rfl

/-- `reserve` by the sole owner when there is enough room: no exception, same elements. -/
theorem reserve_room {s0 s : St T} {o a n : Nat} {scale : Nat → Nat} {ob : Obj} {b : Block T} {v : List T}
    {Q : Unit → St T → Prop} {E : Exc → St T → Prop}
    (h : Own cfg s0 s o ob a b) (hsl : ob.sublen = v.length) (hw : window b.cells ob.offset v.length = v)
    (hv : v.length ≤ n) (hroom : ob.offset + room cfg n ≤ b.cells.length)
    (hQ : ∀ s' b', Own cfg s0 s' o ob a b' → b'.cells.length = b.cells.length →
      window b'.cells ob.offset v.length = v → Q () s') :
    (reserve cfg o n scale s).Sat Q E := by
  have hrca : ∀ m, ob.offset + m ≤ b.cells.length → rcaReserve cfg o m scale s = .ok () s := by
    intro m hm
    unfold rcaReserve
    rw [bind_ok (getObj_eq h.obj), h.ref]
    simp only [pure_bind']
    rw [bind_ok (arefReserve_noop h.blk hm), bind_ok (getObj_eq h.obj)]
    exact congrArg _ (setObj_self h.obj)
  unfold reserve
  cases hnul : cfg.nul with
  | none =>
    simp only
    rw [hrca n (by have := le_room cfg n; omega)]
    exact hQ s b h rfl hw
  | some c =>
    simp only
    unfold strReserve
    have hrm : (if n > 0 then n + 1 else n) = room cfg n := by
      unfold room
      by_cases h0 : n > 0 <;> simp [hnul, h0]
    apply sat_of_eq_ok (hrca _ (by rw [hrm]; exact hroom))
    apply sat_getObj h.obj
    rw [h.ref]
    apply sat_getBlk h.blk
    apply sat_ite
    · intro h0
      have := h.bounds
      exact sat_ite (fun _ => hQ s b h rfl hw) (fun hc => absurd (by omega) hc)
    · intro h0
      have hlen : (overwrite b.cells (b.cells.length - 1) [c]).length = b.cells.length :=
        overwrite_length (by simp only [List.length_singleton]; omega)
      have how := h.setBlk (b' := { b with cells := overwrite b.cells (b.cells.length - 1) [c] }) h.refs
        (h.wf.gens a b h.blk) (by simp only [hlen]; exact h.need)
      refine hQ _ _ how hlen ?_
      by_cases hv0 : v.length = 0
      · rw [hv0, window_zero]
        exact (List.length_eq_zero_iff.mp hv0).symm
      · have : n > 0 := by omega
        rw [← hrm, if_pos this] at hroom
        show window (overwrite _ _ _) _ _ = _
        rw [window_overwrite_after (by omega) (by omega)]
        exact hw

theorem shared_own {s0 s : St T} {o a : Nat} {ob : Obj} {b : Block T} (h : Own cfg s0 s o ob a b) :
    shared s o = false := by
  rw [shared_eq h.obj h.ref h.blk, h.refs]; rfl

theorem aboutToModify_room {s0 s : St T} {o a n : Nat} {ob : Obj} {b : Block T} {v : List T}
    {Q : Unit → St T → Prop} {E : Exc → St T → Prop}
    (h : Own cfg s0 s o ob a b) (hsl : ob.sublen = v.length) (hw : window b.cells ob.offset v.length = v)
    (hv : v.length ≤ n) (hroom : ob.offset + room cfg n ≤ b.cells.length)
    (hQ : ∀ s' b', Own cfg s0 s' o ob a b' → b'.cells.length = b.cells.length →
      window b'.cells ob.offset v.length = v → Q () s') :
    (aboutToModify cfg o n s).Sat Q E := by
  unfold aboutToModify
  apply sat_getObj h.obj
  apply sat_putObj
  have e : ({ ob with hash := 0 } : Obj) = ob := by have := h.hash; cases ob; simp_all
  rw [e, setObj_self h.obj]
  apply isShared_sat h.wf h.obj
  rw [shared_own h, if_neg (by decide)]
  exact reserve_room h hsl hw hv hroom hQ

theorem getOwnCopy_room {s0 s : St T} {o a : Nat} {ob : Obj} {b : Block T} {v : List T}
    {Q : Unit → St T → Prop} {E : Exc → St T → Prop}
    (h : Own cfg s0 s o ob a b) (hsl : ob.sublen = v.length) (hw : window b.cells ob.offset v.length = v)
    (hroom : ob.offset + room cfg v.length ≤ b.cells.length)
    (hQ : ∀ s' b', Own cfg s0 s' o ob a b' → b'.cells.length = b.cells.length →
      window b'.cells ob.offset v.length = v → Q () s') :
    (getOwnCopy cfg o s).Sat Q E := by
  unfold getOwnCopy
  apply sat_length h.obj
  rw [hsl]
  exact aboutToModify_room h hsl hw (Nat.le_refl _) hroom hQ

theorem room_mono (cfg : Cfg T) {m n : Nat} (h : m ≤ n) : room cfg m ≤ room cfg n := by
  unfold room
  by_cases hc : cfg.nul.isSome = true
  · simp only [hc, true_and]; split <;> split <;> omega
  · simp only [hc]; simpa using h

/-- One element inserted by the sole owner with room: no exception. -/
theorem insertItem_room {s0 s : St T} {o a pos : Nat} {ob : Obj} {b : Block T} {v : List T} {x : T}
    {Q : Unit → St T → Prop} {E : Exc → St T → Prop}
    (h : Own cfg s0 s o ob a b) (hsl : ob.sublen = v.length) (hw : window b.cells ob.offset v.length = v)
    (hp : pos ≤ v.length) (hroom : ob.offset + room cfg (v.length + 1) ≤ b.cells.length)
    (hQ : ∀ s' ob' b', Own cfg s0 s' o ob' a b' → ob'.sublen = v.length + 1 → ob'.offset = ob.offset →
      b'.cells.length = b.cells.length →
      window b'.cells ob'.offset (v.length + 1) = v.take pos ++ [x] ++ v.drop pos → Q () s') :
    (insertItem cfg o pos x s).Sat Q E := by
  have hv : s.view o = some v := by rw [h.view, hsl, hw]
  unfold insertItem
  apply sat_of_eq_ok (validatePos_ok hv hp)
  apply sat_of_eq_ok (length_spec hv)
  refine sat_bind (aboutToModify_room h hsl hw (Nat.le_succ _) hroom ?_)
  intro s1 b1 how hl1 hw1
  have hr := le_room cfg (v.length + 1)
  have hnr := need_le_room h.wf.valid (Nat.le_refl (v.length + 1))
  apply shiftRight_own how hsl hw1 hp (by omega)
  intro s2 b2 how2 hl2 hsplice _
  apply sat_bind
  apply writeRange_own how2 (by simp only [List.length_singleton]; omega)
  intro s3 how3
  have hl3 : (overwrite b2.cells (ob.offset + pos) [x]).length = b2.cells.length :=
    overwrite_length (by simp only [List.length_singleton]; omega)
  apply bumpLength_own how3 (by simp only [hl3, hsl]; omega)
  intro s4 how4
  refine hQ s4 _ _ how4 (by simp only [hsl]) rfl ?_ ?_
  · simp only [hl3]; omega
  · simp only
    rw [hsplice [x] rfl]

theorem insertLoop_room {s0 : St T} {o a : Nat} (xs : List T) :
    ∀ {s : St T} {index : Nat} {ob : Obj} {b : Block T} {v : List T}
    {Q : Unit → St T → Prop} {E : Exc → St T → Prop},
    Own cfg s0 s o ob a b → ob.sublen = v.length → window b.cells ob.offset v.length = v →
    index ≤ v.length → ob.offset + room cfg (v.length + xs.length) ≤ b.cells.length →
    (∀ s' ob' b', Own cfg s0 s' o ob' a b' → ob'.sublen = v.length + xs.length →
      window b'.cells ob'.offset (v.length + xs.length) = v.take index ++ xs ++ v.drop index →
      ob'.offset + room cfg (v.length + xs.length) ≤ b'.cells.length → Q () s') →
    (insertLoop cfg o index xs s).Sat Q E := by
  induction xs with
  | nil =>
    intro s index ob b v Q E h hsl hw hi hroom hQ
    refine hQ s ob b h hsl ?_ hroom
    simpa using hw
  | cons x xs ih =>
    intro s index ob b v Q E h hsl hw hi hroom hQ
    simp only [List.length_cons] at hroom hQ
    have hm1 := room_mono cfg (m := v.length) (n := v.length + (xs.length + 1)) (by omega)
    have hm2 := room_mono cfg (m := v.length + 1) (n := v.length + (xs.length + 1)) (by omega)
    unfold insertLoop
    apply sat_bind
    unfold insertIter
    refine sat_bind (getOwnCopy_room h hsl hw (by omega) ?_)
    intro s1 b1 how1 hl1 hw1
    refine sat_bind (insertItem_room how1 hsl hw1 hi (by omega) ?_)
    intro s2 ob2 b2 how2 hsl2 hoff2 hl2 hw2
    have hlen : (v.take index ++ [x] ++ v.drop index).length = v.length + 1 := by
      simp; omega
    refine getOwnCopy_room (v := v.take index ++ [x] ++ v.drop index) how2 (by rw [hlen, hsl2])
      (by rw [hlen]; exact hw2) (by rw [hlen]; omega) ?_
    intro s3 b3 how3 hl3 hw3
    refine ih (v := v.take index ++ [x] ++ v.drop index) how3 (by rw [hlen, hsl2]) hw3
      (by rw [hlen]; omega) ?_ ?_
    · rw [hlen]
      have : v.length + 1 + xs.length = v.length + (xs.length + 1) := by omega
      rw [this]; omega
    · intro s' ob' b' how' hsl' hw' hroom'
      rw [hlen] at hsl' hw' hroom'
      have hn : v.length + 1 + xs.length = v.length + (xs.length + 1) := by omega
      rw [hn] at hsl' hw' hroom'
      refine hQ s' ob' b' how' hsl' ?_ hroom'
      rw [hw']
      have h1 : (v.take index ++ [x] ++ v.drop index).take (index + 1) = v.take index ++ [x] := by
        rw [List.append_assoc, List.take_append, List.take_of_length_le (by simp; omega)]
        have : index + 1 - (v.take index).length = 1 := by simp; omega
        rw [this]; simp
      have h2 : (v.take index ++ [x] ++ v.drop index).drop (index + 1) = v.drop index := by
        rw [List.drop_append_of_le_length (by simp; omega)]
        rw [List.drop_eq_nil_of_le (by simp; omega)]; simp
      rw [h1, h2]
      simp

/-- Iterator-range insert; the values come from outside the receiver. -/
theorem insertRange_spec {s : St T} (hwf : WF cfg s) {o index : Nat} {v xs : List T}
    (hv : s.view o = some v) (hi : index ≤ v.length) :
    Mutates cfg s o v (v.take index ++ xs ++ v.drop index) (insertRange cfg o index xs s) := by
  unfold insertRange Mutates
  apply sat_of_eq_ok (length_spec hv)
  refine sat_bind (aboutToModify_spec hwf hv (Nat.le_add_right _ _) ?_ mutates_exc)
  intro s1 ob a b how hsl hw hroom
  refine sat_bind (insertLoop_room xs how hsl hw hi hroom ?_)
  intro s2 ob2 b2 how2 hsl2 hw2 hroom2
  have hlen : (v.take index ++ xs ++ v.drop index).length = v.length + xs.length := by
    simp; omega
  refine getOwnCopy_room (v := v.take index ++ xs ++ v.drop index) how2 (by rw [hlen, hsl2])
    (by rw [hlen]; exact hw2) (by rw [hlen]; exact hroom2) ?_
  intro s3 b3 how3 hl3 hw3
  refine ⟨how3.wf, how3.frame, ?_⟩
  rw [how3.view, hsl2, ← hlen, hw3]

/-! ## Whole-value assignment -/

/-- Outcome of the assignments that first clear the receiver: on `bad_alloc` it is empty. -/
def Assigns (cfg : Cfg T) (s : St T) (o : Nat) (v' : List T) (r : Res T Unit) : Prop :=
  r.Sat (fun _ s' => WF cfg s' ∧ Frame s s' o ∧ s'.view o = some v')
    (fun e s' => e = .badAlloc ∧ WF cfg s' ∧ Frame s s' o ∧ s'.view o = some [])

theorem clear_ready {s : St T} (hwf : WF cfg s) {o : Nat} {ob : Obj} (ho : s.obj o = some ob) {β : Type}
    {f : Unit → M T β} {Q : β → St T → Prop} {E : Exc → St T → Prop}
    (hf : ∀ s' ob', Ready cfg s s' o ob' [] → (f () s').Sat Q E) : ((clear o >>= f) s).Sat Q E := by
  refine sat_bind' (clear_spec hwf ho) ?_ (fun _ _ h => h.elim)
  rintro _ s1 ⟨h1, h2, h3, ob1, h4, h5, h6⟩
  exact hf s1 ob1 ⟨h1, h2, h4, by rw [← view_eq h4]; exact h3, h6, h5⟩

theorem assignList_spec {s : St T} (hwf : WF cfg s) {o : Nat} {ob : Obj} (ho : s.obj o = some ob)
    (xs : List T) : Assigns cfg s o xs (assignList cfg o xs s) := by
  unfold assignList Assigns
  apply clear_ready hwf ho
  intro s1 ob1 hready
  refine sat_bind (reserve_own hready (fun _ => Or.inl (Nat.zero_le _)) ?_
    (fun s' ob' h1 h2 _ h4 => ⟨rfl, h1, h2, h4⟩))
  intro s2 ob2 a2 b2 how hsl _ hroom _
  have hr := le_room cfg xs.length
  have hnr := need_le_room hwf.valid (Nat.le_refl xs.length)
  apply sat_bind
  apply writeRange_own how (by omega)
  intro s3 how3
  have hlen : (overwrite b2.cells (ob2.offset + 0) xs).length = b2.cells.length :=
    overwrite_length (by omega)
  apply sat_getObj how3.obj
  apply sat_putObj_last
  have how4 := how3.setObj (ob' := { ob2 with sublen := xs.length }) how3.ref how3.hash
    (by simp only [hlen]; omega)
  refine ⟨how4.wf, how4.frame, ?_⟩
  rw [how4.view]
  simp only [Nat.add_zero]
  rw [window_overwrite_self (by omega)]

theorem assignStd_spec {s : St T} (hwf : WF cfg s) {o : Nat} {ob : Obj} {nul : T} (ho : s.obj o = some ob)
    (xs : List T) : Assigns cfg s o xs (assignStd cfg nul o xs s) := by
  unfold assignStd Assigns
  apply clear_ready hwf ho
  intro s1 ob1 hready
  refine sat_bind (rcaReserve_own hready ?_ (fun s' ob' h1 h2 _ h4 => ⟨rfl, h1, h2, h4⟩))
  intro s2 ob2 a2 b2 how hsl _ hroom _
  have hnr : cfg.need xs.length ≤ xs.length + 1 := by
    unfold Cfg.need
    rcases hwf.valid with h | h <;> split <;> omega
  apply sat_getObj how.obj
  apply sat_putObj
  have how3 := how.setObj (ob' := { ob2 with sublen := xs.length }) how.ref how.hash
    (by simp only; omega)
  apply writeRange_own how3 (by simp only [List.length_append, List.length_singleton]; omega)
  intro s4 how4
  refine ⟨how4.wf, how4.frame, ?_⟩
  rw [how4.view]
  simp only [Nat.add_zero]
  have h1 : window (overwrite b2.cells ob2.offset (xs ++ [nul])) ob2.offset (xs ++ [nul]).length = xs ++ [nul] :=
    window_overwrite_self (by simp only [List.length_append, List.length_singleton]; omega)
  have h2 : window (overwrite b2.cells ob2.offset (xs ++ [nul])) ob2.offset xs.length =
      (window (overwrite b2.cells ob2.offset (xs ++ [nul])) ob2.offset (xs ++ [nul]).length).take xs.length := by
    unfold window
    rw [List.take_take, Nat.min_eq_left (by simp)]
  rw [h2, h1]
  simp

end Bdlib.Rca
