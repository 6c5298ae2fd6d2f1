import Verif.Rca.Ops2
import Verif.Spec.Seq

/-!
# Specifications: slicing, taking from the ends, hashing, iterators, C strings
-/

namespace Bdlib.Rca
open Bdlib Bdlib.Spec

variable {T : Type} {cfg : Cfg T}

/-! ## slice -/

theorem slice_spec {s : St T} (hwf : WF cfg s) {o : Nat} {v : List T} {start len : Int}
    (hv : s.view o = some v) (hok : SliceOk v.length start len) :
    MutatesNT cfg s o (sliceSpec v start len) (slice o start len s) := by
  obtain ⟨ob, ho, hvo, hl⟩ := obj_of_view hv
  obtain ⟨hn, hneg⟩ := hok
  unfold slice MutatesNT
  apply sat_getObj ho
  simp only
  rw [hl, toInt32_small hn]
  apply sat_ite
  · intro hge
    have := narrow_spec hwf ho hvo (k := 0) (n := 0) (off := ob.sublen)
      (Or.inr ⟨rfl, by omega, fun hr => (St.viewOf_none_inv hr hvo).2.1⟩) (by omega)
    rw [window_nil'] at this
    have he : sliceSpec v start len = [] := by
      unfold sliceSpec
      simp only
      have : v.drop (sliceFrom v.length start) = [] := by
        apply List.drop_eq_nil_of_le
        unfold sliceFrom
        rw [if_neg (by omega)]; omega
      rw [this]
      simp
    rw [he, ← hl]
    exact this
  · intro hlt
    -- the start position
    generalize hst : (if (if start < 0 then (v.length : Int) + start else start) < 0 then 0
      else (if start < 0 then (v.length : Int) + start else start)) = st
    have hstc : (start < 0 ∧ (v.length : Int) + start < 0 ∧ st = 0) ∨
        (start < 0 ∧ 0 ≤ (v.length : Int) + start ∧ st = v.length + start) ∨
        (0 ≤ start ∧ st = start) := by
      by_cases h1 : start < 0
      · rw [if_pos h1] at hst
        by_cases h2 : (v.length : Int) + start < 0
        · rw [if_pos h2] at hst; omega
        · rw [if_neg h2] at hst; omega
      · rw [if_neg h1, if_neg h1] at hst; omega
    have hfrom : sliceFrom v.length start = st.toNat := by
      unfold sliceFrom
      by_cases h1 : start < 0
      · rw [if_pos h1]; omega
      · rw [if_neg h1]; omega
    generalize hln : (if len = -1 then (v.length : Int) - start else len) = ln
    have hlnc : (len = -1 ∧ ln = v.length - start) ∨ (len ≠ -1 ∧ ln = len) := by
      by_cases h1 : len = -1
      · rw [if_pos h1] at hln; omega
      · rw [if_neg h1] at hln; omega
    rw [hfrom] at hneg
    refine sat_ite (fun hc => ?_) (fun _ => ?_)
    · exfalso
      omega
    · generalize hfin : (if st + ln ≥ (v.length : Int) then (v.length : Int) - st
        else if ln < 0 then (v.length : Int) - st + ln else ln) = fin
      have hfinc : (st + ln ≥ (v.length : Int) ∧ fin = v.length - st) ∨
          (st + ln < (v.length : Int) ∧ ln < 0 ∧ fin = v.length - st + ln) ∨
          (st + ln < (v.length : Int) ∧ 0 ≤ ln ∧ fin = ln) := by
        by_cases h1 : st + ln ≥ (v.length : Int)
        · rw [if_pos h1] at hfin; omega
        · rw [if_neg h1] at hfin
          by_cases h2 : ln < 0
          · rw [if_pos h2] at hfin; omega
          · rw [if_neg h2] at hfin; omega
      have hm : (fin % (two64 : Int)).toNat = fin.toNat := by
        rw [Int.emod_eq_of_lt (by omega) (by unfold two64; omega)]
      rw [hm]
      have := narrow_spec hwf ho hvo (k := st.toNat) (n := fin.toNat) (Or.inl rfl) (by omega)
      have he : sliceSpec v start len = window v st.toNat fin.toNat := by
        unfold sliceSpec
        simp only
        rw [hfrom]
        have hdl : (v.drop st.toNat).length = v.length - st.toNat := by simp
        by_cases h1 : len = -1
        · rw [if_pos h1]
          have : fin.toNat = v.length - st.toNat := by omega
          rw [this, window_drop]
        · rw [if_neg h1]
          by_cases h2 : len < 0
          · rw [if_pos h2, hdl]
            unfold window
            congr 1
            omega
          · rw [if_neg h2]
            unfold window
            by_cases h3 : st + len ≥ (v.length : Int)
            · rw [List.take_of_length_le (by omega), List.take_of_length_le (by omega)]
            · congr 1
              omega
      rw [he]
      exact this

/-! ## hash -/

theorem hash_spec {s : St T} (hwf : WF cfg s) {o : Nat} {v : List T} (hv : s.view o = some v) :
    (hash cfg o s).Sat
      (fun h s' => h = hashOf cfg v ∧ WF cfg s' ∧ Frame s s' o ∧ s'.view o = some v)
      (fun _ _ => False) := by
  obtain ⟨ob, ho, hvo, hl⟩ := obj_of_view hv
  unfold hash
  apply sat_getObj ho
  apply sat_ite
  · intro hne
    exact ⟨hwf.hash o ob v ho hne hvo, hwf, Frame.refl s o, hv⟩
  · intro _
    refine sat_bind (readRange_view hwf hv (by omega) ?_)
    have : window v 0 ob.sublen = v := by rw [hl, window_zero_take, List.take_length]
    rw [this]
    apply sat_putObj
    obtain ⟨h1, h2, h3⟩ := wf_updObj (ob' := { ob with hash := hashOf cfg v }) hwf ho rfl
      (by
        intro a b hr hb
        obtain ⟨b', hb', hle⟩ := hwf.bounds o ob a ho hr
        rw [hb] at hb'; cases hb'; exact hle)
      (by
        intro _ v' hv'
        have : s.viewOf ob = some v' := hv'
        rw [hvo] at this; cases this; rfl)
    exact ⟨rfl, h1, h2, (view_eq h3).trans hvo⟩

theorem at_spec {s : St T} (hwf : WF cfg s) {o i : Nat} {v : List T} (hv : s.view o = some v)
    (hi : i < v.length) : (at' o i s).Sat (fun x s' => x = v[i]? ∧ s' = s) (fun _ _ => False) := by
  unfold at'
  apply sat_of_eq_ok (validateIndex_ok hv hi)
  exact read_spec hwf hv hi

theorem at_throw {s : St T} {o i : Nat} {v : List T} (hv : s.view o = some v)
    (hi : v.length ≤ i) : at' o i s = .throw .outOfRange s :=
  bind_throw (validateIndex_throw hv hi)

/-! ## shift and pop -/

/-- Outcome of an operation that takes an element out. -/
def Takes (cfg : Cfg T) (s : St T) (o : Nat) (x : Option T) (v' : List T) (r : Res T (Option T)) : Prop :=
  r.Sat (fun y s' => y = x ∧ WF cfg s' ∧ Frame s s' o ∧ s'.view o = some v') (fun _ _ => False)

theorem window_one {v : List T} {i : Nat} (h : i < v.length) : window v i 1 = [v[i]] := by
  unfold window
  rw [List.drop_eq_getElem_cons h]
  rfl

theorem window_overwrite_before {cells xs : List T} {i off n : Nat} (h : i + xs.length ≤ off)
    (hle : off ≤ cells.length) : window (overwrite cells i xs) off n = window cells off n := by
  apply List.ext_getElem?
  intro j
  rw [getElem?_window, getElem?_window]
  split
  · rw [getElem?_overwrite (by omega)]
    rw [if_neg (by omega), if_neg (by omega)]
  · rfl

theorem writeRange_run {s : St T} {o a i : Nat} {ob : Obj} {b : Block T} {xs : List T}
    (ho : s.obj o = some ob) (hr : ob.ref = some a) (hb : s.blk a = some b) (hne : xs ≠ [])
    (hle : ob.offset + i + xs.length ≤ b.cells.length) :
    writeRange o i xs s = .ok () (s.setBlk a (some { b with cells := overwrite b.cells (ob.offset + i) xs })) := by
  have h : (writeRange o i xs s).Sat (fun _ s' => s' = s.setBlk a (some { b with cells := overwrite b.cells (ob.offset + i) xs })) (fun _ _ => False) := by
    unfold writeRange
    apply sat_getObj ho
    rw [if_neg (by simpa using hne), hr]
    apply sat_getBlk hb
    exact sat_ite (fun _ => rfl) (fun hc => absurd hle hc)
  cases hw : writeRange o i xs s with
  | ok u s' => rw [hw] at h; cases h; rfl
  | throw e s' => rw [hw] at h; exact h.elim
  | ub => rw [hw] at h; exact h.elim

/-- Moving one element out of an unshared buffer and narrowing the window so that the moved-from
cell is no longer visible. -/
theorem moveOut_spec {s : St T} (hwf : WF cfg s) {o a i k n : Nat} {ob : Obj} {b : Block T} {v : List T}
    {x : T} (ho : s.obj o = some ob) (hv : s.viewOf ob = some v) (hr : ob.ref = some a)
    (hb : s.blk a = some b) (hsh : shared s o = false) (hi : i < v.length) (hout : i < k ∨ k + n ≤ i)
    (hk : k + n ≤ v.length) :
    let s' := (s.setBlk a (some { b with cells := overwrite b.cells (ob.offset + i) [x] })).setObj o
      (some { ob with offset := ob.offset + k, sublen := n, hash := 0 })
    WF cfg s' ∧ Frame s s' o ∧ s'.view o = some (window v k n) := by
  intro s'
  have hl := viewOf_length hv
  obtain ⟨b', hb', hle⟩ := hwf.bounds o ob a ho hr
  rw [hb] at hb'; cases hb'
  have hln := cfg.le_need ob.sublen
  have hup := wf_updObj (ob' := { ob with hash := 0 }) hwf ho rfl
    (by intro a1 b1 h1 h2; rw [hr] at h1; cases h1; rw [hb] at h2; cases h2; exact hle)
    (fun h => absurd rfl h)
  have hrefs : b.refs = 1 := by
    have := hwf.refs a b hb
    rw [shared_eq ho hr hb] at hsh
    simp at hsh
    omega
  have hlen : (overwrite b.cells (ob.offset + i) [x]).length = b.cells.length :=
    overwrite_length (by simp only [List.length_singleton]; omega)
  have how : Own cfg s (s.setObj o (some { ob with hash := 0 })) o { ob with hash := 0 } a b :=
    ⟨hup.1, hup.2.1, hup.2.2, hr, hb, hrefs, rfl⟩
  have how2 := how.setBlk (b' := { b with cells := overwrite b.cells (ob.offset + i) [x] }) hrefs
    (hwf.gens a b hb) (by simp only [hlen]; exact hle)
  have how3 := how2.setObj (ob' := { ob with offset := ob.offset + k, sublen := n, hash := 0 }) hr rfl
    (by
      simp only [hlen]
      unfold Cfg.need at hle ⊢
      split
      · split at hle <;> omega
      · rw [if_neg (by omega)] at hle; omega)
  have hst : ((s.setObj o (some { ob with hash := 0 })).setBlk a
      (some { b with cells := overwrite b.cells (ob.offset + i) [x] })).setObj o
      (some { ob with offset := ob.offset + k, sublen := n, hash := 0 }) = s' := by
    show _ = St.setObj _ _ _
    unfold St.setObj St.setBlk
    simp [List.set_set]
  rw [hst] at how3
  refine ⟨how3.wf, how3.frame, ?_⟩
  rw [how3.view]
  simp only
  have hvw : v = window b.cells ob.offset ob.sublen := by
    rw [St.viewOf_some hr hb (by omega)] at hv
    injection hv with h; exact h.symm
  have hvw2 : window v k n = window b.cells (ob.offset + k) n := by
    rw [hvw, window_window (by omega)]
  rw [hvw2]
  rcases hout with h | h
  · rw [window_overwrite_before (by simp only [List.length_singleton]; omega) (by omega)]
  · rw [window_overwrite_after (by omega) (by omega)]

theorem shift_spec {s : St T} (hwf : WF cfg s) {o : Nat} {x : T} {t : List T}
    (hv : s.view o = some (x :: t)) : Takes cfg s o (some x) t (shift cfg o s) := by
  obtain ⟨ob, ho, hvo, hl⟩ := obj_of_view hv
  simp only [List.length_cons] at hl
  unfold shift Takes
  refine sat_bind (readRange_view hwf hv (by simp) ?_)
  have hw : window (x :: t) 0 1 = [x] := by simp [window]
  rw [hw]
  apply isShared_sat hwf ho
  have hsub : sub64 ob.sublen 1 = t.length := by unfold sub64; rw [if_pos (by omega)]; omega
  have hwt : window (x :: t) 1 t.length = t := by simp [window]
  cases hsh : shared s o with
  | true =>
    rw [if_pos rfl]
    apply sat_getObj ho
    apply sat_putObj
    rw [hsub]
    have := narrow_spec hwf ho hvo (k := 1) (n := t.length) (off := ob.offset + 1) (Or.inl rfl)
      (by simp only [List.length_cons]; omega)
    rw [hwt] at this
    exact ⟨rfl, this⟩
  | false =>
    rw [if_neg (by decide)]
    have hcase : ob.ref = none ∨ ∃ a, ob.ref = some a := by cases ob.ref <;> simp
    rcases hcase with hr | ⟨a, hr⟩
    · have := (St.viewOf_none_inv hr hvo).1
      cases this
    · obtain ⟨b, hb, hle⟩ := hwf.le ho hr
      apply sat_of_eq_ok (writeRange_run (xs := [cfg.moved x]) ho hr hb (by simp)
        (by simp only [List.length_singleton]; omega))
      apply sat_getObj (ob := ob) (by exact ho)
      apply sat_putObj
      rw [hsub]
      have := moveOut_spec (x := cfg.moved x) (i := 0) (k := 1) (n := t.length) hwf ho hvo hr hb hsh
        (by simp) (Or.inl (by omega)) (by simp only [List.length_cons]; omega)
      rw [hwt] at this
      exact ⟨rfl, this⟩

theorem pop_spec {s : St T} (hwf : WF cfg s) {o : Nat} {x : T} {t : List T}
    (hv : s.view o = some (t ++ [x])) : Takes cfg s o (some x) t (pop cfg o s) := by
  obtain ⟨ob, ho, hvo, hl⟩ := obj_of_view hv
  simp only [List.length_append, List.length_singleton] at hl
  unfold pop Takes
  apply sat_getObj ho
  have hsub : sub64 ob.sublen 1 = t.length := by unfold sub64; rw [if_pos (by omega)]; omega
  simp only
  rw [hsub]
  refine sat_bind (readRange_view hwf hv (by simp) ?_)
  have hw : window (t ++ [x]) t.length 1 = [x] := by simp [window]
  rw [hw]
  apply isShared_sat hwf ho
  have hwt : window (t ++ [x]) 0 t.length = t := by simp [window]
  cases hsh : shared s o with
  | true =>
    rw [if_pos rfl]
    apply sat_bind
    unfold popBack
    apply sat_getObj ho
    rw [hsub]
    have := narrow_spec hwf ho hvo (k := 0) (n := t.length) (off := ob.offset) (Or.inl rfl)
      (by simp only [List.length_append]; omega)
    rw [hwt] at this
    exact ⟨rfl, this⟩
  | false =>
    rw [if_neg (by decide)]
    have hcase : ob.ref = none ∨ ∃ a, ob.ref = some a := by cases ob.ref <;> simp
    rcases hcase with hr | ⟨a, hr⟩
    · have := (St.viewOf_none_inv hr hvo).1
      simp at this
    · obtain ⟨b, hb, hle⟩ := hwf.le ho hr
      apply sat_of_eq_ok (writeRange_run (xs := [cfg.moved x]) ho hr hb (by simp)
        (by simp only [List.length_singleton]; omega))
      apply sat_bind
      unfold popBack
      apply sat_getObj (ob := ob) (by exact ho)
      rw [hsub]
      have := moveOut_spec (x := cfg.moved x) (i := t.length) (k := 0) (n := t.length) hwf ho hvo hr hb hsh
        (by simp) (Or.inr (by omega)) (by simp only [List.length_append]; omega)
      rw [hwt] at this
      exact ⟨rfl, this⟩

/-! ## reserve -/

/-- Apply a function to the state an outcome leaves. -/
def _root_.Bdlib.Res.mapSt {α : Type} (f : St T → St T) : Res T α → Res T α
  | .ok a s => .ok a (f s)
  | .throw e s => .throw e (f s)
  | .ub => .ub

/-- The program neither reads nor writes objects. -/
def HeapOnly {α : Type} (m : M T α) : Prop :=
  ∀ (s : St T) (X : List (Option Obj)), m { s with objs := X } = (m s).mapSt (fun s' => { s' with objs := X })

theorem HeapOnly.pure {α : Type} (a : α) : HeapOnly (T := T) (Pure.pure a) := fun _ _ => rfl

theorem HeapOnly.undef {α : Type} : HeapOnly (T := T) (M.undef : M T α) := fun _ _ => rfl

theorem HeapOnly.bind {α β : Type} {m : M T α} {f : α → M T β} (h1 : HeapOnly m)
    (h2 : ∀ a, HeapOnly (f a)) : HeapOnly (m >>= f) := by
  intro s X
  show M.bind m f _ = Res.mapSt _ (M.bind m f s)
  unfold M.bind
  rw [h1 s X]
  cases m s with
  | ok a s' => exact h2 a s' X
  | throw e s' => rfl
  | ub => rfl

theorem HeapOnly.ite {α : Type} {c : Prop} [Decidable c] {m1 m2 : M T α} (h1 : HeapOnly m1)
    (h2 : HeapOnly m2) : HeapOnly (if c then m1 else m2) := by
  split
  · exact h1
  · exact h2

theorem HeapOnly.getBlk (a : Nat) : HeapOnly (T := T) (getBlk a) := by
  intro s X
  show Bdlib.getBlk a _ = _
  unfold Bdlib.getBlk
  show (match s.blk a with | some b => _ | none => _) = _
  cases s.blk a <;> rfl

theorem HeapOnly.putBlk (a : Nat) (b : Block T) : HeapOnly (putBlk a b) := fun _ _ => rfl

theorem HeapOnly.alloc (n : Nat) : HeapOnly (alloc cfg n) := by
  intro s X
  show Bdlib.alloc cfg n _ = Res.mapSt _ (Bdlib.alloc cfg n s)
  unfold Bdlib.alloc
  simp only
  split <;> rfl

theorem HeapOnly.arefReserve (a n : Nat) (scale : Nat → Nat) (off sl : Nat) :
    HeapOnly (arefReserve cfg a n scale off sl) := by
  unfold Rca.arefReserve
  refine (HeapOnly.getBlk a).bind fun b => ?_
  simp only
  refine HeapOnly.ite ((HeapOnly.alloc _).bind fun g => ?_) ?_
  · refine HeapOnly.ite ((HeapOnly.putBlk _ _).bind fun _ => HeapOnly.pure _) ?_
    refine HeapOnly.ite ?_ HeapOnly.undef
    exact HeapOnly.bind (fun _ _ => rfl) fun _ => (HeapOnly.putBlk _ _).bind fun _ => HeapOnly.pure _
  · refine HeapOnly.ite ?_ (HeapOnly.pure _)
    exact HeapOnly.ite ((HeapOnly.putBlk _ _).bind fun _ => HeapOnly.pure _) HeapOnly.undef

/-- Change the cached hash of an object. -/
def setHash (o : Nat) (h : UInt64) (s : St T) : St T :=
  match s.obj o with
  | some ob => s.setObj o (some { ob with hash := h })
  | none => s

theorem setHash_setObj {s : St T} {o : Nat} {ob : Obj} {h : UInt64} (hlt : o < s.objs.length) :
    setHash o h (s.setObj o (some ob)) = s.setObj o (some { ob with hash := h }) := by
  unfold setHash
  rw [St.obj_setObj_self _ hlt]
  simp only
  rw [setObj_setObj]

/-- The tail of `rcaReserve` neither reads nor writes the cached hash. -/
theorem reserveTail_hash {st : St T} {o a n off0 sl : Nat} {scale : Nat → Nat} {ob : Obj}
    (ho : st.obj o = some ob) :
    (do let off ← arefReserve cfg a n scale off0 sl
        let ob ← getObj o
        putObj o { ob with offset := off } : M T Unit) st =
    ((do let off ← arefReserve cfg a n scale off0 sl
         let ob ← getObj o
         putObj o { ob with offset := off } : M T Unit)
      (st.setObj o (some { ob with hash := 0 }))).mapSt (setHash o ob.hash) := by
  have hlt := St.obj_lt ho
  have h1 := HeapOnly.arefReserve (cfg := cfg) a n scale off0 sl st st.objs
  have h2 := HeapOnly.arefReserve (cfg := cfg) a n scale off0 sl st (st.objs.set o (some { ob with hash := 0 }))
  have e1 : ({ st with objs := st.objs } : St T) = st := rfl
  rw [e1] at h1
  show M.bind _ _ _ = Res.mapSt _ (M.bind _ _ (St.setObj _ _ _))
  unfold M.bind
  have e2 : st.setObj o (some { ob with hash := 0 }) =
    { st with objs := st.objs.set o (some { ob with hash := 0 }) } := rfl
  rw [e2, h2]
  cases hm : arefReserve cfg a n scale off0 sl st with
  | ub => rfl
  | throw e s' =>
    rw [hm] at h1
    simp only [Res.mapSt] at h1 ⊢
    injection h1 with _ h3
    have hobjs : s'.objs = st.objs := by rw [h3]
    have := setHash_setObj (s := s') (o := o) (ob := { ob with hash := 0 }) (h := ob.hash)
      (by rw [hobjs]; exact hlt)
    have e3 : ({ s' with objs := st.objs.set o (some { ob with hash := 0 }) } : St T) =
      s'.setObj o (some { ob with hash := 0 }) := by unfold St.setObj; rw [hobjs]
    rw [e3, this]
    congr 1
    have ho' : s'.obj o = some ob := by unfold St.obj; rw [hobjs]; exact ho
    exact (setObj_self ho').symm
  | ok off s' =>
    rw [hm] at h1
    simp only [Res.mapSt] at h1
    injection h1 with _ h3
    have hobjs : s'.objs = st.objs := by rw [h3]
    have ho' : s'.obj o = some ob := by unfold St.obj; rw [hobjs]; exact ho
    have e3 : ({ s' with objs := st.objs.set o (some { ob with hash := 0 }) } : St T) =
      s'.setObj o (some { ob with hash := 0 }) := by unfold St.setObj; rw [hobjs]
    have hlt' : o < s'.objs.length := by rw [hobjs]; exact hlt
    have ho2 : (s'.setObj o (some { ob with hash := 0 })).obj o = some { ob with hash := 0 } :=
      St.obj_setObj_self _ hlt'
    show M.bind (getObj o) _ s' = Res.mapSt _ (M.bind (getObj o) _
      { s' with objs := st.objs.set o (some { ob with hash := 0 }) })
    rw [e3]
    simp only [M.bind, getObj, ho', ho2]
    show Res.ok () (s'.setObj o _) = Res.ok () (setHash o ob.hash ((s'.setObj o _).setObj o _))
    rw [setObj_setObj, setHash_setObj hlt']

theorem newRef_eq (s : St T) : newRef cfg s = (if cfg.allocOk (s.gen + 1) 1 then
    .ok s.heap.length { s with gen := s.gen + 1, heap := s.heap ++ [some { gen := 0, cells := [], refs := 1 }] }
    else .throw .badAlloc { s with gen := s.gen + 1 }) := by
  show M.bind (alloc cfg 1) _ s = _
  simp only [M.bind, alloc]
  cases cfg.allocOk (s.gen + 1) 1 <;> rfl

theorem bind_ok {α β : Type} {m : M T α} {f : α → M T β} {s s' : St T} {a : α}
    (h : m s = .ok a s') : (m >>= f) s = f a s' := by
  show M.bind m f s = _
  simp only [M.bind, h]

theorem getObj_eq {s : St T} {o : Nat} {ob : Obj} (h : s.obj o = some ob) : getObj o s = .ok ob s := by
  simp only [getObj, h]

theorem rcaReserve_hash {s : St T} {o n : Nat} {scale : Nat → Nat} {ob : Obj} (ho : s.obj o = some ob) :
    rcaReserve cfg o n scale s =
      (rcaReserve cfg o n scale (s.setObj o (some { ob with hash := 0 }))).mapSt (setHash o ob.hash) := by
  have hlt := St.obj_lt ho
  obtain ⟨ref, offset, sublen, hash⟩ := ob
  have ho0 : (s.setObj o (some ⟨ref, offset, sublen, 0⟩)).obj o = some ⟨ref, offset, sublen, 0⟩ :=
    St.obj_setObj_self _ hlt
  simp only
  unfold rcaReserve
  rw [bind_ok (getObj_eq ho), bind_ok (getObj_eq ho0)]
  cases ref with
  | some a =>
    exact reserveTail_hash (cfg := cfg) (a := a) (n := n) (scale := scale) (off0 := offset) (sl := sublen) ho
  | none =>
    simp only
    have h1 := newRef_eq (cfg := cfg) s
    have h0 := newRef_eq (cfg := cfg) (s.setObj o (some ⟨none, offset, sublen, 0⟩))
    rw [St.gen_setObj] at h0
    cases hal : cfg.allocOk (s.gen + 1) 1 with
    | false =>
      rw [hal, if_neg (by decide)] at h1 h0
      rw [bind_throw h1, bind_throw h0]
      have := setHash_setObj (s := { s with gen := s.gen + 1 }) (o := o) (ob := ⟨none, offset, sublen, 0⟩)
        (h := hash) hlt
      have h2 := setObj_self (s := { s with gen := s.gen + 1 }) ho
      exact congrArg _ (this.trans h2).symm
    | true =>
      rw [hal, if_pos rfl] at h1 h0
      rw [bind_ok h1, bind_ok h0]
      have hat := reserveTail_hash (cfg := cfg) (a := s.heap.length) (n := n) (scale := scale)
        (off0 := offset) (sl := sublen) (o := o) (ob := ⟨some s.heap.length, offset, sublen, hash⟩)
        (st := ({ s with gen := s.gen + 1, heap := s.heap ++ [some { gen := 0, cells := [], refs := 1 }] } : St T).setObj o
          (some ⟨some s.heap.length, offset, sublen, hash⟩)) (St.obj_setObj_self _ hlt)
      rw [setObj_setObj] at hat
      refine hat.trans ?_
      congr 1
      have := setObj_setObj ({ s with gen := s.gen + 1, heap := s.heap ++ [some { gen := 0, cells := [], refs := 1 }] } : St T)
        o (some ⟨none, offset, sublen, 0⟩) (some ⟨some s.heap.length, offset, sublen, 0⟩)
      exact congrArg _ this.symm

theorem sat_mapSt {α : Type} {f : St T → St T} {r : Res T α} {Q : α → St T → Prop} {E : Exc → St T → Prop}
    (h : r.Sat (fun a s => Q a (f s)) (fun e s => E e (f s))) : (r.mapSt f).Sat Q E := by
  cases r <;> exact h

theorem reserve_hash {s : St T} {o n : Nat} {scale : Nat → Nat} {ob : Obj} (ho : s.obj o = some ob) :
    reserve cfg o n scale s =
      (reserve cfg o n scale (s.setObj o (some { ob with hash := 0 }))).mapSt (setHash o ob.hash) := by
  unfold reserve
  cases cfg.nul with
  | none => exact rcaReserve_hash ho
  | some c =>
    simp only
    unfold strReserve
    have h1 := rcaReserve_hash (cfg := cfg) (n := if n > 0 then n + 1 else n) (scale := scale) ho
    cases hm : rcaReserve cfg o (if n > 0 then n + 1 else n) scale (s.setObj o (some { ob with hash := 0 })) with
    | ub =>
      rw [hm] at h1
      show M.bind _ _ _ = Res.mapSt _ (M.bind _ _ _)
      unfold M.bind
      rw [h1, hm]; rfl
    | throw e s' =>
      rw [hm] at h1
      rw [bind_throw h1, bind_throw hm]; rfl
    | ok u s' =>
      rw [hm] at h1
      rw [bind_ok h1, bind_ok hm]
      cases ho' : s'.obj o with
      | none =>
        have : setHash o ob.hash s' = s' := by unfold setHash; rw [ho']
        rw [this]
        show M.bind (getObj o) _ _ = Res.mapSt _ (M.bind (getObj o) _ _)
        unfold M.bind
        simp only [getObj, ho']
        rfl
      | some ob' =>
        have hlt' := St.obj_lt ho'
        have h2 : setHash o ob.hash s' = s'.setObj o (some { ob' with hash := ob.hash }) := by
          unfold setHash; rw [ho']
        have h3 : (setHash o ob.hash s').obj o = some { ob' with hash := ob.hash } := by
          rw [h2]; exact St.obj_setObj_self _ hlt'
        rw [bind_ok (getObj_eq ho'), bind_ok (getObj_eq h3)]
        simp only
        cases ob'.ref with
        | none => rfl
        | some a =>
          simp only
          have hb2 : (setHash o ob.hash s').blk a = s'.blk a := by rw [h2]; rfl
          show M.bind (getBlk a) _ _ = Res.mapSt _ (M.bind (getBlk a) _ _)
          unfold M.bind
          simp only [getBlk, hb2]
          cases s'.blk a with
          | none => rfl
          | some b =>
            simp only
            split
            · split <;> rfl
            · show Res.ok () _ = Res.ok () (setHash o ob.hash (s'.setBlk a _))
              congr 1
              rw [h2]
              unfold setHash
              rw [St.obj_setBlk, ho']
              rfl

/-- Public `reserve(n)` on an object that does not share its buffer. -/
theorem reservePub_spec {s : St T} (hwf : WF cfg s) {o n : Nat} {v : List T} (hv : s.view o = some v)
    (hsh : shared s o = false) (hn : cfg.nul.isSome → (v.length ≤ n ∧ n ≠ npos) ∨ cfg.slack = 1) :
    (reservePub cfg o n s).Sat
      (fun _ s' => WF cfg s' ∧ Frame s s' o ∧ s'.view o = some v ∧
        ∃ ob a b, s'.obj o = some ob ∧ ob.ref = some a ∧ s'.blk a = some b ∧ b.refs = 1 ∧
          ((cfg.nul.isSome → n ≠ npos) → ob.offset + room cfg n ≤ b.cells.length))
      (fun e s' => e = .badAlloc ∧ WF cfg s' ∧ Frame s s' o ∧ s'.view o = some v) := by
  obtain ⟨ob, ho, hvo, hl⟩ := obj_of_view hv
  have hlt := St.obj_lt ho
  unfold reservePub
  generalize hN : (if cfg.nul.isSome = true ∧ n = npos then 0 else n) = N
  have hNn : (cfg.nul.isSome → n ≠ npos) → N = n := by
    intro h
    rw [← hN, if_neg fun hc => h hc.1 hc.2]
  have hn' : cfg.nul.isSome → v.length ≤ N ∨ cfg.slack = 1 := by
    intro h
    rcases hn h with ⟨h1, h2⟩ | h1
    · left; rw [hNn fun _ => h2]; exact h1
    · exact Or.inr h1
  clear hn
  have hn := hn'
  rw [reserve_hash ho]
  apply sat_mapSt
  have hbd : ∀ a b, ob.ref = some a → s.blk a = some b → ob.offset + cfg.need ob.sublen ≤ b.cells.length := by
    intro a b hr hb
    obtain ⟨b', hb', hle⟩ := hwf.bounds o ob a ho hr
    rw [hb] at hb'; cases hb'; exact hle
  obtain ⟨hwf1, hfr1, ho1⟩ := wf_updObj (ob' := { ob with hash := 0 }) hwf ho rfl hbd (fun h => absurd rfl h)
  have hsh1 : shared (s.setObj o (some { ob with hash := 0 })) o = false := by
    have hcase : ob.ref = none ∨ ∃ a, ob.ref = some a := by cases ob.ref <;> simp
    rcases hcase with hr | ⟨a, hr⟩
    · exact shared_none ho1 hr
    · obtain ⟨b, hb, _⟩ := hwf.bounds o ob a ho hr
      rw [shared_eq ho1 hr (by exact hb), ← shared_eq ho hr hb, hsh]
  -- putting the hash back
  have back : ∀ (s' : St T) (ob' : Obj), WF cfg s' → Frame s s' o → s'.obj o = some ob' →
      s'.view o = some v →
      setHash o ob.hash s' = s'.setObj o (some { ob' with hash := ob.hash }) ∧
      WF cfg (setHash o ob.hash s') ∧ Frame s (setHash o ob.hash s') o ∧
      (setHash o ob.hash s').view o = some v := by
    intro s' ob' hw hf ho' hv'
    have e : setHash o ob.hash s' = s'.setObj o (some { ob' with hash := ob.hash }) := by
      unfold setHash; rw [ho']
    have hvo' : s'.viewOf ob' = some v := by rw [← view_eq ho', hv']
    obtain ⟨h1, h2, h3⟩ := wf_updObj (ob' := { ob' with hash := ob.hash }) hw ho' rfl
      (by
        intro a b hr hb
        obtain ⟨b', hb', hle⟩ := hw.bounds o ob' a ho' hr
        rw [hb] at hb'; cases hb'; exact hle)
      (by
        intro hne v' hv2
        have : s'.viewOf ob' = some v' := hv2
        rw [hvo'] at this; cases this
        exact hwf.hash o ob v ho hne hvo)
    rw [e]
    exact ⟨rfl, h1, hf.trans h2, (view_eq h3).trans hvo'⟩
  refine reserve_own (s0 := s) (v := v) (ob := { ob with hash := 0 })
    ⟨hwf1, hfr1, ho1, hvo, hsh1, rfl⟩ ?_ ?_ ?_
  · intro hns
    rcases hn hns with h | h
    · exact Or.inl h
    · by_cases h0 : v.length = 0
      · exact Or.inl (by omega)
      · refine Or.inr (fun a0 b0 hr hb => ?_)
        have := hbd a0 b0 hr hb
        unfold Cfg.need at this
        rw [if_neg (by omega), h] at this
        show ob.offset + ob.sublen < _
        omega
  · intro s' ob' a b' how h1 h2 h3 _
    have hv' : s'.view o = some v := by rw [how.view, h1, h2]
    obtain ⟨e, hw, hf, hvv⟩ := back s' ob' how.wf how.frame how.obj hv'
    refine ⟨hw, hf, hvv, { ob' with hash := ob.hash }, a, b', ?_, how.ref, ?_, how.refs, fun h => by rw [← hNn h]; exact h3⟩
    · rw [e]; exact St.obj_setObj_self _ (St.obj_lt how.obj)
    · rw [e]; exact how.blk
  · intro s' ob' hw hf ho' hv'
    obtain ⟨_, hw', hf', hvv⟩ := back s' ob' hw hf ho' hv'
    exact ⟨rfl, hw', hf', hvv⟩

end Bdlib.Rca
