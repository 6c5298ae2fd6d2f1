import Verif.Props.Common

/-!
# C02 Reference count is exact; storage is freed once and only when unreachable
-/

namespace Bdlib.Rca
open Bdlib Bdlib.Spec

variable {T : Type} [DecidableEq T] {cfg : Cfg T}

/-- The storage block an object refers to, if any. -/
def storage (s : St T) (o : Nat) : Option Nat := (s.obj o).bind Obj.ref

/-- All objects that refer to the same storage as `o` (including `o`). -/
def sharers (s : St T) (o : Nat) : List Nat :=
  (List.range s.objs.length).filter fun p => decide (storage s p = storage s o)

theorem storage_lt {s : St T} {o a : Nat} (h : storage s o = some a) : o < s.objs.length := by
  unfold storage at h
  cases ho : s.obj o with
  | none => rw [ho] at h; cases h
  | some ob => exact St.obj_lt ho

theorem owners_eq (s : St T) (a : Nat) :
    s.owners a = ((List.range s.objs.length).filter fun p => decide (storage s p = some a)).length := by
  rw [← List.countP_eq_length_filter]
  unfold St.owners
  have h : s.objs = (List.range s.objs.length).map (fun p => s.obj p) := by
    apply List.ext_getElem
    · simp
    · intro i h1 h2
      simp [St.obj, List.getElem?_eq_getElem h1]
  calc s.objs.countP _ = ((List.range s.objs.length).map (fun p => s.obj p)).countP _ := by rw [← h]
    _ = _ := by rw [List.countP_map]; rfl

theorem obj_of_storage {s : St T} {o a : Nat} (h : storage s o = some a) : ∃ ob, s.obj o = some ob ∧ ob.ref = some a := by
  unfold storage at h
  cases ho : s.obj o with
  | none => rw [ho] at h; cases h
  | some ob => rw [ho] at h; exact ⟨ob, rfl, h⟩

/-- `rcount()` is the number of objects sharing the storage (0 for an object without storage). -/
theorem c02_rcount (hv : cfg.Valid) (hp : cfg.Physical) {s : St T} {env : Env T} (h : Reach cfg s env) {o : Nat}
    (ho : env.Live o) :
    rcount o s = .ok (if storage s o = none then 0 else ((sharers s o).length : Int)) s := by
  obtain ⟨hwf, _, hA⟩ := h.inv hv hp
  obtain ⟨ob, hob⟩ := hA.obj ho
  unfold rcount
  rw [bind_ok (getObj_eq hob)]
  have hcase : ob.ref = none ∨ ∃ a, ob.ref = some a := by cases ob.ref <;> simp
  rcases hcase with hr | ⟨a, hr⟩
  · simp [hr, storage, hob, Pure.pure, M.pure]
  · obtain ⟨b, hb, _⟩ := hwf.bounds o ob a hob hr
    have hst : storage s o = some a := by simp [storage, hob, hr]
    rw [hr]
    show (getBlk a >>= _) s = _
    rw [bind_ok (by unfold getBlk; rw [hb] : getBlk a s = .ok b s)]
    unfold sharers
    rw [hst, ← owners_eq, (hwf.refs a b hb).1]
    simp [Pure.pure, M.pure]

/-- `isShared()` is true exactly when another object shares the storage. -/
theorem c02_isShared (hv : cfg.Valid) (hp : cfg.Physical) {s : St T} {env : Env T} (h : Reach cfg s env) {o : Nat}
    (ho : env.Live o) :
    ∃ b, isShared o s = .ok b s ∧ (b = true ↔ ∃ p a, p ≠ o ∧ storage s o = some a ∧ storage s p = some a) := by
  obtain ⟨hwf, _, hA⟩ := h.inv hv hp
  obtain ⟨ob, hob⟩ := hA.obj ho
  unfold isShared
  rw [bind_ok (getObj_eq hob)]
  have hcase : ob.ref = none ∨ ∃ a, ob.ref = some a := by cases ob.ref <;> simp
  rcases hcase with hr | ⟨a, hr⟩
  · refine ⟨false, by simp [hr, Pure.pure, M.pure], by simp, ?_⟩
    rintro ⟨p, a, _, h1, _⟩
    simp [storage, hob, hr] at h1
  · obtain ⟨b, hb, _⟩ := hwf.bounds o ob a hob hr
    have hst : storage s o = some a := by simp [storage, hob, hr]
    refine ⟨decide (b.refs > 1), ?_, ?_⟩
    · rw [hr]
      show (getBlk a >>= _) s = _
      rw [bind_ok (by unfold getBlk; rw [hb] : getBlk a s = .ok b s)]
      rfl
    · have hrefs := (hwf.refs a b hb).1
      rw [decide_eq_true_iff, hrefs]
      constructor
      · intro hgt
        have hgt : 1 < s.owners a := by omega
        rw [owners_eq] at hgt
        have hnd : ((List.range s.objs.length).filter fun p => decide (storage s p = some a)).Nodup :=
          List.Pairwise.filter _ List.nodup_range
        have hmem : ∀ p ∈ (List.range s.objs.length).filter fun p => decide (storage s p = some a), storage s p = some a := by
          intro p hp; simpa using (List.mem_filter.mp hp).2
        generalize (List.range s.objs.length).filter (fun p => decide (storage s p = some a)) = l at *
        match l, hgt, hnd, hmem with
        | p :: q :: l, _, hnd, hmem =>
          have hpq : p ≠ q := by
            intro he; subst he; simp at hnd
          by_cases hpo : p = o
          · exact ⟨q, a, fun hq => hpq (hpo.trans hq.symm), hst, hmem q (by simp)⟩
          · exact ⟨p, a, hpo, hst, hmem p (by simp)⟩
      · rintro ⟨p, a', hne, h1, h2⟩
        rw [hst] at h1
        cases h1
        obtain ⟨pb, hpb, hpr⟩ := obj_of_storage h2
        have := St.owners_two hpb hpr hob hr hne
        omega

/-- A storage block is allocated if and only if some existing object refers to it.  Hence storage is
released by exactly the call that takes away its last owner, never earlier, and none is left behind. -/
theorem c02_storage_iff_owner (hv : cfg.Valid) (hp : cfg.Physical) {s : St T} {env : Env T} (h : Reach cfg s env)
    (a : Nat) : (∃ b, s.blk a = some b) ↔ ∃ o, storage s o = some a := by
  obtain ⟨hwf, _, _⟩ := h.inv hv hp
  constructor
  · rintro ⟨b, hb⟩
    have := (hwf.refs a b hb).2
    unfold St.owners at this
    rw [Nat.succ_le_iff, List.countP_pos_iff] at this
    obtain ⟨x, hx, hr⟩ := this
    obtain ⟨o, ho, he⟩ := List.getElem_of_mem hx
    refine ⟨o, ?_⟩
    unfold storage St.obj
    rw [List.getElem?_eq_getElem ho, he]
    simpa using hr
  · rintro ⟨o, ho⟩
    obtain ⟨ob, hob, hr⟩ := obj_of_storage ho
    obtain ⟨b, hb, _⟩ := hwf.bounds o ob a hob hr
    exact ⟨b, hb⟩

/-- When every object was destroyed nothing stays allocated. -/
theorem c02_no_leak (hv : cfg.Valid) (hp : cfg.Physical) {s : St T} {env : Env T} (h : Reach cfg s env)
    (hd : ∀ o, env o = .dead) (a : Nat) : s.blk a = none := by
  cases hb : s.blk a with
  | none => rfl
  | some b =>
    obtain ⟨o, ho⟩ := (c02_storage_iff_owner hv hp h a).mp ⟨b, hb⟩
    obtain ⟨ob, hob, _⟩ := obj_of_storage ho
    have := h.agrees hv hp o
    rw [hd o] at this
    rw [this] at hob
    cases hob

/-- Storage that an in-contract call releases is not used by any object that exists afterwards, and is
never released again: block addresses are not reused and a second release would be undefined behaviour,
which `c03_defined_partial` excludes. -/
theorem c02_released_unreachable (hv : cfg.Valid) (hp : cfg.Physical) {s s' : St T} {env : Env T} (h : Reach cfg s env)
    {op : Op T} {out : Outcome T} (hpre : Pre cfg (shared s) env op) (hrun : result (run cfg op s) = some (out, s'))
    {a : Nat} {b : Block T} (_ : s.blk a = some b) (hgone : s'.blk a = none) (o : Nat) : storage s' o ≠ some a := by
  obtain ⟨out1, s1, env1, hres, _, hr⟩ := h.call hv hp hpre
  rw [hrun] at hres
  cases hres
  intro ho
  obtain ⟨b', hb'⟩ := (c02_storage_iff_owner hv hp hr a).mpr ⟨o, ho⟩
  rw [hgone] at hb'
  cases hb'

/-- The state with an array and a subarray of it: two sharers. -/
example : rcount 0 stA = .ok 2 stA ∧ sharers stA 0 = [0, 1] ∧ envA.Live 0 := ⟨rfl, rfl, by intro h; cases h⟩
/-- After writing to one of them there is one sharer each. -/
example : ∃ s', run arrCfg (.write 1 0 9) stA = .ok .unit s' ∧ rcount 0 s' = .ok 1 s' ∧ sharers s' 0 = [0] :=
  ⟨_, rfl, rfl, rfl⟩
/-- Destroying both releases the block. -/
example : ∃ s', exec arrCfg stA [.destroy 0, .destroy 1] = some s' ∧ s'.blk 0 = none ∧
    ∃ s1, exec arrCfg stA [.destroy 0] = some s1 ∧ (s1.blk 0).isSome := ⟨_, rfl, rfl, _, rfl, rfl⟩

end Bdlib.Rca
