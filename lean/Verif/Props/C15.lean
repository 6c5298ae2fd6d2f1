import Verif.Props.C02

/-!
# C15 Copy, assignment and slicing share storage; self-assignment is a no-op
-/

namespace Bdlib.Rca
open Bdlib Bdlib.Spec

variable {T : Type} [DecidableEq T] {cfg : Cfg T}

/-- Law of the operations that never allocate. -/
def idleLaw (T : Type) : Law T (fun _ _ => false) where
  R s s' := s'.gen = s.gen
  E _ _ _ := True
  refl _ := rfl
  trans _ _ _ h1 h2 := h2.trans h1
  transE _ _ _ _ _ _ := trivial
  thenE _ _ _ _ _ _ := trivial
  range _ := trivial
  objs _ _ := rfl
  freed _ _ := rfl
  putBlk _ _ _ _ _ _ := rfl
  delBlk _ _ := rfl
  newBlk _ := rfl
  alloc _ _ h := by cases h
  refuse _ _ _ := trivial

theorem idle_of {α : Type} {m : M T α} {f : α → Out T} (h : Pres (idleLaw T) m) {s s' : St T} {x : Out T}
    (hrun : mapOut m f s = .ok x s') : s'.gen = s.gen := by
  have := Pres.mapOut (f := f) h s
  rw [hrun] at this
  exact this

/-- Running an operation that was given a specification. -/
theorem sat_run {α : Type} {m : M T α} {f : α → Out T} {s s' : St T} {x : Out T} {Q : α → St T → Prop}
    {E : Exc → St T → Prop} (hs : (m s).Sat Q E) (hrun : mapOut m f s = .ok x s') : ∃ a, x = f a ∧ Q a s' := by
  cases hm : m s with
  | ok a t =>
    rw [hm] at hs
    have : mapOut m f s = .ok (f a) t := by unfold mapOut; rw [bind_ok hm]; rfl
    rw [hrun] at this
    cases this
    exact ⟨a, rfl, hs⟩
  | throw e t =>
    have : mapOut m f s = .throw e t := bind_throw hm
    rw [hrun] at this; cases this
  | ub => rw [hm] at hs; exact hs.elim

/-- Copy construction: same value, same storage, no allocation. -/
theorem c15_copy_ctor (hv : cfg.Valid) (hp : cfg.Physical) {s : St T} {env : Env T} (h : Reach cfg s env)
    {r : Nat} {v : List T} (hr : env r = .val v) :
    ∃ o s' env', run cfg (.copyCtor r) s = .ok (.obj o) s' ∧ env o = .dead ∧ Shows s' o v ∧
      (∀ p w, env p = .val w → Shows s' p w) ∧
      storage s' o = storage s r ∧ storage s' r = storage s r ∧ s'.gen = s.gen ∧ Reach cfg s' env' := by
  obtain ⟨out, s', env', hres, hpost, hreach⟩ := h.call hv hp (op := .copyCtor r) (live_val hr)
  obtain ⟨o, hd, rfl, rfl⟩ := hpost
  have hrun := result_ok hres
  obtain ⟨hwf, _, hA⟩ := h.inv hv hp
  obtain ⟨rb, hrb⟩ := hA.obj (live_val hr)
  obtain ⟨o', ho', rfl, _, hfr, hobj, _, _⟩ := sat_run (copyCtor_spec hwf hrb) hrun
  cases ho'
  have hne : r ≠ s.objs.length := by have := St.obj_lt hrb; omega
  refine ⟨_, s', _, hrun, hd, hreach.shows hv hp (by rw [Env.upd_self]; exact hr), fun p w hw => ?_, ?_, ?_,
    idle_of (Pres.copyCtor r) hrun, hreach⟩
  · refine hreach.shows hv hp ?_
    rw [Env.upd_ne]
    · exact hw
    · intro he; subst he; rw [hd] at hw; cases hw
  · unfold storage; rw [hobj]
  · unfold storage; rw [hfr.obj hne]

/-- Copy assignment to any existing object: same value, same storage, no allocation, nobody else
notices. -/
theorem c15_copy_assign (hv : cfg.Valid) (hp : cfg.Physical) {s : St T} {env : Env T} (h : Reach cfg s env)
    {o r : Nat} {v : List T} (ho : env.Live o) (hr : env r = .val v) :
    ∃ s' env', run cfg (.copyAssign o r) s = .ok .unit s' ∧ Shows s' o v ∧ OthersKeep env o s' ∧
      storage s' o = storage s r ∧ storage s' r = storage s r ∧ s'.gen = s.gen ∧ Reach cfg s' env' := by
  obtain ⟨out, s', env', hres, hpost, hreach⟩ := h.call hv hp (op := .copyAssign o r) ⟨ho, live_val hr⟩
  obtain ⟨rfl, rfl⟩ := hpost
  have hrun := result_ok hres
  obtain ⟨hwf, _, hA⟩ := h.inv hv hp
  obtain ⟨rb, hrb⟩ := hA.obj (live_val hr)
  obtain ⟨ob, hob⟩ := hA.obj ho
  obtain ⟨_, _, _, hfr, hobj, _⟩ := sat_run (copyAssign_spec hwf hob hrb) hrun
  refine ⟨s', _, hrun, hreach.shows hv hp (by rw [Env.upd_self]; exact hr),
    fun p w hne hw => hreach.shows hv hp (by rw [Env.upd_ne hne]; exact hw), ?_, ?_,
    idle_of (Pres.copyAssign o r) hrun, hreach⟩
  · unfold storage; rw [hobj]
  · by_cases he : r = o
    · subst he; unfold storage; rw [hobj]
    · unfold storage; rw [hfr.obj he]

theorem slice_storage {s s' : St T} {o : Nat} {start len : Int} {u : Unit} (h : slice o start len s = .ok u s') :
    storage s' o = storage s o := by
  unfold slice at h
  cases ho : s.obj o with
  | none =>
    have : (getObj o : M T Obj) s = .ub := by unfold getObj; rw [ho]
    change M.bind (getObj o) _ s = _ at h
    unfold M.bind at h
    rw [this] at h; cases h
  | some ob =>
    rw [bind_ok (getObj_eq ho)] at h
    have fin : ∀ ob' : Obj, ob'.ref = ob.ref → putObj o ob' s = .ok u s' → storage s' o = storage s o := by
      intro ob' hr' h
      cases h
      unfold storage
      rw [St.obj_setObj_self _ (St.obj_lt ho), ho]
      exact hr'
    have fin2 : ∀ (c : Prop) (d : Decidable c) (ob' : Obj), ob'.ref = ob.ref →
        (if c then M.undef else putObj o ob') s = .ok u s' → storage s' o = storage s o := by
      intro c d ob' hr' h
      split at h
      · cases h
      · exact fin ob' hr' h
    simp only at h
    split at h <;> rename_i h1
    · exact fin { ob with offset := ob.sublen, sublen := 0, hash := 0 } rfl h
    · refine fin2 _ _ _ ?_ h
      rfl

/-- A slice shares the storage of the original. -/
theorem c15_substring (hv : cfg.Valid) (hp : cfg.Physical) {s : St T} {env : Env T} (h : Reach cfg s env)
    {r : Nat} {v : List T} (hr : env r = .val v) {start len : Int} (hok : SliceOk v.length start len) :
    ∃ o s', run cfg (.substring r start len) s = .ok (.obj o) s' ∧ storage s' o = storage s r ∧ s'.gen = s.gen := by
  obtain ⟨out, s', env', hres, hpost, hreach⟩ := h.call hv hp (op := .substring r start len)
    ⟨has_val hr, by rw [get_val hr]; exact hok⟩
  obtain ⟨o, hd, rfl, rfl⟩ := hpost
  have hrun := result_ok hres
  refine ⟨o, s', hrun, ?_, idle_of (Pres.substring r start len) hrun⟩
  obtain ⟨hwf, _, hA⟩ := h.inv hv hp
  obtain ⟨rb, hrb⟩ := hA.obj (live_val hr)
  have hsp : (copyCtor r s).Sat (fun o s' => s'.obj o = s.obj r) (fun _ _ => False) :=
    sat_mono (copyCtor_spec hwf hrb) (fun _ _ h => h.2.2.2.1) fun _ _ h => h
  cases hc : copyCtor r s with
  | throw e t => rw [hc] at hsp; exact hsp.elim
  | ub => rw [hc] at hsp; exact hsp.elim
  | ok o1 s1 =>
    rw [hc] at hsp
    have hrun1 : (do slice o1 start len; return Out.obj o1 : M T (Out T)) s1 = .ok (.obj o) s' := by
      have : run cfg (.substring r start len) s = (do slice o1 start len; return Out.obj o1 : M T (Out T)) s1 := by
        show mapOut (substring r start len) _ s = _
        unfold mapOut substring
        simp only [bind_assoc']
        rw [bind_ok hc]
        rfl
      rw [← this]; exact hrun
    cases hsl : slice o1 start len s1 with
    | throw e t =>
      have : (do slice o1 start len; return Out.obj o1 : M T (Out T)) s1 = .throw e t := bind_throw hsl
      rw [hrun1] at this; cases this
    | ub =>
      have : (do slice o1 start len; return Out.obj o1 : M T (Out T)) s1 = .ub := by
        show M.bind _ _ _ = _
        unfold M.bind; rw [hsl]
      rw [hrun1] at this; cases this
    | ok u t =>
      have : (do slice o1 start len; return Out.obj o1 : M T (Out T)) s1 = .ok (.obj o1) t := by
        rw [bind_ok hsl]; rfl
      rw [hrun1] at this
      cases this
      rw [slice_storage hsl]
      show (s1.obj o).bind _ = _
      rw [hsp]
      rfl
/-- Self-assignment changes nothing at all. -/
theorem c15_self_assign (hv : cfg.Valid) (hp : cfg.Physical) {s : St T} {env : Env T} (h : Reach cfg s env)
    {o : Nat} (ho : env.Live o) : run cfg (.copyAssign o o) s = .ok .unit s := by
  obtain ⟨hwf, _, hA⟩ := h.inv hv hp
  obtain ⟨ob, hob⟩ := hA.obj ho
  have hlt := St.obj_lt hob
  have key : copyAssign o o s = .ok () s := by
    unfold copyAssign
    rw [bind_ok (getObj_eq hob)]
    have hcase : ob.ref = none ∨ ∃ a, ob.ref = some a := by cases ob.ref <;> simp
    rcases hcase with hr | ⟨a, hr⟩
    · have h1 : incRef ob.ref s = .ok () s := by rw [hr]; rfl
      rw [bind_ok h1, bind_ok (getObj_eq hob)]
      have hput : ∀ ob' : Obj, ob' = ob → putObj o ob' s = .ok () s := by
        intro ob' he; subst he
        show Res.ok () (s.setObj o (some ob')) = _
        rw [setObj_self hob]
      rw [bind_ok (hput _ rfl)]
      have h2 : checkDeallocRef o s = .ok () s := by
        unfold checkDeallocRef
        rw [bind_ok (getObj_eq hob), hr]; rfl
      rw [bind_ok h2, bind_ok (getObj_eq hob), bind_ok (getObj_eq hob)]
      exact hput _ rfl
    · obtain ⟨b, hb, _⟩ := hwf.bounds o ob a hob hr
      have hbl := St.blk_lt hb
      have href : 1 ≤ b.refs := by
        have h1 := hwf.refs a b hb
        omega
      have hgb : ∀ (t : St T) (bb : Block T), t.blk a = some bb → getBlk a t = .ok bb t := by
        intro t bb h; unfold getBlk; rw [h]
      let s1 : St T := s.setBlk a (some { b with refs := b.refs + 1 })
      have h1 : incRef ob.ref s = .ok () s1 := by
        rw [hr]
        show (getBlk a >>= _) s = _
        rw [bind_ok (hgb s b hb)]
        rfl
      have hob1 : s1.obj o = some ob := hob
      have hb1 : s1.blk a = some { b with refs := b.refs + 1 } := St.blk_setBlk_self _ hbl
      rw [bind_ok h1, bind_ok (getObj_eq hob1)]
      have hput : ∀ (t : St T) (ob' : Obj), t.obj o = some ob → ob' = ob → putObj o ob' t = .ok () t := by
        intro t ob' ht he; subst he
        show Res.ok () (t.setObj o (some ob')) = _
        rw [setObj_self ht]
      rw [bind_ok (hput s1 _ hob1 rfl)]
      have hback : s1.setBlk a (some { b with refs := b.refs + 1 - 1 }) = s := by
        have he : ({ b with refs := b.refs + 1 - 1 } : Block T) = b := by
          have : b.refs + 1 - 1 = b.refs := by omega
          rw [this]
        rw [he]
        show (s.setBlk a _).setBlk a (some b) = s
        unfold St.setBlk
        simp only [List.set_set]
        have : s.heap.set a (some b) = s.heap := by
          apply List.ext_getElem?
          intro i
          rw [List.getElem?_set]
          split
          · rename_i he'
            subst he'
            unfold St.blk at hb
            rw [List.getElem?_eq_getElem hbl] at hb ⊢
            simp only [Option.join_some] at hb
            rw [hb]
          · rfl
        rw [this]
      have h2 : checkDeallocRef o s1 = .ok () s := by
        unfold checkDeallocRef
        rw [bind_ok (getObj_eq hob1), hr]
        have hd : decRef (some a) s1 = .ok () s := by
          show (getBlk a >>= _) s1 = _
          rw [bind_ok (hgb s1 _ hb1)]
          show Res.ok () (s1.setBlk a _) = _
          rw [hback]
        show (decRef (some a) >>= _) s1 = _
        rw [bind_ok hd, bind_ok (hgb s b hb), if_neg (by omega)]
        rfl
      rw [bind_ok h2, bind_ok (getObj_eq hob), bind_ok (getObj_eq hob)]
      exact hput s _ hob rfl
  show mapOut (copyAssign o o) _ s = _
  unfold mapOut
  rw [bind_ok key]
  rfl

/-- Assigning the subarray to the array it came from. -/
example : ∃ s', run arrCfg (.copyAssign 0 1) stA = .ok .unit s' ∧ storage s' 0 = storage s' 1 ∧ Shows s' 0 [2, 3, 4] := by
  refine ⟨_, rfl, rfl, rfl, fun i hi => ?_⟩
  match i, hi with
  | 0, _ => rfl
  | 1, _ => rfl
  | 2, _ => rfl

end Bdlib.Rca
