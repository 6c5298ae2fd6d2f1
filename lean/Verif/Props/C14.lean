import Verif.Props.C02

/-!
# C14 Move transfers the value and leaves a safe source
-/

namespace Bdlib.Rca
open Bdlib Bdlib.Spec

variable {T : Type} [DecidableEq T] {cfg : Cfg T}

/-- Move construction: the new object shows the source's value, every third object keeps its own, and no
storage is allocated, copied, released or re-counted (the heap is unchanged). -/
theorem c14_move_ctor (hv : cfg.Valid) (hp : cfg.Physical) {s : St T} {env : Env T} (h : Reach cfg s env)
    {r : Nat} {v : List T} (hr : env r = .val v) :
    ∃ o s' env', run cfg (.moveCtor r) s = .ok (.obj o) s' ∧ env o = .dead ∧ Shows s' o v ∧
      (∀ p w, p ≠ r → env p = .val w → Shows s' p w) ∧ s'.heap = s.heap ∧ s'.gen = s.gen ∧
      storage s' o = storage s r ∧ storage s' r = none ∧ Reach cfg s' env' ∧ env' r = movedSlot cfg := by
  obtain ⟨out, s', env', hres, hpost, hreach⟩ := h.call hv hp (op := .moveCtor r) (live_val hr)
  obtain ⟨o, hd, rfl, rfl⟩ := hpost
  have hrun := result_ok hres
  have hne : o ≠ r := by
    intro he; subst he
    rw [Env.upd_self] at hd
    unfold movedSlot at hd
    split at hd <;> cases hd
  rw [Env.upd_ne hne] at hd
  obtain ⟨hwf, _, hA⟩ := h.inv hv hp
  obtain ⟨rb, hrb⟩ := hA.obj (live_val hr)
  have hdir : run cfg (.moveCtor r) s = .ok (.obj s.objs.length)
      ({ s with objs := s.objs ++ [some rb] }.setObj r (some (movedFrom cfg rb))) := by
    show mapOut (moveCtor cfg r) .obj s = _
    unfold mapOut moveCtor
    simp only [bind_assoc']
    rw [bind_ok (getObj_eq hrb)]
    rfl
  have hlr := St.obj_lt hrb
  rw [hdir] at hrun
  cases hrun
  refine ⟨_, _, _, hdir, hd, hreach.shows hv hp (by rw [Env.upd_self]; exact hr), fun p w hpr hw => ?_, rfl, rfl, ?_, ?_,
    hreach, by rw [Env.upd_ne (Ne.symm hne), Env.upd_self]⟩
  · refine hreach.shows hv hp ?_
    rw [Env.upd_ne, Env.upd_ne hpr]
    · exact hw
    · intro he; subst he; rw [hd] at hw; cases hw
  · unfold storage
    rw [St.obj_setObj_ne _ hne, obj_append_new, hrb]
  · unfold storage
    rw [St.obj_setObj_self _ (by simp; omega)]
    simp [movedFrom_ref]

/-- Move assignment to any existing object (also a moved-from one). -/
theorem c14_move_assign (hv : cfg.Valid) (hp : cfg.Physical) {s : St T} {env : Env T} (h : Reach cfg s env)
    {o r : Nat} {v : List T} (ho : env.Live o) (hr : env r = .val v) (hne : o ≠ r) :
    ∃ s' env', run cfg (.moveAssign o r) s = .ok .unit s' ∧ Shows s' o v ∧
      (∀ p w, p ≠ o → p ≠ r → env p = .val w → Shows s' p w) ∧ Reach cfg s' env' ∧ env' r = movedSlot cfg := by
  obtain ⟨out, s', env', hres, hpost, hreach⟩ := h.call hv hp (op := .moveAssign o r) ⟨ho, live_val hr⟩
  obtain ⟨rfl, rfl⟩ := hpost
  rw [if_neg hne] at hreach
  refine ⟨s', _, result_ok hres, hreach.shows hv hp (by rw [Env.upd_self]; exact hr),
    fun p w h1 h2 hw => hreach.shows hv hp (by rw [Env.upd_ne h1, Env.upd_ne h2]; exact hw), hreach,
    by rw [Env.upd_ne (Ne.symm hne), Env.upd_self]⟩

/-- Moving an object onto itself changes nothing. -/
theorem c14_self_move {s : St T} {o : Nat} : run cfg (.moveAssign o o) s = .ok .unit s := by
  show mapOut (moveAssign cfg o o) _ s = _
  unfold mapOut moveAssign
  rw [if_pos rfl]
  rfl

/-- Any existing object, in particular one that was moved from, can be cleared, assigned to and
destroyed; clearing and assigning give it the expected value, and nobody else notices. -/
theorem c14_source_reusable (hv : cfg.Valid) (hp : cfg.Physical) {s : St T} {env : Env T} (h : Reach cfg s env)
    {r : Nat} (hr : env.Live r) :
    GivesOk cfg s env (.clear r) r [] ∧
    (∀ q w, env q = .val w → GivesOk cfg s env (.copyAssign r q) r w) ∧
    (∀ xs, GivesOk cfg s env (.assignList r xs) r xs ∨ OutOfMemory cfg s env (.assignList r xs) r) ∧
    (∃ s' env', run cfg (.destroy r) s = .ok .unit s' ∧ s'.obj r = none ∧ OthersKeep env r s' ∧ Reach cfg s' env') := by
  refine ⟨givesOk_of hv hp h hr fun _ _ hpost => hpost, fun q w hq => ?_, fun xs => ?_, ?_⟩
  · refine givesOk_of hv hp h ⟨hr, live_val hq⟩ fun out env' hpost => ?_
    simpa only [Post, hq, Sets] using hpost
  · obtain ⟨out, s', env', hres, hpost, hreach⟩ := h.call hv hp (op := .assignList r xs) hr
    rcases hpost with ⟨rfl, rfl⟩ | ⟨rfl, rfl⟩
    · exact Or.inl ⟨s', _, result_ok hres, hreach.shows hv hp Env.upd_self,
        fun p w hne hw => hreach.shows hv hp (by rw [Env.upd_ne hne]; exact hw), hreach⟩
    · exact Or.inr (noMem_out hv hp h (op := .assignList r xs) hr hres (fun p hne => Env.upd_ne hne) hreach)
  · obtain ⟨out, s', env', hres, hpost, hreach⟩ := h.call hv hp (op := .destroy r) hr
    obtain ⟨rfl, rfl⟩ := hpost
    refine ⟨s', _, result_ok hres, ?_, fun p w hne hw => hreach.shows hv hp (by rw [Env.upd_ne hne]; exact hw), hreach⟩
    have := hreach.agrees hv hp r
    rw [Env.upd_self] at this
    exact this

/-- In test builds (`CPPUNIT_VERSION` defined) the source reads as empty afterwards.  Partial: in
production builds it does not (`c14_refuted_stale`). -/
theorem c14_source_empty_partial (hv : cfg.Valid) (hp : cfg.Physical) (ht : cfg.resetMoved = true) {s : St T} {env : Env T}
    (h : Reach cfg s env) {r : Nat} (hr : env r = movedSlot cfg) : Shows s r [] :=
  h.shows hv hp (by rw [hr, movedSlot, if_pos ht])

example : ∃ s', run arrCfg (.moveCtor 0) stA = .ok (.obj 2) s' ∧ Shows s' 2 [1, 2, 3, 4, 5] ∧ Shows s' 1 [2, 3, 4] := by
  refine ⟨_, rfl, ⟨rfl, fun i hi => ?_⟩, rfl, fun i hi => ?_⟩
  · match i, hi with
    | 0, _ => rfl
    | 1, _ => rfl
    | 2, _ => rfl
    | 3, _ => rfl
    | 4, _ => rfl
  · match i, hi with
    | 0, _ => rfl
    | 1, _ => rfl
    | 2, _ => rfl

/-- In production builds, for every value: after a move the source still reports its old length, and reading any of its
elements is undefined (null buffer). -/
theorem c14_stale (hv : cfg.Valid) (hp : cfg.Physical) (ht : cfg.resetMoved = false) {s : St T} {env : Env T}
    (h : Reach cfg s env) {r : Nat} {v : List T} (hr : env r = .val v) :
    ∃ o s', run cfg (.moveCtor r) s = .ok (.obj o) s' ∧ length r s' = .ok v.length s' ∧
      ∀ i, i < v.length → read r i s' = .ub ∧ run cfg (.at r i) s' = .ub := by
  obtain ⟨hwf, _, hA⟩ := h.inv hv hp
  obtain ⟨rb, hrb⟩ := hA.obj (live_val hr)
  have hdir : run cfg (.moveCtor r) s = .ok (.obj s.objs.length)
      ({ s with objs := s.objs ++ [some rb] }.setObj r (some (movedFrom cfg rb))) := by
    show mapOut (moveCtor cfg r) .obj s = _
    unfold mapOut moveCtor
    simp only [bind_assoc']
    rw [bind_ok (getObj_eq hrb)]
    rfl
  have hlen : rb.sublen = v.length := by
    have := (h.shows hv hp hr).1
    unfold length at this
    rw [bind_ok (getObj_eq hrb)] at this
    injection this
  refine ⟨_, _, hdir, ?_, ?_⟩
  all_goals
    generalize hs' : ({ s with objs := s.objs ++ [some rb] } : St T).setObj r (some (movedFrom cfg rb)) = s'
    have hob : s'.obj r = some { rb with ref := none } := by
      rw [← hs', St.obj_setObj_self _ (by have := St.obj_lt hrb; simp; omega)]
      unfold movedFrom
      rw [if_neg (by rw [ht]; decide)]
  · unfold length
    rw [bind_ok (getObj_eq hob)]
    exact congrArg (fun n => Res.ok n s') hlen
  · intro i hi
    have hread : read r i s' = .ub := by
      unfold read readRange
      simp only [bind_assoc']
      rw [bind_ok (getObj_eq hob)]
      rfl
    refine ⟨hread, ?_⟩
    show mapOut (at' r i) _ s' = _
    unfold mapOut at' validateIndex
    simp only [bind_assoc']
    rw [bind_ok (show length r s' = .ok v.length s' by
      unfold length
      rw [bind_ok (getObj_eq hob)]
      exact congrArg (fun n => Res.ok n s') hlen)]
    rw [if_neg (by omega), bind_ok (show (pure () : M T Unit) s' = .ok () s' from rfl)]
    show (M.bind _ _) s' = _
    unfold M.bind
    rw [hread]

/-- Production build: after `Array b(std::move(a))` the array `a` still reports length 5, and reading its
first element is undefined (null buffer). -/
theorem c14_refuted_stale : ∃ s', Reach arrCfg stA envA ∧ envA 0 = .val [1, 2, 3, 4, 5] ∧
    run arrCfg (.moveCtor 0) stA = .ok (.obj 2) s' ∧ length 0 s' = .ok 5 s' ∧ read 0 0 s' = .ub ∧
    run arrCfg (.at 0 0) s' = .ub :=
  ⟨_, reachA, rfl, rfl, rfl, rfl, rfl⟩

end Bdlib.Rca
