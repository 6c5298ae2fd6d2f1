import Verif.Props.C02
import Verif.Props.C13

/-!
# C77 No call asks for more memory than it needs

`Op.needs`, `Op.demand` (`Spec/Need.lean`): how many elements a call has to find room for, and the most it may ask for.
-/

namespace Bdlib.Rca
open Bdlib Bdlib.Spec St

variable {T : Type} [DecidableEq T] {cfg : Cfg T}

/-- A call throws `bad_alloc` only if the allocator refused a request, made during the call, for no more than the call may
ask for. -/
theorem c77_refused (hv : cfg.Valid) (hp : cfg.Physical) {s s' : St T} {env : Env T} (h : Reach cfg s env)
    {op : Op T} (hpre : Pre cfg (shared s) env op) (hrun : run cfg op s = .throw .badAlloc s') :
    ∃ g n, s.gen < g ∧ g ≤ s'.gen ∧ n ≤ op.demand cfg.scale env ∧ cfg.allocOk g n = false :=
  refusedAt_of_throw hv hp h hpre hrun

/-- Hence a call for which there is enough memory returns or throws `out_of_range`. -/
theorem c77_enough (hv : cfg.Valid) (hp : cfg.Physical) {s : St T} {env : Env T} (h : Reach cfg s env)
    {op : Op T} (hpre : Pre cfg (shared s) env op) (hok : ∀ g n, n ≤ op.demand cfg.scale env → cfg.allocOk g n = true) :
    (∃ x s' env', run cfg op s = .ok x s' ∧ Post cfg (shared s) env op (.ret x) env' ∧ Reach cfg s' env') ∨
    (∃ s' env', run cfg op s = .throw .outOfRange s' ∧ Post cfg (shared s) env op (.exc .outOfRange) env' ∧ Reach cfg s' env') := by
  obtain ⟨out, s', env', hres, hpost, hreach⟩ := h.call hv hp hpre
  cases out with
  | ret x => exact .inl ⟨x, s', env', result_ok hres, hpost, hreach⟩
  | exc e =>
    cases e with
    | outOfRange => exact .inr ⟨s', env', result_throw hres, hpost, hreach⟩
    | badAlloc =>
      obtain ⟨g, n, _, _, h1, h2⟩ := c77_refused hv hp h hpre (result_throw hres)
      rw [hok g n h1] at h2
      cases h2

/-- No buffer is longer afterwards than what the call may ask for, unless some object had a buffer of that length before. -/
theorem c77_capacity (hv : cfg.Valid) (hp : cfg.Physical) {s s' : St T} {env : Env T} (h : Reach cfg s env)
    {op : Op T} (hpre : Pre cfg (shared s) env op) {out : Outcome T} (hres : result (run cfg op s) = some (out, s'))
    {p c : Nat} (hc : capacity p s' = .ok c s') :
    c ≤ op.demand cfg.scale env ∨ ∃ q, capacity q s = .ok c s := by
  obtain ⟨hwf, hcap, hA⟩ := h.inv hv hp
  have hm := modest_run hwf hcap hA hpre
  have hs : Sized (op.demand cfg.scale env) s s' := by
    unfold Modest at hm
    cases hr : run cfg op s with
    | ok x t => rw [hr] at hm hres; cases hres; exact hm.2
    | throw e t => rw [hr] at hm hres; cases hres; exact hm.2.1
    | ub => rw [hr] at hres; cases hres
  unfold capacity at hc
  cases ho : s'.obj p with
  | none =>
    change M.bind (getObj p) _ s' = _ at hc
    unfold M.bind getObj at hc
    rw [ho] at hc; cases hc
  | some ob =>
    rw [bind_ok (getObj_eq ho)] at hc
    cases hr : ob.ref with
    | none => rw [hr] at hc; cases hc; exact .inl (Nat.zero_le _)
    | some a =>
      rw [hr] at hc
      cases hb : s'.blk a with
      | none =>
        change M.bind (getBlk a) _ s' = _ at hc
        unfold M.bind getBlk at hc
        rw [hb] at hc; cases hc
      | some b =>
        have h1 : (getBlk a : M T (Block T)) s' = .ok b s' := by unfold getBlk; rw [hb]
        change (getBlk a >>= _) s' = _ at hc
        rw [bind_ok h1] at hc
        cases hc
        rcases hs a b hb with h2 | ⟨b0, h2, h3⟩
        · exact .inl h2
        · obtain ⟨q, hq⟩ := (c02_storage_iff_owner hv hp h a).mp ⟨b0, h2⟩
          obtain ⟨ob0, hob, hr0⟩ := obj_of_storage hq
          refine .inr ⟨q, ?_⟩
          rw [capacity_run hob hr0 h2, h3]

/-- The calls that need no memory of their own. -/
def Op.Quiet : Op T → Prop
  | .ctor | .copyCtor _ | .moveCtor _ | .substring _ _ _ | .destroy _ | .copyAssign _ _ | .moveAssign _ _ | .swap _ _
  | .clear _ | .length _ | .read _ _ | .at _ _ | .hash _ | .slice _ _ _ | .popBack _ | .dropFront _ _ | .dropBack _ _
  | .arrDropFront _ _ | .arrDropBack _ _ | .shift _ | .pop _ => True
  | _ => False

omit [DecidableEq T] in
/-- Requests are counted; with an allocator that always refuses, a call that returns made none. -/
theorem calm_gen {α : Type} {m : M T α} (h : Calm m) (s : St T) :
    match m s with
    | .ok _ s' => s'.gen = s.gen
    | .throw e s' => e ≠ .badAlloc ∧ s'.gen = s.gen
    | .ub => True := by
  let L : Law T (fun _ _ => false) :=
    { R := fun s s' => s'.gen = s.gen
      E := fun e s s' => e ≠ .badAlloc → s'.gen = s.gen
      refl := fun _ => rfl
      trans := fun _ _ _ h1 h2 => h2.trans h1
      transE := fun _ _ _ _ h1 h2 he => (h2 he).trans h1
      thenE := fun _ _ _ _ h1 h2 he => h2.trans (h1 he)
      range := fun _ _ => rfl
      objs := fun _ _ => rfl
      freed := fun _ _ => rfl
      putBlk := fun _ _ _ _ _ _ => rfl
      delBlk := fun _ _ => rfl
      newBlk := fun _ => rfl
      alloc := fun _ _ h => by cases h
      refuse := fun _ _ _ h => absurd rfl h }
  have h1 := h _ L s
  have h2 := h _ (noBadLaw T) s
  cases hm : m s with
  | ok a t => rw [hm] at h1; exact h1
  | throw e t => rw [hm] at h1 h2; exact ⟨h2, h1 h2⟩
  | ub => trivial

/-- Copying, moving, slicing, looking, dropping: these calls make no request at all, in contract or not, in any state, and so
never throw `bad_alloc`. -/
theorem c77_quiet {s : St T} {op : Op T} (hq : Op.Quiet op) :
    match run cfg op s with
    | .ok _ s' => s'.gen = s.gen
    | .throw e s' => e = .outOfRange ∧ s'.gen = s.gen
    | .ub => True := by
  have hcalm : Calm (run cfg op) := by
    intro ok L
    cases op with
    | ctor => exact .mapOut (.newObj _)
    | copyCtor r => exact .mapOut (.copyCtor _)
    | moveCtor r => exact .mapOut (.moveCtor _)
    | substring r a b => exact .mapOut (.substring _ _ _)
    | destroy o => exact .mapOut (.destroy _ _)
    | copyAssign o r => exact .mapOut (.copyAssign _ _)
    | moveAssign o r => exact .mapOut (.moveAssign _ _)
    | swap o r => exact .mapOut (.swap _ _)
    | clear o => exact .mapOut (.clear _)
    | length o => exact .mapOut (.length _)
    | read o i => exact .mapOut (.read _ _)
    | «at» o i => exact .mapOut (.at' _ _)
    | hash o => exact .mapOut (.hash _ _)
    | slice o a b => exact .mapOut (.slice _ _ _)
    | popBack o => exact .mapOut (.popBack _)
    | dropFront o n => exact .mapOut (.dropFront _ _)
    | dropBack o n => exact .mapOut (.dropBack _ _)
    | arrDropFront o n => exact .mapOut (.arrDropFront _ _)
    | arrDropBack o n => exact .mapOut (.arrDropBack _ _)
    | shift o => exact .mapOut (.shift _ _)
    | pop o => exact .mapOut (.pop _ _)
    | _ => exact hq.elim
  have := calm_gen hcalm s
  cases hr : run cfg op s with
  | ok a t => rw [hr] at this; exact this
  | ub => trivial
  | throw e t =>
    rw [hr] at this
    refine ⟨?_, this.2⟩
    cases e with
    | outOfRange => rfl
    | badAlloc => exact absurd rfl this.1

/-! ## Examples -/

/-- Appending a fourth element to `{1,2,3}`: room for 4 elements is needed, at most 6 are asked for. -/
example : Op.demand tightCfg.scale (Env.empty.upd 0 (.val [1, 2, 3])) (.append 0 4) = 6 := rfl
example : ∃ s', run tightCfg (.append 0 4) stTight1 = .throw .badAlloc s' ∧ tightCfg.allocOk s'.gen 4 = false := ⟨_, rfl, rfl⟩
/-- With enough memory the buffer grows to 4 cells. -/
example : ∃ s', run arrCfg (.append 0 4) stTight1 = .ok .unit s' ∧ capacity 0 s' = .ok 4 s' := ⟨_, rfl, rfl⟩

end Bdlib.Rca
