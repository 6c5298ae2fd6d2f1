import Verif.Prog.Iter
import Verif.Props.C19
import Verif.Props.C02

/-!
# C72: iterating

Loops over the elements see each of them once, in order; loops that assign change exactly the object they run over.
-/

namespace Bdlib.Rca
open Bdlib Bdlib.Spec

variable {T : Type} [DecidableEq T] {cfg : Cfg T} {s : St T} {env : Env T}

/-! ## Reading -/

/-- The cells from `i` on hold `v`. -/
def Holds (s : St T) (a g i : Nat) (v : List T) : Prop := ∀ k x, v[k]? = some x → loadPtr ⟨a, g, i + k⟩ s = .ok x s

theorem holds_cons {a g i : Nat} {x : T} {v : List T} (h : Holds s a g i (x :: v)) :
    loadPtr ⟨a, g, i⟩ s = .ok x s ∧ Holds s a g (i + 1) v := by
  refine ⟨h 0 x rfl, fun k y hk => ?_⟩
  have := h (k + 1) y (by simpa using hk)
  rwa [show i + (k + 1) = i + 1 + k by omega] at this

theorem walk_spec : ∀ (v : List T) {a g i fuel : Nat}, Holds s a g i v → v.length < fuel →
    walk fuel (some ⟨a, g, i⟩) (some ⟨a, g, i + v.length⟩) s = .ok v s
  | v, a, g, i, 0, _, hf => absurd hf (by omega)
  | [], a, g, i, fuel + 1, _, _ => by
    unfold walk
    rw [if_pos (by rfl)]
    rfl
  | x :: v, a, g, i, fuel + 1, h, hf => by
    obtain ⟨h1, h2⟩ := holds_cons h
    have ih := walk_spec v h2 (fuel := fuel) (by simpa using hf)
    unfold walk
    rw [if_neg (by simp), bind_ok (show It.load (some ⟨a, g, i⟩) s = .ok x s from h1)]
    rw [bind_ok (show It.plus (some ⟨a, g, i⟩) 1 s = .ok (some ⟨a, g, i + 1⟩) s from rfl)]
    rw [show i + (x :: v).length = i + 1 + v.length by simp; omega, bind_ok ih]
    rfl

theorem walkBack_spec : ∀ (n : Nat) (v : List T), v.length = n → ∀ {a g i fuel : Nat}, Holds s a g i v → v.length < fuel →
    walkBack fuel (some ⟨a, g, i + v.length⟩) (some ⟨a, g, i⟩) s = .ok v.reverse s
  | n, v, _, a, g, i, 0, _, hf => absurd hf (by omega)
  | 0, v, hn, a, g, i, fuel + 1, _, _ => by
    have : v = [] := List.length_eq_zero_iff.1 hn
    subst this
    unfold walkBack
    rw [if_pos (by rfl)]
    rfl
  | n + 1, v, hn, a, g, i, fuel + 1, h, hf => by
    obtain ⟨w, x, rfl⟩ : ∃ w x, v = w ++ [x] :=
      ⟨v.dropLast, v.getLast (by intro e; subst e; cases hn), (List.dropLast_concat_getLast _).symm⟩
    simp only [List.length_append, List.length_singleton] at hn hf
    have ih := walkBack_spec n w (by omega) (a := a) (g := g) (i := i) (fuel := fuel)
      (fun k y hk => h k y (by rw [List.getElem?_append_left (List.getElem?_eq_some_iff.1 hk).1]; exact hk)) (by omega)
    unfold walkBack
    rw [if_neg (by simp)]
    rw [bind_ok (show It.back (some ⟨a, g, i + (w ++ [x]).length⟩) s = .ok (some ⟨a, g, i + w.length⟩) s by
      simp only [It.back, List.length_append, List.length_singleton]
      rw [if_neg (by omega)]
      rfl)]
    rw [bind_ok (show It.load (some ⟨a, g, i + w.length⟩) s = .ok x s from h w.length x (by simp)), bind_ok ih]
    simp
    rfl

/-- The iterators of an object that holds `v`. -/
theorem its_of (hv : cfg.Valid) (hp : cfg.Physical) (hr : Reach cfg s env) {o : Nat} {v : List T} (ho : env o = .val v) :
    (v = [] ∧ cbeginI o s = .ok none s ∧ cendI o s = .ok none s) ∨
    ∃ a g i, cbeginI o s = .ok (some ⟨a, g, i⟩) s ∧ cendI o s = .ok (some ⟨a, g, i + v.length⟩) s ∧ Holds s a g i v := by
  obtain ⟨hwf, _, _⟩ := hr.inv hv hp
  have hview := hr.view_eq hv hp ho
  obtain ⟨ob, hob, hvo, hsl⟩ := obj_of_view hview
  have hl : length o s = .ok v.length s := length_spec hview
  cases href : ob.ref with
  | none =>
    have hc : cbeginI o s = .ok none s := by
      unfold cbeginI
      rw [bind_ok (getObj_eq hob), href]
      rfl
    have h0 : v = [] := by
      simp only [St.viewOf, href] at hvo
      split at hvo
      · injection hvo with h; exact h.symm
      · cases hvo
    refine Or.inl ⟨h0, hc, ?_⟩
    unfold cendI
    rw [bind_ok hc, bind_ok hl, h0]
    rfl
  | some a =>
    obtain ⟨b, hb, hle⟩ := hwf.le hob href
    have hgb : getBlk a s = .ok b s := by unfold getBlk; rw [hb]
    have hc : cbeginI o s = .ok (some ⟨a, b.gen, ob.offset⟩) s := by
      unfold cbeginI
      rw [bind_ok (getObj_eq hob), href]
      show M.bind (getBlk a) _ s = _
      unfold M.bind
      rw [hgb]
      rfl
    refine Or.inr ⟨a, b.gen, ob.offset, hc, ?_, fun k x hx => ?_⟩
    · unfold cendI
      rw [bind_ok hc, bind_ok hl]
      rfl
    · exact loadPtr_elem hv hp hr ho hx (p := ⟨a, b.gen, ob.offset + k⟩) (by
        unfold ptrTo
        rw [bind_ok (getObj_eq hob), href]
        show M.bind (getBlk a) _ s = _
        unfold M.bind
        rw [hgb]
        rfl)

/-- A loop over a const object, forwards: every element once, in order, nothing changes. -/
theorem c72_forward (hv : cfg.Valid) (hp : cfg.Physical) (hr : Reach cfg s env) {o : Nat} {v : List T} (ho : env o = .val v)
    {fuel : Nat} (hf : v.length < fuel) : eachConst fuel o s = .ok v s := by
  unfold eachConst
  rcases its_of hv hp hr ho with ⟨rfl, h1, h2⟩ | ⟨a, g, i, h1, h2, h3⟩
  · rw [bind_ok h1, bind_ok h2]
    cases fuel with
    | zero => simp at hf
    | succ n => rfl
  · rw [bind_ok h1, bind_ok h2]
    exact walk_spec v h3 hf

/-- ... and backwards. -/
theorem c72_backward (hv : cfg.Valid) (hp : cfg.Physical) (hr : Reach cfg s env) {o : Nat} {v : List T} (ho : env o = .val v)
    {fuel : Nat} (hf : v.length < fuel) : eachBack fuel o s = .ok v.reverse s := by
  unfold eachBack
  rcases its_of hv hp hr ho with ⟨rfl, h1, h2⟩ | ⟨a, g, i, h1, h2, h3⟩
  · rw [bind_ok h2, bind_ok h1]
    cases fuel with
    | zero => simp at hf
    | succ n => rfl
  · rw [bind_ok h2, bind_ok h1]
    exact walkBack_spec _ v rfl h3 hf

/-! ## Writing -/

/-- `o` alone owns its buffer, which has room. -/
structure Mine (cfg : Cfg T) (s0 s : St T) (o : Nat) (ob : Obj) (a : Nat) (b : Block T) (v : List T) : Prop where
  own : Own cfg s0 s o ob a b
  len : ob.sublen = v.length
  win : window b.cells ob.offset v.length = v
  room : ob.offset + room cfg v.length ≤ b.cells.length

theorem Mine.fits {s0 : St T} {o a : Nat} {ob : Obj} {b : Block T} {v : List T} (h : Mine cfg s0 s o ob a b v) :
    ob.offset + v.length ≤ b.cells.length := by
  have := h.room
  have := le_room cfg v.length
  omega

theorem Mine.cbegin {s0 : St T} {o a : Nat} {ob : Obj} {b : Block T} {v : List T} (h : Mine cfg s0 s o ob a b v) :
    cbeginI o s = .ok (some ⟨a, b.gen, ob.offset⟩) s := by
  unfold cbeginI
  rw [bind_ok (getObj_eq h.own.obj), h.own.ref]
  show M.bind (getBlk a) _ s = _
  unfold M.bind getBlk
  rw [h.own.blk]
  rfl

/-- `begin()` of an object that owns its buffer changes nothing that matters. -/
theorem Mine.again {s0 : St T} {o a : Nat} {ob : Obj} {b : Block T} {v : List T} (h : Mine cfg s0 s o ob a b v) :
    ∃ s' b', getOwnCopy cfg o s = .ok () s' ∧ Mine cfg s0 s' o ob a b' v ∧ b'.gen = b.gen := by
  have hrca : ∀ m, ob.offset + m ≤ b.cells.length → rcaReserve cfg o m cfg.scale s = .ok () s := by
    intro m hm
    unfold rcaReserve
    rw [bind_ok (getObj_eq h.own.obj), h.own.ref]
    simp only [pure_bind']
    rw [bind_ok (arefReserve_noop h.own.blk hm), bind_ok (getObj_eq h.own.obj)]
    exact congrArg _ (setObj_self h.own.obj)
  have hgoc : getOwnCopy cfg o s = reserve cfg o v.length cfg.scale s := by
    unfold getOwnCopy
    rw [bind_ok (show length o s = .ok v.length s by
      unfold length; rw [bind_ok (getObj_eq h.own.obj), h.len]; rfl)]
    unfold aboutToModify
    rw [bind_ok (getObj_eq h.own.obj)]
    have e : ({ ob with hash := 0 } : Obj) = ob := by have := h.own.hash; cases ob; simp_all
    rw [e, bind_ok (show putObj o ob s = .ok () s from congrArg _ (setObj_self h.own.obj))]
    rw [bind_ok (show isShared o s = .ok false s by
      unfold isShared
      rw [bind_ok (getObj_eq h.own.obj), h.own.ref]
      show M.bind (getBlk a) _ s = _
      unfold M.bind getBlk
      rw [h.own.blk]
      show Res.ok (decide (b.refs > 1)) s = _
      rw [h.own.refs]
      rfl)]
    rfl
  rw [hgoc]
  unfold reserve
  cases hnul : cfg.nul with
  | none =>
    simp only
    rw [hrca _ h.fits]
    exact ⟨s, b, rfl, h, rfl⟩
  | some c =>
    simp only
    unfold strReserve
    have hrm : (if v.length > 0 then v.length + 1 else v.length) = Rca.room cfg v.length := by
      unfold Rca.room
      by_cases h0 : v.length > 0 <;> simp [hnul, h0]
    rw [bind_ok (hrca _ (by rw [hrm]; exact h.room)), bind_ok (getObj_eq h.own.obj), h.own.ref]
    have hgb : getBlk a s = .ok b s := by unfold getBlk; rw [h.own.blk]
    dsimp only
    rw [bind_ok hgb]
    by_cases h0 : b.cells.length = 0
    · rw [if_pos h0, if_pos (by have := h.fits; omega)]
      exact ⟨s, b, rfl, h, rfl⟩
    · rw [if_neg h0]
      have hlen : (overwrite b.cells (b.cells.length - 1) [c]).length = b.cells.length :=
        overwrite_length (by simp only [List.length_singleton]; omega)
      have how := h.own.setBlk (b' := { b with cells := overwrite b.cells (b.cells.length - 1) [c] }) h.own.refs
        (h.own.wf.gens a b h.own.blk) (by simp only [hlen]; exact h.own.need)
      refine ⟨_, _, rfl, ⟨how, h.len, ?_, ?_⟩, rfl⟩
      · by_cases hv0 : v.length = 0
        · rw [hv0, window_zero]
          exact (List.length_eq_zero_iff.mp hv0).symm
        · have hroom := h.room
          rw [← hrm, if_pos (by omega)] at hroom
          show window (overwrite _ _ _) _ _ = _
          rw [window_overwrite_after (by omega) (by omega)]
          exact h.win
      · show _ ≤ (overwrite _ _ _).length
        rw [hlen]
        exact h.room

theorem Mine.begin {s0 : St T} {o a : Nat} {ob : Obj} {b : Block T} {v : List T} (h : Mine cfg s0 s o ob a b v) :
    ∃ s' b', beginI cfg o s = .ok (some ⟨a, b.gen, ob.offset⟩) s' ∧ Mine cfg s0 s' o ob a b' v ∧ b'.gen = b.gen := by
  obtain ⟨s', b', h1, h2, h3⟩ := h.again
  refine ⟨s', b', ?_, h2, h3⟩
  unfold beginI
  rw [bind_ok h1, h2.cbegin, h3]

theorem Mine.end {s0 : St T} {o a : Nat} {ob : Obj} {b : Block T} {v : List T} (h : Mine cfg s0 s o ob a b v) :
    ∃ s' b', endI cfg o s = .ok (some ⟨a, b.gen, ob.offset + v.length⟩) s' ∧ Mine cfg s0 s' o ob a b' v ∧ b'.gen = b.gen := by
  obtain ⟨s', b', h1, h2, h3⟩ := h.begin
  refine ⟨s', b', ?_, h2, h3⟩
  unfold endI
  rw [bind_ok h1, bind_ok (show length o s' = .ok v.length s' by
      unfold length; rw [bind_ok (getObj_eq h2.own.obj), h2.len]; rfl)]
  rfl

/-- An element is read through an iterator. -/
theorem Mine.load {s0 : St T} {o a i : Nat} {ob : Obj} {b : Block T} {v : List T} (h : Mine cfg s0 s o ob a b v) {x : T}
    (hx : v[i]? = some x) : loadPtr ⟨a, b.gen, ob.offset + i⟩ s = .ok x s := by
  refine loadPtr_of h.own.blk rfl ?_
  rw [← h.win] at hx
  unfold window at hx
  rw [List.getElem?_take] at hx
  split at hx
  · rw [List.getElem?_drop] at hx; exact hx
  · cases hx

/-- An element is assigned through an iterator. -/
theorem Mine.store {s0 : St T} {o a i : Nat} {ob : Obj} {b : Block T} {v : List T} (h : Mine cfg s0 s o ob a b v) {x : T}
    (hi : i < v.length) :
    ∃ s' b', storePtr ⟨a, b.gen, ob.offset + i⟩ x s = .ok () s' ∧ Mine cfg s0 s' o ob a b' (v.set i x) ∧ b'.gen = b.gen := by
  have hfit := h.fits
  have hs := writeRange_own (vs := [x]) (E := fun _ _ => False) (i := i)
    (Q := fun _ s' => Own cfg s0 s' o ob a { b with cells := overwrite b.cells (ob.offset + i) [x] }) h.own
    (by simp only [List.length_singleton]; omega) fun _ h => h
  rw [← storePtr_eq h.own (by omega)] at hs
  cases hst : storePtr ⟨a, b.gen, ob.offset + i⟩ x s with
  | ub => rw [hst] at hs; exact hs.elim
  | throw e t => rw [hst] at hs; exact hs.elim
  | ok u s' =>
    rw [hst] at hs
    refine ⟨s', _, rfl, ⟨hs, by simp [h.len], ?_, ?_⟩, rfl⟩
    · have hwin := overwrite_view (xs := [x]) (N := v.length) (Nat.le_of_lt hi) h.win
        (by simp only [List.length_singleton]; split <;> omega) (by omega)
      simp only [List.length_singleton] at hwin
      rw [List.length_set, hwin, set_eq_splice hi]
    · rw [List.length_set]
      show _ ≤ (overwrite _ _ _).length
      rw [overwrite_length (by simp only [List.length_singleton]; omega)]
      exact h.room

theorem assignEach_spec (f : T → T) {s0 : St T} {o a g : Nat} {ob : Obj} : ∀ (rest : List T) {s : St T} {b : Block T} {fuel : Nat}
    (pre : List T), Mine cfg s0 s o ob a b (pre ++ rest) → b.gen = g → rest.length < fuel →
    ∃ s' b', assignEach f fuel (some ⟨a, g, ob.offset + pre.length⟩) (some ⟨a, g, ob.offset + pre.length + rest.length⟩) s = .ok () s' ∧
      Mine cfg s0 s' o ob a b' (pre ++ rest.map f)
  | rest, s, b, 0, pre, _, _, hf => absurd hf (by omega)
  | [], s, b, fuel + 1, pre, h, hg, _ => by
    refine ⟨s, b, ?_, by simpa using h⟩
    unfold assignEach
    rw [if_pos (by rfl)]
    rfl
  | x :: rest, s, b, fuel + 1, pre, h, hg, hf => by
    subst hg
    have hx := h.load (i := pre.length) (x := x) (by simp)
    obtain ⟨s1, b1, h1, h2, h3⟩ := h.store (i := pre.length) (x := f x) (by simp)
    have hset : (pre ++ x :: rest).set pre.length (f x) = (pre ++ [f x]) ++ rest := by
      rw [List.set_append_right _ _ (Nat.le_refl _)]
      simp
    rw [hset] at h2
    obtain ⟨s2, b2, h4, h5⟩ := assignEach_spec f rest (fuel := fuel) (pre ++ [f x]) h2 h3 (by simpa using hf)
    refine ⟨s2, b2, ?_, by simpa using h5⟩
    unfold assignEach
    rw [if_neg (by simp), bind_ok (show It.load (some ⟨a, b.gen, ob.offset + pre.length⟩) s = .ok x s from hx)]
    rw [bind_ok (show It.store (some ⟨a, b.gen, ob.offset + pre.length⟩) (f x) s = .ok () s1 from h1)]
    rw [bind_ok (show It.plus (some ⟨a, b.gen, ob.offset + pre.length⟩) 1 s1 = .ok (some ⟨a, b.gen, ob.offset + pre.length + 1⟩) s1 from rfl)]
    simp only [List.length_append, List.length_singleton] at h4
    rw [show ob.offset + pre.length + (x :: rest).length = ob.offset + (pre.length + 1) + rest.length by
      simp only [List.length_cons]; omega, show ob.offset + pre.length + 1 = ob.offset + (pre.length + 1) by omega]
    exact h4

theorem Mine.shows {s0 : St T} {o a : Nat} {ob : Obj} {b : Block T} {v : List T} (h : Mine cfg s0 s o ob a b v) : Shows s o v :=
  shows_of_view h.own.wf (by rw [h.own.view, h.len, h.win])

theorem Reach.keeps (hv : cfg.Valid) (hp : cfg.Physical) (hr : Reach cfg s env) {s' : St T} {o : Nat} (hw : WF cfg s') (hf : Frame s s' o) :
    OthersKeep env o s' := by
  obtain ⟨_, _, hA⟩ := hr.inv hv hp
  intro p w hpo hpw
  have := hA.view (has_val hpw)
  rw [get_val hpw] at this
  exact shows_of_view hw (by rw [hf.view hpo]; exact this)

/-- `begin()` leads to sole ownership, or there is no memory. -/
theorem own_or (hv : cfg.Valid) (hp : cfg.Physical) (hr : Reach cfg s env) {o : Nat} {v : List T} (ho : env o = .val v) :
    (∃ s' ob a b, getOwnCopy cfg o s = .ok () s' ∧ Mine cfg s s' o ob a b v) ∨
    ∃ s', getOwnCopy cfg o s = .throw .badAlloc s' ∧ Shows s' o (if shared s o then [] else v) ∧ OthersKeep env o s' := by
  obtain ⟨hwf, _, _⟩ := hr.inv hv hp
  have := getOwnCopy_spec (Q := fun _ s' => ∃ ob a b, Mine cfg s s' o ob a b v)
    (E := fun e s' => e = .badAlloc ∧ Shows s' o (if shared s o then [] else v) ∧ OthersKeep env o s') hwf (hr.view_eq hv hp ho)
    (fun s' ob a b h1 h2 h3 h4 => ⟨ob, a, b, h1, h2, h3, h4⟩)
    (fun s' ob h1 h2 h3 h4 => ⟨rfl, shows_of_view h1 h4, hr.keeps hv hp h1 h2⟩)
  cases h : getOwnCopy cfg o s with
  | ub => rw [h] at this; exact this.elim
  | throw e t => rw [h] at this; obtain ⟨rfl, h1⟩ := this; exact Or.inr ⟨t, rfl, h1⟩
  | ok u t => rw [h] at this; obtain ⟨ob, a, b, h1⟩ := this; exact Or.inl ⟨t, ob, a, b, rfl, h1⟩

/-- `for (auto& x : a) x = f(x);`: every element is assigned once; no other object changes.  If there is no memory for an
own copy, nothing is assigned (and the copy-on-write rule of C13 applies). -/
theorem c72_range_for (hv : cfg.Valid) (hp : cfg.Physical) (hr : Reach cfg s env) {o : Nat} {v : List T} (ho : env o = .val v)
    (f : T → T) {fuel : Nat} (hf : v.length < fuel) :
    (∃ s', rangeFor cfg f fuel o s = .ok () s' ∧ Shows s' o (v.map f) ∧ OthersKeep env o s' ∧ isShared o s' = .ok false s') ∨
    ∃ s', rangeFor cfg f fuel o s = .throw .badAlloc s' ∧ Shows s' o (if shared s o then [] else v) ∧ OthersKeep env o s' := by
  rcases own_or hv hp hr ho with ⟨s1, ob, a, b, h1, hm⟩ | ⟨s1, h1, h2, h3⟩
  · obtain ⟨s2, b2, h4, hm2, hg2⟩ := hm.end
    obtain ⟨s3, b3, h5, hm3⟩ := assignEach_spec f v (fuel := fuel) [] hm2 hg2 hf
    refine Or.inl ⟨s3, ?_, hm3.shows, hr.keeps hv hp hm3.own.wf hm3.own.frame, ?_⟩
    · unfold rangeFor
      rw [bind_ok (show beginI cfg o s = .ok (some ⟨a, b.gen, ob.offset⟩) s1 by
        unfold beginI
        rw [bind_ok h1, hm.cbegin]), bind_ok h4]
      exact h5
    · unfold isShared
      rw [bind_ok (getObj_eq hm3.own.obj), hm3.own.ref]
      show M.bind (getBlk a) _ s3 = _
      unfold M.bind getBlk
      rw [hm3.own.blk]
      show Res.ok (decide (b3.refs > 1)) s3 = _
      rw [hm3.own.refs]
      rfl
  · refine Or.inr ⟨s1, ?_, h2, h3⟩
    unfold rangeFor
    apply bind_throw
    unfold beginI
    exact bind_throw h1

/-! ## Inserting at an iterator -/

theorem insertItem_mine (hwf : WF cfg s) {o pos : Nat} {v : List T} {x : T} (hv : s.view o = some v) (hp : pos ≤ v.length) :
    (insertItem cfg o pos x s).Sat (fun _ s' => ∃ ob a b, Mine cfg s s' o ob a b (v.take pos ++ [x] ++ v.drop pos))
      (fun e s' => e = .badAlloc ∧ WF cfg s' ∧ Frame s s' o ∧ s'.view o = some (if shared s o then [] else v)) := by
  unfold insertItem
  apply sat_of_eq_ok (validatePos_ok hv hp)
  apply sat_of_eq_ok (length_spec hv)
  refine sat_bind (aboutToModify_spec hwf hv (Nat.le_succ _) ?_ mutates_exc)
  intro s1 ob a b how hsl hw hroom
  have hr := le_room cfg (v.length + 1)
  have hnr := need_le_room hwf.valid (Nat.le_refl (v.length + 1))
  apply shiftRight_own how hsl hw hp (by omega)
  intro s2 b2 how2 hl2 hsplice _
  apply sat_bind
  apply writeRange_own how2 (by simp; omega)
  intro s3 how3
  have hl3 : (overwrite b2.cells (ob.offset + pos) [x]).length = b2.cells.length :=
    overwrite_length (by simp; omega)
  apply bumpLength_own how3 (by simp only [hl3, hsl]; omega)
  intro s4 how4
  have hlen : (v.take pos ++ [x] ++ v.drop pos).length = v.length + 1 := by simp; omega
  refine ⟨_, _, _, how4, ?_, ?_, ?_⟩
  · rw [hlen]; simp only [hsl]
  · rw [hlen]; exact hsplice [x] rfl
  · rw [hlen]; simp only [hl3]; omega

/-- `it = a.insert(a.cbegin() + k, x)`: `x` is inserted before the `k`-th element, and `it` refers to it (assigning
through it changes only `a`). -/
theorem c72_insert (hv : cfg.Valid) (hp : cfg.Physical) (hr : Reach cfg s env) {o k : Nat} {v : List T} (ho : env o = .val v)
    (hk : k ≤ v.length) (x : T) {pos b : It} (hb : cbeginI o s = .ok b s) (hpos : b.plus k s = .ok pos s) :
    (∃ it s', insertIt cfg o pos x s = .ok it s' ∧ Shows s' o (v.take k ++ [x] ++ v.drop k) ∧ OthersKeep env o s' ∧
      it.load s' = .ok x s' ∧
      ∀ y, ∃ s'', it.store y s' = .ok () s'' ∧ Shows s'' o (v.take k ++ [y] ++ v.drop k) ∧ OthersKeep env o s'') ∨
    ∃ s', insertIt cfg o pos x s = .throw .badAlloc s' ∧ Shows s' o (if shared s o then [] else v) ∧ OthersKeep env o s' := by
  obtain ⟨hwf, _, _⟩ := hr.inv hv hp
  have hmin : pos.minus b s = .ok k s := by
    cases b with
    | none =>
      by_cases h0 : k = 0
      · subst h0
        injection hpos with h1
        subst h1
        rfl
      · change (if k = 0 then pure none else M.undef : M T It) s = _ at hpos
        rw [if_neg h0] at hpos
        cases hpos
    | some p =>
      injection hpos with h1
      subst h1
      unfold It.minus
      dsimp only
      rw [if_pos ⟨rfl, rfl, by omega⟩, Nat.add_sub_cancel_left]
      rfl
  have hins := insertItem_mine (x := x) hwf (hr.view_eq hv hp ho) hk
  have hstep : insertIt cfg o pos x s = (M.bind (insertItem cfg o k x) fun _ => M.bind (beginI cfg o) fun p => p.plus k) s := by
    unfold insertIt
    rw [bind_ok hb, bind_ok hmin]
    rfl
  cases hi : insertItem cfg o k x s with
  | ub => rw [hi] at hins; exact hins.elim
  | throw e t =>
    rw [hi] at hins
    obtain ⟨rfl, h1, h2, h3⟩ := hins
    refine Or.inr ⟨t, ?_, shows_of_view h1 h3, hr.keeps hv hp h1 h2⟩
    rw [hstep]
    unfold M.bind
    rw [hi]
  | ok u t =>
    rw [hi] at hins
    obtain ⟨ob, a, b', hm⟩ := hins
    obtain ⟨t2, b2, h4, hm2, hg2⟩ := hm.begin
    have hkth : (v.take k ++ [x] ++ v.drop k)[k]? = some x := by
      have hl : (v.take k).length = k := by rw [List.length_take]; omega
      rw [List.append_assoc, List.getElem?_append_right (by omega), hl, Nat.sub_self]
      rfl
    refine Or.inl ⟨some ⟨a, b'.gen, ob.offset + k⟩, t2, ?_, hm2.shows, hr.keeps hv hp hm2.own.wf hm2.own.frame, ?_, fun y => ?_⟩
    · rw [hstep]
      unfold M.bind
      rw [hi]
      dsimp only
      rw [h4]
      rfl
    · rw [← hg2]
      exact hm2.load hkth
    · obtain ⟨t3, b3, h5, hm3, -⟩ := hm2.store (i := k) (x := y) (by simp; omega)
      have hset : (v.take k ++ [x] ++ v.drop k).set k y = v.take k ++ [y] ++ v.drop k := by
        have hl : (v.take k).length = k := by rw [List.length_take]; omega
        rw [List.append_assoc, List.set_append_right _ _ (by omega), hl, Nat.sub_self]
        simp
      rw [hset] at hm3
      refine ⟨t3, ?_, hm3.shows, hr.keeps hv hp hm3.own.wf hm3.own.frame⟩
      rw [← hg2]
      exact h5

/-! ## What goes wrong -/

theorem loadPtr_cases (p : Ptr) (s : St T) : loadPtr p s = .ub ∨ ∃ x, loadPtr p s = .ok x s := by
  unfold loadPtr
  show M.bind (getBlk p.addr) _ s = _ ∨ ∃ x, M.bind (getBlk p.addr) _ s = _
  unfold M.bind getBlk
  cases s.blk p.addr with
  | none => exact Or.inl rfl
  | some b =>
    by_cases hg : b.gen = p.gen
    · cases hx : b.cells[p.idx]? with
      | none => left; simp [hg, hx, M.undef]
      | some x => right; refine ⟨x, ?_⟩; simp [hg, hx]; rfl
    · left; simp [hg, M.undef]

/-- The iterators never meet: the loop runs off the end of the buffer. -/
theorem walk_never {e : Ptr} : ∀ (fuel : Nat) (p : Ptr), p.addr ≠ e.addr → walk fuel (some p) (some e) s = .ub
  | 0, _, _ => rfl
  | fuel + 1, p, h => by
    unfold walk
    rw [if_neg (by intro he; injection he with he; exact h (by rw [he]))]
    have ih := walk_never fuel { p with idx := p.idx + 1 } h
    rcases loadPtr_cases p s with hl | ⟨x, hl⟩
    · show M.bind (loadPtr p) _ s = _
      unfold M.bind
      rw [hl]
    · rw [bind_ok (show It.load (some p) s = .ok x s from hl)]
      rw [bind_ok (show It.plus (some p) 1 s = .ok (some { p with idx := p.idx + 1 }) s from rfl)]
      show M.bind (walk fuel _ _) _ s = _
      unfold M.bind
      rw [ih]

/-- `for (auto it = a.cbegin(); it != a.end(); ++it)` on an object whose storage is shared: `end()` moves `a` to a new
buffer, while `it` points into the old one.  The loop never ends properly, whatever the contents. -/
theorem c72_refuted_mixed (hv : cfg.Valid) (hp : cfg.Physical) (hr : Reach cfg s env) {o : Nat} {v : List T} (ho : env o = .val v)
    (hsh : isShared o s = .ok true s) (fuel : Nat) :
    eachMixed cfg fuel o s = .ub ∨ ∃ s', eachMixed cfg fuel o s = .throw .badAlloc s' := by
  obtain ⟨b, hb, hiff⟩ := c02_isShared hv hp hr (live_val ho)
  rw [hsh] at hb
  cases hb
  obtain ⟨q, a0, hq, hs1, hs2⟩ := hiff.1 rfl
  obtain ⟨hwf, _, _⟩ := hr.inv hv hp
  obtain ⟨obo, hobo, hrefo⟩ : ∃ ob, s.obj o = some ob ∧ ob.ref = some a0 := by
    unfold storage at hs1
    cases h : s.obj o with
    | none => rw [h] at hs1; cases hs1
    | some ob => rw [h] at hs1; exact ⟨ob, rfl, hs1⟩
  obtain ⟨obq, hobq, hrefq⟩ : ∃ ob, s.obj q = some ob ∧ ob.ref = some a0 := by
    unfold storage at hs2
    cases h : s.obj q with
    | none => rw [h] at hs2; cases hs2
    | some ob => rw [h] at hs2; exact ⟨ob, rfl, hs2⟩
  obtain ⟨b0, hb0, -⟩ := hwf.le hobo hrefo
  have hc : cbeginI o s = .ok (some ⟨a0, b0.gen, obo.offset⟩) s := by
    unfold cbeginI
    rw [bind_ok (getObj_eq hobo), hrefo]
    show M.bind (getBlk a0) _ s = _
    unfold M.bind getBlk
    rw [hb0]
    rfl
  unfold eachMixed
  rw [bind_ok hc]
  rcases own_or hv hp hr ho with ⟨s1, ob, a, b, h1, hm⟩ | ⟨s1, h1, h2, h3⟩
  · have hbeg : beginI cfg o s = .ok (some ⟨a, b.gen, ob.offset⟩) s1 := by
      unfold beginI
      rw [bind_ok h1, hm.cbegin]
    have hend : endI cfg o s = .ok (some ⟨a, b.gen, ob.offset + v.length⟩) s1 := by
      unfold endI
      rw [bind_ok hbeg, bind_ok (show length o s1 = .ok v.length s1 by
        unfold length; rw [bind_ok (getObj_eq hm.own.obj), hm.len]; rfl)]
      rfl
    left
    rw [bind_ok hend]
    refine walk_never fuel _ ?_
    intro he
    have he : a0 = a := he
    subst he
    have h2 := St.owners_two (o := q) (by rw [(hm.own.frame q hq).1]; exact hobq) hrefq hm.own.obj hm.own.ref hq
    have h3 := (hm.own.wf.refs a0 b hm.own.blk).1
    have h4 := hm.own.refs
    omega
  · right
    refine ⟨s1, ?_⟩
    apply bind_throw
    unfold endI
    apply bind_throw
    unfold beginI
    exact bind_throw h1

/-- What an object shows is what its part of the buffer holds. -/
theorem shows_of_block {o a : Nat} {ob : Obj} {b : Block T} {v : List T} (ho : s.obj o = some ob) (hr : ob.ref = some a)
    (hb : s.blk a = some b) (hl : ob.sublen = v.length) (hw : window b.cells ob.offset v.length = v)
    (hle : ob.offset + v.length ≤ b.cells.length) : Shows s o v := by
  refine ⟨by unfold length; rw [bind_ok (getObj_eq ho), hl]; rfl, fun i hi => ?_⟩
  have := readRange_blk (Q := fun xs s' => xs = window b.cells (ob.offset + i) 1 ∧ s' = s) (E := fun _ _ => False) (i := i) (n := 1)
    ho hr hb (by omega) ⟨rfl, rfl⟩
  have hx : (window b.cells (ob.offset + i) 1).head? = v[i]? := by
    rw [List.head?_eq_getElem?, getElem?_window, if_pos (by omega), ← hw, getElem?_window, if_pos (by omega)]
    rfl
  unfold read
  cases hrr : readRange o i 1 s with
  | ub => rw [hrr] at this; exact this.elim
  | throw e t => rw [hrr] at this; exact this.elim
  | ok xs t =>
    rw [hrr] at this
    obtain ⟨rfl, rfl⟩ := this
    rw [bind_ok hrr, hx]
    rfl

/-- The buffer after `*(it + i) = x`. -/
theorem window_set {cells v : List T} {off i : Nat} {x : T} (hw : window cells off v.length = v)
    (hi : i < v.length) : window (cells.set (off + i) x) off (v.set i x).length = v.set i x := by
  apply List.ext_getElem?
  intro k
  have hk : (window cells off v.length)[k]? = v[k]? := by rw [hw]
  rw [getElem?_window] at hk
  rw [getElem?_window, List.length_set]
  by_cases h : k < v.length
  · rw [if_pos h] at hk ⊢
    rw [List.getElem?_set, List.getElem?_set, hk]
    by_cases hik : i = k
    · subst hik
      have : off + i < cells.length := by
        by_cases hlt : off + i < cells.length
        · exact hlt
        · rw [List.getElem?_eq_none (by omega), List.getElem?_eq_getElem h] at hk
          cases hk
      simp [this, h]
    · rw [if_neg (by omega), if_neg hik]
  · rw [if_neg h, List.getElem?_eq_none (by rw [List.length_set]; omega)]

/-- A copy made while an iterator is in use is not isolated: for every object, `auto it = a.begin(); auto c = a;
it[i] = x;` changes `c` as well as `a`. -/
theorem c72_refuted_copy (hv : cfg.Valid) (hp : cfg.Physical) (hr : Reach cfg s env) {o i : Nat} {v : List T} (ho : env o = .val v)
    (hi : i < v.length) (x : T) {it : It} {s1 : St T} (hb : beginI cfg o s = .ok it s1) :
    ∃ n s2, copyCtor o s1 = .ok n s2 ∧ n ≠ o ∧ Shows s2 n v ∧
      ∃ p s3, it.plus i s2 = .ok p s2 ∧ p.store x s2 = .ok () s3 ∧ Shows s3 o (v.set i x) ∧ Shows s3 n (v.set i x) := by
  rcases own_or hv hp hr ho with ⟨s1', ob, a, b, h1, hm⟩ | ⟨s1', h1, h2, h3⟩
  · have hbeg : beginI cfg o s = .ok (some ⟨a, b.gen, ob.offset⟩) s1' := by
      unfold beginI
      rw [bind_ok h1, hm.cbegin]
    rw [hbeg] at hb
    injection hb with hb1 hb2
    subst hb1 hb2
    have hc := copyCtor_spec hm.own.wf hm.own.obj
    cases hcc : copyCtor o s1' with
    | ub => rw [hcc] at hc; exact hc.elim
    | throw e t => rw [hcc] at hc; exact hc.elim
    | ok n s2 =>
      rw [hcc] at hc
      obtain ⟨hn, hwf2, hfr, hobn, hvn, -⟩ := hc
      have hno : o ≠ n := by
        have := St.obj_lt hm.own.obj
        omega
      obtain ⟨hobo2, hblk⟩ := hfr o hno
      have hblk := hblk ob a hm.own.obj hm.own.ref
      rw [hm.own.blk] at hblk
      obtain ⟨b2, hb2, hvis⟩ : ∃ b2, s2.blk a = some b2 ∧ b2.vis = b.vis := by
        cases h : s2.blk a with
        | none => rw [h] at hblk; cases hblk
        | some b2 => rw [h] at hblk; exact ⟨b2, rfl, by simpa using hblk⟩
      injection hvis with hg hcells
      have hfit := hm.fits
      rw [hm.own.obj] at hobo2 hobn
      refine ⟨n, s2, rfl, Ne.symm hno, shows_of_view hwf2 (by rw [hvn, hm.own.view, hm.len, hm.win]), some ⟨a, b.gen, ob.offset + i⟩,
        s2.setBlk a (some { b2 with cells := b2.cells.set (ob.offset + i) x }), rfl, ?_, ?_⟩
      · show storePtr _ _ _ = _
        unfold storePtr
        rw [bind_ok (show getBlk a s2 = .ok b2 s2 by unfold getBlk; rw [hb2])]
        rw [if_pos ⟨hg, by rw [hcells]; show ob.offset + i < _; omega⟩]
        rfl
      · have key : ∀ m, s2.obj m = some ob →
            Shows (s2.setBlk a (some { b2 with cells := b2.cells.set (ob.offset + i) x })) m (v.set i x) := by
          intro m hm'
          refine shows_of_block (a := a) (by rw [St.obj_setBlk]; exact hm') hm.own.ref
            (St.blk_setBlk_self _ (St.blk_lt hb2)) (by rw [List.length_set, hm.len]) ?_ ?_
          · rw [hcells]
            exact window_set hm.win hi
          · simp only [List.length_set, hcells]
            omega
        exact ⟨key o hobo2, key n hobn⟩
  · exfalso
    have : beginI cfg o s = .throw .badAlloc s1' := by unfold beginI; exact bind_throw h1
    rw [this] at hb
    cases hb

/-- Nor does `hash()` notice: `auto it = a.begin(); a.hash(); it[i] = x;` leaves `a` with the hash value of its old contents. -/
theorem c72_refuted_hash (hv : cfg.Valid) (hp : cfg.Physical) (hr : Reach cfg s env) {o i : Nat} {v : List T} (ho : env o = .val v)
    (hi : i < v.length) (x : T) (h0 : hashOf cfg v ≠ 0) {it : It} {s1 : St T} (hb : beginI cfg o s = .ok it s1) :
    ∃ s2, hash cfg o s1 = .ok (hashOf cfg v) s2 ∧
      ∃ p s3, it.plus i s2 = .ok p s2 ∧ p.store x s2 = .ok () s3 ∧ Shows s3 o (v.set i x) ∧ hash cfg o s3 = .ok (hashOf cfg v) s3 := by
  rcases own_or hv hp hr ho with ⟨s1', ob, a, b, h1, hm⟩ | ⟨s1', h1, h2, h3⟩
  · have hbeg : beginI cfg o s = .ok (some ⟨a, b.gen, ob.offset⟩) s1' := by
      unfold beginI
      rw [bind_ok h1, hm.cbegin]
    rw [hbeg] at hb
    injection hb with hb1 hb2
    subst hb1 hb2
    have hfit := hm.fits
    have hrd : readRange o 0 ob.sublen s1' = .ok v s1' := by
      have := readRange_blk (Q := fun xs s' => xs = v ∧ s' = s1') (E := fun _ _ => False) (i := 0) (n := ob.sublen)
        hm.own.obj hm.own.ref hm.own.blk (by rw [hm.len]; omega) ⟨by rw [hm.len]; exact hm.win, rfl⟩
      cases h : readRange o 0 ob.sublen s1' with
      | ub => rw [h] at this; exact this.elim
      | throw e t => rw [h] at this; exact this.elim
      | ok xs t => rw [h] at this; rw [this.1, this.2]
    have hlt := St.obj_lt hm.own.obj
    refine ⟨s1'.setObj o (some { ob with hash := hashOf cfg v }), ?_, some ⟨a, b.gen, ob.offset + i⟩,
      (s1'.setObj o (some { ob with hash := hashOf cfg v })).setBlk a (some { b with cells := b.cells.set (ob.offset + i) x }),
      rfl, ?_, ?_, ?_⟩
    · unfold hash
      rw [bind_ok (getObj_eq hm.own.obj), if_neg (by rw [hm.own.hash]; simp), bind_ok hrd]
      rfl
    · show storePtr _ _ _ = _
      unfold storePtr
      rw [bind_ok (show getBlk a (s1'.setObj o (some { ob with hash := hashOf cfg v })) = .ok b _ by
        unfold getBlk; rw [St.blk_setObj, hm.own.blk])]
      rw [if_pos ⟨rfl, by show ob.offset + i < _; omega⟩]
      rfl
    · refine shows_of_block (a := a) (ob := { ob with hash := hashOf cfg v })
        (by rw [St.obj_setBlk]; exact St.obj_setObj_self _ hlt) hm.own.ref
        (St.blk_setBlk_self _ (St.blk_lt hm.own.blk)) (by rw [List.length_set]; exact hm.len) (window_set hm.win hi) ?_
      simp only [List.length_set]
      omega
    · unfold hash
      rw [bind_ok (getObj_eq (ob := { ob with hash := hashOf cfg v }) (by rw [St.obj_setBlk]; exact St.obj_setObj_self _ hlt))]
      rw [if_pos h0]
      rfl
  · exfalso
    have : beginI cfg o s = .throw .badAlloc s1' := by unfold beginI; exact bind_throw h1
    rw [this] at hb
    cases hb

/-! ## Witnesses: the shared arrays `{1,2,3,4,5}` and `{2,3,4}` -/

/-- Did it return? -/
def Res.returned {α : Type} : Res T α → Bool
  | .ok _ _ => true
  | _ => false

theorem returned_ok {α : Type} {r : Res T α} (h : Res.returned r = true) : ∃ x s', r = .ok x s' := by
  cases r with
  | ok x s' => exact ⟨x, s', rfl⟩
  | throw e s' => cases h
  | ub => cases h

example : eachConst 6 0 stA = .ok [1, 2, 3, 4, 5] stA ∧ eachBack 4 1 stA = .ok [4, 3, 2] stA :=
  ⟨c72_forward arrCfg_valid arrCfg_physical reachA rfl (by decide), c72_backward arrCfg_valid arrCfg_physical reachA (v := [2, 3, 4]) rfl (by decide)⟩
example : ∃ s', rangeFor arrCfg (· * 10) 4 1 stA = .ok () s' ∧ Shows s' 1 [20, 30, 40] ∧ Shows s' 0 [1, 2, 3, 4, 5] := by
  rcases c72_range_for arrCfg_valid arrCfg_physical reachA (o := 1) (v := [2, 3, 4]) rfl (· * 10) (fuel := 4) (by decide) with
    ⟨s', h1, h2, h3, -⟩ | ⟨s', h1, -⟩
  · exact ⟨s', h1, h2, h3 0 _ (by decide) rfl⟩
  · obtain ⟨u, t, hok⟩ := returned_ok (show Res.returned (rangeFor arrCfg (· * 10) 4 1 stA) = true by decide +kernel)
    rw [hok] at h1
    cases h1
example : ∃ it s', insertIt arrCfg 0 (some ⟨0, 2, 2⟩) 9 stA = .ok it s' := returned_ok (by decide +kernel)
example : cbeginI 0 stA = .ok (some ⟨0, 2, 0⟩) stA := rfl
example : isShared 0 stA = .ok true stA ∧ ∃ x s', getOwnCopy arrCfg 0 stA = .ok x s' := ⟨rfl, returned_ok (by decide +kernel)⟩
example : (∃ it s', beginI arrCfg 1 stA = .ok it s') ∧ hashOf arrCfg [2, 3, 4] ≠ 0 ∧
    hashOf arrCfg [2, 3, 4] ≠ hashOf arrCfg ([2, 3, 4].set 0 7) :=
  ⟨returned_ok (by decide +kernel), by decide +kernel, by decide +kernel⟩

end Bdlib.Rca
