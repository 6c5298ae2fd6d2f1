import Verif.Rca.Stay
import Verif.Props.C72

/-!
# C80 Pointers, references and iterators into an object stay valid

A pointer obtained from an object (`data()`, `c_str()`, `&a[i]`, an iterator) stays valid, and shows the same elements,
through every history of calls that leave that object alone, even calls on objects that share its storage.  A pointer is
`Ptr` (`Rca/Model.lean`): dereferencing it is undefined once its buffer was released or replaced.
-/

namespace Bdlib.Rca
open Bdlib Bdlib.Spec

variable {T : Type} [DecidableEq T] {cfg : Cfg T} {s s' : St T} {env env' : Env T}

/-- A history of calls, on whichever objects, returning or throwing, from one state to another, none of which disturbs
object `o`: `o` is neither the receiver of a call that is not a mere observation nor moved from nor swapped. -/
inductive Later (cfg : Cfg T) (o : Nat) (s : St T) (env : Env T) : St T → Env T → Prop
  | now : Later cfg o s env s env
  | call {s1 s2 : St T} {env1 env2 : Env T} {op : Op T} {out : Outcome T} : Later cfg o s env s1 env1 →
      Pre cfg (shared s1) env1 op → ¬ op.Disturbs o → result (run cfg op s1) = some (out, s2) →
      Post cfg (shared s1) env1 op out env2 → Agrees s2 env2 → Later cfg o s env s2 env2

theorem Later.reach {o : Nat} (hr : Reach cfg s env) (h : Later cfg o s env s' env') : Reach cfg s' env' := by
  induction h with
  | now => exact hr
  | call _ h1 _ h2 h3 h4 ih => exact .step ih h1 h2 h3 h4

theorem Later.stay (hv : cfg.Valid) (hp : cfg.Physical) {o : Nat} (hr : Reach cfg s env) (h : Later cfg o s env s' env') :
    Stay s s' o := by
  induction h with
  | now => exact .refl s o
  | @call s1 s2 env1 env2 op out h0 h1 hd h2 h3 h4 ih =>
    obtain ⟨hwf, hc, hA⟩ := (h0.reach hr).inv hv hp
    have hg := step_stays hwf hc hA h1
    refine ih.trans ?_
    cases hrun : run cfg op s1 with
    | ub => rw [hrun] at h2; cases h2
    | ok x t => rw [hrun] at h2 hg; cases h2; exact hg o hd
    | throw e t => rw [hrun] at h2 hg; cases h2; exact hg o hd

/-- Any further call can be added to a history, whatever it does: it is defined. -/
theorem Later.more (hv : cfg.Valid) (hp : cfg.Physical) {o : Nat} (hr : Reach cfg s env) (h : Later cfg o s env s' env')
    {op : Op T} (hpre : Pre cfg (shared s') env' op) (hd : ¬ op.Disturbs o) :
    ∃ out s2 env2, result (run cfg op s') = some (out, s2) ∧ Later cfg o s env s2 env2 := by
  obtain ⟨out, s2, env2, h1, h2, h3⟩ := (h.reach hr).call hv hp hpre
  exact ⟨out, s2, env2, h1, .call h hpre hd h1 h2 (h3.agrees hv hp)⟩

theorem bind_parts {α β : Type} {m : M T α} {f : α → M T β} {s s' : St T} {b : β} (h : (m >>= f) s = .ok b s') :
    ∃ a s1, m s = .ok a s1 ∧ f a s1 = .ok b s' := by
  change M.bind m f s = _ at h
  unfold M.bind at h
  cases hm : m s with
  | ok a s1 => rw [hm] at h; exact ⟨a, s1, rfl, h⟩
  | throw e s1 => rw [hm] at h; cases h
  | ub => rw [hm] at h; cases h

theorem mapOut_parts {α : Type} {m : M T α} {f : α → Out T} {s s' : St T} {x : Out T} (h : mapOut m f s = .ok x s') :
    ∃ a, m s = .ok a s' ∧ f a = x := by
  obtain ⟨a, s1, h1, h2⟩ := bind_parts h
  cases h2
  exact ⟨a, h1, rfl⟩

theorem ptrTo_of {o i a : Nat} {ob : Obj} {b : Block T} (ho : s.obj o = some ob) (hr : ob.ref = some a)
    (hb : s.blk a = some b) : ptrTo o i s = .ok ⟨a, b.gen, ob.offset + i⟩ s := by
  have hg : getBlk a s = .ok b s := by unfold getBlk; rw [hb]
  unfold ptrTo
  rw [bind_ok (getObj_eq ho), hr]
  show (getBlk a >>= _) s = _
  rw [bind_ok hg]
  rfl

theorem ptrTo_at {o i : Nat} {ob : Obj} {b : Block T} {p : Ptr} (ho : s.obj o = some ob) (hr : ob.ref = some p.addr)
    (hb : s.blk p.addr = some b) (hg : b.gen = p.gen) (hi : p.idx = ob.offset + i) : ptrTo o i s = .ok p s := by
  rw [ptrTo_of ho hr hb, ← hi, hg]

theorem vis_some {x : Option (Block T)} {b : Block T} (h : x.map Block.vis = (some b).map Block.vis) :
    ∃ b', x = some b' ∧ b'.gen = b.gen ∧ b'.cells = b.cells := by
  cases x with
  | none => cases h
  | some b' =>
    simp only [Option.map_some, Option.some.injEq, Block.vis, Prod.mk.injEq] at h
    exact ⟨b', rfl, h.1, h.2⟩

theorem Stay.ptr {o i : Nat} (h : Stay s s' o) {p : Ptr} (hptr : ptrTo o i s = .ok p s) :
    ptrTo o i s' = .ok p s' ∧ ∀ k x, loadPtr { p with idx := k } s = .ok x s → loadPtr { p with idx := k } s' = .ok x s' := by
  obtain ⟨ob, b, ho, href, hb, hg, hidx⟩ := ptrTo_inv hptr
  obtain ⟨ob', k1, k2, k3, k4, k5⟩ := h ob ho
  obtain ⟨b', hb', hg', hc'⟩ := vis_some (hb ▸ k5 p.addr href)
  refine ⟨?_, fun k x hx => ?_⟩
  · rw [ptrTo_of k1 (k2.trans href) hb', k3, ← hidx, hg', hg]
  · obtain ⟨b0, e1, e2, e3⟩ := loadPtr_inv hx
    rw [show ({ p with idx := k } : Ptr).addr = p.addr from rfl, hb] at e1
    cases e1
    exact loadPtr_of hb' (hg'.trans hg) (hc' ▸ e3)

/-- The address of element `i` of `o` does not change, and whatever could be read through a pointer into the buffer of `o`
can still be read, and is the same.

Partial: `begin()` and `c_str()` may disturb the object without changing its value, see the refutations below. -/
theorem c80_pointers_partial (hv : cfg.Valid) (hp : cfg.Physical) (hr : Reach cfg s env) {o i : Nat} {p : Ptr}
    (hptr : ptrTo o i s = .ok p s) (h : Later cfg o s env s' env') :
    ptrTo o i s' = .ok p s' ∧ ∀ k x, loadPtr { p with idx := k } s = .ok x s → loadPtr { p with idx := k } s' = .ok x s' :=
  (h.stay hv hp hr).ptr hptr

/-- In terms of elements: `const T& x = a[i];` (or `const T* x = a.data() + i`) still shows the element. -/
theorem c80_elements_partial (hv : cfg.Valid) (hp : cfg.Physical) (hr : Reach cfg s env) {o i : Nat} {v : List T} {x : T}
    (ho : env o = .val v) (hi : v[i]? = some x) : ∃ p, ptrTo o i s = .ok p s ∧
      ∀ s' env', Later cfg o s env s' env' → loadPtr p s' = .ok x s' ∧ ptrTo o i s' = .ok p s' ∧ env' o = .val v := by
  rcases its_of hv hp hr ho with ⟨rfl, _⟩ | ⟨a, g, j, h1, _, h3⟩
  · simp at hi
  · obtain ⟨hwf, _, _⟩ := hr.inv hv hp
    obtain ⟨ob, hob, hvo, hsl⟩ := obj_of_view (hr.view_eq hv hp ho)
    cases href : ob.ref with
    | none =>
      unfold cbeginI at h1
      rw [bind_ok (getObj_eq hob), href] at h1
      cases h1
    | some a =>
      obtain ⟨b, hb, _⟩ := hwf.le hob href
      have hptr := ptrTo_of (i := i) hob href hb
      refine ⟨_, hptr, fun s' env' h => ?_⟩
      obtain ⟨k1, k2⟩ := c80_pointers_partial hv hp hr hptr h
      refine ⟨k2 _ x (loadPtr_elem hv hp hr ho hi hptr), k1, ?_⟩
      clear hptr k1 k2
      induction h with
      | now => exact ho
      | @call s1 s2 env1 env2 op out h0 hpre hd hrun hpost _ ih =>
        have hne : env1 o ≠ .dead := by rw [ih]; simp
        by_cases ht : op.Touches o
        · cases op <;> first | exact absurd ht hd | (rw [← ih])
          · exact congrFun hpost.2 o
          · exact congrFun hpost.2 o
          · simp only [Post] at hpost
            split at hpost
            · exact congrFun hpost.2 o
            · exact congrFun hpost.2 o
          · exact congrFun hpost.2 o
        · rw [post_frame hpost ht hne]; exact ih

/-- Iterators: a loop with iterators of the object that were obtained earlier runs through its elements, and
`cbegin()`/`cend()` are still the same iterators. -/
theorem c80_iterators_partial (hv : cfg.Valid) (hp : cfg.Physical) (hr : Reach cfg s env) {o : Nat} {v : List T}
    (ho : env o = .val v) : ∃ b e, cbeginI o s = .ok b s ∧ cendI o s = .ok e s ∧
      ∀ s' env', Later cfg o s env s' env' → cbeginI o s' = .ok b s' ∧ cendI o s' = .ok e s' ∧
        ∀ fuel, v.length < fuel → walk fuel b e s' = .ok v s' ∧ walkBack fuel e b s' = .ok v.reverse s' := by
  obtain ⟨hwf, _, _⟩ := hr.inv hv hp
  obtain ⟨ob, hob, hvo, hsl⟩ := obj_of_view (hr.view_eq hv hp ho)
  rcases its_of hv hp hr ho with ⟨rfl, h1, h2⟩ | ⟨a, g, j, h1, h2, h3⟩
  · refine ⟨none, none, h1, h2, fun s' env' h => ?_⟩
    obtain ⟨ob', k1, k2, k3, k4, k5⟩ := h.stay hv hp hr ob hob
    have href : ob.ref = none := by
      cases hf : ob.ref with
      | none => rfl
      | some a =>
        obtain ⟨b, hb, _⟩ := hwf.le hob hf
        unfold cbeginI at h1
        rw [bind_ok (getObj_eq hob), hf] at h1
        change (getBlk a >>= _) s = _ at h1
        rw [bind_ok (by unfold getBlk; rw [hb] : getBlk a s = .ok b s)] at h1
        cases h1
    have hc : cbeginI o s' = .ok none s' := by
      unfold cbeginI
      rw [bind_ok (getObj_eq k1), k2, href]
      rfl
    refine ⟨hc, ?_, fun fuel hf => ?_⟩
    · unfold cendI
      rw [bind_ok hc, bind_ok (show length o s' = .ok 0 s' by
        unfold length; rw [bind_ok (getObj_eq k1), k4, hsl]; rfl)]
      rfl
    · cases fuel with
      | zero => simp at hf
      | succ n => exact ⟨rfl, rfl⟩
  · refine ⟨_, _, h1, h2, fun s' env' h => ?_⟩
    obtain ⟨ob', k1, k2, k3, k4, k5⟩ := h.stay hv hp hr ob hob
    cases hf : ob.ref with
    | none =>
      unfold cbeginI at h1
      rw [bind_ok (getObj_eq hob), hf] at h1
      cases h1
    | some a1 =>
      obtain ⟨b, hb, _⟩ := hwf.le hob hf
      obtain ⟨b', hb', hg', hc'⟩ := vis_some (hb ▸ k5 a1 hf)
      have e0 := h1
      unfold cbeginI at e0
      rw [bind_ok (getObj_eq hob), hf] at e0
      change (getBlk a1 >>= _) s = _ at e0
      rw [bind_ok (by unfold getBlk; rw [hb] : getBlk a1 s = .ok b s)] at e0
      have e1 : a1 = a ∧ b.gen = g ∧ ob.offset = j := by cases e0; exact ⟨rfl, rfl, rfl⟩
      obtain ⟨rfl, rfl, rfl⟩ := e1
      have hc : cbeginI o s' = .ok (some ⟨a1, b.gen, ob.offset⟩) s' := by
        unfold cbeginI
        rw [bind_ok (getObj_eq k1), k2, hf]
        show (getBlk a1 >>= _) s' = _
        rw [bind_ok (by unfold getBlk; rw [hb'] : getBlk a1 s' = .ok b' s'), hg', k3]
        rfl
      have hh : Holds s' a1 b.gen ob.offset v := fun k x hx =>
        ((h.stay hv hp hr).ptr (ptrTo_of (i := 0) hob hf hb)).2 (ob.offset + k) x (h3 k x hx)
      refine ⟨hc, ?_, fun fuel hfu => ⟨walk_spec v hh hfu, walkBack_spec _ v rfl hh hfu⟩⟩
      unfold cendI
      rw [bind_ok hc, bind_ok (show length o s' = .ok v.length s' by
        unfold length; rw [bind_ok (getObj_eq k1), k4, hsl]; rfl)]
      rfl

/-! ## `c_str()` -/

theorem readRange_inv {o n : Nat} {xs : List T} {s1 : St T} (hn : n ≠ 0) (h : readRange o 0 n s = .ok xs s1) :
    s1 = s ∧ ∃ ob a b, s.obj o = some ob ∧ ob.ref = some a ∧ s.blk a = some b ∧ ob.offset + n ≤ b.cells.length ∧
      xs = window b.cells ob.offset n := by
  unfold readRange at h
  cases ho : s.obj o with
  | none =>
    have : (getObj o : M T Obj) s = .ub := by unfold getObj; rw [ho]
    change M.bind (getObj o) _ s = _ at h
    unfold M.bind at h
    rw [this] at h; cases h
  | some ob =>
    rw [bind_ok (getObj_eq ho), if_neg hn] at h
    cases hr : ob.ref with
    | none => rw [hr] at h; cases h
    | some a =>
      rw [hr] at h
      dsimp only at h
      cases hb : s.blk a with
      | none =>
        change M.bind (getBlk a) _ s = _ at h
        unfold M.bind getBlk at h
        rw [hb] at h; cases h
      | some b =>
        rw [bind_ok (by unfold getBlk; rw [hb] : getBlk a s = .ok b s)] at h
        split at h
        · rename_i hle
          cases h
          exact ⟨rfl, ob, a, b, rfl, hr, hb, by simpa using hle, rfl⟩
        · cases h

theorem cStr_inv {nul : T} {o : Nat} {ob : Obj} (ho : s.obj o = some ob) (h0 : ob.sublen ≠ 0) {xs : List T} {s1 : St T}
    (h : cStr cfg nul o s = .ok xs s1) : readRange o 0 (ob.sublen + 1) s1 = .ok xs s1 := by
  unfold cStr at h
  rw [bind_ok (getObj_eq ho), if_neg h0] at h
  obtain ⟨t, s2, h1, h2⟩ := bind_parts h
  have fin : ∀ s3 : St T, readRange o 0 (ob.sublen + 1) s3 = .ok xs s1 → readRange o 0 (ob.sublen + 1) s1 = .ok xs s1 := by
    intro s3 h3
    have := (readRange_inv (by omega) h3).1
    rw [this] at h3 ⊢
    exact h3
  split at h2
  · obtain ⟨_, s3, _, h4⟩ := bind_parts h2
    obtain ⟨_, s4, _, h6⟩ := bind_parts h4
    exact fin _ h6
  · exact fin _ h2

/-- `const char* p = s.c_str();` shows the characters of `s` and a NUL behind them, now and after any history that leaves
`s` alone. -/
theorem c80_c_str (hv : cfg.Valid) (hp : cfg.Physical) (hr : Reach cfg s env) {o : Nat} {v : List T} (ho : env o = .val v)
    (hne : v ≠ []) {nul : T} (hn : cfg.nul = some nul) (hs : cfg.slack = 1) {x : Out T} {s1 : St T}
    (hrun : run cfg (.cStr o) s = .ok x s1) : ∃ p, ptrTo o 0 s1 = .ok p s1 ∧ Reach cfg s1 env ∧
      ∀ s' env', Later cfg o s1 env s' env' →
        ∀ k c, (v ++ [nul])[k]? = some c → loadPtr { p with idx := p.idx + k } s' = .ok c s' := by
  obtain ⟨hwf, _, _⟩ := hr.inv hv hp
  have hview := hr.view_eq hv hp ho
  obtain ⟨ob, hob, hvo, hsl⟩ := obj_of_view hview
  have hlen : ob.sublen ≠ 0 := by rw [hsl]; exact fun h => hne (List.length_eq_zero_iff.1 h)
  have hpre : Pre cfg (shared s) env (.cStr o) := ⟨⟨v, ho⟩, by simp [IsStr, hn], hs⟩
  obtain ⟨out, s2, env1, h1, h2, h3⟩ := hr.call hv hp hpre
  rw [hrun] at h1
  cases h1
  have henv : env1 = env := by
    rcases h2 with ⟨c, _, _, rfl⟩ | h2
    · rfl
    · exact absurd h2.1 (by simp)
  subst henv
  have hcs : ∃ xs, cStr cfg nul o s = .ok xs s1 := by
    simp only [run, hn] at hrun
    obtain ⟨xs, h, _⟩ := mapOut_parts hrun
    exact ⟨xs, h⟩
  obtain ⟨xs, hcs⟩ := hcs
  have hxs : xs = v ++ [nul] := by
    have := cStr_spec (cfg := cfg) hwf hs (nul := nul) hview
    rw [hcs] at this
    exact this.1
  obtain ⟨_, ob1, a, b, g1, g2, g3, g4, g5⟩ := readRange_inv (by omega) (cStr_inv hob hlen hcs)
  have hptr := ptrTo_of (i := 0) g1 g2 g3
  refine ⟨_, hptr, h3, fun s' env' hl k c hk => ?_⟩
  refine ((hl.stay hv hp h3).ptr hptr).2 _ c (loadPtr_of g3 rfl ?_)
  have hkl : k < ob.sublen + 1 := by
    have := (List.getElem?_eq_some_iff.1 hk).1
    rw [hsl]; simpa using this
  rw [← hxs, g5] at hk
  unfold window at hk
  rw [List.getElem?_take, if_pos hkl, List.getElem?_drop] at hk
  exact hk

/-! ## Copies keep pointers alive, moves and swaps hand them over -/

/-- Pointers into `r` point into the copy too.  Hence (by `c80_pointers_partial` for the copy) they stay valid as long as the copy
is left alone, whatever is done to `r`, even if `r` is destroyed. -/
theorem c80_copy_pins (hv : cfg.Valid) (hp : cfg.Physical) (hr : Reach cfg s env) {r c : Nat} {s1 : St T} (hl : env.Live r)
    (hrun : run cfg (.copyCtor r) s = .ok (.obj c) s1) {i : Nat} {p : Ptr} (hptr : ptrTo r i s = .ok p s) :
    c ≠ r ∧ ptrTo c i s1 = .ok p s1 ∧
      ∀ k x, loadPtr { p with idx := k } s = .ok x s → loadPtr { p with idx := k } s1 = .ok x s1 := by
  obtain ⟨hwf, hc, hA⟩ := hr.inv hv hp
  obtain ⟨rb, hrb⟩ := hA.obj hl
  have hs := copyCtor_spec (cfg := cfg) hwf hrb
  obtain ⟨c', hcc, he⟩ := mapOut_parts (show mapOut (copyCtor r) .obj s = _ from hrun)
  cases he
  rw [hcc] at hs
  obtain ⟨rfl, h1, h2, h3, h4, _⟩ := hs
  have hne : r ≠ s.objs.length := fun e => by rw [e, obj_length] at hrb; cases hrb
  obtain ⟨k1, k2⟩ := (Stay.frame h2 hne).ptr hptr
  refine ⟨hne.symm, ?_, k2⟩
  obtain ⟨ob, b, ho, href, hb, hg, hidx⟩ := ptrTo_inv k1
  have ho' : s1.obj s.objs.length = some ob := by rw [h3, ← (h2 r hne).1]; exact ho
  rw [ptrTo_of ho' href hb, ← hidx, hg]

/-- A move constructor hands the pointers over: those into `r` are now pointers into the new object. -/
theorem c80_move {r c : Nat} {s1 : St T} (hrun : run cfg (.moveCtor r) s = .ok (.obj c) s1) {i : Nat} {p : Ptr}
    (hptr : ptrTo r i s = .ok p s) :
    ptrTo c i s1 = .ok p s1 ∧ ∀ k x, loadPtr { p with idx := k } s = .ok x s → loadPtr { p with idx := k } s1 = .ok x s1 := by
  obtain ⟨ob, b, ho, href, hb, hg, hidx⟩ := ptrTo_inv hptr
  have hne : r ≠ s.objs.length := fun e => by rw [e, obj_length] at ho; cases ho
  obtain ⟨c', hcc, he⟩ := mapOut_parts (show mapOut (moveCtor cfg r) .obj s = _ from hrun)
  cases he
  unfold moveCtor at hcc
  rw [bind_ok (getObj_eq ho)] at hcc
  cases hcc
  refine ⟨?_, fun k x hx => ?_⟩
  · refine ptrTo_at (b := b) (ob := ob) ?_ href hb hg hidx
    rw [St.obj_setObj_ne _ hne.symm]
    simp [St.obj]
  · obtain ⟨b0, e1, e2, e3⟩ := loadPtr_inv hx
    exact loadPtr_of (b := b0) e1 e2 e3

/-- `swap` exchanges them. -/
theorem c80_swap {o r : Nat} {s1 : St T} (hne : o ≠ r) (hrun : run cfg (.swap o r) s = .ok .unit s1) {i : Nat} {p : Ptr}
    (hptr : ptrTo r i s = .ok p s) :
    ptrTo o i s1 = .ok p s1 ∧ ∀ k x, loadPtr { p with idx := k } s = .ok x s → loadPtr { p with idx := k } s1 = .ok x s1 := by
  obtain ⟨rb, b, hrb, href, hb, hg, hidx⟩ := ptrTo_inv hptr
  obtain ⟨_, hcc, _⟩ := mapOut_parts (show mapOut (swap o r) (fun _ => .unit) s = _ from hrun)
  unfold swap at hcc
  obtain ⟨ob, s2, h1, h2⟩ := bind_parts hcc
  have ho : s.obj o = some ob ∧ s2 = s := by
    unfold getObj at h1
    split at h1
    · rename_i h; cases h1; exact ⟨h, rfl⟩
    · cases h1
  obtain ⟨ho, rfl⟩ := ho
  rw [bind_ok (getObj_eq hrb)] at h2
  cases h2
  refine ⟨?_, fun k x hx => ?_⟩
  · refine ptrTo_at (b := b) (ob := rb) ?_ href hb hg hidx
    rw [St.obj_setObj_ne _ hne]
    exact St.obj_setObj_self _ (St.obj_lt ho)
  · obtain ⟨b0, e1, e2, e3⟩ := loadPtr_inv hx
    exact loadPtr_of (b := b0) e1 e2 e3

/-! ## Examples -/

/-- The subarray `{2,3,4}` of `{1,2,3,4,5}` is read through an old pointer after the array was appended to and destroyed. -/
def stA1 : St Nat := (exec arrCfg stA [.append 0 9]).getD {}
def stA2 : St Nat := (exec arrCfg stA [.append 0 9, .destroy 0]).getD {}
def envA1 : Env Nat := envA.upd 0 (.val [1, 2, 3, 4, 5, 9])
def envA2 : Env Nat := envA1.upd 0 .dead

theorem reachA1 : Reach arrCfg stA1 envA1 :=
  Reach.next arrCfg_valid arrCfg_physical reachA (op := .append 0 9) (x := .unit) ⟨_, rfl⟩ rfl (fun h => h)
    (Or.inl ⟨rfl, rfl⟩)
theorem reachA2 : Reach arrCfg stA2 envA2 :=
  Reach.next arrCfg_valid arrCfg_physical reachA1 (op := .destroy 0) (x := .unit) (by simp [Pre, Env.Live, Env.upd, envA1]) rfl
    (fun h => h) ⟨rfl, rfl⟩

theorem laterA : Later arrCfg 1 stA envA stA2 envA2 :=
  .call (op := .destroy 0) (out := .ret .unit)
    (.call (op := .append 0 9) (out := .ret .unit) .now ⟨_, rfl⟩ (by simp [Op.Disturbs, Op.Touches]) rfl (Or.inl ⟨rfl, rfl⟩)
      (reachA1.agrees arrCfg_valid arrCfg_physical))
    (by simp [Pre, Env.Live, Env.upd, envA1]) (by simp [Op.Disturbs, Op.Touches]) rfl ⟨rfl, rfl⟩
    (reachA2.agrees arrCfg_valid arrCfg_physical)

example : ∃ p, ptrTo 1 1 stA = .ok p stA ∧ ptrTo 0 2 stA = .ok p stA ∧ loadPtr p stA2 = .ok 3 stA2 := by
  obtain ⟨p, h1, h2⟩ := c80_elements_partial arrCfg_valid arrCfg_physical reachA (o := 1) (i := 1) (x := 3) rfl rfl
  cases h1
  exact ⟨_, rfl, rfl, (h2 _ _ laterA).1⟩

example : ∃ b e, cbeginI 1 stA = .ok b stA ∧ cendI 1 stA = .ok e stA ∧ walk 10 b e stA2 = .ok [2, 3, 4] stA2 := by
  obtain ⟨b, e, h1, h2, h3⟩ := c80_iterators_partial arrCfg_valid arrCfg_physical reachA (o := 1) rfl
  exact ⟨b, e, h1, h2, ((h3 _ _ laterA).2.2 10 (by decide)).1⟩

/-! ## Calls that disturb the object although they do not change its value -/

/-- `const int* p = b.data(); b.begin();` and then the array that `b` was a subarray of is destroyed: `p` dangles, although
`b` is still `{2,3,4}` and was never modified. -/
theorem c80_refuted_begin : ∃ p s1 s2, Reach arrCfg stA envA ∧ ptrTo 1 0 stA = .ok p stA ∧ loadPtr p stA = .ok 2 stA ∧
    run arrCfg (.begin 1) stA = .ok .unit s1 ∧ run arrCfg (.destroy 0) s1 = .ok .unit s2 ∧
    Shows s2 1 [2, 3, 4] ∧ loadPtr p s2 = .ub := by
  refine ⟨_, _, _, reachA, rfl, rfl, rfl, rfl, ⟨rfl, fun i hi => ?_⟩, rfl⟩
  match i, hi with
  | 0, _ => rfl
  | 1, _ => rfl
  | 2, _ => rfl

/-- Object 0 is `"hello"`, object 1 is `"hel"`, a substring of it. -/
def stH : St Nat := (exec strCfg {} [.cstrCtor [104, 101, 108, 108, 111], .substring 0 0 3]).getD {}
def envH : Env Nat := (Env.empty.upd 0 (.val [104, 101, 108, 108, 111])).upd 1 (.val [104, 101, 108])

theorem reachH : Reach strCfg stH envH := by
  have h1 : Reach strCfg ((exec strCfg {} [.cstrCtor [104, 101, 108, 108, 111]]).getD {})
      (Env.empty.upd 0 (.val [104, 101, 108, 108, 111])) :=
    Reach.next strCfg_valid strCfg_physical (.init) (op := .cstrCtor [104, 101, 108, 108, 111]) (x := .obj 0)
      (by simp [Pre, IsStr, strCfg]) rfl (fun h => h) (Or.inl ⟨0, rfl, rfl, rfl⟩)
  exact Reach.next strCfg_valid strCfg_physical h1 (op := .substring 0 0 3) (x := .obj 1) ⟨⟨_, rfl⟩, by decide⟩ rfl
    (fun h => h) ⟨1, rfl, rfl, rfl⟩

/-- `c_str()` is a const call and still invalidates what `data()` returned: `String b = a.substring(0, 3); p = b.data();
b.c_str();` and `a` goes away: `p` dangles. -/
theorem c80_refuted_c_str : ∃ p x s1 s2, Reach strCfg stH envH ∧ ptrTo 1 0 stH = .ok p stH ∧ loadPtr p stH = .ok 104 stH ∧
    run strCfg (.cStr 1) stH = .ok x s1 ∧ run strCfg (.destroy 0) s1 = .ok .unit s2 ∧
    Shows s2 1 [104, 101, 108] ∧ loadPtr p s2 = .ub := by
  refine ⟨_, _, _, _, reachH, rfl, rfl, rfl, rfl, ⟨rfl, fun i hi => ?_⟩, rfl⟩
  match i, hi with
  | 0, _ => rfl
  | 1, _ => rfl
  | 2, _ => rfl

/-- `c_str()` of the substring, then the original goes away: the C string is still there. -/
def stH1 : St Nat := (exec strCfg stH [.cStr 1]).getD {}
def stH2 : St Nat := (exec strCfg stH1 [.destroy 0]).getD {}

example : run strCfg (.destroy 0) stH1 = .ok .unit stH2 ∧
    ∃ p, ptrTo 1 0 stH1 = .ok p stH1 ∧ loadPtr { p with idx := p.idx + 3 } stH2 = .ok 0 stH2 := by
  refine ⟨rfl, ?_⟩
  obtain ⟨p, h1, h2, h3⟩ := c80_c_str strCfg_valid strCfg_physical reachH (o := 1) (x := .bytes [104, 101, 108, 0])
    (s1 := stH1) rfl (by decide) rfl rfl rfl
  have h4 : Reach strCfg stH2 (envH.upd 0 .dead) :=
    Reach.next strCfg_valid strCfg_physical h2 (op := .destroy 0) (x := .unit) (by simp [Pre, Env.Live, envH, Env.upd]) rfl
      (fun h => h) ⟨rfl, rfl⟩
  refine ⟨p, h1, h3 stH2 (envH.upd 0 .dead) ?_ 3 0 rfl⟩
  exact .call (op := .destroy 0) (out := .ret .unit) .now (by simp [Pre, Env.Live, envH, Env.upd])
    (by simp [Op.Disturbs, Op.Touches]) rfl ⟨rfl, rfl⟩ (h4.agrees strCfg_valid strCfg_physical)

/-- A copy keeps the pointer alive when the original is destroyed. -/
example : ∃ p s1 s2, ptrTo 1 0 stH = .ok p stH ∧ run strCfg (.copyCtor 1) stH = .ok (.obj 2) s1 ∧
    ptrTo 2 0 s1 = .ok p s1 ∧ run strCfg (.destroy 1) s1 = .ok .unit s2 ∧ loadPtr p s2 = .ok 104 s2 :=
  ⟨_, _, _, rfl, rfl, (c80_copy_pins strCfg_valid strCfg_physical reachH (r := 1) (i := 0) (by simp [Env.Live, envH, Env.upd])
    rfl rfl).2.1, rfl, rfl⟩

example : ∃ p s1, ptrTo 1 0 stH = .ok p stH ∧ run strCfg (.moveCtor 1) stH = .ok (.obj 2) s1 ∧ ptrTo 2 0 s1 = .ok p s1 :=
  ⟨_, _, rfl, rfl, (c80_move (cfg := strCfg) (s := stH) (r := 1) (i := 0) rfl rfl).1⟩

example : ∃ p s1, ptrTo 1 0 stH = .ok p stH ∧ run strCfg (.swap 0 1) stH = .ok .unit s1 ∧ ptrTo 0 0 s1 = .ok p s1 :=
  ⟨_, _, rfl, rfl, (c80_swap (cfg := strCfg) (s := stH) (o := 0) (r := 1) (i := 0) (by decide) rfl rfl).1⟩

end Bdlib.Rca
