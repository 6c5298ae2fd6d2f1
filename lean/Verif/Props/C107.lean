import Verif.Spec.Plain
import Verif.Props.C72
import Verif.Props.C09

/-!
# C107: algorithms of the standard library on Strings and arrays of plain values

`std::sort(s.begin(), s.end())`, `std::reverse`, `std::transform`, …, on a `String` or an `Array<int>`: what the code does to a plain
list it does to the object, and to nothing else.
-/

namespace Bdlib.Rca
open Bdlib Bdlib.Spec

variable {T : Type} [DecidableEq T] {cfg : Cfg T} {s : St T} {env : Env T}

/-! ## Own storage stays as it is -/

/-- The last cell of the buffer of a `String` is NUL. -/
def Ended (cfg : Cfg T) (b : Block T) : Prop := ∀ c, cfg.nul = some c → b.cells.length ≠ 0 → b.cells[b.cells.length - 1]? = some c

theorem Mine.goc {s0 : St T} {o a : Nat} {ob : Obj} {b : Block T} {v : List T} (h : Mine cfg s0 s o ob a b v) :
    getOwnCopy cfg o s = .ok () (match cfg.nul with
      | none => s
      | some c => if b.cells.length = 0 then s else s.setBlk a (some { b with cells := overwrite b.cells (b.cells.length - 1) [c] })) := by
  have hrca : ∀ m, ob.offset + m ≤ b.cells.length → rcaReserve cfg o m cfg.scale s = .ok () s := by
    intro m hm
    unfold rcaReserve
    rw [bind_ok (getObj_eq h.own.obj), h.own.ref]
    simp only [pure_bind']
    rw [bind_ok (arefReserve_noop h.own.blk hm), bind_ok (getObj_eq h.own.obj)]
    exact congrArg _ (setObj_self h.own.obj)
  have hgoc : getOwnCopy cfg o s = reserve cfg o v.length cfg.scale s := by
    unfold getOwnCopy
    rw [bind_ok (show length o s = .ok v.length s by
      unfold length; rw [bind_ok (getObj_eq h.own.obj), h.len]; rfl)]
    unfold aboutToModify
    rw [bind_ok (getObj_eq h.own.obj)]
    have e : ({ ob with hash := 0 } : Obj) = ob := by have := h.own.hash; cases ob; simp_all
    rw [e, bind_ok (show putObj o ob s = .ok () s from congrArg _ (setObj_self h.own.obj))]
    rw [bind_ok (show isShared o s = .ok false s by
      unfold isShared
      rw [bind_ok (getObj_eq h.own.obj), h.own.ref]
      show M.bind (getBlk a) _ s = _
      unfold M.bind getBlk
      rw [h.own.blk]
      show Res.ok (decide (b.refs > 1)) s = _
      rw [h.own.refs]
      rfl)]
    rfl
  rw [hgoc]
  unfold reserve
  cases hnul : cfg.nul with
  | none => simp only; rw [hrca _ h.fits]
  | some c =>
    simp only
    unfold strReserve
    have hrm : (if v.length > 0 then v.length + 1 else v.length) = Rca.room cfg v.length := by
      unfold Rca.room
      by_cases h0 : v.length > 0 <;> simp [hnul, h0]
    rw [bind_ok (hrca _ (by rw [hrm]; exact h.room)), bind_ok (getObj_eq h.own.obj), h.own.ref]
    have hgb : getBlk a s = .ok b s := by unfold getBlk; rw [h.own.blk]
    dsimp only
    rw [bind_ok hgb]
    by_cases h0 : b.cells.length = 0
    · rw [if_pos h0, if_pos (by have := h.fits; omega), if_pos h0]; rfl
    · rw [if_neg h0, if_neg h0]; rfl

theorem blk_self {a : Nat} {b : Block T} (h : s.blk a = some b) : s.setBlk a (some b) = s := by
  have hlt : a < s.heap.length := St.blk_lt h
  unfold St.setBlk
  have hg : s.heap[a]? = some (some b) := by
    unfold St.blk at h
    cases hx : s.heap[a]? with
    | none => rw [hx] at h; cases h
    | some y => rw [hx] at h; simp at h; rw [h]
  have : s.heap.set a (some b) = s.heap := by
    apply List.ext_getElem?
    intro j
    rw [List.getElem?_set]
    by_cases hj : a = j
    · subst hj; rw [if_pos rfl, if_pos hlt, hg]
    · rw [if_neg hj]
  rw [this]

theorem overwrite_one {cs : List T} {i : Nat} {c : T} (h : cs[i]? = some c) : overwrite cs i [c] = cs := by
  obtain ⟨hi, e⟩ := List.getElem?_eq_some_iff.mp h
  apply List.ext_getElem?
  intro j
  rw [getElem?_overwrite (by omega), List.length_singleton]
  by_cases h1 : j < i
  · rw [if_pos h1]
  · rw [if_neg h1]
    by_cases h2 : j < i + 1
    · have : j = i := by omega
      subst this
      rw [if_pos h2, Nat.sub_self, h]; rfl
    · rw [if_neg h2]

/-- A second `begin()` changes nothing. -/
theorem Mine.fixed {s0 : St T} {o a : Nat} {ob : Obj} {b : Block T} {v : List T} (h : Mine cfg s0 s o ob a b v) (he : Ended cfg b) :
    getOwnCopy cfg o s = .ok () s := by
  rw [h.goc]
  cases hn : cfg.nul with
  | none => rfl
  | some c =>
    simp only
    split
    · rfl
    · rename_i h0
      rw [overwrite_one (he c hn h0)]
      exact congrArg _ (blk_self h.own.blk)

theorem Mine.settle {s0 : St T} {o a : Nat} {ob : Obj} {b : Block T} {v : List T} (h : Mine cfg s0 s o ob a b v) :
    ∃ s' b', getOwnCopy cfg o s = .ok () s' ∧ Mine cfg s0 s' o ob a b' v ∧ b'.gen = b.gen ∧ Ended cfg b' := by
  obtain ⟨s', b', h1, h2, h3⟩ := h.again
  refine ⟨s', b', h1, h2, h3, fun c hn h0 => ?_⟩
  rw [h.goc, hn] at h1
  simp only [Res.ok.injEq, true_and] at h1
  split at h1
  · rename_i e0
    subst h1
    have := h2.own.blk
    rw [h.own.blk] at this
    cases this
    exact absurd e0 h0
  · rename_i e0
    subst h1
    have := h2.own.blk
    rw [St.blk_setBlk_self _ (St.blk_lt h.own.blk)] at this
    cases this
    have hl : (overwrite b.cells (b.cells.length - 1) [c]).length = b.cells.length :=
      overwrite_length (by simp only [List.length_singleton]; omega)
    show (overwrite b.cells (b.cells.length - 1) [c])[(overwrite b.cells (b.cells.length - 1) [c]).length - 1]? = some c
    rw [hl, getElem?_overwrite (by omega), if_neg (by omega), if_pos (by simp only [List.length_singleton]; omega), Nat.sub_self]
    rfl

/-! ## Running the code -/

theorem bind_raised {α β : Type} {m : M T α} {f : α → M T β} {s s' : St T} {e : Exc} (h : m s = .throw e s') :
    (m >>= f) s = .throw e s' := by
  show M.bind m f s = _
  unfold M.bind; rw [h]

theorem writeOne {o i a : Nat} {ob : Obj} {b : Block T} {x : T} (ho : s.obj o = some ob)
    (hr : ob.ref = some a) (hb : s.blk a = some b) (hle : ob.offset + i + 1 ≤ b.cells.length) :
    writeRange o i [x] s = .ok () (s.setBlk a (some { b with cells := overwrite b.cells (ob.offset + i) [x] })) := by
  unfold writeRange
  rw [bind_ok (getObj_eq ho)]
  simp only [List.isEmpty_cons, Bool.false_eq_true, if_false, hr]
  have hgb : getBlk a s = .ok b s := by unfold getBlk; rw [hb]
  rw [bind_ok hgb, if_pos (by simpa using hle)]
  rfl

/-- The code ends as specified, in state `s'`. -/
def Comes (x : Outcome T) (r : Res T Nat) (s' : St T) : Prop :=
  (∃ k, x = .ret (.num k) ∧ r = .ok k s') ∨ ∃ e, x = .exc e ∧ r = .throw e s'

theorem work_ok (hv : cfg.Valid) (hp : cfg.Physical) {s0 : St T} {o a g : Nat} {ob : Obj} : ∀ (A : Work T) {s : St T} {env : Env T} {b : Block T}
    {v : List T}, Mine cfg s0 s o ob a b v → Ended cfg b → b.gen = g → Reach cfg s env → env o = .val v → A.Ok v →
    ∃ s', Comes (A.effect v).1 (A.exec (some ⟨a, g, ob.offset⟩) s) s' ∧ Reach cfg s' (env.upd o (.val (A.effect v).2))
  | .done r, s, env, b, v, hM, he, hg, hr, ho, hok => ⟨s, .inl ⟨r, rfl, rfl⟩, by rw [show ((Work.done r).effect v).2 = v from rfl, Env.upd_id ho]; exact hr⟩
  | .raise e, s, env, b, v, hM, he, hg, hr, ho, hok => ⟨s, .inr ⟨e, rfl, rfl⟩, by rw [show ((Work.raise e).effect v).2 = v from rfl, Env.upd_id ho]; exact hr⟩
  | .load i k, s, env, b, v, hM, he, hg, hr, ho, hok => by
    obtain ⟨x, hx, hk⟩ := hok
    obtain ⟨s', h1, h2⟩ := work_ok hv hp (k x) hM he hg hr ho hk
    have e : (Work.load i k).effect v = (k x).effect v := by
      rw [Work.effect]
      simp only [hx]
    rw [e]
    refine ⟨s', ?_, h2⟩
    have hl := hM.load hx
    rw [hg] at hl
    have : (Work.load i k).exec (some ⟨a, g, ob.offset⟩) s = (k x).exec (some ⟨a, g, ob.offset⟩) s := by
      show ((It.plus (some ⟨a, g, ob.offset⟩) i) >>= fun q => q.load >>= fun x => (k x).exec (some ⟨a, g, ob.offset⟩)) s = _
      rw [bind_ok (show It.plus (some ⟨a, g, ob.offset⟩) i s = .ok (some ⟨a, g, ob.offset + i⟩) s from rfl), bind_ok (show It.load (some ⟨a, g, ob.offset + i⟩) s = .ok x s from hl)]
    rw [this]; exact h1
  | .store i x k, s, env, b, v, hM, he, hg, hr, ho, hok => by
    obtain ⟨hi, hk⟩ := hok
    obtain ⟨s1, b1, hst, hM1, hg1⟩ := hM.store (i := i) (x := x) hi
    have hfit := hM.fits
    obtain ⟨out, s2, env2, hrun, hpost, hr2⟩ := hr.call hv hp (op := .write o i x) ⟨⟨v, ho⟩, by
      rw [show env.get o = v by unfold Env.get; rw [ho]]; exact hi⟩
    have hw : run cfg (.write o i x) s = .ok .unit s1 := by
      show ((getOwnCopy cfg o >>= fun _ => writeRange o i [x]) >>= fun _ => (pure Out.unit : M T (Out T))) s = _
      rw [storePtr_eq hM.own (by omega)] at hst
      rw [bind_assoc', bind_ok (hM.fixed he), bind_ok hst]; rfl
    rw [hw] at hrun
    cases hrun
    have henv : env2 = env.upd o (.val (v.set i x)) := by
      rcases hpost with ⟨_, h2⟩ | ⟨h2, _⟩
      · rw [h2, show env.get o = v by unfold Env.get; rw [ho]]
      · cases h2
    subst henv
    have he1 : Ended cfg b1 := by
      intro c hn h0
      have hb1 : b1.cells = overwrite b.cells (ob.offset + i) [x] := by
        rw [storePtr_eq hM.own (by omega), writeOne hM.own.obj hM.own.ref hM.own.blk (by omega)] at hst
        cases hst
        have := hM1.own.blk
        rw [St.blk_setBlk_self _ (St.blk_lt hM.own.blk)] at this
        cases this
        rfl
      have hl : b1.cells.length = b.cells.length := by rw [hb1]; exact overwrite_length (by simp only [List.length_singleton]; omega)
      have hroom := hM.room
      have hrm : Rca.room cfg v.length = v.length + 1 := by
        unfold Rca.room
        rw [if_pos ⟨by rw [hn]; rfl, by omega⟩]
      rw [hl, hb1, getElem?_overwrite (by omega), if_neg (by omega), if_neg (by simp only [List.length_singleton]; omega)]
      exact he c hn (by omega)
    obtain ⟨s', h1, h2⟩ := work_ok hv hp k hM1 he1 (hg1.trans hg) hr2 Env.upd_self hk
    rw [Env.upd_upd] at h2
    refine ⟨s', ?_, h2⟩
    rw [hg] at hst
    have : (Work.store i x k).exec (some ⟨a, g, ob.offset⟩) s = k.exec (some ⟨a, g, ob.offset⟩) s1 := by
      show ((It.plus (some ⟨a, g, ob.offset⟩) i) >>= fun q => q.store x >>= fun _ => k.exec (some ⟨a, g, ob.offset⟩)) s = _
      rw [bind_ok (show It.plus (some ⟨a, g, ob.offset⟩) i s = .ok (some ⟨a, g, ob.offset + i⟩) s from rfl), bind_ok (show It.store (some ⟨a, g, ob.offset + i⟩) x s = .ok () s1 from hst)]
    rw [this]; exact h1

/-- The call ends as `out` says and leaves `v` in object `o`, and every other object is as before; or memory runs out before it begins, and `o` is
unchanged or, if it was shared, empty.  The program may go on. -/
def Works (cfg : Cfg T) (s : St T) (env : Env T) (r : Res T Nat) (o : Nat) (out : Outcome T) (v : List T) : Prop :=
  ∃ s', (Comes out r s' ∧ Reach cfg s' (env.upd o (.val v))) ∨
    (r = .throw .badAlloc s' ∧ Reach cfg s' (if shared s o then env.upd o (.val []) else env))

theorem iters_or (hv : cfg.Valid) (hp : cfg.Physical) (hr : Reach cfg s env) {o : Nat} {v : List T} (ho : env o = .val v) (back : Bool) :
    (∃ s' ob a b, iters cfg back o s = .ok (some ⟨a, b.gen, ob.offset⟩, some ⟨a, b.gen, ob.offset + v.length⟩) s' ∧ Mine cfg s s' o ob a b v ∧
      Ended cfg b ∧ Reach cfg s' env) ∨
    ∃ s', iters cfg back o s = .throw .badAlloc s' ∧ Reach cfg s' (if shared s o then env.upd o (.val []) else env) := by
  obtain ⟨out, s1, env1, h1, h2, h3⟩ := hr.call hv hp (op := .begin o) ⟨v, ho⟩
  rcases own_or hv hp hr ho with ⟨s', ob, a, b, hg, hM⟩ | ⟨s', hg, -, -⟩
  · have e1 : run cfg (.begin o) s = .ok .unit s' := by
      show (getOwnCopy cfg o >>= fun _ => (pure Out.unit : M T (Out T))) s = _
      rw [bind_ok hg]; rfl
    rw [e1] at h1; cases h1
    have henv : env1 = env := by
      rcases h2 with ⟨_, h2⟩ | ⟨h2, _⟩
      · exact h2
      · cases h2
    subst henv
    obtain ⟨s2, b2, hg2, hM2, hb2, he2⟩ := hM.settle
    obtain ⟨out, s3, env3, k1, k2, k3⟩ := h3.call hv hp (op := .begin o) ⟨v, ho⟩
    have e2 : run cfg (.begin o) s1 = .ok .unit s2 := by
      show (getOwnCopy cfg o >>= fun _ => (pure Out.unit : M T (Out T))) s1 = _
      rw [bind_ok hg2]; rfl
    rw [e2] at k1; cases k1
    have henv : env3 = env1 := by
      rcases k2 with ⟨_, h2⟩ | ⟨h2, _⟩
      · exact h2
      · cases h2
    subst henv
    refine .inl ⟨s2, ob, a, b2, ?_, hM2, he2, k3⟩
    have hlen : ∀ {s0 s : St T} {b : Block T}, Mine cfg s0 s o ob a b v → length o s = .ok v.length s := fun h => by
      unfold length; rw [bind_ok (getObj_eq h.own.obj), h.len]; rfl
    have hbegin : ∀ {s0 s s' : St T} {b' : Block T}, getOwnCopy cfg o s = .ok () s' → Mine cfg s0 s' o ob a b' v → b'.gen = b2.gen →
        beginI cfg o s = .ok (some ⟨a, b2.gen, ob.offset⟩) s' := fun hg hM hb => by
      unfold beginI; rw [bind_ok hg, hM.cbegin, hb]
    have hend : ∀ {s0 s s' : St T} {b' : Block T}, getOwnCopy cfg o s = .ok () s' → Mine cfg s0 s' o ob a b' v → b'.gen = b2.gen →
        endI cfg o s = .ok (some ⟨a, b2.gen, ob.offset + v.length⟩) s' := fun hg hM hb => by
      unfold endI; rw [bind_ok (hbegin hg hM hb), bind_ok (hlen hM)]; rfl
    unfold iters
    cases back with
    | true => rw [if_pos rfl, bind_ok (hend hg hM hb2.symm), bind_ok (hbegin hg2 hM2 rfl)]; rfl
    | false => rw [if_neg (by decide), bind_ok (hbegin hg hM hb2.symm), bind_ok (hend hg2 hM2 rfl)]; rfl
  · have e1 : run cfg (.begin o) s = .throw .badAlloc s' := by
      show (getOwnCopy cfg o >>= fun _ => (pure Out.unit : M T (Out T))) s = _
      exact bind_raised hg
    rw [e1] at h1; cases h1
    have henv : env1 = if shared s o then env.upd o (.val []) else env := by
      rcases h2 with ⟨h2, _⟩ | ⟨_, h2⟩
      · cases h2
      · exact h2
    rw [henv] at h3
    refine .inr ⟨s1, ?_, h3⟩
    have hb : beginI cfg o s = .throw .badAlloc s1 := by unfold beginI; exact bind_raised hg
    unfold iters
    cases back with
    | true => rw [if_pos rfl]; exact bind_raised (by unfold endI; exact bind_raised hb)
    | false => rw [if_neg (by decide)]; exact bind_raised hb

theorem minus_all (a g i n : Nat) : It.minus (T := T) (some ⟨a, g, i + n⟩) (some ⟨a, g, i⟩) s = .ok n s := by
  show (if _ then _ else _ : M T Nat) _ = _
  rw [if_pos ⟨rfl, rfl, Nat.le_add_right _ _⟩]
  show Res.ok (i + n - i) _ = _
  rw [Nat.add_sub_cancel_left]

/-- Any code that reads and assigns elements between its iterators: what it does to a plain list it does to the object. -/
theorem c107_any (hv : cfg.Valid) (hp : cfg.Physical) (hr : Reach cfg s env) {o : Nat} {v : List T} (ho : env o = .val v) (back : Bool)
    (f : Nat → Work T) (hok : (f v.length).Ok v) :
    Works cfg s env (onElements cfg back o f s) o ((f v.length).effect v).1 ((f v.length).effect v).2 := by
  unfold onElements
  rcases iters_or hv hp hr ho back with ⟨s2, ob, a, b, h1, hM, he, h2⟩ | ⟨s', h1, h2⟩
  · obtain ⟨s', w1, w2⟩ := work_ok hv hp (f v.length) hM he rfl h2 ho hok
    refine ⟨s', .inl ⟨?_, w2⟩⟩
    rw [bind_ok h1]
    dsimp only
    rw [bind_ok (minus_all a b.gen ob.offset v.length)]
    exact w1
  · exact ⟨s', .inr ⟨bind_raised h1, h2⟩⟩

/-! ## Reverse iterators -/

/-- The same code, with the elements counted from the other end. -/
def Work.mirror (n : Nat) : Work T → Work T
  | .done r => .done r
  | .raise e => .raise e
  | .load i k => .load (n - 1 - i) fun x => (k x).mirror n
  | .store i x k => .store (n - 1 - i) x (k.mirror n)

theorem down_eq (a g : Nat) : ∀ (n i : Nat), n ≤ i → It.down (T := T) (some ⟨a, g, i⟩) n s = .ok (some ⟨a, g, i - n⟩) s
  | 0, i, _ => rfl
  | n + 1, i, h => by
    show ((It.back (some ⟨a, g, i⟩)) >>= fun q => q.down n) s = _
    have : It.back (T := T) (some ⟨a, g, i⟩) s = .ok (some ⟨a, g, i - 1⟩) s := by
      show (if i = 0 then _ else _ : M T It) s = _
      rw [if_neg (by omega)]; rfl
    rw [bind_ok this, down_eq a g n (i - 1) (by omega)]
    congr 3; omega

theorem set_reverse {l : List T} {i : Nat} {x : T} (h : i < l.length) : (l.set (l.length - 1 - i) x).reverse = l.reverse.set i x := by
  apply List.ext_getElem?
  intro j
  by_cases hj : j < l.length
  · rw [List.getElem?_reverse (by simpa using hj), List.length_set, List.getElem?_set, List.getElem?_set, List.getElem?_reverse hj, List.length_reverse]
    by_cases e : i = j
    · subst e; rw [if_pos rfl, if_pos rfl, if_pos h, if_pos (by omega)]
    · rw [if_neg e, if_neg (by omega)]
  · rw [List.getElem?_eq_none (by simp; omega), List.getElem?_eq_none (by simp; omega)]

/-- On a list: the code sees the elements in reverse order. -/
theorem mirror_effect : ∀ (A : Work T) (l : List T), A.Ok l.reverse →
    (A.mirror l.length).Ok l ∧ (A.mirror l.length).effect l = ((A.effect l.reverse).1, (A.effect l.reverse).2.reverse)
  | .done _, l, _ | .raise _, l, _ => ⟨trivial, by simp [Work.mirror, Work.effect]⟩
  | .load i k, l, ⟨x, hx, hk⟩ => by
    have hi : i < l.length := by simpa using (List.getElem?_eq_some_iff.mp hx).1
    obtain ⟨h1, h2⟩ := mirror_effect (k x) l hk
    have hx' := hx
    rw [List.getElem?_reverse hi] at hx'
    refine ⟨⟨x, hx', h1⟩, ?_⟩
    show (Work.load (l.length - 1 - i) fun x => (k x).mirror l.length).effect l = _
    rw [Work.effect, Work.effect]
    simp only [hx, hx']
    exact h2
  | .store i x k, l, ⟨hi, hk⟩ => by
    have hi : i < l.length := by simpa using hi
    have e := set_reverse (x := x) hi
    obtain ⟨h1, h2⟩ := mirror_effect k (l.set (l.length - 1 - i) x) (by rw [e]; exact hk)
    rw [List.length_set, e] at *
    exact ⟨⟨by omega, h1⟩, h2⟩

theorem rexec_eq {s0 : St T} {o a g : Nat} {ob : Obj} : ∀ (A : Work T) {s : St T} {b : Block T} {v : List T}, Mine cfg s0 s o ob a b v → b.gen = g →
    A.Ok v.reverse → A.rexec (some ⟨a, g, ob.offset + v.length⟩) s = (A.mirror v.length).exec (some ⟨a, g, ob.offset⟩) s
  | .done _, s, b, v, hM, hg, hok | .raise _, s, b, v, hM, hg, hok => rfl
  | .load i k, s, b, v, hM, hg, ⟨x, hx, hk⟩ => by
    have hi : i < v.length := by simpa using (List.getElem?_eq_some_iff.mp hx).1
    have hx' := hx
    rw [List.getElem?_reverse hi] at hx'
    have hl := hM.load hx'
    rw [hg] at hl
    have ep : ob.offset + v.length - (i + 1) = ob.offset + (v.length - 1 - i) := by omega
    show ((It.down (some ⟨a, g, ob.offset + v.length⟩) (i + 1)) >>= fun q => q.load >>= fun x => (k x).rexec _) s =
      ((It.plus (some ⟨a, g, ob.offset⟩) (v.length - 1 - i)) >>= fun q => q.load >>= fun x => ((k x).mirror v.length).exec _) s
    rw [bind_ok (down_eq a g (i + 1) _ (by omega)), ep,
      bind_ok (show It.plus (some ⟨a, g, ob.offset⟩) (v.length - 1 - i) s = .ok (some ⟨a, g, ob.offset + (v.length - 1 - i)⟩) s from rfl),
      bind_ok (show It.load (some ⟨a, g, ob.offset + (v.length - 1 - i)⟩) s = .ok x s from hl),
      bind_ok (show It.load (some ⟨a, g, ob.offset + (v.length - 1 - i)⟩) s = .ok x s from hl)]
    exact rexec_eq (k x) hM hg hk
  | .store i x k, s, b, v, hM, hg, ⟨hi, hk⟩ => by
    have hi : i < v.length := by simpa using hi
    obtain ⟨s1, b1, hst, hM1, hg1⟩ := hM.store (i := v.length - 1 - i) (x := x) (by omega)
    rw [hg] at hst
    have ep : ob.offset + v.length - (i + 1) = ob.offset + (v.length - 1 - i) := by omega
    show ((It.down (some ⟨a, g, ob.offset + v.length⟩) (i + 1)) >>= fun q => q.store x >>= fun _ => k.rexec _) s =
      ((It.plus (some ⟨a, g, ob.offset⟩) (v.length - 1 - i)) >>= fun q => q.store x >>= fun _ => (k.mirror v.length).exec _) s
    rw [bind_ok (down_eq a g (i + 1) _ (by omega)), ep,
      bind_ok (show It.plus (some ⟨a, g, ob.offset⟩) (v.length - 1 - i) s = .ok (some ⟨a, g, ob.offset + (v.length - 1 - i)⟩) s from rfl),
      bind_ok (show It.store (some ⟨a, g, ob.offset + (v.length - 1 - i)⟩) x s = .ok () s1 from hst),
      bind_ok (show It.store (some ⟨a, g, ob.offset + (v.length - 1 - i)⟩) x s = .ok () s1 from hst)]
    have := rexec_eq k hM1 (hg1.trans hg) (by rw [set_reverse hi]; exact hk)
    rwa [List.length_set] at this

/-- With `rbegin()` and `rend()`: what the code does to the list in reverse order it does to the object. -/
theorem c107_backwards (hv : cfg.Valid) (hp : cfg.Physical) (hr : Reach cfg s env) {o : Nat} {v : List T} (ho : env o = .val v) (back : Bool)
    (f : Nat → Work T) (hok : (f v.length).Ok v.reverse) :
    Works cfg s env (onReversed cfg back o f s) o ((f v.length).effect v.reverse).1 ((f v.length).effect v.reverse).2.reverse := by
  unfold onReversed
  obtain ⟨m1, m2⟩ := mirror_effect (f v.length) v hok
  rcases iters_or hv hp hr ho back with ⟨s2, ob, a, b, h1, hM, he, h2⟩ | ⟨s', h1, h2⟩
  · obtain ⟨s', w1, w2⟩ := work_ok hv hp _ hM he rfl h2 ho m1
    rw [m2] at w1 w2
    refine ⟨s', .inl ⟨?_, w2⟩⟩
    rw [bind_ok h1]
    dsimp only
    rw [bind_ok (minus_all a b.gen ob.offset v.length), rexec_eq _ hM rfl hok]
    exact w1
  · exact ⟨s', .inr ⟨bind_raised h1, h2⟩⟩

/-! ## A part of the elements -/

/-- `work(first + i, …)`: the same code, on elements from `i` on. -/
def Work.shift (i : Nat) : Work T → Work T
  | .done r => .done r
  | .raise e => .raise e
  | .load j k => .load (i + j) fun x => (k x).shift i
  | .store j x k => .store (i + j) x (k.shift i)

theorem shift_effect (P Q : List T) : ∀ (A : Work T) (l : List T), A.Ok l →
    (A.shift P.length).Ok (P ++ l ++ Q) ∧ (A.shift P.length).effect (P ++ l ++ Q) = ((A.effect l).1, P ++ (A.effect l).2 ++ Q)
  | .done _, l, _ | .raise _, l, _ => ⟨trivial, rfl⟩
  | .load i k, l, ⟨x, hx, hk⟩ => by
    obtain ⟨h1, h2⟩ := shift_effect P Q (k x) l hk
    have hi := (List.getElem?_eq_some_iff.mp hx).1
    have hx' : (P ++ l ++ Q)[P.length + i]? = some x := by
      rw [List.getElem?_append_left (by simp; omega), List.getElem?_append_right (by omega), Nat.add_sub_cancel_left, hx]
    refine ⟨⟨x, hx', h1⟩, ?_⟩
    show (Work.load (P.length + i) fun x => (k x).shift P.length).effect (P ++ l ++ Q) = _
    rw [Work.effect, Work.effect]
    simp only [hx, hx']
    exact h2
  | .store i x k, l, ⟨hi, hk⟩ => by
    obtain ⟨h1, h2⟩ := shift_effect P Q k (l.set i x) hk
    have e : (P ++ l ++ Q).set (P.length + i) x = P ++ l.set i x ++ Q := by
      rw [List.set_append_left _ _ (by simp; omega), List.set_append_right _ _ (by omega), Nat.add_sub_cancel_left]
    refine ⟨⟨by simp; omega, by rw [e]; exact h1⟩, ?_⟩
    show (k.shift P.length).effect ((P ++ l ++ Q).set (P.length + i) x) = _
    rw [e]; exact h2

/-- `work(s.begin() + i, s.begin() + j)`: code on a part of the elements changes that part only. -/
theorem c107_part (hv : cfg.Valid) (hp : cfg.Physical) (hr : Reach cfg s env) {o : Nat} {v : List T} (ho : env o = .val v) (back : Bool)
    {i j : Nat} (hij : i ≤ j) (hj : j ≤ v.length) (f : Nat → Work T) (hok : (f (j - i)).Ok ((v.take j).drop i)) :
    Works cfg s env (onElements cfg back o (fun _ => (f (j - i)).shift i) s) o ((f (j - i)).effect ((v.take j).drop i)).1
      (v.take i ++ ((f (j - i)).effect ((v.take j).drop i)).2 ++ v.drop j) := by
  have e : v.take i ++ (v.take j).drop i ++ v.drop j = v := by
    have h1 : (v.take j).take i = v.take i := by rw [List.take_take, Nat.min_eq_left hij]
    rw [← h1, List.take_append_drop, List.take_append_drop]
  obtain ⟨h1, h2⟩ := shift_effect (v.take i) (v.drop j) (f (j - i)) _ hok
  rw [e, List.length_take, Nat.min_eq_left (by omega)] at h1 h2
  have := c107_any hv hp hr ho back (fun _ => (f (j - i)).shift i) h1
  simp only [h2] at this
  exact this

/-! ## Exchanging elements -/

/-- `std::iter_swap(first + i, first + j)` -/
def Work.swap (i j : Nat) (k : Work T) : Work T := .load i fun x => .load j fun y => .store i y (.store j x k)

/-- Code on `n` elements that reads elements, exchanges elements, and does nothing else. -/
inductive Exchanging (n : Nat) : Work T → Prop where
  | done (r : Nat) : Exchanging n (.done r)
  | raise (e : Exc) : Exchanging n (.raise e)
  | load {i : Nat} {k : T → Work T} (hi : i < n) (h : ∀ x, Exchanging n (k x)) : Exchanging n (.load i k)
  | swap {i j : Nat} {k : Work T} (hi : i < n) (hj : j < n) (h : Exchanging n k) : Exchanging n (.swap i j k)

theorem work_load {i : Nat} {k : T → Work T} {l : List T} {x : T} (h : l[i]? = some x) :
    (Work.load i k).effect l = (k x).effect l ∧ ((k x).Ok l → (Work.load i k).Ok l) :=
  ⟨by rw [Work.effect]; simp only [h], fun hk => ⟨x, h, hk⟩⟩

theorem work_swap {i j : Nat} {k : Work T} {l : List T} {x y : T} (hi : l[i]? = some x) (hj : l[j]? = some y) :
    (Work.swap i j k).effect l = k.effect ((l.set i y).set j x) ∧ (k.Ok ((l.set i y).set j x) → (Work.swap i j k).Ok l) := by
  unfold Work.swap
  have hil := (List.getElem?_eq_some_iff.mp hi).1
  have hjl := (List.getElem?_eq_some_iff.mp hj).1
  refine ⟨?_, fun h => ⟨x, hi, y, hj, hil, by simpa using hjl, h⟩⟩
  rw [(work_load hi).1, (work_load hj).1]
  rfl

theorem exchanging_perm {n : Nat} {k : Work T} (h : Exchanging n k) : ∀ l : List T, l.length = n → k.Ok l ∧ (k.effect l).2.Perm l := by
  induction h with
  | done r | raise e => exact fun l _ => ⟨trivial, .refl _⟩
  | load hi _ ih =>
    rintro l rfl
    have hx := List.getElem?_eq_getElem hi
    rw [(work_load hx).1]
    exact ⟨(work_load hx).2 (ih _ l rfl).1, (ih _ l rfl).2⟩
  | swap hi hj _ ih =>
    rintro l rfl
    rename_i i j k _
    have hx := List.getElem?_eq_getElem hi
    have hy := List.getElem?_eq_getElem hj
    obtain ⟨h1, h2⟩ := ih ((l.set i l[j]).set j l[i]) (by simp)
    rw [(work_swap hx hy).1]
    exact ⟨(work_swap hx hy).2 h1, h2.trans (List.set_set_perm hi hj)⟩

/-- Whatever such code does, even if it throws: the object has the elements it had, none lost, none twice. -/
theorem c107_exchange (hv : cfg.Valid) (hp : cfg.Physical) (hr : Reach cfg s env) {o : Nat} {v : List T} (ho : env o = .val v) (back : Bool)
    (f : Nat → Work T) (hf : Exchanging v.length (f v.length)) :
    ∃ out u, u.Perm v ∧ Works cfg s env (onElements cfg back o f s) o out u :=
  ⟨_, _, (exchanging_perm hf v rfl).2, c107_any hv hp hr ho back f (exchanging_perm hf v rfl).1⟩

/-! ## `std::reverse` -/

/-- `for (; m; ++i, --m) std::iter_swap(first + i, first + (n - 1 - i));` -/
def reverseFrom (n : Nat) (i : Nat) : Nat → Work T
  | 0 => .done 0
  | m + 1 => .swap i (n - 1 - i) (reverseFrom n (i + 1) m)

/-- `std::reverse` -/
def reversal (n : Nat) : Work T := reverseFrom n 0 (n / 2)

theorem reverseFrom_effect (xs : List T) : ∀ (m i : Nat) (l : List T), l.length = xs.length →
    i + m = xs.length / 2 → (∀ j, l[j]? = if j < i ∨ xs.length - i ≤ j then xs.reverse[j]? else xs[j]?) →
    (reverseFrom xs.length i m).Ok l ∧ (reverseFrom xs.length i m).effect l = (.ret (.num 0), xs.reverse)
  | 0, i, l, hl, hm, h => by
    refine ⟨trivial, ?_⟩
    show (_, l) = _
    congr 1
    apply List.ext_getElem?
    intro j
    rw [h]
    split
    · rfl
    · have hj : j < xs.length := by omega
      rw [List.getElem?_reverse hj]
      congr 1; omega
  | m + 1, i, l, hl, hm, h => by
    have hi : i < l.length := by omega
    have hj : xs.length - 1 - i < l.length := by omega
    have hx := List.getElem?_eq_getElem hi
    have hy := List.getElem?_eq_getElem hj
    obtain ⟨h1, h2⟩ := work_swap (k := reverseFrom xs.length (i + 1) m) hx hy
    obtain ⟨h3, h4⟩ := reverseFrom_effect xs m (i + 1) ((l.set i l[xs.length - 1 - i]).set (xs.length - 1 - i) l[i]) (by simpa using hl) (by omega) fun j => by
      rw [List.getElem?_set, List.length_set, List.getElem?_set]
      by_cases e1 : xs.length - 1 - i = j
      · rw [if_pos e1, if_pos hj, ← hx, h, if_neg (by omega), if_pos (by omega), List.getElem?_reverse (by omega)]
        congr 1; omega
      · rw [if_neg e1]
        by_cases e2 : i = j
        · rw [if_pos e2, if_pos hi, ← hy, h, if_neg (by omega), if_pos (by omega), List.getElem?_reverse (by omega)]
          congr 1; omega
        · rw [if_neg e2, h]
          by_cases e3 : j < i ∨ xs.length - i ≤ j
          · rw [if_pos e3, if_pos (by omega)]
          · rw [if_neg e3, if_neg (by omega)]
    exact ⟨h2 h3, h1.trans h4⟩

/-- `std::reverse(s.begin(), s.end())` -/
theorem c107_reverse (hv : cfg.Valid) (hp : cfg.Physical) (hr : Reach cfg s env) {o : Nat} {v : List T} (ho : env o = .val v) (back : Bool) :
    Works cfg s env (onElements cfg back o reversal s) o (.ret (.num 0)) v.reverse := by
  obtain ⟨h1, h2⟩ := reverseFrom_effect v (v.length / 2) 0 v rfl (by omega) fun j => by
    split
    · rename_i hj
      have hj : v.length ≤ j := by omega
      rw [List.getElem?_eq_none hj, List.getElem?_eq_none (by simpa using hj)]
    · rfl
  have := c107_any hv hp hr ho back reversal h1
  unfold reversal at this
  rw [h2] at this
  exact this

/-! ## Sorting

The insertion sort `std::sort` and `std::stable_sort` use for short ranges. -/

/-- `x`, taken from place `j`, goes to its place among the first `j` elements. -/
def insertion (less : T → T → Bool) (x : T) : Nat → Work T → Work T
  | 0, k => .store 0 x k
  | j + 1, k => .load j fun y => if less x y then .store (j + 1) y (insertion less x j k) else .store (j + 1) x k

/-- The elements from `i` on, `m` of them, are inserted among those before. -/
def sortFrom (less : T → T → Bool) (i : Nat) : Nat → Work T
  | 0 => .done 0
  | m + 1 => .load i fun x => insertion less x i (sortFrom less (i + 1) m)

def insertionSort (less : T → T → Bool) (n : Nat) : Work T := sortFrom less 1 (n - 1)

theorem set_mid {A B : List T} {x y : T} {j : Nat} (h : A.length = j) : (A ++ x :: B).set j y = A ++ y :: B := by
  subst h
  rw [List.set_append_right _ _ (Nat.le_refl _), Nat.sub_self, List.set_cons_zero]

theorem get_mid {A B : List T} {x : T} {j : Nat} (h : A.length = j) : (A ++ x :: B)[j]? = some x := by
  subst h
  rw [List.getElem?_append_right (Nat.le_refl _), Nat.sub_self, List.getElem?_cons_zero]

theorem insertion_effect (less : T → T → Bool) (k : Work T) (x : T) : ∀ (j : Nat) (A B : List T) (hole : T), A.length = j →
    ∃ A1 A2, A = A1 ++ A2 ∧ (∀ y ∈ A2, less x y = true) ∧ (∀ A0 z, A1 = A0 ++ [z] → less x z = false) ∧
      (insertion less x j k).effect (A ++ hole :: B) = k.effect (A1 ++ x :: A2 ++ B) ∧
      (k.Ok (A1 ++ x :: A2 ++ B) → (insertion less x j k).Ok (A ++ hole :: B))
  | 0, A, B, hole, hA => by
    have hA : A = [] := List.eq_nil_of_length_eq_zero hA
    subst hA
    exact ⟨[], [], rfl, by simp, fun A0 z e => by simp at e, rfl, fun h => ⟨by simp, h⟩⟩
  | j + 1, A, B, hole, hA => by
    obtain ⟨A', y, rfl⟩ : ∃ A' y, A = A' ++ [y] := by
      rcases List.eq_nil_or_concat A with rfl | ⟨A', y, rfl⟩
      · simp at hA
      · exact ⟨A', y, by simp⟩
    have hA' : A'.length = j := by simpa using hA
    have hform : A' ++ [y] ++ hole :: B = A' ++ y :: hole :: B := by simp
    have hy : (A' ++ [y] ++ hole :: B)[j]? = some y := by rw [hform, get_mid hA']
    have hhole : ∀ z, (A' ++ [y] ++ hole :: B).set (j + 1) z = A' ++ [y] ++ z :: B := fun z => set_mid (by simp [hA'])
    have hlen : j + 1 < (A' ++ [y] ++ hole :: B).length := by simp [hA']
    have hl := work_load (k := fun y => if less x y then .store (j + 1) y (insertion less x j k) else .store (j + 1) x k) hy
    by_cases hb : less x y = true
    · obtain ⟨A1, A2, rfl, h2, h3, h4, h5⟩ := insertion_effect less k x j A' (y :: B) y hA'
      rw [if_pos hb] at hl
      refine ⟨A1, A2 ++ [y], by simp, fun z hz => ?_, h3, ?_, fun h => hl.2 ⟨hlen, ?_⟩⟩
      · rcases List.mem_append.mp hz with hz | hz
        · exact h2 z hz
        · rw [List.mem_singleton.mp hz]; exact hb
      · refine hl.1.trans ?_
        show (insertion less x j k).effect (List.set _ _ _) = _
        rw [hhole, show A1 ++ A2 ++ [y] ++ y :: B = A1 ++ A2 ++ y :: y :: B by simp, h4]
        simp
      · rw [hhole, show A1 ++ A2 ++ [y] ++ y :: B = A1 ++ A2 ++ y :: y :: B by simp]
        exact h5 (by simpa using h)
    · rw [if_neg hb] at hl
      have hb : less x y = false := by simpa using hb
      refine ⟨A' ++ [y], [], by simp, by simp, fun A0 z e => ?_, ?_, fun h => hl.2 ⟨hlen, ?_⟩⟩
      · have : y = z := by simpa using congrArg List.getLast? e
        rw [← this]; exact hb
      · refine hl.1.trans ?_
        show k.effect (List.set _ _ _) = _
        rw [hhole]; simp
      · rw [hhole]; simpa using h

/-- `less` is an order: `std::sort` asks for it.  Elements in no order are equivalent. -/
structure Orders (less : T → T → Bool) : Prop where
  asymm : ∀ x y, less x y = true → less y x = false
  trans : ∀ x y z, less y x = false → less z y = false → less z x = false

theorem sortFrom_effect (less : T → T → Bool) (xs : List T) (ho : Orders less) :
    ∀ (m : Nat) (S R : List T), R.length = m → (S ++ R).Perm xs → S.Pairwise (fun x y => less y x = false) →
    (sortFrom less S.length m).Ok (S ++ R) ∧ ∃ v, (sortFrom less S.length m).effect (S ++ R) = (.ret (.num 0), v) ∧ v.Perm xs ∧
      v.Pairwise (fun x y => less y x = false) ∧
      ∀ P : T → Bool, (∀ x y, P x = true → P y = true → less x y = false) → v.filter P = (S ++ R).filter P
  | 0, S, R, hR, hp, hs => by
    have hR : R = [] := List.eq_nil_of_length_eq_zero hR
    subst hR
    refine ⟨trivial, S ++ [], rfl, hp, by simpa using hs, fun P _ => rfl⟩
  | m + 1, S, R, hR, hp, hs => by
    cases R with
    | nil => simp at hR
    | cons x R =>
      obtain ⟨A1, A2, hA, h2, h3, h4, h5⟩ := insertion_effect less (sortFrom less (S.length + 1) m) x S.length S R x rfl
      have hlen : (A1 ++ x :: A2).length = S.length + 1 := by rw [hA]; simp; omega
      have hperm : (A1 ++ x :: A2 ++ R).Perm (S ++ x :: R) := by
        rw [hA]
        have : (A1 ++ x :: A2).Perm (A1 ++ A2 ++ [x]) := by
          rw [List.append_assoc]
          exact (List.perm_append_singleton x A2).symm.append_left A1
        have := this.append_right R
        simpa using this
      have h1 : ∀ z ∈ A1, less x z = false := by
        rcases List.eq_nil_or_concat A1 with rfl | ⟨A0, l, e⟩
        · simp
        · rw [List.concat_eq_append] at e
          have hl := h3 A0 l e
          intro z hz
          rw [e] at hz
          rcases List.mem_append.mp hz with hz | hz
          · rw [hA, e] at hs
            have : less l z = false := ((List.pairwise_append.mp ((List.pairwise_append.mp hs).1)).2.2) z hz l (by simp)
            exact ho.trans z l x this hl
          · rw [List.mem_singleton.mp hz]; exact hl
      have hsorted : (A1 ++ x :: A2).Pairwise (fun x y => less y x = false) := by
        rw [hA] at hs
        obtain ⟨s1, s2, s3⟩ := List.pairwise_append.mp hs
        refine List.pairwise_append.mpr ⟨s1, List.pairwise_cons.mpr ⟨fun y hy => ?_, s2⟩, fun z hz y hy => ?_⟩
        · exact ho.asymm x y (h2 y hy)
        · rcases List.mem_cons.mp hy with rfl | hy
          · exact h1 z hz
          · exact s3 z hz y hy
      obtain ⟨g1, v, g2, g3, g4, g5⟩ := sortFrom_effect less xs ho m (A1 ++ x :: A2) R (by simpa using hR) (hperm.trans hp) hsorted
      rw [hlen] at g1 g2
      have hl := work_load (k := fun x => insertion less x S.length (sortFrom less (S.length + 1) m)) (get_mid (A := S) (B := R) (x := x) rfl)
      refine ⟨hl.2 (h5 g1), v, hl.1.trans (h4.trans g2), g3, g4, fun P hP => ?_⟩
      rw [g5 P hP, hA]
      simp only [List.filter_append, List.filter_cons, List.append_assoc]
      congr 1
      by_cases hPx : P x = true
      · have : A2.filter P = [] := by
          rw [List.filter_eq_nil_iff]
          intro y hy hPy
          have := hP x y hPx hPy
          rw [h2 y hy] at this; cases this
        rw [this]; simp [hPx]
      · simp [hPx]

/-- Any order: the object has the same elements in ascending order, and equivalent ones in the order they had. -/
theorem c107_sort (hv : cfg.Valid) (hp : cfg.Physical) (hr : Reach cfg s env) {o : Nat} {v : List T} (ho : env o = .val v) (back : Bool)
    {less : T → T → Bool} (hl : Orders less) :
    ∃ u, u.Perm v ∧ u.Pairwise (fun x y => less y x = false) ∧
      (∀ P : T → Bool, (∀ x y, P x = true → P y = true → less x y = false) → u.filter P = v.filter P) ∧
      Works cfg s env (onElements cfg back o (insertionSort less) s) o (.ret (.num 0)) u := by
  cases v with
  | nil => exact ⟨[], .refl _, .nil, fun _ _ => rfl, c107_any hv hp hr ho back (insertionSort less) trivial⟩
  | cons x v =>
    obtain ⟨h1, u, h2, h3, h4, h5⟩ := sortFrom_effect less (x :: v) hl v.length [x] v rfl (.refl _) (by simp)
    refine ⟨u, h3, h4, h5, ?_⟩
    have := c107_any hv hp hr ho back (insertionSort less) h1
    rw [show ((insertionSort less (x :: v).length).effect (x :: v)) = _ from h2] at this
    exact this

/-! ## `std::remove` -/

/-- `r` elements are kept so far; those from `i` on, `m` of them, have not been looked at. -/
def removeFrom (gone : T → Bool) (r i : Nat) : Nat → Work T
  | 0 => .done r
  | m + 1 => .load i fun x => if gone x then removeFrom gone r (i + 1) m else .store r x (removeFrom gone (r + 1) (i + 1) m)

/-- `std::remove_if(first, last, gone) - first` -/
def removal (gone : T → Bool) (n : Nat) : Work T := removeFrom gone 0 0 n

theorem removeFrom_effect (gone : T → Bool) : ∀ (R P Q : List T),
    (removeFrom gone P.length (P.length + Q.length) R.length).Ok (P ++ (Q ++ R)) ∧ ∃ v,
      (removeFrom gone P.length (P.length + Q.length) R.length).effect (P ++ (Q ++ R)) =
        (.ret (.num (P ++ R.filter (fun x => !gone x)).length), v) ∧ v.length = (P ++ (Q ++ R)).length ∧
      v.take (P ++ R.filter (fun x => !gone x)).length = P ++ R.filter (fun x => !gone x)
  | [], P, Q => by
    refine ⟨trivial, P ++ (Q ++ []), ?_, rfl, ?_⟩
    · show (Outcome.ret (.num P.length), _) = _
      simp
    · simp
  | x :: R, P, Q => by
    have hx : (P ++ (Q ++ x :: R))[P.length + Q.length]? = some x := by
      rw [← List.append_assoc]; exact get_mid (by simp)
    have hl := work_load (k := fun x => if gone x then removeFrom gone P.length (P.length + Q.length + 1) R.length
      else .store P.length x (removeFrom gone (P.length + 1) (P.length + Q.length + 1) R.length)) hx
    by_cases hb : gone x = true
    · rw [if_pos hb] at hl
      obtain ⟨h1, v, h2, h3, h4⟩ := removeFrom_effect gone R P (Q ++ [x])
      have e1 : P ++ (Q ++ [x] ++ R) = P ++ (Q ++ x :: R) := by simp
      have e2 : P.length + (Q ++ [x]).length = P.length + Q.length + 1 := by simp; omega
      have e3 : (x :: R).filter (fun x => !gone x) = R.filter (fun x => !gone x) := by simp [hb]
      rw [e1, e2] at h1 h2
      rw [e1] at h3
      rw [e3]
      exact ⟨hl.2 h1, v, hl.1.trans h2, h3, h4⟩
    · rw [if_neg hb] at hl
      have e3 : (x :: R).filter (fun x => !gone x) = x :: R.filter (fun x => !gone x) := by simp [hb]
      have hlt : P.length < (P ++ (Q ++ x :: R)).length := by simp; omega
      obtain ⟨Q', hset, hlen⟩ : ∃ Q' : List T, (P ++ (Q ++ x :: R)).set P.length x = (P ++ [x]) ++ (Q' ++ R) ∧ Q'.length = Q.length := by
        cases Q with
        | nil => exact ⟨[], by rw [show P ++ ([] ++ x :: R) = P ++ x :: R from rfl, set_mid rfl]; simp, rfl⟩
        | cons y Q => exact ⟨Q ++ [x], by rw [show P ++ (y :: Q ++ x :: R) = P ++ y :: (Q ++ x :: R) from rfl, set_mid rfl]; simp, by simp⟩
      obtain ⟨h1, v, h2, h3, h4⟩ := removeFrom_effect gone R (P ++ [x]) Q'
      have e2 : (P ++ [x]).length + Q'.length = P.length + Q.length + 1 := by simp [hlen]; omega
      have e4 : (P ++ [x]).length = P.length + 1 := by simp
      rw [e2, e4, ← hset] at h1 h2
      have e5 : P ++ [x] ++ R.filter (fun x => !gone x) = P ++ (x :: R).filter (fun x => !gone x) := by rw [e3]; simp
      rw [e5] at h2 h4
      refine ⟨hl.2 ⟨hlt, h1⟩, v, hl.1.trans h2, ?_, h4⟩
      rw [h3, ← hset, List.length_set]

/-- `std::remove_if(s.begin(), s.end(), gone)`: the elements that stay come first, in the order they had, and the result says how many they are. -/
theorem c107_remove (hv : cfg.Valid) (hp : cfg.Physical) (hr : Reach cfg s env) {o : Nat} {v : List T} (ho : env o = .val v) (back : Bool)
    (gone : T → Bool) :
    ∃ rest, rest.length + (v.filter fun x => !gone x).length = v.length ∧
      Works cfg s env (onElements cfg back o (removal gone) s) o (.ret (.num (v.filter fun x => !gone x).length)) ((v.filter fun x => !gone x) ++ rest) := by
  obtain ⟨h1, u, h2, h3, h4⟩ := removeFrom_effect gone v [] []
  simp only [List.nil_append, List.length_nil, Nat.add_zero] at h1 h2 h3 h4
  refine ⟨u.drop (v.filter fun x => !gone x).length, ?_, ?_⟩
  · have := congrArg List.length h4
    rw [List.length_take] at this
    rw [List.length_drop]; omega
  · have hu : (v.filter fun x => !gone x) ++ u.drop (v.filter fun x => !gone x).length = u := by
      have := List.take_append_drop (v.filter fun x => !gone x).length u
      rwa [h4] at this
    rw [hu]
    have := c107_any hv hp hr ho back (removal gone) h1
    rw [show (removal gone v.length).effect v = _ from h2] at this
    exact this

/-! ## `std::transform` -/

/-- `for (; m; ++i, --m) first[i] = f(first[i]);` -/
def transformFrom (f : T → T) (i : Nat) : Nat → Work T
  | 0 => .done i
  | m + 1 => .load i fun x => .store i (f x) (transformFrom f (i + 1) m)

/-- `std::transform(first, last, first, f)` -/
def transforming (f : T → T) (n : Nat) : Work T := transformFrom f 0 n

theorem transformFrom_effect (f : T → T) : ∀ (R P : List T),
    (transformFrom f P.length R.length).Ok (P ++ R) ∧
      (transformFrom f P.length R.length).effect (P ++ R) = (.ret (.num (P.length + R.length)), P ++ R.map f)
  | [], P => ⟨trivial, by show (Outcome.ret (.num P.length), _) = _; simp⟩
  | x :: R, P => by
    obtain ⟨h1, h2⟩ := transformFrom_effect f R (P ++ [f x])
    have e : (P ++ x :: R).set P.length (f x) = P ++ [f x] ++ R := by rw [set_mid rfl]; simp
    have e4 : (P ++ [f x]).length = P.length + 1 := by simp
    rw [e4, ← e] at h1 h2
    have hl := work_load (k := fun x => .store P.length (f x) (transformFrom f (P.length + 1) R.length)) (get_mid (A := P) (B := R) (x := x) rfl)
    refine ⟨hl.2 ⟨by simp, h1⟩, hl.1.trans (h2.trans ?_)⟩
    simp [Nat.add_assoc, Nat.add_comm 1]

/-- `std::transform(s.begin(), s.end(), s.begin(), f)` -/
theorem c107_transform (hv : cfg.Valid) (hp : cfg.Physical) (hr : Reach cfg s env) {o : Nat} {v : List T} (ho : env o = .val v) (back : Bool)
    (f : T → T) : Works cfg s env (onElements cfg back o (transforming f) s) o (.ret (.num v.length)) (v.map f) := by
  obtain ⟨h1, h2⟩ := transformFrom_effect f v []
  simp only [List.nil_append, List.length_nil, Nat.zero_add] at h1 h2
  have := c107_any hv hp hr ho back (transforming f) h1
  rw [show (transforming f v.length).effect v = _ from h2] at this
  exact this

/-! ## Cases -/

/-- `std::greater<int>()` -/
theorem int_orders : Orders (T := Nat) (fun x y => decide (y < x)) where
  asymm x y h := by
    simp only [decide_eq_true_iff, decide_eq_false_iff_not] at h ⊢
    omega
  trans x y z h1 h2 := by
    simp only [decide_eq_false_iff_not] at h1 h2 ⊢
    omega

/-- `std::less<int>()` -/
theorem nat_orders : Orders (T := Nat) (fun x y => decide (x < y)) where
  asymm x y h := by
    simp only [decide_eq_true_iff, decide_eq_false_iff_not] at h ⊢
    omega
  trans x y z h1 h2 := by
    simp only [decide_eq_false_iff_not] at h1 h2 ⊢
    omega

/-- Two copies of "hi" share their characters: one is sorted in descending order, and the program goes on with "hi" in the other. -/
example : ∃ s', Shows s' 0 [105, 104] ∧ Shows s' 1 [104, 105] ∧
    Reach strCfg s' (((Env.empty.upd 0 (.val [104, 105])).upd 1 (.val [104, 105])).upd 0 (.val [105, 104])) := by
  obtain ⟨u, h1, h3, -, s', h2⟩ := c107_sort strCfg_valid strCfg_physical reachHi (o := 0) rfl false int_orders
  rcases h2 with ⟨-, h2⟩ | ⟨h2, -⟩
  · have hu : u = [105, 104] := by
      have hlen := h1.length_eq
      match u, hlen with
      | [x, y], _ =>
        have h4 : 105 ∈ [x, y] := h1.mem_iff.mpr (by simp)
        have h5 : 104 ∈ [x, y] := h1.mem_iff.mpr (by simp)
        simp at h3 h4 h5
        have hx : x = 105 := by omega
        have hy : y = 104 := by omega
        rw [hx, hy]
    subst hu
    exact ⟨s', h2.shows strCfg_valid strCfg_physical rfl, h2.shows strCfg_valid strCfg_physical rfl, h2⟩
  · obtain ⟨_, t, hok⟩ := returned_ok (show Res.returned (onElements strCfg false 0 (insertionSort fun x y : Nat => decide (y < x)) stHi) = true by decide +kernel)
    rw [hok] at h2
    cases h2

/-- `Array<int>`: object 1 is a part of object 0; it is reversed and object 0 keeps its elements. -/
example : ∃ s', onElements arrCfg true 1 reversal stA = .ok 0 s' ∧ Shows s' 1 [4, 3, 2] ∧ Shows s' 0 [1, 2, 3, 4, 5] := by
  obtain ⟨s', ⟨h1, h2⟩ | ⟨h2, -⟩⟩ := c107_reverse arrCfg_valid arrCfg_physical reachA (o := 1) (v := [2, 3, 4]) rfl true
  · rcases h1 with ⟨k, h1, h3⟩ | ⟨e, h1, -⟩
    · cases h1
      exact ⟨s', h3, h2.shows arrCfg_valid arrCfg_physical rfl, h2.shows arrCfg_valid arrCfg_physical rfl⟩
    · cases h1
  · obtain ⟨_, t, hok⟩ := returned_ok (show Res.returned (onElements arrCfg true 1 reversal stA) = true by decide +kernel)
    rw [hok] at h2
    cases h2

example : (insertionSort (fun x y : Nat => decide (x < y)) 4).effect [3, 1, 2, 1] = (.ret (.num 0), [1, 1, 2, 3]) ∧
    (removal (fun x : Nat => decide (x = 1)) 4).effect [3, 1, 2, 1] = (.ret (.num 2), [3, 2, 2, 1]) ∧
    (transforming (fun x : Nat => x * 10) 3).effect [1, 2, 3] = (.ret (.num 3), [10, 20, 30]) := ⟨rfl, rfl, rfl⟩

/-- `std::sort(s.rbegin(), s.rend())` on `Array<int>`: the elements are in descending order.  `std::reverse(s.begin() + 1, s.begin() + 4)`. -/
example : (∃ s', onReversed arrCfg false 0 (insertionSort fun x y => decide (x < y)) stA = .ok 0 s' ∧ Shows s' 0 [5, 4, 3, 2, 1] ∧ Shows s' 1 [2, 3, 4]) ∧
    ∃ s', onElements arrCfg false 0 (fun _ => (reversal 3).shift 1) stA = .ok 0 s' ∧ Shows s' 0 [1, 4, 3, 2, 5] ∧ Shows s' 1 [2, 3, 4] := by
  constructor
  · obtain ⟨s', ⟨h1, h2⟩ | ⟨h2, -⟩⟩ := c107_backwards arrCfg_valid arrCfg_physical reachA (o := 0) (v := [1, 2, 3, 4, 5]) rfl false
        (insertionSort fun x y => decide (x < y)) (sortFrom_effect _ [5, 4, 3, 2, 1] nat_orders 4 [5] [4, 3, 2, 1] rfl (.refl _) (by simp)).1
    · rcases h1 with ⟨k, h1, h3⟩ | ⟨e, h1, -⟩
      · cases h1
        exact ⟨s', h3, h2.shows arrCfg_valid arrCfg_physical rfl, h2.shows arrCfg_valid arrCfg_physical rfl⟩
      · cases h1
    · obtain ⟨_, t, hok⟩ := returned_ok (show Res.returned (onReversed arrCfg false 0 (insertionSort fun x y => decide (x < y)) stA) = true by decide +kernel)
      rw [hok] at h2
      cases h2
  · obtain ⟨s', ⟨h1, h2⟩ | ⟨h2, -⟩⟩ := c107_part arrCfg_valid arrCfg_physical reachA (o := 0) (v := [1, 2, 3, 4, 5]) rfl false
        (i := 1) (j := 4) (by decide) (by decide) reversal (by simp [reversal, reverseFrom, Work.swap, Work.Ok])
    · rcases h1 with ⟨k, h1, h3⟩ | ⟨e, h1, -⟩
      · cases h1
        exact ⟨s', h3, h2.shows arrCfg_valid arrCfg_physical rfl, h2.shows arrCfg_valid arrCfg_physical rfl⟩
      · cases h1
    · obtain ⟨_, t, hok⟩ := returned_ok (show Res.returned (onElements arrCfg false 0 (fun _ => (reversal 3).shift 1) stA) = true by decide +kernel)
      rw [hok] at h2
      cases h2

/-- A sorting network of one comparator, that throws when it has seen a 9. -/
example : Exchanging 2 (Work.load 0 fun x : Nat => .load 1 fun y => if y < x then .swap 0 1 (if x = 9 then .raise .outOfRange else .done 0) else .done 0) :=
  .load (by decide) fun x => .load (by decide) fun y => by
    split
    · refine .swap (by decide) (by decide) ?_
      split
      · exact .raise _
      · exact .done 0
    · exact .done 0

end Bdlib.Rca
