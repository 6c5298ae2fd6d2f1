import Verif.Nest.Play
import Verif.Props.C65

/-!
# C75: arrays of strings

A program makes any number of `String`s and `Array<String>`s and calls them in any order.  Elements are `String`
objects in the cells of buffers, with their own storage, shared copy-on-write with other strings; buffers are
shared copy-on-write between arrays.  The specification (`Nest/Spec.lean`) knows neither: strings hold bytes and
arrays hold strings.
-/

namespace Bdlib.Nest
open Bdlib Bdlib.Spec Bdlib.Rca

variable {c : Conf} {w : World} {es : Env UInt8} {ea : Env Elem} {n lost : Nat}

/-- Every program: whatever calls are made, each is defined, has the effect the specification says, including the
exceptions when either memory is exhausted, and everything can be observed as specified, always.  When all strings and arrays
are destroyed nothing is left, except one string for each element that was added by `resize(len, value)` or the
fill constructor. -/
theorem c75_arrays_of_strings_partial (hc : c.Good) (n : Nat) : Plays c n {} Env.empty Env.empty 0 :=
  all_plays hc n all_init

/-! ## In particular -/

/-- A call on strings changes no array, although elements may share storage with those strings. -/
theorem c75_string_calls (h : Plays c (n + 1) w es ea lost) {op : Op UInt8} (hpre : Spec.Pre c.str (shared w.strs) es op) :
    ∃ out w' es', result (run c (.str op) w) = some (ofStr out, w') ∧ Spec.Post c.str (shared w.strs) es op out es' ∧
      Plays c n w' es' ea lost := by
  obtain ⟨_, w', es', ea', h1, ⟨o, h2, rfl, rfl⟩, h3⟩ := h.2 (.str op) hpre
  exact ⟨o, w', es', h1, h2, h3⟩

/-- `a.push_back(s)`: `s` becomes the last element and stays as it is.  If memory runs out the array is unchanged
or, if it was shared, empty. -/
theorem c75_append (h : Plays c (n + 1) w es ea lost) {a s : Nat} {xs : List Elem} (ha : ea a = .val xs) (hs : es.Live s) :
    ∃ w', (result (run c (.append a s) w) = some (.ret (.a .unit), w') ∧ Plays c n w' es (ea.upd a (.val (xs ++ [es s]))) lost) ∨
      (result (run c (.append a s) w) = some (.exc .badAlloc, w') ∧
        Plays c n w' es (if shared w.arrs a then ea.upd a (.val []) else ea) lost) := by
  obtain ⟨_, w', es', ea', h1, ⟨o, h2, rfl, rfl⟩, h3⟩ := h.2 (.append a s) ⟨⟨xs, ha⟩, hs⟩
  have hget : ea.get a = xs := by unfold Env.get; rw [ha]
  refine ⟨w', ?_⟩
  rcases h2 with ⟨rfl, rfl⟩ | ⟨rfl, rfl⟩
  · exact .inl ⟨h1, by rw [hget] at h3; exact h3⟩
  · exact .inr ⟨h1, h3⟩

/-- `a.push_back(std::move(s))`: the value of `s` becomes the last element; `s` is left as a moved-from string,
unless memory ran out, when nothing happened to it. -/
theorem c75_append_move (h : Plays c (n + 1) w es ea lost) {a s : Nat} {xs : List Elem} (ha : ea a = .val xs) (hs : es.Live s) :
    ∃ w', (result (run c (.appendMove a s) w) = some (.ret (.a .unit), w') ∧
        Plays c n w' (es.upd s (movedSlot c.str)) (ea.upd a (.val (xs ++ [es s]))) lost) ∨
      (result (run c (.appendMove a s) w) = some (.exc .badAlloc, w') ∧
        Plays c n w' es (if shared w.arrs a then ea.upd a (.val []) else ea) lost) := by
  obtain ⟨_, w', es', ea', h1, ⟨o, h2, rfl, rfl⟩, h3⟩ := h.2 (.appendMove a s) ⟨⟨xs, ha⟩, hs⟩
  have hget : ea.get a = xs := by unfold Env.get; rw [ha]
  refine ⟨w', ?_⟩
  rcases h2 with ⟨rfl, rfl⟩ | ⟨rfl, rfl⟩
  · exact .inl ⟨h1, by rw [hget] at h3; exact h3⟩
  · exact .inr ⟨h1, h3⟩

/-- `String t(a[i])`: `t` holds the element; a string like any other. -/
theorem c75_read (h : Plays c (n + 1) w es ea lost) {a i : Nat} {xs : List Elem} {y : Elem} (ha : ea a = .val xs)
    (hy : xs[i]? = some y) : ∃ t w', es t = .dead ∧ result (run c (.get a i) w) = some (.ret (.s (.obj t)), w') ∧
      Plays c n w' (es.upd t y) ea lost := by
  have hget : ea.get a = xs := by unfold Env.get; rw [ha]
  obtain ⟨hi, _⟩ := List.getElem?_eq_some_iff.mp hy
  obtain ⟨_, w', es', ea', h1, h2, h3⟩ := h.2 (.get a i) ⟨⟨xs, ha⟩, by rw [hget]; exact hi⟩
  rcases h2 with ⟨t, y', hd, ⟨hp, rfl⟩, rfl, rfl⟩ | ⟨e, ⟨hp, rfl⟩, _⟩
  · rw [hget, hy] at hp
    cases hp
    exact ⟨t, w', hd, h1, h3⟩
  · cases hp

/-- A call on an element of one array changes no other array, not even one that shares the buffer, and no
string that the call does not change itself. -/
theorem c75_modify (h : Plays c (n + 1) w es ea lost) {a i : Nat} {op : Nat → Op UInt8} (hpre : Pre c (shared w.strs) (shared w.arrs) es ea (.modify a i op)) :
    ∃ out w' es' ea', result (run c (.modify a i op) w) = some (out, w') ∧ Plays c n w' es' ea' lost ∧
      (∀ b, b ≠ a → ea' b = ea b) ∧
      (∀ s, es s ≠ .dead → (∀ t, ¬ (op t).Touches s) → es' s = es s) ∧
      ∀ j, j ≠ i → (∃ x, out = .ret x) → (ea'.get a)[j]? = (ea.get a)[j]? := by
  obtain ⟨out, w', es', ea', h1, h2, h3⟩ := h.2 (.modify a i op) hpre
  refine ⟨out, w', es', ea', h1, h3, ?_⟩
  rcases h2 with ⟨rfl, rfl, rfl⟩ | ⟨t, y, sh, o, e, hd, hy, hp, rfl, rfl, rfl⟩
  · refine ⟨fun b hb => ?_, fun _ _ _ => rfl, fun j _ ⟨x, hx⟩ => by cases hx⟩
    split
    · exact Env.upd_ne hb
    · rfl
  · refine ⟨fun b hb => Env.upd_ne hb, fun s hs hT => ?_, fun j hj _ => ?_⟩
    · have hst : s ≠ t := fun e => hs (e ▸ hd)
      rw [Env.upd_ne hst, post_frame hp (hT t) (by rw [Env.upd_ne hst]; exact hs), Env.upd_ne hst]
    · unfold Env.get
      rw [Env.upd_self]
      exact List.getElem?_set_ne (Ne.symm hj)

/-- Without `resize(len, value)` and the fill constructor nothing is left when all strings and arrays are destroyed. -/
theorem c75_no_leak (h : Sees w es ea 0) (hs : ∀ t, es t = .dead) (ha : ∀ a, ea a = .dead) :
    (∀ t, w.strs.obj t = none) ∧ (∀ b, w.strs.blk b = none) ∧ ∀ b, w.arrs.blk b = none := by
  obtain ⟨h1, ⟨L, _, hL, hiff⟩, h2⟩ := h.tidy hs ha
  have : L = [] := List.length_eq_zero_iff.mp hL
  subst this
  have hobj : ∀ t, w.strs.obj t = none := by
    intro t
    cases ho : w.strs.obj t with
    | none => rfl
    | some ob => exact absurd ((hiff t).1 ⟨ob, ho⟩) (by simp)
  refine ⟨hobj, fun b => ?_, h1⟩
  cases hb : w.strs.blk b with
  | none => rfl
  | some B =>
    obtain ⟨t, ob, ho, _⟩ := h2 b B hb
    rw [hobj t] at ho; cases ho

/-! ## A program -/

deriving instance DecidableEq for Out
deriving instance DecidableEq for Ans
deriving instance DecidableEq for Fin

def conf : Conf := ⟨byteCfg, fun n => n + n / 2, fun _ n => decide (n < maxCells)⟩

theorem conf_good : conf.Good := ⟨byteCfg_valid, byteCfg_physical, fun g n h => by
  show decide (n < maxCells) = false
  exact decide_eq_false (by omega)⟩

/-- How the last of some calls ended and the state after it. -/
def after (c : Conf) : List Call → Fin × World → Option (Fin × World)
  | [], r => some r
  | k :: ks, r => (result (run c k r.2)).bind (after c ks)

/-- How the calls end, each with its answer. -/
def answers (c : Conf) : List Call → World → List (Option Fin)
  | [], _ => []
  | k :: ks, w => match result (run c k w) with
    | some (x, w') => some x :: answers c ks w'
    | none => [none]

/-- The bytes string `t` shows. -/
def bytesOf (w : World) (t : Nat) : Option (List UInt8) := w.strs.view t

/-- The bytes of the elements array `a` shows. -/
def elemsOf (w : World) (a : Nat) : Option (List (Option (List UInt8))) := (w.arrs.view a).map (·.map (bytesOf w))

/-- `String s("hi"); Array<String> a; a.push_back(s); Array<String> b(a); b.begin()[0] += '!';` -/
def greet : List Call :=
  [.str (.strCtor [104, 105]), .arr .ctor, .append 0 0, .arr (.copyCtor 0), .modify 1 0 fun t => .append t 33]

/-- What the code does. -/
example : ((after conf greet (.exc .badAlloc, {})).map fun r => (bytesOf r.2 0, elemsOf r.2 0, elemsOf r.2 1)) =
    some (some [104, 105], some [some [104, 105]], some [some [104, 105, 33]]) := by decide +kernel

theorem play_step (h : Plays c (n + 1) w es ea lost) {call : Call} {out : Fin} {w' : World}
    (hpre : Pre c (shared w.strs) (shared w.arrs) es ea call) (hr : result (run c call w) = some (out, w')) :
    ∃ es' ea', Post c (shared w.strs) (shared w.arrs) es ea call out es' ea' ∧ Plays c n w' es' ea' (lost + wasted ea call out) := by
  obtain ⟨out', w1, es', ea', h1, h2, h3⟩ := h.2 call hpre
  rw [hr] at h1
  cases h1
  exact ⟨es', ea', h2, h3⟩

theorem of_map_fst {r : Option (Fin × World)} {x : Fin} (h : r.map Prod.fst = some x) : ∃ w, r = some (x, w) := by
  cases r with
  | none => cases h
  | some p => exact ⟨p.2, by cases h; rfl⟩

/-- The program is within contract, and this is what the theorem says about it. -/
theorem c75_greet : ∃ w es ea, Plays conf 0 w es ea 0 ∧ es 0 = .val [104, 105] ∧ ea 0 = .val [.val [104, 105]] ∧
    ea 1 = .val [.val [104, 105, 33]] := by
  have h0 := c75_arrays_of_strings_partial conf_good 5
  have a0 : answers conf greet {} = [some (.ret (.s (.obj 0))), some (.ret (.a (.obj 0))), some (.ret (.a .unit)),
    some (.ret (.a (.obj 1))), some (.ret (.s .unit))] := by decide +kernel
  have split : ∀ {k ks w x xs}, answers conf (k :: ks) w = some x :: xs →
      ∃ w', result (run conf k w) = some (x, w') ∧ answers conf ks w' = xs := by
    intro k ks w x xs h
    unfold answers at h
    cases hr : result (run conf k w) with
    | none => rw [hr] at h; simp at h
    | some p =>
      obtain ⟨x', w'⟩ := p
      rw [hr] at h
      simp only [List.cons.injEq, Option.some.injEq] at h
      exact ⟨w', by rw [h.1], h.2⟩
  obtain ⟨w1, r1, a1⟩ := split a0
  obtain ⟨es1, ea1, p1, h1⟩ := play_step h0 (call := .str (.strCtor [104, 105])) rfl r1
  obtain ⟨o, p1, e, rfl⟩ := p1
  cases o with
  | exc e' => cases e
  | ret x =>
  cases e
  obtain ⟨_, _, e, rfl⟩ | ⟨e, _⟩ := p1
  rotate_left
  · cases e
  cases e
  obtain ⟨w2, r2, a2⟩ := split a1
  obtain ⟨es2, ea2, p2, h2⟩ := play_step h1 (call := .arr .ctor) ⟨trivial, trivial⟩ r2
  obtain ⟨o, p2, e, rfl⟩ := p2
  cases o with
  | exc e' => cases e
  | ret x =>
  cases e
  obtain ⟨_, _, e, rfl⟩ := p2
  cases e
  obtain ⟨w3, r3, a3⟩ := split a2
  obtain ⟨es3, ea3, p3, h3⟩ := play_step h2 (call := .append 0 0) ⟨⟨[], rfl⟩, by intro h; cases h⟩ r3
  obtain ⟨o, p3, e, rfl⟩ := p3
  cases o with
  | exc e' => cases e
  | ret x =>
  cases e
  obtain ⟨e, rfl⟩ | ⟨e, _⟩ := p3
  rotate_left
  · cases e
  cases e
  obtain ⟨w4, r4, a4⟩ := split a3
  obtain ⟨es4, ea4, p4, h4⟩ := play_step h3 (call := .arr (.copyCtor 0)) ⟨trivial, by intro h; cases h⟩ r4
  obtain ⟨o, p4, e, rfl⟩ := p4
  cases o with
  | exc e' => cases e
  | ret x =>
  cases e
  obtain ⟨_, _, e, rfl⟩ := p4
  cases e
  obtain ⟨w5, r5, a5⟩ := split a4
  obtain ⟨es5, ea5, p5, h5⟩ := play_step h4 (call := .modify 1 0 fun t => .append t 33) ⟨⟨_, rfl⟩, by decide, fun t y sh ht hy => by
    cases hy
    exact ⟨⟨[104, 105], Env.upd_self ..⟩, by simp⟩⟩ r5
  obtain ⟨e, _⟩ | ⟨t, y, sh, o, e, hd, hy, hp, ho, rfl, rfl⟩ := p5
  · cases e
  cases hy
  cases o with
  | exc e' => cases ho
  | ret x =>
  obtain ⟨_, rfl⟩ | ⟨e', _⟩ := hp
  rotate_left
  · cases e'
  have ht : 0 ≠ t := by rintro rfl; cases hd
  refine ⟨w5, _, _, h5, ?_, rfl, ?_⟩
  · rw [Env.upd_ne ht, Env.upd_ne ht, Env.upd_ne ht]; rfl
  · have e : ((Env.empty.upd 0 (Slot.val [104, 105])).upd t (Slot.val [104, 105] : Slot UInt8)).get t = [104, 105] := by
      unfold Env.get; rw [Env.upd_self]
    simp only [Env.upd_self, e]
    rfl

/-! ## The leak -/

/-- `String s("x"); Array<String> a; a.push_back(s); a.pop_back(); a.resize(1, s);` and the destructors. -/
def leaky : List Call :=
  [.str (.strCtor [120]), .arr .ctor, .append 0 0, .arr (.popBack 0), .resizeFill 0 1 0, .arr (.destroy 0), .str (.destroy 0)]

/-- `resize(1, s)` constructs a new element over the one that `pop_back` left behind; that one, and with it the
storage of `"x"`, is never released. -/
theorem c75_leak : ∃ x w, after conf leaky (.exc .badAlloc, {}) = some (x, w) ∧ w.arrs.objs = [none] ∧ w.arrs.heap = [none] ∧
    w.strs.obj 0 = none ∧ ∃ B, w.strs.blk 0 = some B ∧ B.cells = [120, 0] ∧ B.refs = 1 := by
  have h1 : ((after conf leaky (.exc .badAlloc, {})).map fun r => (r.2.arrs.objs, r.2.arrs.heap.map Option.isNone)) =
      some ([none], [true]) := by decide +kernel
  have h2 : ((after conf leaky (.exc .badAlloc, {})).map fun r => (r.2.strs.obj 0, (r.2.strs.blk 0).map fun B => (B.cells, B.refs))) =
      some (none, some ([120, 0], 1)) := by decide +kernel
  cases hr : after conf leaky (.exc .badAlloc, {}) with
  | none => rw [hr] at h1; cases h1
  | some r =>
    rw [hr] at h1 h2
    simp only [Option.map_some, Option.some.injEq, Prod.mk.injEq] at h1 h2
    refine ⟨r.1, r.2, rfl, h1.1, ?_, h2.1, ?_⟩
    · have := h1.2
      generalize r.2.arrs.heap = l at this
      match l with
      | [] => cases this
      | [none] => rfl
      | [some _] => cases this
      | _ :: _ :: _ => simp at this
    · cases hb : r.2.strs.blk 0 with
      | none => rw [hb] at h2; cases h2.2
      | some B =>
        rw [hb] at h2
        simp only [Option.map_some, Option.some.injEq, Prod.mk.injEq] at h2
        exact ⟨B, rfl, h2.2.1, h2.2.2⟩

end Bdlib.Nest
