import Verif.Deep.Play
import Verif.Props.C65
import Verif.Str.Witness

/-!
# C100: arrays nested to any depth

A program makes any number of `String`s, `Array<String>`s, `Array<Array<String>>`s and so on, and calls them in any
order.  An element is an object of its own, with storage it may share copy-on-write with other objects, and its
elements are objects again.  The specification (`Deep/Spec.lean`) knows nothing of this: an array of depth `n + 1`
holds a list of what objects of depth `n` hold.
-/

namespace Bdlib.Deep
open Bdlib Bdlib.Spec Bdlib.Rca

variable {p : Params} {n k : Nat}

/-- Every program, with objects of any depth: whatever calls are made, each is defined, has the effect the
specification says, including the exceptions when memory is exhausted at any depth, and everything can be observed
as specified, always.  When all objects are destroyed nothing is left at any depth. -/
theorem c100_nested_arrays (hp : p.Good) (n k : Nat) : Plays p k (tower p n).init (Envs.none n) :=
  keeps_plays hp k (keeps_init n)

/-! ## In particular -/

/-- A call on objects of lesser depth changes no array of the greatest depth, although their elements, the elements
of these and so on may share storage with those objects. -/
theorem c100_inner_calls {w : Mem p (n + 1)} {E : Envs (n + 1)} (h : Plays p (k + 1) w E) {call : Call n}
    (hpre : Pre p (shares p w).1 E.1 call) :
    ∃ out w' F, result (run p (.inner call) w) = some (End.inner out, w') ∧ Post p (shares p w).1 E.1 call out F ∧
      Plays p (n := n + 1) k w' (F, E.2) := by
  obtain ⟨_, w', E', h1, ⟨o, h2, rfl, h3⟩, h4⟩ := h.2 (.inner call) hpre
  refine ⟨o, w', E'.1, h1, h2, ?_⟩
  rw [← h3]; exact h4

/-- `a.push_back(x)` for an object `x` of any depth: it becomes the last element and stays as it is.  If memory runs
out the array is unchanged or, if it was shared, empty. -/
theorem c100_append {w : Mem p (n + 1)} {E : Envs (n + 1)} (h : Plays p (k + 1) w E) {a x : Nat} {xs : List (Slot (Ty n))}
    (ha : E.2 a = .val xs) (hx : E.1.top.Live x) :
    ∃ w', (result (run p (.append a x) w) = some (.ret (.here .unit), w') ∧
        Plays p (n := n + 1) k w' (E.1, E.2.upd a (.val (xs ++ [E.1.top x])))) ∨
      (result (run p (.append a x) w) = some (.exc .badAlloc, w') ∧
        Plays p (n := n + 1) k w' (E.1, if (shares p w).2 a then E.2.upd a (.val []) else E.2)) := by
  obtain ⟨_, w', E', h1, ⟨o, h2, rfl, h3⟩, h4⟩ := h.2 (.append a x) ⟨⟨xs, ha⟩, hx⟩
  obtain ⟨F, e⟩ := E'
  have hget : E.2.get a = xs := by unfold Env.get; rw [ha]
  change F = E.1 at h3
  subst h3
  refine ⟨w', ?_⟩
  rcases h2 with ⟨rfl, rfl⟩ | ⟨rfl, rfl⟩
  · exact .inl ⟨h1, by rw [hget] at h4; exact h4⟩
  · exact .inr ⟨h1, h4⟩

/-- `T t(a[i])`: `t` holds the element; an object like any other. -/
theorem c100_read {w : Mem p (n + 1)} {E : Envs (n + 1)} (h : Plays p (k + 1) w E) {a i : Nat} {xs : List (Slot (Ty n))}
    {y : Slot (Ty n)} (ha : E.2 a = .val xs) (hy : xs[i]? = some y) :
    ∃ t w', E.1.top t = .dead ∧ result (run p (.get a i) w) = some (.ret (.inner (.here (.obj t))), w') ∧
      Plays p (n := n + 1) k w' (E.1.upd t y, E.2) := by
  have hget : E.2.get a = xs := by unfold Env.get; rw [ha]
  obtain ⟨hi, _⟩ := List.getElem?_eq_some_iff.mp hy
  obtain ⟨_, w', ⟨F, e⟩, h1, h2, h3⟩ := h.2 (.get a i) ⟨⟨xs, ha⟩, by rw [hget]; exact hi⟩
  rcases h2 with ⟨t, y', hd, ⟨hp, h4⟩, rfl, h5⟩ | ⟨e, ⟨hp, rfl⟩, _⟩
  · rw [hget, hy] at hp
    cases hp
    change e = E.2 at h4
    change F = _ at h5
    subst h4 h5
    exact ⟨t, w', hd, h1, h3⟩
  · cases hp

/-- A call on an element of one array changes no other array, not even one that shares the buffer, and no other
element. -/
theorem c100_modify {w : Mem p (n + 1)} {E : Envs (n + 1)} (h : Plays p (k + 1) w E) {a i : Nat} {f : Nat → Call n}
    (hpre : Pre p (shares p w) E (.modify a i f)) :
    ∃ out w' E', result (run p (.modify a i f) w) = some (out, w') ∧ Plays p k w' E' ∧ (∀ b, b ≠ a → E'.2 b = E.2 b) ∧
      ∀ j, j ≠ i → (∃ x, out = .ret x) → (E'.2.get a)[j]? = (E.2.get a)[j]? := by
  obtain ⟨out, w', E', h1, h2, h3⟩ := h.2 (.modify a i f) hpre
  refine ⟨out, w', E', h1, h3, ?_⟩
  rcases h2 with ⟨rfl, _, h4⟩ | ⟨t, y, sh, o, F, hd, hy, hp, rfl, _, h4⟩
  · refine ⟨fun b hb => ?_, fun j _ ⟨x, hx⟩ => by cases hx⟩
    rw [h4]
    split
    · exact Env.upd_ne hb
    · rfl
  · refine ⟨fun b hb => by rw [h4]; exact Env.upd_ne hb, fun j hj _ => ?_⟩
    rw [h4]
    unfold Env.get
    rw [Env.upd_self]
    exact List.getElem?_set_ne (Ne.symm hj)

/-- When all objects are destroyed, no storage is left at any depth. -/
theorem c100_no_leak {w : Mem p n} {E : Envs n} (h : Plays p k w E) (hd : E.Gone) : Clean p w := by
  cases k with
  | zero => exact h.2 hd
  | succ k => exact h.1.2 hd

/-! ## One string, however deep -/

/-- `a.begin()[i].begin()[j] … += b` for `path = [i, j, …]`. -/
def appendAt (b : UInt8) : {n : Nat} → List Nat → Nat → Call n
  | 0, _, t => .str (.append t b)
  | _ + 1, path, a => .modify a (path.headD 0) (appendAt b path.tail)

/-- `y` has string `v` at `path`, and `y'` has `v'` there and is like `y` elsewhere. -/
def Edit (v v' : List UInt8) : {n : Nat} → List Nat → Slot (Ty n) → Slot (Ty n) → Prop
  | 0, path, y, y' => path = [] ∧ y = .val v ∧ y' = .val v'
  | n + 1, path, y, y' => ∃ (i : Nat) (is : List Nat) (xs : List (Slot (Ty n))) (z z' : Slot (Ty n)), path = i :: is ∧ y = .val xs ∧
      xs[i]? = some z ∧ Edit v v' is z z' ∧ y' = .val (xs.set i z')

/-- `y'` is `y`, except that one of the objects on `path` may have become empty. -/
def Emptied : {n : Nat} → List Nat → Slot (Ty n) → Slot (Ty n) → Prop
  | 0, _, y, y' => y' = y ∨ y' = .val []
  | n + 1, path, y, y' => y' = y ∨ y' = .val [] ∨ ∃ (i : Nat) (is : List Nat) (xs : List (Slot (Ty n))) (z z' : Slot (Ty n)),
      path = i :: is ∧ y = .val xs ∧ xs[i]? = some z ∧ Emptied is z z' ∧ y' = .val (xs.set i z')

theorem upd_top (E : Envs n) (t : Nat) (y : Slot (Ty n)) : (E.upd t y).top t = y := by
  unfold Envs.upd; rw [Envs.top_put, Env.upd_self]

theorem upd_upd (E : Envs n) (t : Nat) (y z : Slot (Ty n)) : (E.upd t y).upd t z = E.upd t z := by
  unfold Envs.upd
  rw [Envs.top_put, Envs.put_put]
  congr 1
  funext x
  by_cases hx : x = t
  · subst hx; rw [Env.upd_self, Env.upd_self]
  · rw [Env.upd_ne hx, Env.upd_ne hx, Env.upd_ne hx]

theorem upd_same {E : Envs n} {t : Nat} {y : Slot (Ty n)} (h : E.top t = y) : E.upd t y = E := by
  unfold Envs.upd
  have : E.top.upd t y = E.top := by
    funext x
    by_cases hx : x = t
    · subst hx; rw [Env.upd_self, h]
    · rw [Env.upd_ne hx]
  rw [this, Envs.put_top]

theorem appendAt_keeps (b : UInt8) : ∀ {n : Nat} (path : List Nat) (t : Nat), ¬ Kills (appendAt b (n := n) path t) t
  | 0, _, _ => fun h => by cases h
  | _ + 1, _, _ => fun h => h

theorem appendAt_pre {b : UInt8} {v v' : List UInt8} : ∀ {n : Nat} {path : List Nat} {a : Nat} {E : Envs n} {y' : Slot (Ty n)}
    (sh : Sh n), Edit v v' path (E.top a) y' → Pre p sh E (appendAt b path a)
  | 0, _, a, E, _, _, ⟨_, h, _⟩ => ⟨v, h⟩
  | n + 1, _, a, E, _, sh, ⟨i, is, xs, z, z', hpath, hy, hz, he, _⟩ => by
    subst hpath
    have hy : E.2 a = .val xs := hy
    have hget : E.2.get a = xs := by unfold Env.get; rw [hy]
    refine ⟨⟨xs, hy⟩, ?_, fun t y s ht hy' => ⟨?_, appendAt_keeps b is t⟩⟩
    · rw [hget]; exact (List.getElem?_eq_some_iff.mp hz).1
    · rw [hget] at hy'
      change xs[i]? = some y at hy'
      rw [hz] at hy'
      cases hy'
      exact appendAt_pre s (y' := z') (by rw [upd_top]; exact he)

theorem appendAt_post {b : UInt8} {v : List UInt8} : ∀ {n : Nat} {path : List Nat} {a : Nat} {E E' : Envs n}
    {y' : Slot (Ty n)} {sh : Sh n} {out : End n}, Edit v (v ++ [b]) path (E.top a) y' → Post p sh E (appendAt b path a) out E' →
    ((∃ x, out = .ret x) ∧ E' = E.upd a y') ∨ (out = .exc .badAlloc ∧ ∃ y'', Emptied path (E.top a) y'' ∧ E' = E.upd a y'')
  | 0, _, a, E, E', y', sh, out, ⟨_, h, hy⟩, hpost => by
    obtain ⟨o, hpost, rfl⟩ := hpost
    have hget : Env.get (T := UInt8) E a = v := by unfold Env.get; rw [show E a = .val v from h]
    rcases hpost with ⟨rfl, hE⟩ | ⟨rfl, hE⟩
    · refine .inl ⟨⟨_, rfl⟩, ?_⟩
      rw [hget] at hE
      rw [hE, hy]; rfl
    · refine .inr ⟨rfl, ?_⟩
      by_cases hs : (show Nat → Bool from sh) a = true
      · exact ⟨.val [], .inr rfl, hE.trans (if_pos hs)⟩
      · exact ⟨Envs.top (n := 0) E a, .inl rfl, by rw [upd_same rfl]; exact hE.trans (if_neg hs)⟩
  | n + 1, _, a, E, E', y', sh, out, ⟨i, is, xs, z, z', hpath, hy, hz, he, hy'⟩, hpost => by
    subst hpath
    have hy : E.2 a = .val xs := hy
    have hget : E.2.get a = xs := by unfold Env.get; rw [hy]
    obtain ⟨E1, E2⟩ := E
    obtain ⟨F1, F2⟩ := E'
    rcases hpost with ⟨rfl, h1, h2⟩ | ⟨t, y, s, o, F, hd, hi, hp, rfl, h1, h2⟩
    · refine .inr ⟨rfl, ?_⟩
      change F1 = E1 at h1
      change F2 = _ at h2
      subst h1 h2
      split
      · exact ⟨.val [], .inr (.inl rfl), rfl⟩
      · exact ⟨E2 a, .inl rfl, (upd_same (n := n + 1) (E := (F1, E2)) rfl).symm⟩
    · change F1 = _ at h1
      change F2 = _ at h2
      rw [hget] at hi h2
      change xs[i]? = some y at hi
      change F2 = E2.upd a (.val (xs.set i _)) at h2
      rw [hz] at hi
      cases hi
      subst h1 h2
      rcases appendAt_post (E := E1.upd t z) (by rw [upd_top]; exact he) hp with ⟨⟨x, rfl⟩, rfl⟩ | ⟨rfl, y'', hem, rfl⟩
      · refine .inl ⟨⟨_, rfl⟩, ?_⟩
        rw [upd_upd, upd_upd, upd_same hd, upd_top, hy']; rfl
      · refine .inr ⟨rfl, .val (xs.set i y''), .inr (.inr ⟨i, is, xs, z, y'', rfl, hy, hz, ?_, rfl⟩), ?_⟩
        · rw [upd_top] at hem; exact hem
        · rw [upd_upd, upd_upd, upd_same hd, upd_top]; rfl

/-- Appending to one string inside arrays nested to any depth: the string changes and nothing else does, no other
element on the way, no copy of any of the arrays on the way, no object at any depth.  If memory runs out anywhere on the way,
one of the objects on the way may be empty. -/
theorem c100_deep_append {w : Mem p n} {E : Envs n} (h : Plays p (k + 1) w E) {a : Nat} {path : List Nat} {b : UInt8}
    {v : List UInt8} {y' : Slot (Ty n)} (hv : Edit v (v ++ [b]) path (E.top a) y') :
    ∃ out w', result (run p (appendAt b path a) w) = some (out, w') ∧
      (((∃ x, out = .ret x) ∧ Plays p k w' (E.upd a y')) ∨
        (out = .exc .badAlloc ∧ ∃ y'', Emptied path (E.top a) y'' ∧ Plays p k w' (E.upd a y''))) := by
  obtain ⟨out, w', E', h1, h2, h3⟩ := h.2 (appendAt b path a) (appendAt_pre _ hv)
  refine ⟨out, w', h1, ?_⟩
  rcases appendAt_post hv h2 with ⟨h4, rfl⟩ | ⟨h4, y'', h5, rfl⟩
  · exact .inl ⟨h4, h3⟩
  · exact .inr ⟨h4, y'', h5, h3⟩

/-! ## A program -/

deriving instance DecidableEq for Out

def params : Params := ⟨byteCfg, Str.glibc, fun _ n => n + n / 2, fun _ _ n => decide (n < maxCells)⟩

theorem params_good : params.Good := ⟨byteCfg_valid, byteCfg_physical, Str.glibc_ok, fun _ g n h => by
  show decide (n < maxCells) = false
  exact decide_eq_false (by omega)⟩

/-- The handle a call returns, if it returns one. -/
def Ans.handle : {n : Nat} → Ans n → Option Nat
  | _, .here (.obj o) => some o
  | _, .here _ => none
  | _, .inner x => x.handle

/-- The handles the calls return, as long as none throws, and the state they leave. -/
def trace (p : Params) {n : Nat} : List (Call n) → Mem p n → List (Option Nat) × Mem p n
  | [], w => ([], w)
  | k :: ks, w => match result (run p k w) with
    | some (.ret x, w') => let r := trace p ks w'; (x.handle :: r.1, r.2)
    | _ => ([], w)

/-- The bytes of the strings in the arrays in an array of depth 2. -/
def seen (w : Mem params 2) (a : Nat) : Option (List (Option (List (Option (List UInt8))))) :=
  ((World.arrs w).view a).map fun l => l.map fun b => ((World.arrs (World.elts w)).view b).map fun l => l.map fun t =>
    St.view (T := UInt8) (World.elts (World.elts w)) t

/-- `String s("hi"); Array<String> a; a.push_back(s); Array<Array<String>> x; x.push_back(a);
Array<Array<String>> y(x); y.begin()[0].begin()[0] += '!';` -/
def greet : List (Call 2) :=
  [.inner (.inner (.str (.strCtor [104, 105]))), .inner (.arr .ctor), .inner (.append 0 0), .arr .ctor, .append 0 0,
    .arr (.copyCtor 0), appendAt 33 [0, 0] 1]

/-- What the code does. -/
theorem greet_trace : (trace params greet (tower params 2).init).1 = [some 0, some 0, none, some 0, none, some 1, none] := by
  decide +kernel
example : seen (trace params greet (tower params 2).init).2 0 = some [some [some [104, 105]]] := by decide +kernel
example : seen (trace params greet (tower params 2).init).2 1 = some [some [some [104, 105, 33]]] := by decide +kernel

/-- What a string holds. -/
def str (v : List UInt8) : Slot (Ty 0) := .val v

/-- What an array holds. -/
def arr {n : Nat} (xs : List (Slot (Ty n))) : Slot (Ty (n + 1)) := .val xs

theorem trace_cons {p : Params} {n : Nat} {c : Call n} {cs : List (Call n)} {w : Mem p n} {E : Envs n} {x : Option Nat}
    {xs : List (Option Nat)} (ht : (trace p (c :: cs) w).1 = x :: xs) (h : Plays p (k + 1) w E) (hpre : Pre p (shares p w) E c) :
    ∃ y w' E', y.handle = x ∧ Post p (shares p w) E c (.ret y) E' ∧ Plays p k w' E' ∧ (trace p cs w').1 = xs := by
  unfold trace at ht
  obtain ⟨out, w1, E', h1, h2, h3⟩ := h.2 c hpre
  rw [h1] at ht
  cases out with
  | exc e => cases ht
  | ret y =>
    simp only [List.cons.injEq] at ht
    exact ⟨y, w1, E', ht.1, h2, h3, ht.2⟩

/-- The program is within contract, and this is what the theorem says about it. -/
theorem c100_greet (k : Nat) : ∃ (w : Mem params 2) (E : Envs 2), Plays params k w E ∧ E.2 0 = arr [arr [str [104, 105]]] ∧
    E.2 1 = arr [arr [str [104, 105, 33]]] ∧ E.1.2 0 = arr [str [104, 105]] := by
  have h0 := c100_nested_arrays params_good 2 (k + 7)
  -- the string
  obtain ⟨y, w, E, hy, ⟨o, ⟨o', ⟨o'', p1, e1⟩, e2, q1⟩, e3, q2⟩, h1, t1⟩ := trace_cons greet_trace h0 rfl
  obtain ⟨⟨e, f⟩, g⟩ := E
  change f = Env.empty at q1
  change g = Env.empty at q2
  subst q1 q2 e1 e2
  obtain ⟨i, _, rfl, p1⟩ | ⟨rfl, _⟩ := p1
  rotate_left
  · cases e3
  cases e3; cases hy
  change e = Env.empty.upd 0 (.val [104, 105]) at p1
  subst p1
  -- the array
  obtain ⟨y, w, E, hy, ⟨o, ⟨o', p2, e2, q1⟩, e3, q2⟩, h2, t2⟩ := trace_cons t1 h1 ⟨trivial, trivial⟩
  obtain ⟨⟨e, f⟩, g⟩ := E
  change e = Env.empty.upd 0 (.val [104, 105]) at q1
  change g = Env.empty at q2
  subst q1 q2 e2
  obtain ⟨i, _, rfl, p2⟩ := p2
  cases e3; cases hy
  change f = Env.empty.upd 0 (.val []) at p2
  subst p2
  obtain ⟨y, w, E, hy, ⟨o, ⟨o', p3, e2, q1⟩, e3, q2⟩, h3, t3⟩ := trace_cons t2 h2 ⟨⟨[], rfl⟩, by intro h; cases h⟩
  obtain ⟨⟨e, f⟩, g⟩ := E
  change e = Env.empty.upd 0 (.val [104, 105]) at q1
  change g = Env.empty at q2
  subst q1 q2 e2
  obtain ⟨rfl, p3⟩ | ⟨rfl, _⟩ := p3
  rotate_left
  · cases e3
  cases e3
  -- the array of arrays
  obtain ⟨y, w, E, hy, ⟨o, p4, e3, q⟩, h4, t4⟩ := trace_cons t3 h3 ⟨trivial, trivial⟩
  obtain ⟨E, g⟩ := E
  change E = _ at q
  subst q
  obtain ⟨i, _, rfl, p4⟩ := p4
  cases e3; cases hy
  change g = Env.empty.upd 0 (.val []) at p4
  subst p4
  have hf : f 0 = arr [str [104, 105]] := by change f = _ at p3; rw [p3]; rfl
  obtain ⟨y, w, E, hy, ⟨o, p5, e3, q⟩, h5, t5⟩ := trace_cons t4 h4 ⟨⟨[], rfl⟩, by
    show f 0 ≠ _
    rw [hf]; intro h; cases h⟩
  obtain ⟨E, g⟩ := E
  change E = _ at q
  subst q
  obtain ⟨rfl, p5⟩ | ⟨rfl, _⟩ := p5
  rotate_left
  · cases e3
  cases e3
  have hg : g 0 = arr [arr [str [104, 105]]] := by change g = _ at p5; rw [p5, ← hf]; rfl
  -- its copy
  obtain ⟨y, w, E, hy, ⟨o, p6, e3, q⟩, h6, t6⟩ := trace_cons t5 h5 ⟨trivial, by show g 0 ≠ _; rw [hg]; intro h; cases h⟩
  obtain ⟨E, g'⟩ := E
  change E = _ at q
  subst q
  obtain ⟨i, _, rfl, p6⟩ := p6
  cases e3; cases hy
  change g' = g.upd 1 (g 0) at p6
  subst p6
  -- the change
  have hed : Edit (n := 2) [104, 105] ([104, 105] ++ [33]) [0, 0] (g.upd 1 (g 0) 1) (arr [arr [str [104, 105, 33]]]) := by
    rw [Env.upd_self, hg]
    exact ⟨0, [0], _, _, arr [str [104, 105, 33]], rfl, rfl, rfl, ⟨0, [], _, _, str [104, 105, 33], rfl, rfl, rfl, ⟨rfl, rfl, rfl⟩, rfl⟩, rfl⟩
  obtain ⟨y, w, E, hy, p7, h7, _⟩ := trace_cons t6 h6 (appendAt_pre _ hed)
  obtain ⟨_, rfl⟩ | ⟨h, _⟩ := appendAt_post hed p7
  rotate_left
  · cases h
  refine ⟨w, _, h7, ?_, ?_, hf⟩
  · have hne : (0 : Nat) ≠ 1 := by decide
    have : g.upd 1 (g 0) 0 = arr [arr [str [104, 105]]] := by rw [Env.upd_ne hne, hg]
    exact Eq.trans (Env.upd_ne (y := arr [arr [str [104, 105, 33]]]) hne) this
  · exact upd_top (n := 2) ..

end Bdlib.Deep
