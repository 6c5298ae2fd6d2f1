import Verif.Props.C100

/-!
# C104: elements of nested arrays as arguments

`a.push_back(b[i])`, `a.insert(pos, b[i])`, `a[j] = b[i]`, `a.replace(pos, b[i])`: the argument is a reference to an
object inside an array, which the call reads only after it gave the receiver storage of its own and made room.
-/

namespace Bdlib.Deep
open Bdlib Bdlib.Spec Bdlib.Rca

variable {p : Params} {n k : Nat}

/-- The call makes array `a` hold `v` and changes nothing else; if memory runs out `a` is unchanged or, if it was shared, empty.
Everything is as specified afterwards. -/
def Makes (p : Params) (k : Nat) (w : Mem p (n + 1)) (E : Envs (n + 1)) (call : Call (n + 1)) (a : Nat) (v : List (Slot (Ty n))) :
    Prop :=
  ∃ w', (result (run p call w) = some (.ret (.here .unit), w') ∧ Plays p (n := n + 1) k w' (E.1, E.2.upd a (.val v))) ∨
    (result (run p call w) = some (.exc .badAlloc, w') ∧
      Plays p (n := n + 1) k w' (E.1, if (shares p w).2 a then E.2.upd a (.val []) else E.2))

theorem nth_eq {T : Type} {e : Env (Slot T)} {b i : Nat} {ys : List (Slot T)} {y z : Slot T} (hb : e b = .val ys) (hy : ys[i]? = some y)
    (h : Nth e b i z) : z = y := by
  obtain ⟨v, h1, h2⟩ := h
  rw [hb] at h1; cases h1
  rw [hy] at h2; cases h2; rfl

theorem makes_of {w : Mem p (n + 1)} {E : Envs (n + 1)} {call : Call (n + 1)} {a : Nat} {v : List (Slot (Ty n))} {op : Op (Slot (Ty n))}
    {out : End (n + 1)} {w' : Mem p (n + 1)} {E' : Envs (n + 1)} (h1 : result (run p call w) = some (out, w'))
    (h2 : Copies p (shares p w) E op out E')
    (hop : ∀ o e, Spec.Post (vals p n) (shares p w).2 E.2 op o e → SetsOrFails (shares p w).2 E.2 a v o e)
    (h3 : Plays p k w' E') : Makes p k w E call a v := by
  obtain ⟨F, e⟩ := E'
  obtain ⟨o, h2, rfl, h4⟩ := h2
  change F = E.1 at h4
  subst h4
  refine ⟨w', ?_⟩
  rcases hop _ _ h2 with ⟨rfl, rfl⟩ | ⟨rfl, rfl⟩
  · exact .inl ⟨h1, h3⟩
  · exact .inr ⟨h1, h3⟩

theorem post_insert {T : Type} {P : Cfg T} {sh : Nat → Bool} {e : Env T} {a pos : Nat} {xs : List T} {y : T} {o : Outcome T}
    {e' : Env T} (hget : e.get a = xs) (hpos : pos ≤ xs.length) (h : Spec.Post P sh e (.insertItem a pos y) o e') :
    SetsOrFails sh e a (xs.take pos ++ y :: xs.drop pos) o e' := by
  have h : Checked e a pos (SetsOrFails sh e a (insertAt (e.get a) pos [y]) o e') o e' := h
  unfold Checked insertAt at h
  subst hget
  rw [if_pos hpos] at h
  simpa using h

theorem post_replace {T : Type} {P : Cfg T} {sh : Nat → Bool} {e : Env T} {a pos : Nat} {xs : List T} {y : T} {o : Outcome T}
    {e' : Env T} (hget : e.get a = xs) (hpos : pos < xs.length) (h : Spec.Post P sh e (.replaceItem a pos y) o e') :
    SetsOrFails sh e a (xs.set pos y) o e' := by
  have h : Checked e a pos (SetsOrFails sh e a ((e.get a).set pos y) o e') o e' := h
  unfold Checked at h
  subst hget
  rw [if_pos (by omega)] at h
  exact h

/-- `a.push_back(b[i])`, `a << b[i]`: the element as it was before the call becomes the last of `a`.

Partial: if `b` is `a` itself, it must share its storage; see `c104_refuted_append`. -/
theorem c104_append_partial {w : Mem p (n + 1)} {E : Envs (n + 1)} (h : Plays p (k + 1) w E) {a b i : Nat} {xs ys : List (Slot (Ty n))}
    {y : Slot (Ty n)} (ha : E.2 a = .val xs) (hb : E.2 b = .val ys) (hy : ys[i]? = some y)
    (hs : b ≠ a ∨ (shares p w).2 a = true) : Makes p k w E (.appendOf a b i) a (xs ++ [y]) := by
  obtain ⟨out, w', E', h1, ⟨z, hz, h2⟩, h3⟩ := h.2 (.appendOf a b i) ⟨⟨xs, ha⟩, ⟨y, ys, hb, hy⟩, hs⟩
  cases nth_eq hb hy hz
  have hget : E.2.get a = xs := by unfold Env.get; rw [ha]
  exact makes_of h1 h2 (fun o e hp => by rw [← hget]; exact hp) h3

/-- `a.insert(pos, b[i])`.  Partial: as above; see `c104_refuted_insert`. -/
theorem c104_insert_partial {w : Mem p (n + 1)} {E : Envs (n + 1)} (h : Plays p (k + 1) w E) {a b i pos : Nat}
    {xs ys : List (Slot (Ty n))} {y : Slot (Ty n)} (ha : E.2 a = .val xs) (hb : E.2 b = .val ys) (hy : ys[i]? = some y)
    (hs : b ≠ a ∨ (shares p w).2 a = true) (hpos : pos ≤ xs.length) :
    Makes p k w E (.insertOf a pos b i) a (xs.take pos ++ y :: xs.drop pos) := by
  obtain ⟨out, w', E', h1, ⟨z, hz, h2⟩, h3⟩ := h.2 (.insertOf a pos b i) ⟨⟨xs, ha⟩, ⟨y, ys, hb, hy⟩, hs⟩
  cases nth_eq hb hy hz
  have hget : E.2.get a = xs := by unfold Env.get; rw [ha]
  exact makes_of h1 h2 (fun o e hp => by have := post_insert (e := E.2) hget hpos hp; exact this) h3

/-- `a[j] = b[i]`, for elements of the same array too, shared or not: `a[j]` becomes the element as it was before the call. -/
theorem c104_write {w : Mem p (n + 1)} {E : Envs (n + 1)} (h : Plays p (k + 1) w E) {a b i j : Nat} {xs ys : List (Slot (Ty n))}
    {y : Slot (Ty n)} (ha : E.2 a = .val xs) (hb : E.2 b = .val ys) (hy : ys[i]? = some y) (hj : j < xs.length) :
    Makes p k w E (.writeOf a j b i) a (xs.set j y) := by
  have hget : E.2.get a = xs := by unfold Env.get; rw [ha]
  obtain ⟨out, w', E', h1, ⟨z, hz, h2⟩, h3⟩ := h.2 (.writeOf a j b i) ⟨y, ⟨ys, hb, hy⟩, ⟨xs, ha⟩, by rw [hget]; exact hj⟩
  cases nth_eq hb hy hz
  exact makes_of h1 h2 (fun o e hp => by rw [← hget]; exact hp) h3

/-- `a.replace(pos, b[i])`, likewise. -/
theorem c104_replace {w : Mem p (n + 1)} {E : Envs (n + 1)} (h : Plays p (k + 1) w E) {a b i pos : Nat} {xs ys : List (Slot (Ty n))}
    {y : Slot (Ty n)} (ha : E.2 a = .val xs) (hb : E.2 b = .val ys) (hy : ys[i]? = some y) (hj : pos < xs.length) :
    Makes p k w E (.replaceOf a pos b i) a (xs.set pos y) := by
  have hget : E.2.get a = xs := by unfold Env.get; rw [ha]
  obtain ⟨out, w', E', h1, ⟨z, hz, h2⟩, h3⟩ := h.2 (.replaceOf a pos b i) ⟨y, ⟨ys, hb, hy⟩, ⟨xs, ha⟩, by rw [hget]; omega⟩
  cases nth_eq hb hy hz
  exact makes_of h1 h2 (fun o e hp => by have := post_replace (e := E.2) hget hj hp; exact this) h3

theorem env_forget {T : Type} {B : Env T} {t x : Nat} {y v : Slot T} (hd : B t = .dead) (h : t ≠ x) :
    ((B.upd t y).upd x v).upd t .dead = B.upd x v := by
  funext z
  by_cases h1 : z = t
  · subst h1; rw [Env.upd_self, Env.upd_ne h]; exact hd.symm
  · rw [Env.upd_ne h1]
    by_cases h2 : z = x
    · subst h2; rw [Env.upd_self, Env.upd_self]
    · rw [Env.upd_ne h2, Env.upd_ne h2, Env.upd_ne h1]

theorem env_forget' {T : Type} {B : Env T} {t x : Nat} {y : Slot T} {xs : List T} (hd : B t = .dead) (hx : B x = .val xs) :
    (B.upd t y).upd t .dead = B.upd x (.val xs) := by
  funext z
  by_cases h1 : z = t
  · subst h1
    by_cases h2 : z = x
    · subst h2; rw [hx] at hd; cases hd
    · rw [Env.upd_self, Env.upd_ne h2]; exact hd.symm
  · rw [Env.upd_ne h1, Env.upd_ne h1]
    by_cases h2 : z = x
    · subst h2; rw [Env.upd_self]; exact hx
    · rw [Env.upd_ne h2]

theorem env_other {T : Type} {B : Env T} {t x : Nat} {y : Slot T} {xs : List T} (h : t ≠ x) (hx : B x = .val xs) :
    B.upd t y x = .val xs := by rw [Env.upd_ne (Ne.symm h)]; exact hx

theorem env_gets {T : Type} {B : Env T} {x : Nat} {xs : List T} (hx : B x = .val xs) : B.get x = xs := by
  unfold Env.get; rw [hx]

/-- `x.push_back(b[j][i])`: an element of an element.  `x` grows by it; `b`, and everything else at every depth, is as before. -/
theorem c104_append_inner {w : Mem p (n + 2)} {A : Envs n} {B : Env (Slot (Ty n))} {C : Env (Slot (Ty (n + 1)))}
    (h : Plays p (n := n + 2) (k + 1) w ((A, B), C)) {x b j i : Nat}
    {xs : List (Slot (Ty n))} {bs : List (Slot (Ty (n + 1)))} {ys : List (Slot (Ty n))} {y : Slot (Ty n)}
    (hx : B x = .val xs) (hb : C b = .val bs) (hj : bs[j]? = some (arr ys)) (hy : ys[i]? = some y) :
    ∃ w', (result (run p (.look b j fun t => .appendOf x t i) w) = some (.ret (.inner (.here .unit)), w') ∧
        Plays p (n := n + 2) k w' ((A, B.upd x (.val (xs ++ [y]))), C)) ∨
      (result (run p (.look b j fun t => .appendOf x t i) w) = some (.exc .badAlloc, w') ∧
        ∃ v, (v = xs ∨ v = []) ∧ Plays p (n := n + 2) k w' ((A, B.upd x (.val v)), C)) := by
  have hget : C.get b = bs := env_gets hb
  have hjl : j < bs.length := (List.getElem?_eq_some_iff.mp hj).1
  have hne : ∀ {t}, B t = .dead → t ≠ x := fun {t} ht e => by
    subst e
    rw [hx] at ht; cases ht
  obtain ⟨out, w', ⟨⟨F, e⟩, g⟩, h1, ⟨t, y', s, o, G, hd, hy', hq, rfl, hG, hg⟩, h3⟩ := h.2 (.look b j fun t => .appendOf x t i) (by
    refine ⟨⟨bs, hb⟩, hget.symm ▸ hjl, fun t y' s hd hy' => ⟨⟨⟨xs, ?_⟩, ⟨y, ys, ?_, hy⟩, .inl (hne hd)⟩, ?_⟩⟩
    · exact env_other (hne hd) hx
    · have hy' : (C.get b)[j]? = some y' := hy'
      rw [hget, hj] at hy'; cases hy'
      exact Env.upd_self
    · exact fun e => hne hd e)
  have hy' : (C.get b)[j]? = some y' := hy'
  have hd : B t = .dead := hd
  rw [hget, hj] at hy'; cases hy'
  refine ⟨w', ?_⟩
  obtain ⟨z, hz, o', hq, rfl, hF⟩ := hq
  have hz : z = y := nth_eq (e := B.upd t (arr ys)) (b := t) (ys := ys) Env.upd_self hy hz
  subst hz
  obtain ⟨G1, G2⟩ := G
  have hF : G1 = A := hF
  have hg : g = C := hg
  have hF1 : F = G1 := congrArg Prod.fst hG
  have he : e = G2.upd t .dead := congrArg Prod.snd hG
  subst hF hg hF1 he
  have hgx : (B.upd t (arr ys)).get x = xs := env_gets (env_other (hne hd) hx)
  rcases hq with ⟨rfl, hq⟩ | ⟨rfl, hq⟩
  · refine .inl ⟨h1, ?_⟩
    have hq : G2 = (B.upd t (arr ys)).upd x (.val ((B.upd t (arr ys)).get x ++ [z])) := hq
    rw [hgx] at hq
    have e := congrArg (fun v => Env.upd v t .dead) hq
    exact (e.trans (env_forget hd (hne hd))) ▸ h3
  · refine .inr ⟨h1, ?_⟩
    have hq : G2 = if s.2 x then (B.upd t (arr ys)).upd x (.val []) else B.upd t (arr ys) := hq
    have e := congrArg (fun v => Env.upd v t .dead) hq
    cases hs : s.2 x
    · rw [hs] at e
      exact ⟨xs, .inl rfl, (e.trans (env_forget' hd hx)) ▸ h3⟩
    · rw [hs] at e
      exact ⟨[], .inr rfl, (e.trans (env_forget hd (hne hd))) ▸ h3⟩

/-! ## Programs -/

/-- The bytes of the strings in an array of depth 1. -/
def seen1 (w : Mem params 1) (a : Nat) : Option (List (Option (List UInt8))) :=
  ((World.arrs w).view a).map fun l => l.map fun t => St.view (T := UInt8) (World.elts w) t

/-- `String s("a"), t("b"); Array<String> a{s, t}, b{s};` -/
def twoArrays : List (Call 1) := [.inner (.str (.strCtor [97])), .inner (.str (.strCtor [98])), .listCtor [0, 1], .listCtor [0]]

/-- `b.push_back(a[1]); a[0] = a[1]; Array<String> c(a); a.insert(0, a[1]); a.replace(1, b[0]);`: all as specified. -/
example : seen1 (trace params (twoArrays ++ [.appendOf 1 0 1, .writeOf 0 0 0 1, .arr (.copyCtor 0), .insertOf 0 0 0 1,
    .replaceOf 0 1 1 0]) (tower params 1).init).2 0 = some [some [98], some [97], some [98]] := by decide +kernel
example : seen1 (trace params (twoArrays ++ [.appendOf 1 0 1, .writeOf 0 0 0 1, .arr (.copyCtor 0), .insertOf 0 0 0 1,
    .replaceOf 0 1 1 0]) (tower params 1).init).2 1 = some [some [97], some [98]] := by decide +kernel

/-- `a.push_back(a[0])` on an `Array<String>` that is full: the reference dangles, undefined. -/
theorem c104_refuted_append :
    result (run params (.appendOf 0 0 0) (trace params twoArrays (tower params 1).init).2) = none := by decide +kernel

/-- `a.insert(0, a[1])` with room to grow: not `a[1]` is inserted but `a[0]`. -/
theorem c104_refuted_insert :
    seen1 (trace params (twoArrays ++ [.arr (.reserve 0 10)]) (tower params 1).init).2 0 = some [some [97], some [98]] ∧
    seen1 (trace params (twoArrays ++ [.arr (.reserve 0 10), .insertOf 0 0 0 1]) (tower params 1).init).2 0 =
      some [some [97], some [97], some [98]] := by decide +kernel

end Bdlib.Deep
