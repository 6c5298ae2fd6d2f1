import Verif.Props.C100

/-!
# C101: comparing, searching and hashing nested arrays

`==`, `find`, `rfind` and `hash` of an array call those of its elements, these call those of theirs, and so on;
every object on the way may answer from storage it shares or from a hash it remembers.  What they answer depends
only on what the objects hold.
-/

namespace Bdlib.Deep
open Bdlib Bdlib.Spec Bdlib.Rca

variable {p : Params} {n k : Nat} {w : Mem p (n + 1)} {E : Envs (n + 1)}

/-- `a == b`: whether they hold the same, at all depths.  Nothing changes. -/
theorem c101_equal (h : Plays p (k + 1) w E) {a b : Nat} (ha : Known (n := n + 1) (E.2 a)) (hb : Known (n := n + 1) (E.2 b)) :
    ∃ r w', result (run p (.eq a b) w) = some (.ret (.here (.num (Bool.toNat r))), w') ∧ (r = true ↔ E.2 a = E.2 b) ∧
      Plays p k w' E := by
  obtain ⟨_, w', E', h1, ⟨r, rfl, h2, rfl⟩, h3⟩ := h.2 (.eq a b) ⟨ha, hb⟩
  exact ⟨r, w', h1, h2, h3⟩

/-- A copy is equal to its original. -/
theorem c101_copy_equal (h : Plays p (k + 2) w E) {a : Nat} (ha : Known (n := n + 1) (E.2 a)) :
    ∃ b w' w'', result (run p (.arr (.copyCtor a)) w) = some (.ret (.here (.obj b)), w') ∧
      result (run p (.eq a b) w') = some (.ret (.here (.num 1)), w'') ∧ Plays p (n := n + 1) k w'' (E.1, E.2.upd b (E.2 a)) := by
  have hl : E.2 a ≠ .dead := known_live (n := n + 1) ha
  obtain ⟨_, w', ⟨F, e⟩, h1, ⟨o, ⟨b, hd, rfl, h2⟩, rfl, h3⟩, h4⟩ := h.2 (.arr (.copyCtor a)) ⟨trivial, hl⟩
  change F = E.1 at h3
  change e = E.2.upd b (E.2 a) at h2
  subst h3 h2
  have hba : a ≠ b := fun e => hl (e ▸ hd)
  obtain ⟨r, w'', h5, h6, h7⟩ := c101_equal (a := a) (b := b) h4
    (by show Known (n := n + 1) (E.2.upd b (E.2 a) a); rw [Env.upd_ne hba]; exact ha)
    (by show Known (n := n + 1) (E.2.upd b (E.2 a) b); rw [Env.upd_self]; exact ha)
  have : r = true := h6.mpr (by show E.2.upd b (E.2 a) a = E.2.upd b (E.2 a) b; rw [Env.upd_ne hba, Env.upd_self])
  subst this
  exact ⟨b, w', w'', h1, h5, h7⟩

/-- `a.hash()` is computed from what `a` holds, at all depths, whatever happened before and whatever hashes are
remembered.  Nothing changes. -/
theorem c101_hash (h : Plays p (k + 1) w E) {a : Nat} (ha : Known (n := n + 1) (E.2 a)) :
    ∃ w', result (run p (.hash a) w) = some (.ret (.here (.hash (hashOf p (n := n + 1) (E.2 a)))), w') ∧ Plays p k w' E := by
  obtain ⟨_, w', E', h1, ⟨rfl, rfl⟩, h3⟩ := h.2 (.hash a) ha
  exact ⟨w', h1, h3⟩

/-- Arrays that are equal have the same hash, also in different programs with different histories. -/
theorem c101_equal_hash {k' : Nat} {w₂ : Mem p (n + 1)} {E₂ : Envs (n + 1)} (h : Plays p (k + 1) w E) (h₂ : Plays p (k' + 1) w₂ E₂)
    {a b : Nat} (ha : Known (n := n + 1) (E.2 a)) (he : E.2 a = E₂.2 b) :
    ∃ x w' w₂', result (run p (.hash a) w) = some (.ret (.here (.hash x)), w') ∧
      result (run p (.hash b) w₂) = some (.ret (.here (.hash x)), w₂') := by
  obtain ⟨w', h1, _⟩ := c101_hash h ha
  obtain ⟨w₂', h2, _⟩ := c101_hash h₂ (a := b) (he ▸ ha)
  exact ⟨_, w', w₂', h1, by rw [← he] at h2; exact h2⟩

/-- The hash is that of the new contents after a string somewhere inside, at any depth, was changed, although the
array, the elements on the way and the string remember the old one. -/
theorem c101_hash_after_append (h : Plays p (k + 2) w E) {a : Nat} {path : List Nat} {b : UInt8} {v : List UInt8}
    {y' : Slot (Ty (n + 1))} (hv : Edit (n := n + 1) v (v ++ [b]) path (E.2 a) y') (hk : Known y') {x : Ans (n + 1)} {w' : Mem p (n + 1)}
    (hrun : result (run p (appendAt b path a) w) = some (.ret x, w')) :
    ∃ w'', result (run p (.hash a) w') = some (.ret (.here (.hash (hashOf p y'))), w'') := by
  obtain ⟨out, w1, h1, h2⟩ := c100_deep_append (n := n + 1) h hv
  rw [hrun] at h1
  cases h1
  rcases h2 with ⟨_, h2⟩ | ⟨h2, _⟩
  · have e : (E.upd a y').2 a = y' := upd_top (n := n + 1) E a y'
    obtain ⟨w'', h3, _⟩ := c101_hash h2 (a := a) (by rw [e]; exact hk)
    rw [e] at h3
    exact ⟨w'', h3⟩
  · cases h2

/-- `a.find(x)`: the first index at which `a` has an element equal to `x`, or `npos`.  Nothing changes. -/
theorem c101_find (h : Plays p (k + 1) w E) {a x : Nat} {xs : List (Slot (Ty n))} (ha : E.2 a = .val xs)
    (hk : ∀ y ∈ xs, Known y) (hx : Known (E.1.top x)) :
    ∃ i w', result (run p (.find a x) w) = some (.ret (.here (.num i)), w') ∧ Plays p k w' E ∧
      ((xs[i]? = some (E.1.top x) ∧ ∀ j < i, xs[j]? ≠ some (E.1.top x)) ∨ (E.1.top x ∉ xs ∧ i = npos)) := by
  obtain ⟨_, w', E', h1, ⟨r, rfl, h2, rfl⟩, h3⟩ := h.2 (.find a x) ⟨⟨xs, ha, hk⟩, hx⟩
  have hget : E'.2.get a = xs := by unfold Env.get; rw [ha]
  rw [hget] at h2
  refine ⟨r, w', h1, h3, ?_⟩
  rcases h2 with ⟨⟨h4, h5⟩, _⟩ | ⟨h4, rfl⟩
  · exact .inl ⟨h4, fun j hj e => by have := h5 j e; omega⟩
  · exact .inr ⟨fun hm => by
      obtain ⟨i, hi⟩ := List.mem_iff_getElem?.mp hm
      exact h4 i hi, rfl⟩

/-- `a.find(x, pos)` counts from `pos`: unlike `std::string` (see C28). -/
theorem c101_find_from (h : Plays p (k + 1) w E) {a x pos : Nat} {xs : List (Slot (Ty n))} (ha : E.2 a = .val xs)
    (hk : ∀ y ∈ xs, Known y) (hx : Known (E.1.top x)) (hp : pos ≤ xs.length) :
    ∃ i w', result (run p (.findFrom a x pos) w) = some (.ret (.here (.num i)), w') ∧ Plays p k w' E ∧
      ((xs[pos + i]? = some (E.1.top x) ∧ ∀ j < i, xs[pos + j]? ≠ some (E.1.top x)) ∨
        ((∀ j, pos ≤ j → xs[j]? ≠ some (E.1.top x)) ∧ i = npos)) := by
  obtain ⟨_, w', E', h1, h2, h3⟩ := h.2 (.findFrom a x pos) ⟨⟨xs, ha, hk⟩, hx⟩
  have hget : E.2.get a = xs := by unfold Env.get; rw [ha]
  unfold Post at h2
  rw [hget, if_pos hp] at h2
  obtain ⟨r, rfl, h2, rfl⟩ := h2
  refine ⟨r, w', h1, h3, ?_⟩
  rcases h2 with ⟨⟨h4, h5⟩, _⟩ | ⟨h4, rfl⟩
  · exact .inl ⟨h4, fun j hj e => by have := h5 j e; omega⟩
  · refine .inr ⟨fun j hj e => h4 (j - pos) ?_, rfl⟩
    show xs[pos + (j - pos)]? = _
    rw [show pos + (j - pos) = j by omega]; exact e

/-- `a.rfind(x)`: the last index at which `a` has an element equal to `x`, or `npos`. -/
theorem c101_rfind (h : Plays p (k + 1) w E) {a x : Nat} {xs : List (Slot (Ty n))} (ha : E.2 a = .val xs)
    (hk : ∀ y ∈ xs, Known y) (hx : Known (E.1.top x)) :
    ∃ i w', result (run p (.rfind a x) w) = some (.ret (.here (.num i)), w') ∧ Plays p k w' E ∧
      ((xs[i]? = some (E.1.top x) ∧ ∀ j, i < j → xs[j]? ≠ some (E.1.top x)) ∨ (E.1.top x ∉ xs ∧ i = npos)) := by
  obtain ⟨_, w', E', h1, ⟨r, rfl, h2, rfl⟩, h3⟩ := h.2 (.rfind a x) ⟨⟨xs, ha, hk⟩, hx⟩
  have hget : E'.2.get a = xs := by unfold Env.get; rw [ha]
  rw [hget] at h2
  refine ⟨r, w', h1, h3, ?_⟩
  rcases h2 with ⟨⟨h4, h5⟩, _⟩ | ⟨h4, rfl⟩
  · exact .inl ⟨h4, fun j hj e => by have := h5 j e; omega⟩
  · exact .inr ⟨fun hm => by
      obtain ⟨i, hi⟩ := List.mem_iff_getElem?.mp hm
      exact h4 i hi, rfl⟩

/-- Using an element of a `const` array, whatever is done with it and with other objects of that depth: no array
changes. -/
theorem c101_look (h : Plays p (k + 1) w E) {a i : Nat} {f : Nat → Call n} (hpre : Pre p (shares p w) E (.look a i f)) :
    ∃ out w' F, result (run p (.look a i f) w) = some (out, w') ∧ Plays p (n := n + 1) k w' (F, E.2) := by
  obtain ⟨out, w', ⟨F, e⟩, h1, ⟨t, y, s, o, F', hd, hy, hp, rfl, h2, h3⟩, h4⟩ := h.2 (.look a i f) hpre
  change e = E.2 at h3
  subst h3
  exact ⟨_, w', F, h1, h4⟩

/-! ## Reading one string, however deep -/

/-- `a[i][j] … .length()` for `path = [i, j, …]`. -/
def lengthAt : {n : Nat} → List Nat → Nat → Call n
  | 0, _, t => .str (.length t)
  | _ + 1, path, a => .look a (path.headD 0) (lengthAt path.tail)

/-- `y` has string `v` at `path`. -/
def HasAt (v : List UInt8) : {n : Nat} → List Nat → Slot (Ty n) → Prop
  | 0, path, y => path = [] ∧ y = .val v
  | n + 1, path, y => ∃ (i : Nat) (is : List Nat) (xs : List (Slot (Ty n))) (z : Slot (Ty n)), path = i :: is ∧ y = .val xs ∧
      xs[i]? = some z ∧ HasAt v is z

/-- The answer of the string at the bottom. -/
def bottom (x : Out UInt8) : {n : Nat} → Ans n
  | 0 => .here (n := 0) x
  | _ + 1 => .inner (bottom x)

theorem lengthAt_spares : ∀ {n : Nat} (path : List Nat) (t : Nat), ¬ Writes (lengthAt (n := n) path t) t
  | 0, _, _ => fun h => h.2 trivial
  | _ + 1, _, _ => fun h => h

theorem lengthAt_pre {v : List UInt8} : ∀ {n : Nat} {path : List Nat} {a : Nat} {E : Envs n} (sh : Sh n),
    HasAt v path (E.top a) → Pre p sh E (lengthAt path a)
  | 0, _, a, E, _, ⟨_, h⟩ => ⟨v, h⟩
  | n + 1, _, a, E, sh, ⟨i, is, xs, z, hpath, hy, hz, he⟩ => by
    subst hpath
    have hy : E.2 a = .val xs := hy
    have hget : E.2.get a = xs := by unfold Env.get; rw [hy]
    refine ⟨⟨xs, hy⟩, ?_, fun t y s ht hy' => ⟨?_, lengthAt_spares is t⟩⟩
    · rw [hget]; exact (List.getElem?_eq_some_iff.mp hz).1
    · rw [hget] at hy'
      change xs[i]? = some y at hy'
      rw [hz] at hy'
      cases hy'
      exact lengthAt_pre s (by rw [upd_top]; exact he)

theorem lengthAt_post {v : List UInt8} : ∀ {n : Nat} {path : List Nat} {a : Nat} {E E' : Envs n} {sh : Sh n} {out : End n},
    HasAt v path (E.top a) → Post p sh E (lengthAt path a) out E' → out = .ret (bottom (.num v.length)) ∧ E' = E
  | 0, _, a, E, E', sh, out, ⟨_, h⟩, hpost => by
    obtain ⟨o, ⟨rfl, rfl⟩, rfl⟩ := hpost
    have hget : Env.get (T := UInt8) E' a = v := by unfold Env.get; rw [show E' a = .val v from h]
    rw [hget]
    exact ⟨rfl, rfl⟩
  | n + 1, _, a, E, E', sh, out, ⟨i, is, xs, z, hpath, hy, hz, he⟩, hpost => by
    subst hpath
    have hy : E.2 a = .val xs := hy
    have hget : E.2.get a = xs := by unfold Env.get; rw [hy]
    obtain ⟨E1, E2⟩ := E
    obtain ⟨F1, F2⟩ := E'
    obtain ⟨t, y, s, o, F, hd, hi, hp, rfl, h1, h2⟩ := hpost
    change F1 = _ at h1
    change F2 = _ at h2
    rw [hget] at hi
    change xs[i]? = some y at hi
    rw [hz] at hi
    cases hi
    subst h1 h2
    obtain ⟨rfl, rfl⟩ := lengthAt_post (E := E1.upd t z) (by rw [upd_top]; exact he) hp
    refine ⟨rfl, ?_⟩
    rw [upd_upd, upd_same hd]

/-- Reading through elements of `const` arrays nested to any depth: the string at the bottom answers, nothing changes
at any depth and nothing fails, so nothing is copied although everything may be shared. -/
theorem c101_deep_length {n : Nat} {w : Mem p n} {E : Envs n} (h : Plays p (k + 1) w E) {a : Nat} {path : List Nat}
    {v : List UInt8} (hv : HasAt v path (E.top a)) :
    ∃ w', result (run p (lengthAt path a) w) = some (.ret (bottom (.num v.length)), w') ∧ Plays p k w' E := by
  obtain ⟨out, w', E', h1, h2, h3⟩ := h.2 (lengthAt path a) (lengthAt_pre _ hv)
  obtain ⟨rfl, rfl⟩ := lengthAt_post hv h2
  exact ⟨w', h1, h3⟩

/-! ## A program -/

/-- The number or hash at the end of each call. -/
def Ans.number : {n : Nat} → Ans n → Option Nat
  | _, .here (.num x) | _, .here (.hash x) => some x
  | _, .here _ => none
  | _, .inner x => x.number

/-- What the calls answer, as long as none throws. -/
def answers (p : Params) {n : Nat} : List (Call n) → Mem p n → List (Option Nat)
  | [], _ => []
  | k :: ks, w => match result (run p k w) with
    | some (.ret x, w') => x.number :: answers p ks w'
    | _ => []

/-- For the arrays `x` and `y` of C100: `x == y`, `x.find(a)`, `y.rfind(a)`, `y[0][0].length()`. -/
def compare : List (Call 2) :=
  [.eq 0 1, .find 0 0, .rfind 1 0, lengthAt [0, 0] 1]

-- before the change through `y`
example : answers params compare (trace params (greet.take 6) (tower params 2).init).2 = [some 1, some 0, some 0, some 2] := by
  decide +kernel
-- after it
example : answers params compare (trace params greet (tower params 2).init).2 = [some 0, some 0, some npos, some 3] := by
  decide +kernel

/-- Hashes asked before the change are remembered and yet not used after it. -/
example : answers params [.hash 0, .hash 1, appendAt 33 [0, 0] 1, .hash 0, .hash 1]
    (trace params (greet.take 6) (tower params 2).init).2 =
    [some (hashOf params (n := 2) (arr [arr [str [104, 105]]])), some (hashOf params (n := 2) (arr [arr [str [104, 105]]])), none,
      some (hashOf params (n := 2) (arr [arr [str [104, 105]]])), some (hashOf params (n := 2) (arr [arr [str [104, 105, 33]]]))] := by
  decide +kernel

example : hashOf params (n := 2) (arr [arr [str [104, 105]]]) ≠ hashOf params (n := 2) (arr [arr [str [104, 105, 33]]]) := by
  decide +kernel

/-- The hypotheses are met by the program of C100. -/
theorem c101_greet (k : Nat) : ∃ (w : Mem params 2) (E : Envs 2), Plays params k w E ∧ Known (n := 2) (E.2 0) ∧ Known (n := 2) (E.2 1) ∧
    E.2 0 ≠ E.2 1 ∧ HasAt (n := 2) [104, 105, 33] [0, 0] (E.2 1) := by
  obtain ⟨w, E, h, h0, h1, _⟩ := c100_greet k
  have one : ∀ v, Known (n := 2) (arr [arr [str v]]) := fun v =>
    ⟨[arr [str v]], rfl, fun x hx => by
      rw [List.mem_singleton] at hx; subst hx
      exact ⟨[str v], rfl, fun x hx => by rw [List.mem_singleton] at hx; subst hx; exact ⟨v, rfl⟩⟩⟩
  refine ⟨w, E, h, by rw [h0]; exact one _, by rw [h1]; exact one _, ?_, ?_⟩
  · rw [h0, h1]; intro h; cases h
  · rw [h1]; exact ⟨0, [0], _, _, rfl, rfl, rfl, 0, [], _, _, rfl, rfl, rfl, rfl, rfl⟩

end Bdlib.Deep
