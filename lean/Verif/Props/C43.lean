import Verif.Props.C42

/-!
# C43: `strdup`, `strldup`, `str_redup`

Partial: `str_redup(&s, p)` with `p` pointing into `s` reads the released block (`c43_refuted_alias`).
-/

namespace Bdlib.Cstr
open Bdlib Bdlib.Str

theorem memcpy_spec {target mem : Bytes} {len : Nat} (h1 : len ≤ mem.length) (h2 : len ≤ target.length) :
    memcpy target mem len = .ret (mem.take len ++ target.drop len) := by
  unfold memcpy
  rw [rdN_le (by omega)]
  simp only [Eff.ret_bind, List.drop_zero]
  rw [if_pos h2]
  rfl

/-- `strdup` returns a new block with exactly the characters and a NUL. -/
theorem c43_strdup {mem txt : Bytes} (h : Holds mem txt) : strdup mem = .ret (txt ++ [0]) := by
  unfold strdup
  rw [strlen_spec h]
  simp only [Eff.ret_bind]
  rw [wr_lt (by simp)]
  simp only [Eff.ret_bind]
  rw [memcpy_spec (by have := h.lt; omega) (by simp)]
  obtain ⟨h0, rest, rfl⟩ := h
  simp

/-- `strldup` copies at most `maxlen` characters. -/
theorem c43_strldup {mem txt : Bytes} (h : Holds mem txt) (maxlen : Nat) :
    strldup mem maxlen = .ret (txt.take maxlen ++ [0]) := by
  unfold strldup
  rw [strlen_spec h]
  simp only [Eff.ret_bind]
  have hl := h.lt
  have hm : (if txt.length < maxlen then txt.length else maxlen) = min txt.length maxlen := by
    split <;> omega
  rw [hm, wr_lt (by simp)]
  simp only [Eff.ret_bind]
  rw [memcpy_spec (by omega) (by simp)]
  obtain ⟨h0, rest, rfl⟩ := h
  rw [List.take_append_of_le_length (by omega)]
  have : txt.take (min txt.length maxlen) = txt.take maxlen := by
    rw [Nat.min_comm, ← List.take_take, List.take_length]
  rw [this]
  simp

/-- The pointer `p` points at a C string with the characters `txt`. -/
def PointsTo (h : Heap) (p : Nat × Nat) (txt : Bytes) : Prop :=
  ∃ b, h[p.1]? = some (some b) ∧ p.2 ≤ b.length ∧ Holds (b.drop p.2) txt

/-- `str_redup(&str, newstr)`, `newstr` in another block (or `str` null): `*str` points at a block holding
exactly the characters and a NUL; all other blocks, except the old one, are unchanged. -/
theorem c43_redup_partial {h : Heap} {str : Option Nat} {p : Nat × Nat} {txt : Bytes} (hp : PointsTo h p txt)
    (hs : ∀ a, str = some a → a ≠ p.1 ∧ ∃ b, h[a]? = some (some b)) (moves : Bool) (junk : UInt8) :
    ∃ a h', strRedup h moves junk str (some p) = .ret (some a, h') ∧ h'[a]? = some (some (txt ++ [0])) ∧
      (∀ i, some i ≠ str → i ≠ a → h'[i]? = h[i]?) ∧
      (∀ i, str = some i → i ≠ a → h'[i]? = some none) := by
  obtain ⟨b, hb, hpb, hh⟩ := hp
  have hbl : p.1 < h.length := by
    rcases Nat.lt_or_ge p.1 h.length with hlt | hge
    · exact hlt
    · rw [List.getElem?_eq_none hge] at hb; cases hb
  have hfrom : ∀ h' : Heap, h'[p.1]? = some (some b) → h'.from p = .ret (b.drop p.2) := by
    intro h' he
    unfold Heap.from
    rw [he]
    simp only
    rw [if_pos hpb]
  have hcpy : ∀ t : Bytes, t.length = txt.length + 1 → memcpy t (b.drop p.2) (txt.length + 1) = .ret (txt ++ [0]) := by
    intro t ht
    rw [memcpy_spec (by have := hh.lt; omega) (by omega), List.drop_eq_nil_of_le (as := t) (by omega), List.append_nil]
    obtain ⟨h0, rest, he⟩ := hh
    rw [he, List.take_append, List.take_of_length_le (l := txt) (by omega)]
    simp
  -- what remains after `realloc` returned block `a`, of the right size, in the heap `g`
  have hfin : ∀ (a : Nat) (g : Heap) (t : Bytes), a ≠ p.1 → g[p.1]? = some (some b) → g[a]? = some (some t) →
      t.length = txt.length + 1 →
      (do let src ← g.from p
          if a = p.1 then Eff.ub
          else do
            let b ← memcpy (← g.from (a, 0)) src (txt.length + 1)
            return (some a, g.set a (some b))) = .ret (some a, g.set a (some (txt ++ [0]))) := by
    intro a g t h1 h2 h3 h4
    rw [hfrom g h2]
    simp only [Eff.ret_bind]
    rw [if_neg h1]
    have : g.from (a, 0) = .ret t := by
      unfold Heap.from
      rw [h3]
      simp
    rw [this]
    simp only [Eff.ret_bind]
    rw [hcpy t h4]
    rfl
  cases str with
  | none =>
    refine ⟨h.length, (h ++ [some (List.replicate (txt.length + 1) junk)]).set h.length (some (txt ++ [0])), ?_, ?_, ?_, ?_⟩
    · unfold strRedup
      simp only [hfrom h hb, Eff.ret_bind, strlen_spec hh, Heap.realloc]
      refine hfin _ _ (List.replicate (txt.length + 1) junk) (by omega) ?_ ?_ (by simp)
      · rw [List.getElem?_append_left hbl, hb]
      · simp
    · simp
    · intro i _ hi
      rw [List.getElem?_set_ne (by omega)]
      rcases Nat.lt_or_ge i h.length with hlt | hge
      · rw [List.getElem?_append_left hlt]
      · rw [List.getElem?_eq_none (by simp; omega), List.getElem?_eq_none hge]
    · intro i hi; cases hi
  | some a =>
    obtain ⟨hap, ob, hob⟩ := hs a rfl
    have hal : a < h.length := by
      rcases Nat.lt_or_ge a h.length with hlt | hge
      · exact hlt
      · rw [List.getElem?_eq_none hge] at hob; cases hob
    have htl : (ob.take (txt.length + 1) ++ List.replicate (txt.length + 1 - ob.length) junk).length = txt.length + 1 := by
      simp; omega
    cases moves with
    | true =>
      refine ⟨h.length, (h.set a none ++ [some (ob.take (txt.length + 1) ++ List.replicate (txt.length + 1 - ob.length) junk)]).set
        h.length (some (txt ++ [0])), ?_, ?_, ?_, ?_⟩
      · unfold strRedup
        simp only [hfrom h hb, Eff.ret_bind, strlen_spec hh, Heap.realloc, hob, if_true]
        refine hfin _ _ _ (by omega) ?_ ?_ htl
        · rw [List.getElem?_append_left (by simpa using hbl), List.getElem?_set_ne hap, hb]
        · rw [List.getElem?_append_right (by simp)]
          simp
      · simp
      · intro i hi1 hi2
        have : i ≠ a := fun he => hi1 (by rw [he])
        rw [List.getElem?_set_ne (by omega)]
        rcases Nat.lt_or_ge i h.length with hlt | hge
        · rw [List.getElem?_append_left (by simpa using hlt), List.getElem?_set_ne (by omega)]
        · rw [List.getElem?_eq_none (by simp; omega), List.getElem?_eq_none hge]
      · intro i hi hne
        injection hi with hi
        subst hi
        rw [List.getElem?_set_ne (by omega), List.getElem?_append_left (by simpa using hal)]
        simp [hal]
    | false =>
      refine ⟨a, (h.set a (some (ob.take (txt.length + 1) ++ List.replicate (txt.length + 1 - ob.length) junk))).set
        a (some (txt ++ [0])), ?_, ?_, ?_, ?_⟩
      · unfold strRedup
        simp only [hfrom h hb, Eff.ret_bind, strlen_spec hh, Heap.realloc, hob]
        rw [if_neg (by simp)]
        simp only [Eff.ret_bind]
        refine hfin _ _ _ hap ?_ ?_ htl
        · rw [List.getElem?_set_ne hap, hb]
        · simp [hal]
      · simp [hal]
      · intro i hi1 hi2
        rw [List.getElem?_set_ne (by omega), List.getElem?_set_ne (by omega)]
      · intro i hi hne
        injection hi with hi
        exact absurd hi.symm hne

/-- `str_redup(&str, nullptr)` releases the string and sets the pointer to null. -/
theorem c43_redup_null (h : Heap) (moves : Bool) (junk : UInt8) (a : Nat) (b : Bytes) (hb : h[a]? = some (some b)) :
    strRedup h moves junk (some a) none = .ret (none, h.set a none) := by
  unfold strRedup Heap.free
  simp only [hb]
  rfl

theorem c43_redup_null_null (h : Heap) (moves : Bool) (junk : UInt8) :
    strRedup h moves junk none none = .ret (none, h) := rfl

/-- Refutation for arbitrary arguments: `str_redup(&s, s + k)` is undefined for every string and every `k` within it.  If
`realloc` moves the block, released memory is read; if not, `memcpy` copies within one block. -/
theorem c43_refuted_alias {h : Heap} {a k : Nat} {txt : Bytes} (hp : PointsTo h (a, k) txt) (moves : Bool) (junk : UInt8) :
    strRedup h moves junk (some a) (some (a, k)) = .ub := by
  obtain ⟨b, hb, hk, hh⟩ := hp
  have hal : a < h.length := by
    rcases Nat.lt_or_ge a h.length with hlt | hge
    · exact hlt
    · rw [List.getElem?_eq_none hge] at hb; cases hb
  have hfrom : h.from (a, k) = .ret (b.drop k) := by
    unfold Heap.from
    rw [hb]
    exact if_pos hk
  unfold strRedup
  simp only [hfrom, Eff.ret_bind, strlen_spec hh]
  cases moves with
  | true =>
    simp only [Heap.realloc, hb, if_true, Eff.ret_bind]
    have : Heap.from (h.set a none ++ [some (b.take (txt.length + 1) ++ List.replicate (txt.length + 1 - b.length) junk)]) (a, k) = .ub := by
      unfold Heap.from
      rw [List.getElem?_append_left (by simpa using hal)]
      simp [hal]
    rw [this]
    rfl
  | false =>
    simp only [Heap.realloc, hb, Bool.false_eq_true, if_false, Eff.ret_bind, if_true]
    generalize hg : h.set a (some (b.take (txt.length + 1) ++ List.replicate (txt.length + 1 - b.length) junk)) = g
    have : Heap.from g (a, k) = .ub ∨ ∃ x, Heap.from g (a, k) = .ret x := by
      unfold Heap.from
      split
      · split
        · exact Or.inr ⟨_, rfl⟩
        · exact Or.inl rfl
      · exact Or.inl rfl
    rcases this with e | ⟨x, e⟩ <;> rw [e] <;> rfl

example : PointsTo [some [97, 98, 0]] (0, 1) [98] ∧ strRedup [some [97, 98, 0]] true 9 (some 0) (some (0, 1)) = .ub :=
  ⟨⟨[97, 98, 0], rfl, by decide, by decide, [], rfl⟩, by decide⟩

example : strRedup [some [97, 0], some [98, 99, 0]] true 9 (some 0) (some (1, 0)) =
    .ret (some 2, [none, some [98, 99, 0], some [98, 99, 0]]) := by decide
example : PointsTo [some [97, 0], some [98, 99, 0]] (1, 0) [98, 99] := ⟨[98, 99, 0], rfl, by decide, by decide, [], rfl⟩
example : strldup [97, 98, 99, 0] 2 = .ret [97, 98, 0] := by decide

end Bdlib.Cstr
