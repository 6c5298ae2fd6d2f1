import Verif.Str.Order
import Verif.Str.Witness

/-!
# C24: String ordering is the lexicographic total order on unsigned bytes

`<` on byte strings is the lexicographic order of the core library, with bytes compared as unsigned
numbers.  `same` says whether the two objects start at the same address; objects that do, and have the same
length, have the same contents (`SameOk`, proved for all reachable states by
`Rca.runs_sameStart`, and used in C65).
-/

namespace Bdlib.Str
open Bdlib Bdlib.Spec

/-- Strings starting at the same address with the same length are equal. -/
def SameOk (same : Bool) (v w : Bytes) : Prop := same = true → v.length = w.length → v = w

/-- The lengths differ by less than an `int` can hold. -/
def NearLengths (v w : Bytes) : Prop := v.length < w.length + 2147483648 ∧ w.length ≤ v.length + 2147483648

/-- `compare(str)` has the sign of the lexicographic comparison.

Partial: the lengths must not differ by more than an `int` can hold, see `c24_refuted_long`. -/
theorem c24_compare_partial {L : Libc} (hL : L.Ok) {same : Bool} {v w : Bytes} (hs : SameOk same v w) (hn : NearLengths v w) :
    ∃ r, compare L same v w = .ret r ∧ SignOf r v w := by
  unfold compare
  by_cases hsame : same = true ∧ v.length = w.length
  · rw [if_pos hsame]
    have := hs hsame.1 hsame.2
    subst this
    exact ⟨0, rfl, signOf_of (by simp) (by simp)⟩
  · rw [if_neg hsame]
    dsimp only
    rw [rdN_le (by omega), rdN_le (by omega)]
    simp only [Eff.ret_bind, List.drop_zero]
    have hlen : (v.take (min v.length w.length)).length = (w.take (min v.length w.length)).length := by simp
    have hzero := hL.zero _ _ hlen
    have hneg := hL.neg _ _ hlen
    by_cases hd : L.memcmp (v.take (min v.length w.length)) (w.take (min v.length w.length)) = 0
    · rw [if_neg (by simpa using hd)]
      refine ⟨_, rfl, ?_⟩
      rw [toInt32_sub hn.1 hn.2]
      obtain ⟨h1, h2⟩ := lex_take (hzero.mp hd)
      exact signOf_of (by rw [h1]; omega) (by rw [h2]; omega)
    · rw [if_pos hd]
      refine ⟨_, rfl, ?_⟩
      have hne := fun h => hd (hzero.mpr h)
      obtain ⟨h1, h2⟩ := lex_take_ne (v := v) (w := w) (Nat.min_le_left _ _) (Nat.min_le_right _ _) hne
      exact signOf_of (by rw [hneg, h1]) (by simp [hd, h2])

/-- `a == b` iff the contents are identical, whatever the lengths. -/
theorem c24_eq {L : Libc} (hL : L.Ok) {same : Bool} {v w : Bytes} (hs : SameOk same v w) :
    eqS L same v w = .ret (decide (v = w)) := by
  unfold eqS
  by_cases h : v.length = w.length
  · rw [if_pos h]
    obtain ⟨r, h1, h2⟩ := c24_compare_partial hL hs ⟨by omega, by omega⟩
    rw [h1]
    simp only [Eff.ret_bind, Eff.pure_eq, Eff.ret.injEq]
    exact decide_eq_decide.mpr h2.2.1
  · rw [if_neg h]
    have : v ≠ w := fun he => h (by rw [he])
    simp [this]

section operators
variable {L : Libc} (hL : L.Ok) {v w : Bytes}
include hL

/-- `a < b` is the lexicographic order.  Partial as `c24_compare_partial`. -/
theorem c24_lt_partial {same : Bool} (hs : SameOk same v w) (hn : NearLengths v w) :
    ltS L same v w = .ret (decide (v < w)) := by
  obtain ⟨r, h1, h2⟩ := c24_compare_partial hL hs hn
  unfold ltS
  rw [h1]
  simp only [Eff.ret_bind, Eff.pure_eq, Eff.ret.injEq]
  exact decide_eq_decide.mpr h2.1

/-- `a >= b`.  Partial as above. -/
theorem c24_ge_partial {same : Bool} (hs : SameOk same v w) (hn : NearLengths v w) :
    geS L same v w = .ret (decide (w ≤ v)) := by
  unfold geS
  rw [c24_lt_partial hL hs hn]
  simp only [Eff.ret_bind, Eff.pure_eq, Eff.ret.injEq, ← decide_not]
  exact decide_eq_decide.mpr List.not_lt

/-- `a > b`.  Partial as above. -/
theorem c24_gt_partial {same : Bool} (hs : SameOk same w v) (hn : NearLengths w v) :
    gtS L same v w = .ret (decide (w < v)) := c24_lt_partial hL hs hn

/-- `a <= b`.  Partial as above. -/
theorem c24_le_partial {same : Bool} (hs : SameOk same w v) (hn : NearLengths w v) :
    leS L same v w = .ret (decide (v ≤ w)) := by
  unfold leS
  rw [c24_lt_partial hL hs hn]
  simp only [Eff.ret_bind, Eff.pure_eq, Eff.ret.injEq, ← decide_not]
  exact decide_eq_decide.mpr List.not_lt

end operators

/-- The relations are a total order: exactly one of `a < b`, `a == b`, `b < a`, and `<` is transitive. -/
theorem c24_total (v w : Bytes) : (v < w ∨ v = w ∨ w < v) ∧ (v < w → ¬ w < v) ∧ ¬ v < v := 
  ⟨lex_tri v w, lex_asymm, lex_irrefl v⟩

theorem c24_trans (u v w : Bytes) (h1 : u < v) (h2 : v < w) : u < w := List.lt_trans h1 h2

/-- The order is that of unsigned bytes: the first differing byte decides, a proper prefix is smaller. -/
theorem c24_lex (p v w : Bytes) (a b : UInt8) (h : a.toNat < b.toNat) : p ++ a :: v < p ++ b :: w ∧ p < p ++ a :: v := by
  constructor
  · rw [lex_append_left, List.cons_lt_cons_iff, u8_lt]
    exact Or.inl h
  · have := lex_append_left p [] (a :: v)
    rw [List.append_nil] at this
    rw [this, nil_lt_iff]
    simp

/-- What converting a difference to `int` makes of it. -/
def wrapped (d : Int) : Int := (d + 2147483648) % 4294967296 - 2147483648

theorem toInt32_wrapped {a b : Nat} (ha : a < two64) (hb : b < two64) : Rca.toInt32 (sub64 a b) = wrapped ((a : Int) - b) := by
  unfold Rca.toInt32 sub64 wrapped
  unfold two64 at *
  dsimp only
  by_cases hle : b ≤ a
  · rw [if_pos hle]
    split <;> omega
  · rw [if_neg hle]
    split <;> omega

theorem prefix_of_take {v w : Bytes} (h : v.take (min v.length w.length) = w.take (min v.length w.length)) : v <+: w ∨ w <+: v := by
  rcases Nat.le_total v.length w.length with hl | hl
  · rw [Nat.min_eq_left hl, List.take_length] at h
    exact .inl (h ▸ List.take_prefix ..)
  · rw [Nat.min_eq_right hl, List.take_length] at h
    exact .inr (h ▸ List.take_prefix ..)

theorem take_of_prefix {v w : Bytes} (h : v <+: w ∨ w <+: v) : v.take (min v.length w.length) = w.take (min v.length w.length) := by
  rcases h with ⟨x, rfl⟩ | ⟨x, rfl⟩ <;> simp

/-- Exactly when `compare(str)` is right: always if neither string is a prefix of the other; if one is, then exactly when
converting the difference of the lengths to `int` keeps its sign. -/
theorem c24_compare_exact {L : Libc} (hL : L.Ok) {same : Bool} {v w : Bytes} (hs : SameOk same v w) (hv : v.length < two64)
    (hw : w.length < two64) : ∃ r, compare L same v w = .ret r ∧
      (SignOf r v w ↔ (¬ v <+: w ∧ ¬ w <+: v) ∨
        ((wrapped ((v.length : Int) - w.length) < 0 ↔ v.length < w.length) ∧ (wrapped ((v.length : Int) - w.length) = 0 ↔ v.length = w.length))) := by
  unfold compare
  by_cases hsame : same = true ∧ v.length = w.length
  · rw [if_pos hsame]
    have := hs hsame.1 hsame.2
    subst this
    exact ⟨0, rfl, fun _ => .inr ⟨by simp [wrapped], by simp [wrapped]⟩, fun _ => signOf_of (by simp) (by simp)⟩
  · rw [if_neg hsame]
    dsimp only
    rw [rdN_le (by omega), rdN_le (by omega)]
    simp only [Eff.ret_bind, List.drop_zero]
    have hlen : (v.take (min v.length w.length)).length = (w.take (min v.length w.length)).length := by simp
    have hzero := hL.zero _ _ hlen
    have hneg := hL.neg _ _ hlen
    by_cases hd : L.memcmp (v.take (min v.length w.length)) (w.take (min v.length w.length)) = 0
    · rw [if_neg (by simpa using hd)]
      refine ⟨_, rfl, ?_⟩
      rw [toInt32_wrapped hv hw]
      obtain ⟨h1, h2⟩ := lex_take (hzero.mp hd)
      constructor
      · intro hsg
        exact .inr ⟨by rw [hsg.1, h1], by rw [hsg.2.1, h2]⟩
      · rintro (⟨h3, h4⟩ | ⟨h3, h4⟩)
        · rcases prefix_of_take (hzero.mp hd) with h | h
          · exact absurd h h3
          · exact absurd h h4
        · exact signOf_of (by rw [h1, h3]) (by rw [h2, h4])
    · rw [if_pos hd]
      refine ⟨_, rfl, ?_⟩
      have hne := fun h => hd (hzero.mpr h)
      obtain ⟨h1, h2⟩ := lex_take_ne (v := v) (w := w) (Nat.min_le_left _ _) (Nat.min_le_right _ _) hne
      exact ⟨fun _ => .inl ⟨fun h => hne (take_of_prefix (.inl h)), fun h => hne (take_of_prefix (.inr h))⟩,
        fun _ => signOf_of (by rw [hneg, h1]) (by simp [hd, h2])⟩

/-- Lengths that differ by less than 2^31 are fine, and so are some that differ by more, but not 2^31 itself. -/
example : wrapped 2147483647 = 2147483647 ∧ wrapped 4294967301 = 5 ∧ wrapped 2147483648 = -2147483648 := by decide

theorem cmpBytes_nil (w : Bytes) : cmpBytes w [] = 0 := by cases w <;> rfl

/-- A string of 2^31 characters compares less than the empty string; one of 2^32 compares equal to it. -/
theorem c24_refuted_long :
    compare glibc false (List.replicate 2147483648 97) [] = .ret (-2147483648) ∧
    compare glibc false (List.replicate 4294967296 97) [] = .ret 0 ∧
    ltS glibc false (List.replicate 2147483648 97) [] = .ret true ∧
    ¬ (List.replicate 2147483648 97 : Bytes) < [] := by
  have key : ∀ n : Nat, compare glibc false (List.replicate n 97) [] = .ret (Rca.toInt32 (sub64 n 0)) := by
    intro n
    unfold compare
    simp only [Bool.false_eq_true, false_and, if_false, List.length_replicate, List.length_nil, Nat.min_zero]
    rw [rdN_le (by simp), rdN_le (by simp)]
    simp only [Eff.ret_bind, List.take_zero]
    rfl
  refine ⟨by rw [key]; decide, by rw [key]; decide, ?_, not_lt_nil' _⟩
  unfold ltS
  rw [key]
  decide

example : compare glibc false [97, 200] [97, 98, 99] = .ret 102 := by decide
example : ltS glibc false [97, 98] [97, 200] = .ret true := by decide
example : SameOk false [97, 200] [97, 98, 99] ∧ NearLengths [97, 200] [97, 98, 99] := by
  constructor
  · intro h; cases h
  · constructor <;> decide

end Bdlib.Str
