import Verif.Props.C24

/-!
# C25: `compare(str, n)` orders the first `n` bytes
-/

namespace Bdlib.Str
open Bdlib Bdlib.Spec

/-- `compare(str, n)` has the sign of the lexicographic comparison of the first `n` bytes.

Partial: the lengths of the two parts must not differ by more than an `int` can hold, see
`c25_refuted_long`; this is no restriction for `n < 2^31`. -/
theorem c25_compare_partial {L : Libc} (hL : L.Ok) {same : Bool} {v w : Bytes} (hs : SameOk same v w) (n : Nat)
    (hn : NearLengths (v.take n) (w.take n)) : ∃ r, compareN L same v w n = .ret r ∧ SignOf r (v.take n) (w.take n) := by
  unfold compareN
  by_cases h0 : n = 0
  · rw [if_pos h0]
    subst h0
    exact ⟨0, rfl, signOf_of (by simp) (by simp)⟩
  rw [if_neg h0]
  by_cases hsame : same = true ∧ v.length = w.length
  · rw [if_pos hsame]
    have := hs hsame.1 hsame.2
    subst this
    exact ⟨0, rfl, signOf_of (by simp) (by simp)⟩
  · rw [if_neg hsame]
    dsimp only
    rw [rdN_le (by omega), rdN_le (by omega)]
    simp only [Eff.ret_bind, List.drop_zero]
    have hk : min v.length (min w.length n) = min (v.take n).length (w.take n).length := by simp; omega
    have hv' : v.take (min v.length (min w.length n)) = (v.take n).take (min v.length (min w.length n)) := by
      rw [List.take_take]; congr 1; omega
    have hw' : w.take (min v.length (min w.length n)) = (w.take n).take (min v.length (min w.length n)) := by
      rw [List.take_take]; congr 1; omega
    have hlen : (v.take (min v.length (min w.length n))).length = (w.take (min v.length (min w.length n))).length := by
      simp; omega
    have hzero := hL.zero _ _ hlen
    have hneg := hL.neg _ _ hlen
    by_cases hd : L.memcmp (v.take (min v.length (min w.length n))) (w.take (min v.length (min w.length n))) = 0
    · rw [if_neg (by simpa using hd)]
      refine ⟨_, rfl, ?_⟩
      obtain ⟨hn1, hn2⟩ := hn
      simp only [List.length_take] at hn1 hn2
      rw [toInt32_sub (by omega) (by omega)]
      have he := hzero.mp hd
      rw [hv', hw', hk] at he
      obtain ⟨h1, h2⟩ := lex_take he
      simp only [List.length_take] at h1 h2
      exact signOf_of (by rw [h1]; omega) (by rw [h2]; omega)
    · rw [if_pos hd]
      refine ⟨_, rfl, ?_⟩
      have hne := fun h => hd (hzero.mpr h)
      rw [hv', hw'] at hne
      obtain ⟨h1, h2⟩ := lex_take_ne (v := v.take n) (w := w.take n) (by simp; omega) (by simp; omega) hne
      exact signOf_of (by rw [hneg, h1, ← hv', ← hw']) (by simp [hd, h2])

/-- Exactly when it is right: see `c24_compare_exact`, for the first `n` bytes of both.  (The same memory with the same
length gives 0, which is right.) -/
theorem c25_compare_exact {L : Libc} (hL : L.Ok) {same : Bool} {v w : Bytes} (hs : SameOk same v w) (hv : v.length < two64)
    (hw : w.length < two64) (n : Nat) : ∃ r, compareN L same v w n = .ret r ∧
      (SignOf r (v.take n) (w.take n) ↔ (¬ v.take n <+: w.take n ∧ ¬ w.take n <+: v.take n) ∨
        ((wrapped (((v.take n).length : Int) - (w.take n).length) < 0 ↔ (v.take n).length < (w.take n).length) ∧
          (wrapped (((v.take n).length : Int) - (w.take n).length) = 0 ↔ (v.take n).length = (w.take n).length))) := by
  unfold compareN
  have hself : ∀ k : Nat, ((wrapped ((k : Int) - k) < 0 ↔ k < k) ∧ (wrapped ((k : Int) - k) = 0 ↔ k = k)) := by
    intro k; simp [wrapped]
  by_cases h0 : n = 0
  · rw [if_pos h0]
    subst h0
    exact ⟨0, rfl, fun _ => .inr (hself _), fun _ => signOf_of (by simp) (by simp)⟩
  rw [if_neg h0]
  by_cases hsame : same = true ∧ v.length = w.length
  · rw [if_pos hsame]
    have := hs hsame.1 hsame.2
    subst this
    exact ⟨0, rfl, fun _ => .inr (hself _), fun _ => signOf_of (by simp) (by simp)⟩
  · rw [if_neg hsame]
    dsimp only
    rw [rdN_le (by omega), rdN_le (by omega)]
    simp only [Eff.ret_bind, List.drop_zero]
    have hk : min v.length (min w.length n) = min (v.take n).length (w.take n).length := by simp; omega
    have hv' : v.take (min v.length (min w.length n)) = (v.take n).take (min v.length (min w.length n)) := by
      rw [List.take_take]; congr 1; omega
    have hw' : w.take (min v.length (min w.length n)) = (w.take n).take (min v.length (min w.length n)) := by
      rw [List.take_take]; congr 1; omega
    have hlen : (v.take (min v.length (min w.length n))).length = (w.take (min v.length (min w.length n))).length := by
      simp; omega
    have hzero := hL.zero _ _ hlen
    have hneg := hL.neg _ _ hlen
    by_cases hd : L.memcmp (v.take (min v.length (min w.length n))) (w.take (min v.length (min w.length n))) = 0
    · rw [if_neg (by simpa using hd)]
      refine ⟨_, rfl, ?_⟩
      rw [toInt32_wrapped (by omega) (by omega)]
      have he := hzero.mp hd
      rw [hv', hw', hk] at he
      obtain ⟨h1, h2⟩ := lex_take he
      rw [show min v.length n = (v.take n).length by simp; omega, show min w.length n = (w.take n).length by simp; omega]
      constructor
      · intro hsg
        exact .inr ⟨by rw [hsg.1, h1], by rw [hsg.2.1, h2]⟩
      · rintro (⟨h3, h4⟩ | ⟨h3, h4⟩)
        · rcases prefix_of_take he with h | h
          · exact absurd h h3
          · exact absurd h h4
        · exact signOf_of (by rw [h1, h3]) (by rw [h2, h4])
    · rw [if_pos hd]
      refine ⟨_, rfl, ?_⟩
      have hne := fun h => hd (hzero.mpr h)
      rw [hv', hw'] at hne
      obtain ⟨h1, h2⟩ := lex_take_ne (v := v.take n) (w := w.take n) (by simp; omega) (by simp; omega) hne
      rw [hk] at hne
      exact ⟨fun _ => .inl ⟨fun h => hne (take_of_prefix (.inl h)), fun h => hne (take_of_prefix (.inr h))⟩,
        fun _ => signOf_of (by rw [hneg, h1, ← hv', ← hw']) (by simp [hd, h2])⟩

/-- For `n < 2^31` there is no restriction. -/
theorem c25_compare_short {L : Libc} (hL : L.Ok) {same : Bool} {v w : Bytes} (hs : SameOk same v w) {n : Nat}
    (hn : n < 2147483648) : ∃ r, compareN L same v w n = .ret r ∧ SignOf r (v.take n) (w.take n) :=
  c25_compare_partial hL hs n ⟨by simp; omega, by simp; omega⟩

/-- `n == 0` gives 0. -/
theorem c25_zero (L : Libc) (same : Bool) (v w : Bytes) : compareN L same v w 0 = .ret 0 := rfl

/-- A string of 2^32 characters and the empty string compare equal, for every larger `n`. -/
theorem c25_refuted_long (n : Nat) (hn : 4294967296 ≤ n) :
    compareN glibc false (List.replicate 4294967296 97) [] n = .ret 0 := by
  have key : ∀ m : Nat, compareN glibc false (List.replicate m 97) [] n = .ret (Rca.toInt32 (sub64 (min m n) 0)) := by
    intro m
    unfold compareN
    rw [if_neg (by omega)]
    simp only [Bool.false_eq_true, false_and, if_false, List.length_replicate, List.length_nil, Nat.zero_min, Nat.min_zero]
    rw [rdN_le (by simp), rdN_le (by simp)]
    simp only [Eff.ret_bind, List.take_zero]
    rfl
  rw [key, Nat.min_eq_left hn]
  decide

example : compareN glibc false [97, 98, 99] [97, 98, 100] 2 = .ret 0 := by decide
example : compareN glibc false [97, 98] [97, 98, 100] 9 = .ret (-1) := by decide

end Bdlib.Str
