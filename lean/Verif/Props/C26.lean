import Verif.Props.C24

/-!
# C26: comparing with a C string

`cs` are the characters of the C string, none of them NUL; the memory that may be read is `cs ++ [0]`.
-/

namespace Bdlib.Str
open Bdlib Bdlib.Spec

/-- The contents are the C string followed by a NUL and possibly more: the one case in which the
comparison runs past the terminator. -/
def RunsPast (v cs : Bytes) : Prop := (cs ++ [0]) <+: v

theorem sub_signOf_ne {x c : UInt8} (h : x ≠ c) (v w : Bytes) : SignOf ((x.toNat : Int) - c.toNat) (x :: v) (c :: w) := by
  have hne : x.toNat ≠ c.toNat := fun he => h (UInt8.toNat_inj.mp he)
  refine signOf_of ?_ ?_
  · rw [List.cons_lt_cons_iff, u8_lt]
    simp only [h, false_and, or_false]
    omega
  · simp only [List.cons.injEq, h, false_and, iff_false]
    omega

theorem signOf_cons {r : Int} {v w : Bytes} (x : UInt8) (h : SignOf r v w) : SignOf r (x :: v) (x :: w) := by
  refine signOf_of ?_ ?_
  · rw [h.1, List.cons_lt_cons_iff]
    constructor
    · intro h; exact Or.inr ⟨rfl, h⟩
    · rintro (h | h)
      · exact absurd h (UInt8.lt_irrefl x)
      · exact h.2
  · rw [h.2.1]; simp

/-- Either the sign is right, or the read past the terminator happened (undefined behaviour). -/
theorem compareC_spec : ∀ (v cs : Bytes), (∀ c ∈ cs, c ≠ 0) →
    (RunsPast v cs ∧ compareC v (cs ++ [0]) = .ub) ∨
    (¬ RunsPast v cs ∧ ∃ r, compareC v (cs ++ [0]) = .ret r ∧ SignOf r v cs)
  | [], [], _ => by
    right
    refine ⟨by simp [RunsPast], 0, rfl, signOf_of (by simp) (by simp)⟩
  | [], c :: cs, h => by
    right
    refine ⟨by simp [RunsPast], _, rfl, ?_⟩
    have : c.toNat ≠ 0 := fun h' => h c (by simp) (UInt8.toNat_inj.mp h')
    refine signOf_of ?_ ?_
    · simp; omega
    · simp; omega
  | x :: v, [], _ => by
    unfold compareC
    rw [List.nil_append, rd_lt (by simp)]
    simp only [Eff.ret_bind, List.getElem_cons_zero, List.drop_succ_cons, List.drop_zero]
    by_cases hx : x = 0
    · left
      subst hx
      refine ⟨⟨v, rfl⟩, ?_⟩
      simp only [ne_eq, not_true_eq_false, if_false]
      cases v <;> rfl
    · right
      refine ⟨fun ⟨t, ht⟩ => hx ?_, (x.toNat : Int), ?_, ?_⟩
      · simp at ht; exact ht.1.symm
      · rw [if_pos hx]; simp
      · have : x.toNat ≠ 0 := fun h' => hx (UInt8.toNat_inj.mp h')
        refine signOf_of ?_ ?_
        · simp
        · simp; omega
  | x :: v, c :: cs, h => by
    unfold compareC
    rw [List.cons_append, rd_lt (by simp)]
    simp only [Eff.ret_bind, List.getElem_cons_zero, List.drop_succ_cons, List.drop_zero]
    by_cases hx : x = c
    · subst hx
      simp only [ne_eq, not_true_eq_false, if_false]
      have hrp : RunsPast (x :: v) (x :: cs) ↔ RunsPast v cs := by
        unfold RunsPast; rw [List.cons_append, List.cons_prefix_cons]; simp
      rw [hrp]
      rcases compareC_spec v cs (fun c hc => h c (by simp [hc])) with ⟨h1, h2⟩ | ⟨h1, r, h2, h3⟩
      · left; exact ⟨h1, h2⟩
      · right; exact ⟨h1, r, h2, signOf_cons x h3⟩
    · right
      refine ⟨fun hp => hx ?_, _, by rw [if_pos hx]; rfl, sub_signOf_ne hx v cs⟩
      unfold RunsPast at hp
      rw [List.cons_append, List.cons_prefix_cons] at hp
      exact hp.1.symm

/-- `compare(const char*)` has the sign of the lexicographic comparison of the contents with the C string.

Partial: the contents must not begin with the C string and a NUL; then, and only then, the comparison
reads past the terminator, see `c26_overread`. -/
theorem c26_compare_partial {v cs : Bytes} (hcs : ∀ c ∈ cs, c ≠ 0) (hr : ¬ RunsPast v cs) :
    ∃ r, compareC v (cs ++ [0]) = .ret r ∧ SignOf r v cs := by
  rcases compareC_spec v cs hcs with ⟨h1, _⟩ | ⟨_, h⟩
  · exact absurd h1 hr
  · exact h

/-- The exact condition under which memory behind the C string is read. -/
theorem c26_overread {v cs : Bytes} (hcs : ∀ c ∈ cs, c ≠ 0) : compareC v (cs ++ [0]) = .ub ↔ RunsPast v cs := by
  rcases compareC_spec v cs hcs with ⟨h1, h2⟩ | ⟨h1, r, h2, _⟩
  · exact ⟨fun _ => h1, fun _ => h2⟩
  · rw [h2]; exact ⟨fun h => (by cases h), fun h => absurd h h1⟩

/-- Contents without NUL are never a problem. -/
theorem c26_no_nul {v cs : Bytes} (hv : ∀ c ∈ v, c ≠ 0) : ¬ RunsPast v cs := by
  rintro ⟨t, rfl⟩
  exact hv 0 (by simp) rfl

/-- `s == cstr` iff the contents are the C string.  Partial as above. -/
theorem c26_eq_partial {v cs : Bytes} (hcs : ∀ c ∈ cs, c ≠ 0) (hr : ¬ RunsPast v cs) :
    eqC v (cs ++ [0]) = .ret (decide (v = cs)) := by
  obtain ⟨r, h1, h2⟩ := c26_compare_partial hcs hr
  unfold eqC
  rw [h1]
  simp only [Eff.ret_bind, Eff.pure_eq, Eff.ret.injEq]
  exact decide_eq_decide.mpr h2.2.1

/-- `s < cstr`, `s > cstr`, `s >= cstr`.  Partial as above. -/
theorem c26_order_partial {v cs : Bytes} (hcs : ∀ c ∈ cs, c ≠ 0) (hr : ¬ RunsPast v cs) :
    ltC v (cs ++ [0]) = .ret (decide (v < cs)) ∧ gtC v (cs ++ [0]) = .ret (decide (cs < v)) ∧
      geC v (cs ++ [0]) = .ret (decide (cs ≤ v)) := by
  obtain ⟨r, h1, h2⟩ := c26_compare_partial hcs hr
  have hlt : ltC v (cs ++ [0]) = .ret (decide (v < cs)) := by
    unfold ltC
    rw [h1]
    simp only [Eff.ret_bind, Eff.pure_eq, Eff.ret.injEq]
    exact decide_eq_decide.mpr h2.1
  refine ⟨hlt, ?_, ?_⟩
  · unfold gtC
    rw [h1]
    simp only [Eff.ret_bind, Eff.pure_eq, Eff.ret.injEq]
    exact decide_eq_decide.mpr h2.2.2
  · unfold geC
    rw [hlt]
    simp only [Eff.ret_bind, Eff.pure_eq, Eff.ret.injEq, ← decide_not]
    exact decide_eq_decide.mpr List.not_lt

theorem takeWhile_cstr {cs : Bytes} (hcs : ∀ c ∈ cs, c ≠ 0) : (cs ++ [0]).takeWhile (· ≠ 0) = cs := by
  rw [List.takeWhile_append_of_pos (by simpa using hcs)]
  simp

/-- `s <= cstr` converts the C string first and has no such problem.  Partial: lengths. -/
theorem c26_le_partial {L : Libc} (hL : L.Ok) {v cs : Bytes} (hcs : ∀ c ∈ cs, c ≠ 0) (hn : NearLengths cs v) :
    leC L v (cs ++ [0]) = .ret (decide (v ≤ cs)) := by
  unfold leC
  rw [takeWhile_cstr hcs, c24_lt_partial hL (fun h => by cases h) hn]
  simp only [Eff.ret_bind, Eff.pure_eq, Eff.ret.injEq, ← decide_not]
  exact decide_eq_decide.mpr List.not_lt

/-- The contents match the C string and its NUL, and `n` asks for more. -/
def RunsPastN (v cs : Bytes) (n : Nat) : Prop := RunsPast v cs ∧ cs.length + 1 < n

theorem compareCLoop_spec : ∀ (v cs : Bytes) (n : Nat), (∀ c ∈ cs, c ≠ 0) → n ≠ 0 →
    (RunsPastN v cs n ∧ compareCLoop v (cs ++ [0]) n = .ub) ∨
    (¬ RunsPastN v cs n ∧ ∃ r, compareCLoop v (cs ++ [0]) n = .ret r ∧
      (SignOf r (v.take n) (cs.take n) ∨ (RunsPast v cs ∧ cs.length + 1 = n ∧ r = 0)))
  | [], [], n, _, _ => by
    right
    refine ⟨by simp [RunsPastN, RunsPast], 0, rfl, Or.inl (signOf_of (by simp) (by simp))⟩
  | [], c :: cs, n, h, hn => by
    right
    refine ⟨by simp [RunsPastN, RunsPast], _, rfl, Or.inl ?_⟩
    have : c.toNat ≠ 0 := fun h' => h c (by simp) (UInt8.toNat_inj.mp h')
    obtain ⟨k, rfl⟩ : ∃ k, n = k + 1 := ⟨n - 1, by omega⟩
    refine signOf_of ?_ ?_
    · simp; omega
    · simp; omega
  | x :: v, [], n, _, hn => by
    obtain ⟨k, rfl⟩ : ∃ k, n = k + 1 := ⟨n - 1, by omega⟩
    unfold compareCLoop
    rw [List.nil_append, rd_lt (by simp)]
    simp only [Eff.ret_bind, List.getElem_cons_zero, List.drop_succ_cons, List.drop_zero, Nat.add_sub_cancel]
    by_cases hx : x = 0
    · subst hx
      have hrp : RunsPast (0 :: v) [] := ⟨v, rfl⟩
      by_cases hk : k = 0
      · right
        subst hk
        exact ⟨fun h => by have := h.2; simp at this, 0, rfl, Or.inr ⟨hrp, rfl, rfl⟩⟩
      · left
        refine ⟨⟨hrp, by simp; omega⟩, ?_⟩
        rw [if_neg (by simp [hk])]
        cases v <;> rfl
    · right
      have hnr : ¬ RunsPast (x :: v) [] := fun ⟨t, ht⟩ => hx (by simp at ht; exact ht.1.symm)
      refine ⟨fun h => hnr h.1, (x.toNat : Int), by rw [if_pos (Or.inl hx)]; simp, Or.inl ?_⟩
      have : x.toNat ≠ 0 := fun h' => hx (UInt8.toNat_inj.mp h')
      refine signOf_of ?_ ?_
      · simp
      · simp; omega
  | x :: v, c :: cs, n, h, hn => by
    obtain ⟨k, rfl⟩ : ∃ k, n = k + 1 := ⟨n - 1, by omega⟩
    unfold compareCLoop
    rw [List.cons_append, rd_lt (by simp)]
    simp only [Eff.ret_bind, List.getElem_cons_zero, List.drop_succ_cons, List.drop_zero, Nat.add_sub_cancel,
      List.take_succ_cons]
    by_cases hx : x = c
    · subst hx
      have hrp : RunsPast (x :: v) (x :: cs) ↔ RunsPast v cs := by
        unfold RunsPast; rw [List.cons_append, List.cons_prefix_cons]; simp
      by_cases hk : k = 0
      · right
        subst hk
        refine ⟨fun h => by have := h.2; simp at this, 0, by simp, Or.inl (signOf_of (by simp) (by simp))⟩
      · have hrpn : RunsPastN (x :: v) (x :: cs) (k + 1) ↔ RunsPastN v cs k := by
          unfold RunsPastN; rw [hrp]; simp
        rw [hrpn, hrp, if_neg (by simp [hk])]
        rcases compareCLoop_spec v cs k (fun c hc => h c (by simp [hc])) hk with ⟨h1, h2⟩ | ⟨h1, r, h2, h3⟩
        · left; exact ⟨h1, h2⟩
        · right
          refine ⟨h1, r, h2, h3.imp (signOf_cons x) ?_⟩
          rintro ⟨h4, h5, h6⟩
          exact ⟨h4, by simp; omega, h6⟩
    · right
      refine ⟨fun hp => hx ?_, _, by rw [if_pos (Or.inl hx)]; rfl, Or.inl (sub_signOf_ne hx _ _)⟩
      have := hp.1
      unfold RunsPast at this
      rw [List.cons_append, List.cons_prefix_cons] at this
      exact this.1.symm

/-- `compare(const char*, n)` has the sign of the lexicographic comparison of the first `n` characters.

Partial: the contents must not begin with the C string and a NUL, or `n` must not exceed the length of
the C string. -/
theorem c26_compare_n_partial {v cs : Bytes} {n : Nat} (hcs : ∀ c ∈ cs, c ≠ 0)
    (hr : ¬ RunsPast v cs ∨ n ≤ cs.length) :
    ∃ r, compareCN v (cs ++ [0]) n = .ret r ∧ SignOf r (v.take n) (cs.take n) := by
  unfold compareCN
  by_cases h0 : n = 0
  · rw [if_pos h0]
    subst h0
    exact ⟨0, rfl, signOf_of (by simp) (by simp)⟩
  rw [if_neg h0]
  rcases compareCLoop_spec v cs n hcs h0 with ⟨h1, _⟩ | ⟨_, r, h2, h3 | ⟨h3, h4, _⟩⟩
  · exfalso
    rcases hr with hr | hr
    · exact hr h1.1
    · have := h1.2; omega
  · exact ⟨r, h2, h3⟩
  · exfalso
    rcases hr with hr | hr
    · exact hr h3
    · omega

/-- The exact condition for reading past the terminator. -/
theorem c26_overread_n {v cs : Bytes} {n : Nat} (hcs : ∀ c ∈ cs, c ≠ 0) :
    compareCN v (cs ++ [0]) n = .ub ↔ RunsPast v cs ∧ cs.length + 1 < n := by
  unfold compareCN
  by_cases h0 : n = 0
  · rw [if_pos h0]
    exact ⟨fun h => (by cases h), fun h => by have := h.2; omega⟩
  rw [if_neg h0]
  rcases compareCLoop_spec v cs n hcs h0 with ⟨h1, h2⟩ | ⟨h1, r, h2, _⟩
  · exact ⟨fun _ => h1, fun _ => h2⟩
  · rw [h2]; exact ⟨fun h => (by cases h), fun h => absurd h h1⟩

/-- `String("ab\0", 3) == "ab"` reads the byte behind the literal. -/
theorem c26_refuted_nul : eqC [97, 98, 0] ([97, 98] ++ [0]) = .ub := by decide

example : compareC [97, 0, 98] ([97, 98] ++ [0]) = .ret (-98) := by decide
example : eqC [97, 98] ([97, 98] ++ [0]) = .ret true := by decide
example : compareCN [97, 98, 99] ([97, 98] ++ [0]) 2 = .ret 0 := by decide
example : ¬ RunsPast [97, 0, 98] [97, 98] := by unfold RunsPast; decide

end Bdlib.Str
