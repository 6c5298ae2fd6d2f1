import Verif.Str.Cut

/-!
# C33: `trim` and `chomp`
-/

namespace Bdlib.Str
open Bdlib

theorem ltrim_spec (L : Libc) (v : Bytes) : ∃ a, v = a ++ ltrim L v ∧ (∀ c ∈ a, L.isspace c = true) ∧
    ∀ c, (ltrim L v).head? = some c → L.isspace c = false := by
  induction v with
  | nil => exact ⟨[], rfl, by simp, by simp [ltrim]⟩
  | cons x v ih =>
    unfold ltrim
    by_cases h : L.isspace x = true
    · rw [if_pos h]
      obtain ⟨a, h1, h2, h3⟩ := ih
      refine ⟨x :: a, by rw [List.cons_append, ← h1], fun c hc => ?_, h3⟩
      rcases List.mem_cons.mp hc with rfl | hc
      · exact h
      · exact h2 c hc
    · rw [if_neg h]
      refine ⟨[], rfl, by simp, fun c hc => ?_⟩
      have : x = c := by simpa using hc
      subst this
      simpa using h

theorem rtrim_spec (L : Libc) (v : Bytes) : ∀ n, n ≤ v.length → ∃ m b, rtrim L v n = .ret m ∧ v.take n = m ++ b ∧
    (∀ c ∈ b, L.isspace c = true) ∧ ∀ c, m.getLast? = some c → L.isspace c = false
  | 0, _ => ⟨[], [], rfl, by simp, by simp, by simp⟩
  | n + 1, hn => by
    unfold rtrim
    rw [rd_lt (by omega : n < v.length)]
    simp only [Eff.ret_bind]
    have htake : v.take (n + 1) = v.take n ++ [v[n]] := by rw [List.take_succ_eq_append_getElem]
    by_cases h : L.isspace v[n] = true
    · rw [if_pos h]
      obtain ⟨m, b, h1, h2, h3, h4⟩ := rtrim_spec L v n (by omega)
      refine ⟨m, b ++ [v[n]], h1, by rw [htake, h2]; simp, fun c hc => ?_, h4⟩
      rcases List.mem_append.mp hc with hc | hc
      · exact h3 c hc
      · rw [List.mem_singleton.mp hc]; exact h
    · rw [if_neg h]
      refine ⟨v.take (n + 1), [], rfl, by simp, by simp, fun c hc => ?_⟩
      rw [htake, List.getLast?_concat] at hc
      rw [← Option.some.inj hc]
      simpa using h

/-- `trim()` removes exactly the white space at both ends: what it leaves neither starts nor ends with
white space, and only white space was removed. -/
theorem c33_trim (L : Libc) (v : Bytes) : ∃ a m b, trim L v = .ret m ∧ v = a ++ m ++ b ∧
    (∀ c ∈ a, L.isspace c = true) ∧ (∀ c ∈ b, L.isspace c = true) ∧
    (∀ c, m.head? = some c → L.isspace c = false) ∧ (∀ c, m.getLast? = some c → L.isspace c = false) := by
  obtain ⟨a, h1, h2, h3⟩ := ltrim_spec L v
  obtain ⟨m, b, h4, h5, h6, h7⟩ := rtrim_spec L (ltrim L v) (ltrim L v).length (Nat.le_refl _)
  rw [List.take_length] at h5
  refine ⟨a, m, b, h4, by rw [List.append_assoc, ← h5]; exact h1, h2, h6, fun c hc => h3 c ?_, h7⟩
  rw [h5]
  cases m with
  | nil => cases hc
  | cons x m => simpa using hc

/-- Such a result is the only one, so `c33_trim` determines it. -/
theorem c33_trim_unique {P : UInt8 → Bool} {a m b a' m' b' : Bytes} (h : a ++ m ++ b = a' ++ m' ++ b')
    (ha : ∀ c ∈ a, P c = true) (hb : ∀ c ∈ b, P c = true) (ha' : ∀ c ∈ a', P c = true) (hb' : ∀ c ∈ b', P c = true)
    (h1 : ∀ c, m.head? = some c → P c = false) (h2 : ∀ c, m.getLast? = some c → P c = false)
    (h1' : ∀ c, m'.head? = some c → P c = false) (h2' : ∀ c, m'.getLast? = some c → P c = false) : m = m' := by
  have key : ∀ (a m b : Bytes), (∀ c ∈ a, P c = true) → (∀ c ∈ b, P c = true) → (∀ c, m.head? = some c → P c = false) →
      (∀ c, m.getLast? = some c → P c = false) →
      m = (((a ++ m ++ b).dropWhile P).reverse.dropWhile P).reverse := by
    intro a m b ha hb h1 h2
    rw [List.append_assoc, List.dropWhile_append_of_pos ha]
    cases m with
    | nil =>
      rw [List.nil_append]
      have : b.dropWhile P = [] := by
        have := List.dropWhile_append_of_pos (p := P) (l₂ := []) hb
        simpa using this
      rw [this]; rfl
    | cons x m =>
      rw [List.cons_append, List.dropWhile_cons_of_neg (by rw [h1 x rfl]; simp)]
      rw [← List.cons_append, List.reverse_append, List.dropWhile_append_of_pos (by simpa using hb)]
      obtain ⟨ys, y, hy⟩ : ∃ ys y, x :: m = ys ++ [y] :=
        ⟨(x :: m).dropLast, (x :: m).getLast (by simp), (List.dropLast_concat_getLast _).symm⟩
      rw [hy] at h2 ⊢
      rw [List.reverse_append, List.reverse_singleton, List.singleton_append,
        List.dropWhile_cons_of_neg (by rw [h2 y (by simp)]; simp)]
      simp
  rw [key a m b ha hb h1 h2, key a' m' b' ha' hb' h1' h2', h]

/-- Trimming twice is the same as trimming once. -/
theorem c33_trim_idempotent (L : Libc) (v : Bytes) : ∃ m, trim L v = .ret m ∧ trim L m = .ret m := by
  obtain ⟨a, m, b, h1, h2, h3, h4, h5, h6⟩ := c33_trim L v
  obtain ⟨a', m', b', g1, g2, g3, g4, g5, g6⟩ := c33_trim L m
  refine ⟨m, h1, ?_⟩
  rw [g1]
  congr 1
  exact (c33_trim_unique (P := L.isspace) (a := []) (b := []) (a' := a') (b' := b') (by simpa using g2) (by simp) (by simp)
    g3 g4 h5 h6 g5 g6).symm

theorem chompOne_snoc (u : Bytes) (x c : UInt8) : chompOne (u ++ [x]) c = .ret (if x = c then u else u ++ [x]) := by
  unfold chompOne
  have hl : (u ++ [x]).length = u.length + 1 := by simp
  rw [if_pos (by omega), rd_lt (by omega)]
  simp only [Eff.ret_bind]
  have : (u ++ [x])[(u ++ [x]).length - 1]'(by omega) = x := by simp
  rw [this]
  split
  · simp
  · rfl

/-- `chomp()` removes one line ending: `\r\n`, `\n` or `\r`. -/
theorem c33_chomp_crlf (u : Bytes) : chomp (u ++ [13, 10]) = .ret u := by
  unfold chomp
  rw [show u ++ [13, 10] = (u ++ [13]) ++ [10] by simp, chompOne_snoc]
  simp only [if_true, Eff.ret_bind]
  rw [chompOne_snoc, if_pos rfl]

theorem c33_chomp_lf (u : Bytes) (h : u.getLast? ≠ some 13) : chomp (u ++ [10]) = .ret u := by
  unfold chomp
  rw [chompOne_snoc]
  simp only [if_true, Eff.ret_bind]
  by_cases h0 : u = []
  · subst h0; rfl
  · obtain ⟨ys, y, rfl⟩ : ∃ ys y, u = ys ++ [y] := ⟨u.dropLast, u.getLast h0, (List.dropLast_concat_getLast h0).symm⟩
    rw [chompOne_snoc, if_neg]
    intro hy
    exact h (by simp [hy])

theorem c33_chomp_cr (u : Bytes) : chomp (u ++ [13]) = .ret u := by
  unfold chomp
  rw [chompOne_snoc, if_neg (by decide)]
  simp only [Eff.ret_bind]
  rw [chompOne_snoc, if_pos rfl]

/-- A string that ends in neither is unchanged. -/
theorem c33_chomp_none (v : Bytes) (h10 : v.getLast? ≠ some 10) (h13 : v.getLast? ≠ some 13) : chomp v = .ret v := by
  unfold chomp
  by_cases h0 : v = []
  · subst h0; rfl
  · obtain ⟨ys, y, rfl⟩ : ∃ ys y, v = ys ++ [y] := ⟨v.dropLast, v.getLast h0, (List.dropLast_concat_getLast h0).symm⟩
    have e1 : y ≠ 10 := fun h => h10 (by simp [h])
    have e2 : y ≠ 13 := fun h => h13 (by simp [h])
    rw [chompOne_snoc, if_neg e1]
    simp only [Eff.ret_bind]
    rw [chompOne_snoc, if_neg e2]

example : trim { memcmp := fun _ _ => 0, memmem := true, isspace := fun c => c == 32, toupper := id } [32, 97, 32, 98, 32, 32]
    = .ret [97, 32, 98] := by decide
example : chomp [97, 10, 13, 10] = .ret [97, 10] := by decide

end Bdlib.Str
