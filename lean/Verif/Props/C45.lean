import Verif.Stm.History

/-!
# C45: `getline` yields the lines

Partial: `getline(max)` may return one byte more than `max` (`c45_refuted_max`).
-/

namespace Bdlib.Stm
open Bdlib Bdlib.Str Bdlib.Spec

/-- A program that reads lines until the end of the stream. -/
def getlines : Nat → Stream → Eff (List Bytes × Stream)
  | 0, s => .ret ([], s)
  | k + 1, s =>
    if s.pos < s.str.length then do
      let (l, s) ← getline s none
      let (ls, s) ← getlines k s
      return (l :: ls, s)
    else .ret ([], s)

theorem lines_firstLine : ∀ {v : Bytes} {ls : List Bytes}, v ≠ [] → Lines (v.drop (firstLine v).length) ls →
    Lines v (firstLine v :: ls) := by
  intro v
  have key : ∀ v : Bytes, (10 ∉ v ∧ firstLine v = v) ∨
      ∃ l r, v = l ++ [10] ++ r ∧ 10 ∉ l ∧ firstLine v = l ++ [10] := by
    intro v
    induction v with
    | nil => left; exact ⟨by simp, rfl⟩
    | cons c r ih =>
      unfold firstLine
      by_cases hc : c = 10
      · right; exact ⟨[], r, by simp [hc], by simp, by simp [hc]⟩
      · rw [if_neg hc]
        rcases ih with ⟨h1, h2⟩ | ⟨l, r', h1, h2, h3⟩
        · left; exact ⟨by simp [h1, Ne.symm hc], by rw [h2]⟩
        · right; exact ⟨c :: l, r', by rw [h1]; simp, by simp [h2, Ne.symm hc], by rw [h3]; simp⟩
  intro ls hv h
  rcases key v with ⟨h1, h2⟩ | ⟨l, r, h1, h2, h3⟩
  · rw [h2] at h ⊢
    simp only [List.drop_length] at h
    have : ls = [] := by
      generalize hx : ([] : Bytes) = x at h
      cases h with
      | nil => rfl
      | last h4 => exact absurd hx.symm h4
      | cons => simp at hx
    subst this
    exact .last hv h1
  · rw [h3] at h ⊢
    rw [h1] at h ⊢
    rw [List.drop_append_of_le_length (Nat.le_refl _), List.drop_length, List.nil_append] at h
    exact .cons h2 h

theorem firstLine_pos {v : Bytes} (h : v ≠ []) : 0 < (firstLine v).length := by
  cases v with
  | nil => exact absurd rfl h
  | cons c r => unfold firstLine; split <;> simp

/-- Reading lines until the end returns exactly the lines of the rest of the contents (`Spec.Lines`). -/
theorem c45_getlines_partial : ∀ {k : Nat} {s : Stream}, Inside s → s.str.length - s.pos ≤ k →
    ∃ ls s', getlines k s = .ret (ls, s') ∧ Lines (s.str.drop s.pos) ls ∧ s'.str = s.str ∧ s'.pos = s.str.length := by
  intro k
  induction k with
  | zero =>
    intro s h hk
    have := h.pos
    refine ⟨[], s, rfl, ?_, rfl, by omega⟩
    rw [List.drop_eq_nil_of_le (by omega)]
    exact .nil
  | succ k ih =>
    intro s h hk
    have hp := h.pos
    unfold getlines
    by_cases hlt : s.pos < s.str.length
    · rw [if_pos hlt, getline_line h]
      simp only [Eff.ret_bind]
      have hne : s.str.drop s.pos ≠ [] := by simp; omega
      have hpos := firstLine_pos hne
      have hle := firstLine_le (s.str.drop s.pos)
      simp only [List.length_drop] at hle
      obtain ⟨ls, s', e1, e2, e3, e4⟩ := ih (s := { s with pos := s.pos + (firstLine (s.str.drop s.pos)).length })
        ⟨by dsimp only; omega, h.cap, h.max⟩ (by dsimp only; omega)
      rw [e1]
      refine ⟨_, s', rfl, ?_, e3, e4⟩
      apply lines_firstLine hne
      rw [List.drop_drop]
      exact e2
    · rw [if_neg hlt]
      refine ⟨[], s, rfl, ?_, rfl, by omega⟩
      rw [List.drop_eq_nil_of_le (by omega)]
      exact .nil

/-- The lines are determined by the text; they join up to it; all but the last end in a newline and have no
other. -/
theorem c45_lines_join {v : Bytes} {ls : List Bytes} (h : Lines v ls) : ls.flatten = v := by
  induction h with
  | nil => rfl
  | last => simp
  | cons _ _ ih => simp [ih]

theorem c45_lines_shape {v : Bytes} {ls : List Bytes} (h : Lines v ls) : ∀ l ∈ ls,
    (∃ t, l = t ++ [10] ∧ 10 ∉ t) ∨ (10 ∉ l ∧ l ≠ [] ∧ ls.getLast? = some l) := by
  induction h with
  | nil => intro l hl; cases hl
  | last h1 h2 => intro l hl; simp only [List.mem_singleton] at hl; subst hl; exact .inr ⟨h2, h1, rfl⟩
  | @cons t v ls h1 h2 ih =>
    intro l hl
    rcases List.mem_cons.1 hl with hl | hl
    · exact .inl ⟨t, hl, h1⟩
    · rcases ih l hl with h3 | ⟨h3, h4, h5⟩
      · exact .inl h3
      · refine .inr ⟨h3, h4, ?_⟩
        rw [List.getLast?_cons_of_ne_nil (by rintro rfl; cases hl)]
        exact h5

/-- `getline(max)`: a beginning of the rest, ending at the first newline or after `max` bytes; if the byte
after those is a newline it is returned as well. -/
theorem c45_getline_max_partial {s : Stream} (h : Inside s) {n : Nat} (hn : n ≠ 99999999) :
    ∃ x s', getline s (some n) = .ret (x, s') ∧ x <+: s.str.drop s.pos ∧ x.length ≤ n + 1 ∧
      (10 ∈ x → ∃ t, x = t ++ [10] ∧ 10 ∉ t) ∧ (10 ∉ x → x = (s.str.drop s.pos).take n) ∧
      s'.str = s.str ∧ s'.pos = s.pos + x.length := by
  unfold getline
  simp only [Option.getD_some]
  rw [if_neg hn, read_delim h n (by decide)]
  refine ⟨_, _, rfl, ?_, ?_, ?_, ?_, rfl, rfl⟩
  all_goals generalize s.str.drop s.pos = rest
  all_goals unfold upTo
  all_goals dsimp only
  all_goals generalize hp : (rest.take n).takeWhile (· ≠ 10) = p
  all_goals have hpre : p <+: rest := by rw [← hp]; exact (List.takeWhile_prefix _).trans (List.take_prefix _ _)
  all_goals have hno : 10 ∉ p := by
              rw [← hp]; intro hm
              have := List.all_eq_true.1 (List.all_takeWhile (l := rest.take n) (p := (· ≠ 10))) 10 hm
              simp at this
  all_goals have hlen : p.length ≤ n := by
              rw [← hp]
              exact Nat.le_trans (List.takeWhile_sublist _).length_le (by simp; omega)
  · obtain ⟨q, hq⟩ := hpre
    split
    · rename_i he
      rw [← hq, List.getElem?_append_right (Nat.le_refl _), Nat.sub_self] at he
      cases q with
      | nil => simp at he
      | cons c q =>
        simp at he
        exact ⟨q, by rw [← hq, he]; simp⟩
    · exact ⟨q, hq⟩
  · split
    · simp; omega
    · omega
  · split
    · intro _; exact ⟨p, rfl, hno⟩
    · intro hm; exact absurd hm hno
  · split
    · intro hm; simp at hm
    · rename_i he
      intro _
      -- the loop did not stop at a newline, so it took all
      have key : ∀ w : Bytes, (w.takeWhile (· ≠ 10)).length < w.length → w[(w.takeWhile (· ≠ 10)).length]? = some 10 := by
        intro w
        induction w with
        | nil => intro h; simp at h
        | cons c r ih =>
          intro h
          by_cases hc : c = 10
          · simp [hc]
          · rw [List.takeWhile_cons_of_pos (by simpa using hc)] at h ⊢
            simp only [List.length_cons, List.getElem?_cons_succ] at h ⊢
            exact ih (by omega)
      have hall : p.length = (rest.take n).length := by
        rcases Nat.lt_or_ge p.length (rest.take n).length with hlt | hge
        · have := key (rest.take n) (by rw [hp]; exact hlt)
          rw [hp] at this
          rw [List.getElem?_take_of_lt (by simp at hlt; omega)] at this
          exact absurd this he
        · have : p.length ≤ (rest.take n).length := by rw [← hp]; exact (List.takeWhile_sublist _).length_le
          omega
      have hsub : p <+: rest.take n := by rw [← hp]; exact List.takeWhile_prefix _
      exact hsub.eq_of_length hall

/-- Exactly when `getline(max)` returns `max + 1` bytes: the next `max` are there without a newline, and a newline follows. -/
theorem c45_max_exact {s : Stream} (h : Inside s) {n : Nat} (hn : n ≠ 99999999) :
    ∃ x s', getline s (some n) = .ret (x, s') ∧
      (x.length = n + 1 ↔ ∃ t rest, s.str.drop s.pos = t ++ 10 :: rest ∧ t.length = n ∧ 10 ∉ t) := by
  obtain ⟨x, s', h1, hpre, hlen, h2, h3, _, _⟩ := c45_getline_max_partial h hn
  refine ⟨x, s', h1, fun hx => ?_, fun ⟨t, rest, ht, hl, hno⟩ => ?_⟩
  · have hin : 10 ∈ x := Classical.byContradiction fun hno => by
      have := congrArg List.length (h3 hno)
      rw [List.length_take] at this
      omega
    obtain ⟨t, rfl, hno⟩ := h2 hin
    obtain ⟨rest, hr⟩ := hpre
    exact ⟨t, rest, by rw [← hr]; simp, by simpa using hx, hno⟩
  · unfold getline at h1
    simp only [Option.getD_some] at h1
    rw [if_neg hn, read_delim h n (by decide), ht] at h1
    have hx : upTo (t ++ 10 :: rest) n 10 = x := by cases h1; rfl
    rw [← hx]
    unfold upTo
    have hw : ((t ++ 10 :: rest).take n).takeWhile (· ≠ 10) = t := by
      rw [← hl, List.take_left]
      clear hl ht hx h1
      induction t with
      | nil => rfl
      | cons c t ih =>
        rw [List.takeWhile_cons_of_pos (by simp only [ne_eq, decide_eq_true_eq]; exact fun e => hno (by simp [e])),
          ih fun hm => hno (by simp [hm])]
    dsimp only
    rw [hw, if_pos (by simp)]
    simp [hl]

/-- Refutation of "`getline(max)` returns at most `max` bytes": "ab\n" with `max` = 2. -/
theorem c45_refuted_max : ∃ s x s', Inside s ∧ getline s (some 2) = .ret (x, s') ∧ x.length = 3 :=
  ⟨⟨[97, 98, 10], 16, 0, false⟩, [97, 98, 10], ⟨[97, 98, 10], 16, 3, false⟩, ⟨by decide, by decide, by decide⟩, by decide, rfl⟩

example : getlines 9 ⟨[97, 10, 10, 98], 16, 0, false⟩ = .ret ([[97, 10], [10], [98]], ⟨[97, 10, 10, 98], 16, 4, false⟩) := by decide

end Bdlib.Stm
