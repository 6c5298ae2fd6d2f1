import Verif.Af.Model
import Verif.Props.C36

/-!
# Lemmas on paths
-/

namespace Bdlib.Af
open Bdlib Bdlib.Str Bdlib.Spec

variable [Tree]

theorem pieces_ne (v : Bytes) : pieces v ≠ [] := by
  cases v with
  | nil => simp [pieces]
  | cons c r =>
    unfold pieces
    split
    · simp
    · split <;> simp

theorem pieces_append (a b : Bytes) : pieces (a ++ 47 :: b) = pieces a ++ pieces b := by
  induction a with
  | nil => simp [pieces]
  | cons c r ih =>
    rw [List.cons_append]
    have e : ∀ t, pieces (c :: t) = if c = 47 then [] :: pieces t else match pieces t with
      | [] => [[c]]
      | p :: ps => (c :: p) :: ps := fun t => rfl
    rw [e, e]
    by_cases hc : c = 47
    · simp [hc, ih]
    · simp only [hc, if_false]
      rw [ih]
      cases h : pieces r with
      | nil => exact absurd h (pieces_ne r)
      | cons p ps => simp

theorem pieces_noslash {b : Bytes} (h : 47 ∉ b) : pieces b = [b] := by
  induction b with
  | nil => rfl
  | cons c r ih =>
    unfold pieces
    simp only [List.mem_cons, not_or] at h
    rw [if_neg (Ne.symm h.1), ih h.2]

/-- The entry of a path with a slash. -/
theorem entryOf_slash (d : Bytes) {b : Bytes} (h : 47 ∉ b) :
    entryOf (d ++ 47 :: b) = ⟨((pieces d).filter (fun p => p ≠ [] ∧ p ≠ [46])).foldl Tree.step
      (if d = [] ∨ d.head? = some 47 then Tree.root else Tree.here), b⟩ := by
  unfold entryOf
  rw [pieces_append, pieces_noslash h]
  cases d with
  | nil => simp
  | cons c r => simp

theorem entryOf_noslash {b : Bytes} (h : 47 ∉ b) : entryOf b = ⟨Tree.here, b⟩ := by
  unfold entryOf
  rw [pieces_noslash h]
  cases b with
  | nil => simp
  | cons c r =>
    simp only [List.mem_cons, not_or] at h
    simp [Ne.symm h.1]

/-- Cutting a text at its last slash. -/
theorem last_slash {v : Bytes} (h : 47 ∈ v) : ∃ d b, v = d ++ 47 :: b ∧ 47 ∉ b := by
  induction v with
  | nil => cases h
  | cons c r ih =>
    by_cases hr : 47 ∈ r
    · obtain ⟨d, b, h1, h2⟩ := ih hr
      exact ⟨c :: d, b, by rw [h1]; rfl, h2⟩
    · rcases List.mem_cons.1 h with he | he
      · exact ⟨[], r, by rw [← he]; rfl, hr⟩
      · exact absurd he hr

theorem cstr_id {v : Bytes} (h : 0 ∉ v) : cstr v = v := by
  unfold cstr
  induction v with
  | nil => rfl
  | cons c r ih =>
    simp only [List.mem_cons, not_or] at h
    rw [List.takeWhile_cons_of_pos (by simpa using Ne.symm h.1), ih h.2]

theorem rfind_slash {L : Libc} (hL : L.Ok) {d b : Bytes} (hb : 47 ∉ b) (hl : (d ++ 47 :: b).length ≤ npos) :
    rfind L (d ++ 47 :: b) [47] 0 = .ret d.length := by
  obtain ⟨r, e1, e2⟩ := c22_rfind hL hl (by simp : [(47 : UInt8)] ≠ []) 0
  rw [e1]
  congr 1
  have ho : OccursAt [47] (d ++ 47 :: b) d.length := ⟨d, b, by simp, rfl⟩
  rcases e2 with ⟨⟨⟨_, h1⟩, h2⟩, _⟩ | ⟨h1, _⟩
  · have h3 := h2 d.length ⟨Nat.zero_le _, ho⟩
    rcases Nat.lt_or_ge d.length r with hlt | hge
    · exfalso
      obtain ⟨x, y, hxy, hx⟩ := h1
      have : (d ++ 47 :: b)[r]? = some 47 := by rw [hxy, List.append_assoc, List.getElem?_append_right (by omega), hx]; simp
      rw [List.getElem?_append_right (by omega)] at this
      obtain ⟨k, hk⟩ : ∃ k, r - d.length = k + 1 := ⟨r - d.length - 1, by omega⟩
      rw [hk, List.getElem?_cons_succ] at this
      exact hb (List.mem_of_getElem? this)
    · omega
  · exact absurd ⟨Nat.zero_le _, ho⟩ (h1 d.length)

theorem rfind_noslash {L : Libc} (hL : L.Ok) {b : Bytes} (hb : 47 ∉ b) (hl : b.length ≤ npos) :
    rfind L b [47] 0 = .ret npos := by
  obtain ⟨r, e1, e2⟩ := c22_rfind hL hl (by simp : [(47 : UInt8)] ≠ []) 0
  rw [e1]
  congr 1
  rcases e2 with ⟨⟨⟨_, x, y, hxy, hx⟩, h2⟩, _⟩ | ⟨_, h1⟩
  · exact absurd (by rw [hxy]; simp) hb
  · exact h1

def xs : Bytes := [88, 88, 88, 88, 88, 88]

theorem template_slash {L : Libc} (hL : L.Ok) {d b : Bytes} (hb : 47 ∉ b) (h0 : 0 ∉ d ++ 47 :: b)
    (hl : (d ++ 47 :: b).length ≤ 4086) :
    template L (d ++ 47 :: b) = .ret (d ++ 47 :: ([46] ++ 47 :: (b ++ [46] ++ xs))) := by
  unfold template
  rw [rfind_slash hL hb (by unfold npos; omega)]
  simp only [Eff.ret_bind]
  have hd : d.length ≠ npos := by
    simp only [List.length_append, List.length_cons] at hl; unfold npos; omega
  simp only [hd, if_false]
  have hm : (d ++ 47 :: b).length ≤ maxInt := by unfold maxInt; omega
  have e1 := slice_in (i := 0) (k := d.length + 1) hm (by simp)
  rw [show ((0 : Nat) : Int) = 0 from rfl] at e1
  rw [e1, slice_rest hm]
  simp only [Eff.ret_bind, List.drop_zero]
  have e2 : (d ++ 47 :: b).take (d.length + 1) = d ++ [47] := by
    rw [List.take_append]; simp [List.take_of_length_le]
  have e3 : (d ++ 47 :: b).drop d.length = 47 :: b := by simp
  rw [e2, e3]
  have z1 : 0 ∉ d ++ [47] := by
    intro hm; apply h0; rcases List.mem_append.1 hm with h | h
    · exact List.mem_append_left _ h
    · simp at h
  have z2 : 0 ∉ (47 : UInt8) :: b := fun hm => h0 (List.mem_append_right _ hm)
  rw [cstr_id z1, cstr_id z2, c36_printf_partial]
  · simp [xs]
  · simp only [List.length_append, List.length_cons, List.length_nil] at hl ⊢; omega

theorem template_noslash {L : Libc} (hL : L.Ok) {b : Bytes} (hb : 47 ∉ b) (h0 : 0 ∉ b) (hl : b.length ≤ 4085) :
    template L b = .ret ([46] ++ 47 :: ([46] ++ b ++ [46] ++ xs)) := by
  unfold template
  rw [rfind_noslash hL hb (by unfold npos; omega)]
  simp only [Eff.ret_bind, if_true]
  have hm : b.length ≤ maxInt := by unfold maxInt; omega
  have e1 := slice_rest (i := 0) hm
  rw [show ((0 : Nat) : Int) = 0 from rfl] at e1 ⊢
  rw [e1]
  simp only [Eff.ret_bind, List.drop_zero]
  rw [cstr_id (by decide), cstr_id h0, c36_printf_partial]
  · simp [xs]
  · simp only [List.length_append, List.length_cons, List.length_nil]; omega

end Bdlib.Af
