import Verif.Str.Model
import Verif.Spec.Strings

/-!
# Lemmas on the lexicographic order of byte strings
-/

namespace Bdlib.Str
open Bdlib Bdlib.Spec

theorem lex_tri (v w : Bytes) : v < w ∨ v = w ∨ w < v := by
  rcases List.le_total v w with h | h
  · rcases Decidable.em (v < w) with h' | h'
    · exact Or.inl h'
    · exact Or.inr (Or.inl (List.le_antisymm h (List.not_lt.mp h')))
  · rcases Decidable.em (w < v) with h' | h'
    · exact Or.inr (Or.inr h')
    · exact Or.inr (Or.inl (List.le_antisymm (List.not_lt.mp h') h))

theorem lex_irrefl (v : Bytes) : ¬ v < v := List.lt_irrefl v

theorem lex_asymm {v w : Bytes} (h : v < w) : ¬ w < v := fun h' => lex_irrefl v (List.lt_trans h h')

/-- Negative and zero determine positive. -/
theorem signOf_of {r : Int} {v w : Bytes} (hneg : r < 0 ↔ v < w) (hz : r = 0 ↔ v = w) : SignOf r v w := by
  refine ⟨hneg, hz, ?_⟩
  constructor
  · intro h
    rcases lex_tri v w with h1 | h1 | h1
    · have := hneg.mpr h1; omega
    · have := hz.mpr h1; omega
    · exact h1
  · intro h
    rcases Int.lt_trichotomy r 0 with h1 | h1 | h1
    · exact absurd h (lex_asymm (hneg.mp h1))
    · rw [hz.mp h1] at h; exact absurd h (lex_irrefl _)
    · exact h1

theorem lex_append_ne : ∀ {a b : Bytes} (x y : Bytes), a.length = b.length → a ≠ b → (a ++ x < b ++ y ↔ a < b)
  | [], [], _, _, _, h => absurd rfl h
  | [], _ :: _, _, _, h, _ => by cases h
  | _ :: _, [], _, _, h, _ => by cases h
  | c :: a, d :: b, x, y, h, hne => by
    simp only [List.cons_append, List.cons_lt_cons_iff]
    by_cases hcd : c = d
    · subst hcd
      have := lex_append_ne (a := a) (b := b) x y (by simpa using h) (fun he => hne (by rw [he]))
      rw [this]
    · simp [hcd]

theorem lex_append_left : ∀ (a x y : Bytes), (a ++ x < a ++ y ↔ x < y)
  | [], _, _ => by simp
  | c :: a, x, y => by
    simp only [List.cons_append, List.cons_lt_cons_iff]
    rw [lex_append_left a x y]
    constructor
    · rintro (h | h)
      · exact absurd h (UInt8.lt_irrefl c)
      · exact h.2
    · intro h; exact Or.inr ⟨trivial, h⟩

theorem nil_lt_iff (y : Bytes) : ([] : Bytes) < y ↔ y ≠ [] := by
  cases y with
  | nil => simp
  | cons a y => simp

theorem not_lt_nil' (y : Bytes) : ¬ y < ([] : Bytes) := by
  cases y with
  | nil => simp
  | cons a y => simp

/-- One byte string is a prefix of the other. -/
theorem lex_take {v w : Bytes} (h : v.take (min v.length w.length) = w.take (min v.length w.length)) :
    (v < w ↔ v.length < w.length) ∧ (v = w ↔ v.length = w.length) := by
  rcases Nat.le_total v.length w.length with hl | hl
  · rw [Nat.min_eq_left hl, List.take_length] at h
    obtain ⟨y, rfl⟩ : ∃ y, w = v ++ y := ⟨w.drop v.length, by
      have := List.take_append_drop v.length w
      rw [← h] at this; exact this.symm⟩
    have h1 := lex_append_left v [] y
    rw [List.append_nil] at h1
    rw [h1, nil_lt_iff]
    constructor
    · cases y <;> simp
    · cases y <;> simp
  · rw [Nat.min_eq_right hl, List.take_length] at h
    obtain ⟨y, rfl⟩ : ∃ y, v = w ++ y := ⟨v.drop w.length, by
      have := List.take_append_drop w.length v
      rw [h] at this; exact this.symm⟩
    have h1 := lex_append_left w y []
    rw [List.append_nil] at h1
    rw [h1]
    constructor
    · cases y <;> simp
    · cases y <;> simp

/-- If the common part differs, it decides. -/
theorem lex_take_ne {v w : Bytes} {k : Nat} (hv : k ≤ v.length) (hw : k ≤ w.length) (h : v.take k ≠ w.take k) :
    (v < w ↔ v.take k < w.take k) ∧ v ≠ w := by
  constructor
  · have := lex_append_ne (a := v.take k) (b := w.take k) (v.drop k) (w.drop k) (by simp [hv, hw]) h
    rw [List.take_append_drop, List.take_append_drop] at this
    exact this
  · intro he; rw [he] at h; exact h rfl

/-- The sign of a `size_t` difference converted to `int`. -/
theorem toInt32_sub {a b : Nat} (h1 : a < b + 2147483648) (h2 : b ≤ a + 2147483648) :
    Rca.toInt32 (sub64 a b) = (a : Int) - b := by
  unfold Rca.toInt32 sub64 two64
  dsimp only
  by_cases hle : b ≤ a
  · rw [if_pos hle]
    rw [if_pos (by omega)]
    omega
  · rw [if_neg hle]
    split <;> omega

end Bdlib.Str
