import Verif.Props.C38

/-!
# C39: decoding arbitrary input

The model is undefined when the decoder reads behind what is readable or writes behind what it allocated.
`v ++ slack` is readable: normally a `String` has one NUL behind its contents.
-/

namespace Bdlib.B64
open Bdlib Bdlib.Str Bdlib.Spec

/-- Decoding any string, valid or not, is safe if the last block of four bytes is readable: the length is a
multiple of four, or enough bytes follow.  Each block gives at most three bytes.

Partial: otherwise the decoder reads beyond the terminator, see `c39_refuted`. -/
theorem c39_decode_partial (v slack : Bytes) (h : blocksOf v.length * 4 ≤ v.length + slack.length) :
    ∃ r, base64Decode v slack none = .ret r ∧ r.length ≤ blocksOf v.length * 3 := by
  unfold base64Decode dec decBuf
  dsimp only [indexFor]
  simp only [Eff.ret_bind]
  obtain ⟨r, h1, h2⟩ := decLoop_safe std_index.size (data := v ++ slack) (cap := blocksOf v.length * 3 + 1) (blocksOf v.length) 0 []
    (by simp; omega) (by simp; omega)
  rw [h1]
  simp only [Eff.ret_bind]
  simp at h2
  rw [put_lt (by omega)]
  exact ⟨r, rfl, by omega⟩

/-- In particular for lengths divisible by four, and with a terminator for lengths one less. -/
theorem c39_multiple_of_four (v slack : Bytes) (h : v.length % 4 = 0) : ∃ r, base64Decode v slack none = .ret r := by
  obtain ⟨r, h1, _⟩ := c39_decode_partial v slack (by unfold blocksOf; rw [if_neg (by omega)]; omega)
  exact ⟨r, h1⟩

theorem c39_one_missing (v : Bytes) (h : v.length % 4 = 3) : ∃ r, base64Decode v [0] none = .ret r := by
  obtain ⟨r, h1, _⟩ := c39_decode_partial v [0] (by unfold blocksOf; rw [if_pos (by omega)]; simp; omega)
  exact ⟨r, h1⟩

/-- Every string that is one or two bytes longer than a multiple of four makes the decoder read beyond its
terminator. -/
theorem c39_refuted_short (v : Bytes) (h : v.length % 4 = 1 ∨ v.length % 4 = 2) : base64Decode v [0] none = .ub := by
  have key : ∀ blocks i (out : Bytes) cap, (i + 4 * blocks = v.length + 3 ∨ i + 4 * blocks = v.length + 2) → out.length + 3 * blocks ≤ cap → 0 < blocks →
      decLoop stdIndexes (v ++ [0]) cap blocks i out = .ub := by
    intro blocks
    induction blocks with
    | zero => intro i out cap _ _ h; omega
    | succ blocks ih =>
      intro i out cap hi hcap _
      have hl : (v ++ [0]).length = v.length + 1 := by simp
      have hrd : ∀ c : UInt8, rd stdIndexes c.toNat = .ret (stdIndexes[c.toNat]'(by have := c.toNat_lt; rw [std_index.size]; omega)) :=
        fun c => rd_lt _
      unfold decLoop
      rw [rd_lt (show i < (v ++ [0]).length by omega), rd_lt (show i + 1 < (v ++ [0]).length by omega)]
      simp only [Eff.ret_bind, hrd]
      rw [put_lt (by omega)]
      simp only [Eff.ret_bind]
      by_cases hb : blocks = 0
      · subst hb
        rcases hi with hi | hi
        · have : rd (v ++ [0]) (i + 2) = .ub := by
            unfold rd
            rw [List.getElem?_eq_none (by omega)]
          rw [this]
          rfl
        · have h2 : rd (v ++ [0]) (i + 2) = .ret 0 := by
            unfold rd
            rw [show i + 2 = v.length by omega]
            simp
          have h3 : rd (v ++ [0]) (i + 3) = .ub := by
            unfold rd
            rw [List.getElem?_eq_none (by omega)]
          rw [h2]
          simp only [Eff.ret_bind]
          rw [if_pos (by decide)]
          rw [put_lt (by simp; omega)]
          simp only [Eff.ret_bind]
          rw [h3]
          rfl
      · rw [rd_lt (show i + 2 < (v ++ [0]).length by omega), rd_lt (show i + 3 < (v ++ [0]).length by omega)]
        simp only [Eff.ret_bind]
        split
        · rw [put_lt (by simp; omega)]
          simp only [Eff.ret_bind]
          split
          · rw [put_lt (by simp; omega)]
            simp only [Eff.ret_bind]
            exact ih _ _ _ (by omega) (by simp; omega) (by omega)
          · exact ih _ _ _ (by omega) (by simp; omega) (by omega)
        · exact ih _ _ _ (by omega) (by simp; omega) (by omega)
  unfold base64Decode dec decBuf
  dsimp only [indexFor]
  simp only [Eff.ret_bind]
  have hb : blocksOf v.length = v.length / 4 + 1 := by unfold blocksOf; rw [if_pos (by omega)]
  rw [key (blocksOf v.length) 0 [] _ (by omega) (by simp; omega) (by omega)]
  rfl

/-- So, for a `String` with just its terminator behind it, decoding is defined if and only if the length is a multiple of four
or one less. -/
theorem c39_exact (v : Bytes) :
    ((∃ r, base64Decode v [0] none = .ret r) ↔ v.length % 4 = 0 ∨ v.length % 4 = 3) ∧
    (base64Decode v [0] none = .ub ↔ v.length % 4 = 1 ∨ v.length % 4 = 2) := by
  have h1 := c39_multiple_of_four v [0]
  have h2 := c39_one_missing v
  have h3 := c39_refuted_short v
  have hne : ∀ r, base64Decode v [0] none = .ret r → base64Decode v [0] none ≠ .ub := fun r h e => by rw [h] at e; cases e
  have hm : v.length % 4 = 0 ∨ v.length % 4 = 3 ∨ (v.length % 4 = 1 ∨ v.length % 4 = 2) := by omega
  refine ⟨⟨fun ⟨r, hr⟩ => ?_, fun h => h.elim h1 h2⟩, ⟨fun h => ?_, h3⟩⟩
  · rcases hm with h | h | h
    · exact Or.inl h
    · exact Or.inr h
    · exact absurd (h3 h) (hne r hr)
  · rcases hm with h' | h' | h'
    · obtain ⟨r, hr⟩ := h1 h'; exact absurd h (hne r hr)
    · obtain ⟨r, hr⟩ := h2 h'; exact absurd h (hne r hr)
    · exact h'

/-- "QQ" (two bytes and a terminator): `data[3]` is read. -/
theorem c39_refuted_two : base64Decode [81, 81] [0] none = .ub := c39_refuted_short _ (by decide)

/-- A string of arbitrary bytes of length 4. -/
example : ∃ r, base64Decode [255, 0, 61, 7] [] none = .ret r := c39_multiple_of_four _ _ rfl

end Bdlib.B64
