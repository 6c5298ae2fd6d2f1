import Verif.Props.C39

/-!
# C40: base64 with a custom character set
-/

namespace Bdlib.B64
open Bdlib Bdlib.Str Bdlib.Spec

/-- Round trip with any set of 64 different ASCII characters other than `=`.

Partial: for characters above 127 the index is negative, see `c40_refuted_high`. -/
theorem c40_round_trip_partial {cs : Bytes} (hcs : Charset cs) (v slack slack' : Bytes) :
    ∃ e, base64Encode v slack (some cs) = .ret e ∧ base64Decode e slack' (some cs) = .ret v := by
  obtain ⟨ix, h1, h2⟩ := hcs.index
  exact ⟨_, c37_encode_charset v slack cs hcs.size, dec_rfc (charset := some cs) h2 h1 v slack'⟩

/-- A set with a character above 127 makes the decoder write outside its table, for any input. -/
theorem c40_refuted_high {cs : Bytes} (hl : 64 ≤ cs.length) {c : UInt8} (hc : c ∈ cs.take 64) (h : 128 ≤ c.toNat)
    (v slack : Bytes) : base64Decode v slack (some cs) = .ub := by
  have key : ∀ k i ix, i + k = 64 → (∃ j, i ≤ j ∧ j < 64 ∧ 128 ≤ (alphabet cs j).toNat) → fillIndex cs k i ix = .ub := by
    intro k
    induction k with
    | zero => rintro i ix hi ⟨j, h1, h2, _⟩; omega
    | succ k ih =>
      rintro i ix hi ⟨j, h1, h2, h3⟩
      unfold fillIndex
      rw [rd_cs hl (by omega)]
      simp only [Eff.ret_bind]
      split
      · refine ih _ _ (by omega) ⟨j, ?_, h2, h3⟩
        rename_i hlt
        by_cases hji : j = i
        · subst hji; omega
        · omega
      · rfl
  obtain ⟨j, hj, he⟩ := List.mem_iff_getElem.mp hc
  have hj64 : j < 64 := by simp at hj; omega
  have : alphabet cs j = c := by
    unfold alphabet
    rw [List.getD_eq_getElem?_getD, List.getElem?_eq_getElem (by omega), ← he]
    simp
  unfold base64Decode dec
  dsimp only [indexFor]
  rw [key 64 0 _ rfl ⟨j, by omega, hj64, by rw [this]; exact h⟩]
  rfl

/-- A set meeting the conditions: the URL-safe alphabet. -/
theorem c40_url : Charset (stdCharset.take 62 ++ [45, 95]) where
  size := by decide
  ascii := by decide
  distinct := by decide
  noPad := by decide

example : base64Encode [255, 255, 254] [] (some (stdCharset.take 62 ++ [45, 95])) = .ret [95, 95, 95, 45] := by decide

end Bdlib.B64
