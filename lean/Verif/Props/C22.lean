import Verif.Props.C21

/-!
# C22: `rfind(str, lpos)` returns the rightmost occurrence not before `lpos`
-/

namespace Bdlib.Str
open Bdlib Bdlib.Spec

/-- `rfind(str, lpos)` for non-empty `str`: the largest index not below `lpos` at which `str` occurs. -/
theorem c22_rfind {L : Libc} (hL : L.Ok) {v str : Bytes} (hv : v.length ≤ npos) (hs : str ≠ []) (lpos : Nat) :
    ∃ r, rfind L v str lpos = .ret r ∧ Finds Largest (fun i => lpos ≤ i ∧ OccursAt str v i) npos r := by
  have hlen : str.length ≠ 0 := fun h => hs (List.length_eq_zero_iff.mp h)
  unfold rfind
  rw [if_neg hlen]
  by_cases hl : v.length ≥ str.length
  · rw [if_pos hl]
    have hsc := scanDown_spec (p := fun i => matchAt L v str i (min str.length (v.length - i)))
      (P := fun i => (v.drop i).take str.length = str) (lo := lpos) (v.length - str.length + 1)
      (fun j _ hj => matchAt_spec hL hs (by omega) (by omega))
    rcases hsc with ⟨m, h1, h2, h3, h4, h5⟩ | ⟨h1, h2⟩
    · simp only [h5]
      refine ⟨m, rfl, Or.inl ⟨⟨⟨h1, (occursAt_take (by omega)).mpr h3⟩, fun j hj => ?_⟩, by omega⟩⟩
      rcases Nat.lt_or_ge m j with h | h
      · exact absurd ((occursAt_take hj.2.le).mp hj.2) (h4 j h (by have := hj.2.le; omega))
      · exact h
    · simp only [h2]
      exact ⟨npos, rfl, Or.inr ⟨fun i hi => h1 i hi.1 (by have := hi.2.le; omega)
        ((occursAt_take hi.2.le).mp hi.2), rfl⟩⟩
  · rw [if_neg hl]
    exact ⟨npos, rfl, Or.inr ⟨fun i hi => by have := hi.2.le; omega, rfl⟩⟩

/-- The empty string is "found" at the last element (`npos` in the empty string). -/
theorem c22_empty {L : Libc} (v : Bytes) (lpos : Nat) :
    rfind L v [] lpos = .ret (if v.length = 0 then npos else v.length - 1) := by
  unfold rfind
  rw [if_pos List.length_nil]
  unfold sub64
  by_cases h : v.length = 0
  · rw [if_neg (by omega), if_pos h, h]; rfl
  · rw [if_pos (by omega), if_neg h]

example : rfind glibc [97, 98, 99, 98, 99] [98, 99] 0 = .ret 3 := by decide
example : rfind glibc [97, 98, 99, 98, 99] [97, 98] 1 = .ret npos := by decide

end Bdlib.Str
