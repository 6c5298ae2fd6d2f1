import Verif.Props.C22

/-!
# C23: case-insensitive search
-/

namespace Bdlib.Str
open Bdlib Bdlib.Spec

/-- `str` occurs in `v` at `i` when both are read through `up`. -/
def OccursUpTo (up : UInt8 → UInt8) (str v : Bytes) (i : Nat) : Prop :=
  i + str.length ≤ v.length ∧ ∀ k (h : k < str.length), ∃ c, v[i + k]? = some c ∧ up c = up str[k]

theorem occursUpTo_iff {up : UInt8 → UInt8} {str v : Bytes} {i : Nat} :
    OccursUpTo up str v i ↔ OccursAt (str.map up) (v.map up) i := by
  constructor
  · rintro ⟨h1, h2⟩
    rw [occursAt_take (by simpa using h1)]
    apply List.ext_getElem?
    intro k
    by_cases hk : k < str.length
    · obtain ⟨c, hc, he⟩ := h2 k hk
      rw [List.getElem?_take, if_pos (by simpa using hk), List.getElem?_drop, List.getElem?_map, hc, List.getElem?_map,
        List.getElem?_eq_getElem hk]
      simp [he]
    · rw [List.getElem?_eq_none (by simp; omega), List.getElem?_eq_none (by simp; omega)]
  · intro h
    have hle := h.le
    simp only [List.length_map] at hle
    refine ⟨hle, fun k hk => ?_⟩
    have := (occursAt_take h.le).mp h
    have hk' := congrArg (fun l => l[k]?) this
    rw [List.getElem?_take, if_pos (by simpa using hk), List.getElem?_drop, List.getElem?_map, List.getElem?_map,
      List.getElem?_eq_getElem hk, List.getElem?_eq_getElem (show i + k < v.length by omega)] at hk'
    exact ⟨v[i + k], List.getElem?_eq_getElem _, by simpa using hk'⟩

/-- `ifind(str)`: the smallest index at which `str` occurs up to `toupper`. -/
theorem c23_ifind {L : Libc} (hL : L.Ok) {v : Bytes} (hv : v.length ≤ npos) (str : Bytes) :
    ∃ r, ifind L v str = .ret r ∧ Finds Smallest (OccursUpTo L.toupper str v) npos r := by
  obtain ⟨r, h1, h2⟩ := c21_find hL (v := v.map L.toupper) (by simpa using hv) (str.map L.toupper)
  have : OccursUpTo L.toupper str v = OccursAt (str.map L.toupper) (v.map L.toupper) := by
    funext i; exact propext occursUpTo_iff
  rw [this]
  exact ⟨r, h1, h2⟩

/-- `rifind(str)`: the largest index at which the non-empty `str` occurs up to `toupper`.

Partial: only for `lpos == 0`; other values are ignored, see `c23_refuted_lpos`. -/
theorem c23_rifind_partial {L : Libc} (hL : L.Ok) {v str : Bytes} (hv : v.length ≤ npos) (hs : str ≠ []) :
    ∃ r, rifind L v str 0 = .ret r ∧ Finds Largest (OccursUpTo L.toupper str v) npos r := by
  obtain ⟨r, h1, h2⟩ := c22_rfind hL (v := v.map L.toupper) (str := str.map L.toupper) (by simpa using hv)
    (by simpa using hs) 0
  have : OccursUpTo L.toupper str v = fun i => 0 ≤ i ∧ OccursAt (str.map L.toupper) (v.map L.toupper) i := by
    funext i; exact propext (occursUpTo_iff.trans ⟨fun h => ⟨Nat.zero_le _, h⟩, fun h => h.2⟩)
  rw [this]
  exact ⟨r, h1, h2⟩

/-- `lpos` never matters. -/
theorem c23_lpos_ignored (L : Libc) (v str : Bytes) (lpos : Nat) : rifind L v str lpos = rifind L v str 0 := rfl

/-- Exactly, for every `lpos`: the largest index at which the non-empty `str` occurs, below `lpos` or not; and the index of the
last character (`npos` if there is none) for the empty `str`. -/
theorem c23_rifind_exact {L : Libc} (hL : L.Ok) {v : Bytes} (hv : v.length ≤ npos) (str : Bytes) (lpos : Nat) :
    ∃ r, rifind L v str lpos = .ret r ∧
      if str = [] then r = (if v = [] then npos else v.length - 1) else Finds Largest (OccursUpTo L.toupper str v) npos r := by
  by_cases hs : str = []
  · subst hs
    refine ⟨_, (c22_empty (L := L) (v.map L.toupper) 0), ?_⟩
    rw [if_pos rfl, List.length_map]
    by_cases h : v = []
    · rw [if_pos h, if_pos (by rw [h]; rfl)]
    · rw [if_neg h, if_neg fun e => h (List.length_eq_zero_iff.mp e)]
  · obtain ⟨r, h1, h2⟩ := c23_rifind_partial hL hv hs
    exact ⟨r, h1, by rw [if_neg hs]; exact h2⟩

/-- `String("Abc").rifind("aB", 1)` is 0, an occurrence before `lpos`; `rfind` returns `npos` there. -/
theorem c23_refuted_lpos : rifind glibc [65, 98, 99] [97, 66] 1 = .ret 0 ∧
    rfind glibc [65, 98, 99] [65, 98] 1 = .ret npos := by decide

example : ifind glibc [120, 65, 98, 99] [97, 66] = .ret 1 := by decide
example : OccursUpTo toupperC [97, 66] [120, 65, 98, 99] 1 :=
  occursUpTo_iff.mpr ⟨[88], [67], by decide, rfl⟩

end Bdlib.Str
