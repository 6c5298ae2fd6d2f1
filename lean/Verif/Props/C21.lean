import Verif.Str.Search
import Verif.Str.Witness

/-!
# C21: `find(str)` returns the leftmost occurrence
-/

namespace Bdlib.Str
open Bdlib Bdlib.Spec

/-- The leftmost-occurrence property of `_find`, in terms of the tail searched. -/
theorem find_spec {L : Libc} (hL : L.Ok) {v str : Bytes} (hv : v.length ≤ npos) {pos : Nat} (hp : pos ≤ v.length)
    (hm : L.memmem = true ∨ pos = 0) :
    ∃ r, find_ L v str pos = .ret r ∧ Finds Smallest (fun d => OccursAt str v (pos + d)) npos r := by
  unfold find_
  by_cases he : str.length = 0
  · rw [if_pos he]
    have : str = [] := List.length_eq_zero_iff.mp he
    subst this
    exact ⟨0, rfl, Or.inl ⟨⟨⟨v.take pos, v.drop pos, by simp, by simp [hp]⟩, fun _ _ => Nat.zero_le _⟩, by decide⟩⟩
  rw [if_neg he, if_neg (by omega)]
  cases hmm : L.memmem with
  | true =>
    simp only [if_true]
    rcases memmem_spec (v.drop pos) str with ⟨m, h1, h2, h3⟩ | ⟨h1, h2⟩
    · rw [h1]
      have hlt : m < npos := by have := h2.le; simp at this; omega
      refine ⟨m, rfl, Or.inl ⟨⟨(occursAt_drop hp).mp h2, fun j hj => h3 j ((occursAt_drop hp).mpr hj)⟩, by omega⟩⟩
    · rw [h1]
      exact ⟨npos, rfl, Or.inr ⟨fun i hi => h2 i ((occursAt_drop hp).mpr hi), rfl⟩⟩
  | false =>
    have hp0 : pos = 0 := by rcases hm with h | h; rw [hmm] at h; cases h; exact h
    subst hp0
    simp only [Bool.false_eq_true, if_false, Nat.sub_zero, Nat.zero_add]
    have hne : str ≠ [] := fun h => he (by rw [h]; rfl)
    by_cases hl : v.length ≥ str.length
    · rw [if_pos hl]
      have hs := scanUp_spec (p := fun i => matchAt L v str i (min str.length (v.length - i)))
        (P := fun i => (v.drop i).take str.length = str) (v.length - str.length + 1) 0
        (fun j _ hj => matchAt_spec hL hne (by omega) (by omega))
      rcases hs with ⟨m, _, h2, h3, h4, h5⟩ | ⟨h1, h2⟩
      · rw [h5]
        refine ⟨m, rfl, Or.inl ⟨⟨(occursAt_take (by omega)).mpr h3, fun j hj => ?_⟩, by omega⟩⟩
        rcases Nat.lt_or_ge j m with h | h
        · exact absurd ((occursAt_take hj.le).mp hj) (h4 j (Nat.zero_le _) h)
        · exact h
      · rw [h2]
        exact ⟨npos, rfl, Or.inr ⟨fun i hi => h1 i (Nat.zero_le _) (by have := hi.le; omega)
          ((occursAt_take hi.le).mp hi), rfl⟩⟩
    · rw [if_neg hl]
      exact ⟨npos, rfl, Or.inr ⟨fun i hi => by have := hi.le; omega, rfl⟩⟩

/-- `find(str)` in both build configurations: the smallest index at which `str` occurs, `npos` iff there
is none. -/
theorem c21_find {L : Libc} (hL : L.Ok) {v : Bytes} (hv : v.length ≤ npos) (str : Bytes) :
    ∃ r, find L v str = .ret r ∧ Finds Smallest (OccursAt str v) npos r := by
  obtain ⟨r, h1, h2⟩ := find_spec hL (str := str) hv (Nat.zero_le _) (Or.inr rfl)
  simp only [Nat.zero_add] at h2
  exact ⟨r, h1, h2⟩

/-- Hence the result of `find(str)` does not depend on the platform. -/
theorem c21_same {L L' : Libc} (hL : L.Ok) (hL' : L'.Ok) {v : Bytes} (hv : v.length ≤ npos) (str : Bytes) :
    find L v str = find L' v str := by
  obtain ⟨r, h1, h2⟩ := c21_find hL hv str
  obtain ⟨r', h1', h2'⟩ := c21_find hL' hv str
  have : r = r' := by
    rcases h2 with ⟨⟨ha, hb⟩, hc⟩ | ⟨ha, hb⟩
    · rcases h2' with ⟨⟨ha', hb'⟩, hc'⟩ | ⟨ha', hb'⟩
      · have := hb r' ha'; have := hb' r ha; omega
      · exact absurd ha (ha' r)
    · rcases h2' with ⟨⟨ha', hb'⟩, hc'⟩ | ⟨ha', hb'⟩
      · exact absurd ha' (ha r')
      · rw [hb, hb']
  rw [h1, h1', this]

/-- `find(str, pos)` with `pos <= length()`: the distance from `pos` of the leftmost occurrence at or after
it.

Partial: only where the platform provides `memmem`, see `c21_refuted_from`. -/
theorem c21_find_from_partial {L : Libc} (hL : L.Ok) (hm : L.memmem = true) {v : Bytes} (hv : v.length ≤ npos)
    (str : Bytes) {pos : Nat} (hp : pos ≤ v.length) :
    ∃ r, findFrom L v str pos = .ret r ∧ Finds Smallest (fun d => OccursAt str v (pos + d)) npos r := by
  have hval : findFrom L v str pos = find_ L v str pos := by
    unfold findFrom
    by_cases h0 : pos = 0
    · simp [h0]
    · simp only [h0, ne_eq, not_false_eq_true, if_true]
      unfold validate
      rw [if_neg (by omega)]
      rfl
  rw [hval]
  exact find_spec hL hv hp (Or.inl hm)

/-- `find(str, pos)` with `pos > length()` throws. -/
theorem c21_find_range {L : Libc} {v : Bytes} (str : Bytes) {pos : Nat} (hp : v.length < pos) :
    findFrom L v str pos = .exc .outOfRange := by
  unfold findFrom
  simp only [show pos ≠ 0 by omega, ne_eq, not_false_eq_true, if_true]
  unfold validate
  rw [if_pos (by omega)]
  rfl

/-- What `find(str, pos)` does without `memmem`, exactly, for every `pos <= length()` and non-empty `str`: it returns the
absolute index of the leftmost occurrence at or after `pos`, but only among those that start at or before
`length() - pos - str.length()`, that is, `pos` characters too early; else `npos`. -/
theorem c21_find_from_fallback {L : Libc} (hL : L.Ok) (hm : L.memmem = false) {v : Bytes} (hv : v.length ≤ npos)
    {str : Bytes} (hne : str ≠ []) {pos : Nat} (hp : pos ≤ v.length) :
    ∃ r, findFrom L v str pos = .ret r ∧
      Finds Smallest (fun i => pos ≤ i ∧ OccursAt str v i ∧ pos + i + str.length ≤ v.length) npos r := by
  have hval : findFrom L v str pos = find_ L v str pos := by
    unfold findFrom
    by_cases h0 : pos = 0
    · simp [h0]
    · simp only [h0, ne_eq, not_false_eq_true, if_true]
      unfold validate
      rw [if_neg (by omega)]
      rfl
  have he : str.length ≠ 0 := fun h => hne (List.length_eq_zero_iff.mp h)
  rw [hval]
  unfold find_
  rw [if_neg he, if_neg (by omega), hm]
  simp only [Bool.false_eq_true, if_false]
  by_cases hl : v.length - pos ≥ str.length
  · rw [if_pos hl]
    have hs := scanUp_spec (p := fun i => matchAt L v str i (min str.length (v.length - pos - i)))
      (P := fun i => (v.drop i).take str.length = str) (v.length - pos - str.length + 1 - pos) pos
      (fun j _ hj => matchAt_spec hL hne (by omega) (by omega))
    rcases hs with ⟨m, h1, h2, h3, h4, h5⟩ | ⟨h1, h2⟩
    · rw [h5]
      refine ⟨m, rfl, Or.inl ⟨⟨⟨h1, (occursAt_take (by omega)).mpr h3, by omega⟩, fun j hj => ?_⟩, by omega⟩⟩
      rcases Nat.lt_or_ge j m with h | h
      · exact absurd ((occursAt_take hj.2.1.le).mp hj.2.1) (h4 j hj.1 h)
      · exact h
    · rw [h2]
      exact ⟨npos, rfl, Or.inr ⟨fun i hi => h1 i hi.1 (by have := hi.2.2; omega)
        ((occursAt_take hi.2.1.le).mp hi.2.1), rfl⟩⟩
  · rw [if_neg hl]
    exact ⟨npos, rfl, Or.inr ⟨fun i hi => by have := hi.2.2; omega, rfl⟩⟩

/-- The empty string is found at distance 0, whatever the platform. -/
theorem c21_find_from_empty (L : Libc) {v : Bytes} {pos : Nat} (hp : pos ≤ v.length) : findFrom L v [] pos = .ret 0 := by
  unfold findFrom
  by_cases h0 : pos = 0
  · simp [h0, find_]
  · simp only [h0, ne_eq, not_false_eq_true, if_true]
    unfold validate
    rw [if_neg (by omega)]
    rfl

/-- Hence, without `memmem` and with `pos > 0`, every occurrence in the last `pos` positions is missed, and every occurrence
that is found is reported at a wrong distance. -/
theorem c21_fallback_wrong {L : Libc} (hL : L.Ok) (hm : L.memmem = false) {v : Bytes} (hv : v.length ≤ npos)
    {str : Bytes} (hne : str ≠ []) {pos : Nat} (h0 : 0 < pos) (hp : pos ≤ v.length) {d : Nat}
    (hd : Smallest (fun d => OccursAt str v (pos + d)) d) : findFrom L v str pos ≠ .ret d := by
  obtain ⟨r, h1, h2⟩ := c21_find_from_fallback hL hm hv hne hp
  rw [h1]
  intro e
  cases e
  have hle := hd.1.le
  have hn : str.length ≠ 0 := fun h => hne (List.length_eq_zero_iff.mp h)
  rcases h2 with ⟨⟨⟨ha, hb, hc⟩, _⟩, _⟩ | ⟨_, hb⟩
  · have := hd.2 (d - pos) (by dsimp only; rw [show pos + (d - pos) = d by omega]; exact hb)
    omega
  · omega

/-- Without `memmem`, `String("abcbc").find("b", 1)` is 1 instead of 0 (the index is not relative to
`pos`), and `String("abcbc").find("bc", 2)` does not find the occurrence at 3. -/
theorem c21_refuted_from : noMemmem.Ok ∧
    findFrom noMemmem [97, 98, 99, 98, 99] [98] 1 = .ret 1 ∧ OccursAt [98] [97, 98, 99, 98, 99] (1 + 0) ∧
    findFrom noMemmem [97, 98, 99, 98, 99] [98, 99] 2 = .ret npos ∧ OccursAt [98, 99] [97, 98, 99, 98, 99] (2 + 1) :=
  ⟨noMemmem_ok, by decide, ⟨[97], [99, 98, 99], rfl, rfl⟩, by decide, ⟨[97, 98, 99], [], rfl, rfl⟩⟩

example : findFrom noMemmem [97, 98, 99, 98, 99] [98, 99] 1 = .ret 1 := by decide
example : OccursAt [98, 99] [97, 98, 99, 98, 99] 1 := ⟨[97], [98, 99], rfl, rfl⟩
example : find glibc [97, 98, 99, 98, 99] [98, 99] = .ret 1 := by decide
example : findFrom glibc [97, 98, 99, 98, 99] [98, 99] 2 = .ret 1 := by decide

end Bdlib.Str
