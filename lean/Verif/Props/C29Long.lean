import Verif.Props.C28
import Verif.Props.C30
import Verif.Props.C31
import Verif.Props.C29

/-!
# C28-C31: Strings of 2^31 characters and more

`slice` converts the length to `int` (`ReferenceCountedArray.h` 956-980), so from 2^31 to 2^32 characters it takes every string for
one of length zero or less and gives nothing.  What the functions that cut with it then do, whatever the string.
-/

namespace Bdlib.Str
open Bdlib Bdlib.Spec

/-- Lengths that are zero or less as an `int`. -/
theorem toInt32_wraps {n : Nat} (h : 2147483648 ≤ n) (h' : n ≤ 4294967296) : Rca.toInt32 n ≤ 0 := by
  unfold Rca.toInt32
  dsimp only
  split <;> omega

theorem slice_wraps {α : Type} {v : List α} (h : 2147483648 ≤ v.length) (h' : v.length ≤ 4294967296) (i : Nat) (len : Int) :
    slice v i len = .ret [] := by
  unfold slice
  have := toInt32_wraps h h'
  dsimp only
  rw [if_pos (by omega)]

theorem splitLoop_wraps {L : Libc} {v d : Bytes} (h : 2147483648 ≤ v.length) (h' : v.length ≤ 4294967296) {cap : Nat} :
    ∀ fuel it (acc : List Bytes) it' ps, (∀ p ∈ acc, p = []) → splitLoop L v d cap fuel it acc = .ret (it', ps) → ∀ p ∈ ps, p = []
  | 0, _, _, _, _, _, e => by cases e
  | fuel + 1, it, acc, it', ps, ha, e => by
    unfold splitLoop at e
    split at e
    · cases e; exact ha
    · dsimp only at e
      split at e
      · cases e; exact ha
      · cases hf : find_ L v d (trimIt v d it) with
        | ret pos =>
          rw [hf] at e
          simp only [Eff.ret_bind, slice_wraps h h'] at e
          exact splitLoop_wraps h h' fuel _ _ it' ps (by
            intro p hp
            rcases List.mem_append.mp hp with hp | hp
            · exact ha p hp
            · exact List.mem_singleton.mp hp) e
        | _ => rw [hf] at e; cases e

/-- **C28**, **C29** (refuted for long strings) If a string of 2^31 to 2^32 characters is split, by whatever delimiter, with whatever
limit but 1, all pieces are empty. -/
theorem c29_refuted_long {L : Libc} {v d : Bytes} (h : 2147483648 ≤ v.length) (h' : v.length ≤ 4294967296) {limit : Nat} (hl : limit ≠ 1)
    {fuel : Nat} {ps : List Bytes} (e : split L fuel v d limit = .ret ps) : ∀ p ∈ ps, p = [] := by
  unfold split at e
  rw [if_neg (by omega), if_neg hl] at e
  cases hs : splitLoop L v d (sub64 limit 1) fuel 0 [] with
  | ret r =>
    obtain ⟨it, acc⟩ := r
    have ha := splitLoop_wraps h h' fuel 0 [] it acc nofun hs
    rw [hs] at e
    simp only [Eff.ret_bind, slice_wraps h h'] at e
    split at e
    · injection e with e
      subst e
      intro p hp
      rcases List.mem_append.mp hp with hp | hp
      · exact ha p hp
      · exact List.mem_singleton.mp hp
    · injection e with e
      subst e
      exact ha
  | _ => rw [hs] at e; cases e

/-- **C30** (refuted for long strings) Whatever comes before the first occurrence is lost. -/
theorem c30_refuted_long {L : Libc} (hL : L.Ok) {v d p rest : Bytes} (hf : FirstAt d v p rest) (r : Bytes) (h : 2147483648 ≤ v.length)
    (h' : v.length ≤ 4294967296) (fuel : Nat) : sub L (fuel + 1) v d r 1 = .ret (r ++ rest) := by
  have hfind : find L v d = .ret p.length ∧ p.length ≠ npos := by
    obtain ⟨k, h1, h2⟩ := c21_find hL (v := v) (by unfold npos; omega) d
    have hat : OccursAt d v p.length := ⟨p, rest, hf.1, rfl⟩
    rcases h2 with ⟨⟨h2, h3⟩, h4⟩ | ⟨h2, _⟩
    · have : k = p.length := Nat.le_antisymm (h3 _ hat) (hf.2 k h2)
      rw [← this]
      exact ⟨h1, h4⟩
    · exact absurd hat (h2 _)
  unfold sub subLoop
  rw [hfind.1]
  simp only [Eff.ret_bind]
  rw [if_neg hfind.2]
  have hs := slice_wraps h h' 0 (p.length : Int)
  rw [show ((0 : Nat) : Int) = 0 from rfl] at hs
  rw [hs]
  simp only [Eff.ret_bind]
  rw [plusEq_eq, ← firstAt_drop hf, if_pos (by decide)]
  simp only [List.append_nil, List.nil_append]
  show (if rest.length ≠ 0 then Eff.ret (r ++ rest) else .ret r) = _
  split
  · rfl
  · rename_i h0
    have : rest = [] := List.length_eq_zero_iff.mp (Classical.byContradiction h0)
    rw [this, List.append_nil]

/-- **C31** (refuted for long strings) The same with a map of one word which occurs once. -/
theorem c31_refuted_long {L : Libc} (hL : L.Ok) {v d p rest : Bytes} (hf : FirstAt d v p rest) (hno : ¬ Occurs d rest) (r : Bytes)
    (h : 2147483648 ≤ v.length) (h' : v.length ≤ 4294967296) (fuel : Nat) : subst L (fuel + 2) [(d, r)] v = .ret (r ++ rest) := by
  have hfind : find L v d = .ret p.length ∧ p.length ≠ npos := by
    obtain ⟨k, h1, h2⟩ := c21_find hL (v := v) (by unfold npos; omega) d
    have hat : OccursAt d v p.length := ⟨p, rest, hf.1, rfl⟩
    rcases h2 with ⟨⟨h2, h3⟩, h4⟩ | ⟨h2, _⟩
    · have : k = p.length := Nat.le_antisymm (h3 _ hat) (hf.2 k h2)
      rw [← this]
      exact ⟨h1, h4⟩
    · exact absurd hat (h2 _)
  have hrest : find L rest d = .ret npos := by
    have hlen := congrArg List.length hf.1
    simp only [List.length_append] at hlen
    obtain ⟨k, h1, h2⟩ := c21_find hL (v := rest) (by unfold npos; omega) d
    rcases h2 with ⟨⟨h2, _⟩, _⟩ | ⟨_, h3⟩
    · exact absurd ⟨_, h2⟩ hno
    · rw [h1, h3]
  have hs := slice_wraps h h' 0 (p.length : Int)
  rw [show ((0 : Nat) : Int) = 0 from rfl] at hs
  have hloop : subLoop L d r (-1) (fuel + 2) v [] 0 = .ret (rest, r) := by
    unfold subLoop
    rw [hfind.1]
    simp only [Eff.ret_bind]
    rw [if_neg hfind.2, hs]
    simp only [Eff.ret_bind]
    rw [plusEq_eq, ← firstAt_drop hf, if_neg (by decide)]
    unfold subLoop
    rw [hrest]
    simp
  unfold subst sub
  rw [hloop]
  simp only [Eff.ret_bind]
  unfold subst
  split
  · rfl
  · rename_i h0
    have : rest = [] := List.length_eq_zero_iff.mp (Classical.byContradiction h0)
    rw [this, List.append_nil]
    rfl

-- Non-vacuity: such strings exist, and the delimiter may occur in them.
example (n : Nat) (hn : n = 2147483648) : FirstAt [44] (List.replicate n 97 ++ [44] ++ [98]) (List.replicate n 97) [98] ∧
    2147483648 ≤ (List.replicate n (97 : UInt8) ++ [44] ++ [98]).length ∧ (List.replicate n (97 : UInt8) ++ [44] ++ [98]).length ≤ 4294967296 ∧
    ¬ Occurs [44] ([98] : Bytes) := by
  refine ⟨⟨by simp, fun i hi => ?_⟩, by simp; omega, by simp; omega, ?_⟩
  · obtain ⟨b, a, h1, rfl⟩ := hi
    apply Classical.byContradiction
    intro hlt
    have h2 := congrArg (fun l => l[b.length]?) h1
    rw [List.append_assoc, List.append_assoc] at h2
    rw [List.getElem?_append_left (by simpa using hlt)] at h2
    rw [List.getElem?_replicate, if_pos (by simpa using hlt)] at h2
    simp at h2
  · rintro ⟨i, b, a, h1, _⟩
    have : (44 : UInt8) ∈ ([98] : Bytes) := by rw [h1]; simp
    exact absurd this (by decide)

end Bdlib.Str
