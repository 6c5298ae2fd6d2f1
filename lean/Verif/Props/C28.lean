import Verif.Str.Limit

/-!
# C28: `split` cuts at every delimiter and `join` puts it back

`List.intercalate d ps` is `ps[0] ++ d ++ ps[1] ++ d ++ ...`.  The number of loop iterations allowed by
`fuel` is the length of the string plus one, so a result also says that `split` terminates.
-/

namespace Bdlib.Str
open Bdlib Bdlib.Spec

/-- The pieces of a cut do not contain the delimiter and join to the original, up to one trailing
delimiter. -/
theorem cut_join {d v : Bytes} (hd : d ≠ []) {ps : List Bytes} (h : Cut d v ps) :
    (∀ p ∈ ps, ¬ Occurs d p) ∧ (d.intercalate ps = v ∨ d.intercalate ps ++ d = v) := by
  have key : (∀ p ∈ ps, ¬ Occurs d p) ∧ ((∃ qs x, ps = qs ++ [x] ∧ v = closed d qs ++ x) ∨ v = closed d ps) := by
    induction h with
    | nil => exact ⟨by simp, Or.inr rfl⟩
    | last hne ho => exact ⟨by simpa using ho, Or.inl ⟨[], _, rfl, by simp [closed]⟩⟩
    | cons hf _ ih =>
      refine ⟨fun p hp => ?_, ?_⟩
      · rcases List.mem_cons.mp hp with rfl | hp
        · exact firstAt_not_occurs hd hf
        · exact ih.1 p hp
      · rcases ih.2 with ⟨qs, x, h1, h2⟩ | h
        · exact Or.inl ⟨_ :: qs, x, by rw [h1]; rfl, by rw [hf.1, h2]; simp [closed]⟩
        · right; rw [hf.1, h]; simp [closed]
  refine ⟨key.1, ?_⟩
  rcases key.2 with ⟨qs, x, rfl, rfl⟩ | rfl
  · left; exact intercalate_snoc d qs x
  · by_cases hps : ps = []
    · subst hps; left; rfl
    · right; exact (closed_intercalate d hps).symm

theorem cap_npos : sub64 npos 1 = npos - 1 := by decide

section
variable {L : Libc} (hL : L.Ok) (hm : L.memmem = true) {v d : Bytes} (hv : v.length ≤ maxInt)
include hL hm hv

/-- `split(d)`: the pieces are those of cutting at each leftmost delimiter (`Spec.Cut`); no piece contains
the delimiter, and joining them restores the string up to one trailing delimiter.

Partial: needs `memmem` (`c28_refuted_memmem`), a non-empty delimiter (`c28_refuted_empty`), and fewer
than 2^31 characters (`c28_refuted_long`). -/
theorem c28_split_partial (hd : d ≠ []) (hsp : d ≠ [32]) : ∀ fuel, v.length < fuel →
    ∃ ps, split L fuel v d npos = .ret ps ∧ Cut d v ps ∧ (∀ p ∈ ps, ¬ Occurs d p) ∧
      (d.intercalate ps = v ∨ d.intercalate ps ++ d = v) := by
  intro fuel hf
  suffices h : ∃ ps, split L fuel v d npos = .ret ps ∧ Cut d v ps by
    obtain ⟨ps, h1, h2⟩ := h
    exact ⟨ps, h1, h2, cut_join hd h2⟩
  have hmx : v.length ≤ 2147483647 := hv
  unfold split
  by_cases h0 : v.length = 0
  · rw [if_pos h0]
    rw [List.length_eq_zero_iff.mp h0]
    exact ⟨[], rfl, .nil⟩
  rw [if_neg h0, if_neg (by decide)]
  obtain ⟨it', ps, h1, h2⟩ := splitLoop_spec hL hm hv hd hsp (cap := sub64 npos 1) fuel 0 [] (Nat.zero_le _)
    (by omega)
  rw [h1]
  simp only [Eff.ret_bind, List.nil_append]
  rw [if_neg (by simp)]
  refine ⟨ps, rfl, ?_⟩
  rw [List.drop_zero] at h2
  rcases h2 with ⟨h3, h4, h5, h6⟩ | ⟨qs, x, rfl, h4, h5, h6, _, _⟩
  · have hlt : ps.length < sub64 npos 1 := by
      have hlen := congrArg List.length h3.eq
      have : ps.length ≤ (closed d ps).length := by
        clear h3 h5 h6 hlen h1
        have hdl : d.length ≠ 0 := fun h => hd (List.length_eq_zero_iff.mp h)
        induction ps with
        | nil => simp
        | cons p ps ih =>
          simp only [closed, List.map_cons, List.flatten_cons, List.length_append, List.length_cons] at ih ⊢
          omega
      simp only [List.length_append] at hlen
      rw [cap_npos]
      unfold npos
      omega
    have := h5 (by simpa using hlt)
    subst this
    rw [List.drop_length] at h3
    have := h3.toCut Cut.nil
    simpa using this
  · exact h4.toCut (.last h5 h6)

/-- `split(d, k)` with `k >= 2`: at most `k` pieces; all but the last are followed by a delimiter in the
string, the last is the remainder, so that joining restores the string - except that when the string ran
out before the limit was reached, an empty piece is added.

Partial as above; the joined pieces may have an extra delimiter at the end, see `c28_refuted_limit`. -/
theorem c28_split_limit_partial (hd : d ≠ []) (hsp : d ≠ [32]) (h0 : v ≠ []) {k : Nat} (hk : 2 ≤ k) (hkn : k < npos) :
    ∀ fuel, v.length < fuel → ∃ ps rest, split L fuel v d k = .ret (ps ++ [rest]) ∧ ps.length + 1 ≤ k ∧
      (d.intercalate (ps ++ [rest]) = v ∨ (rest = [] ∧ Cut d v ps ∧ d.intercalate (ps ++ [rest]) = v ++ d)) := by
  intro fuel hf
  have hmx : v.length ≤ 2147483647 := hv
  unfold split
  have hl0 : v.length ≠ 0 := fun h => h0 (List.length_eq_zero_iff.mp h)
  rw [if_neg hl0, if_neg (by omega)]
  obtain ⟨it', ps, h1, h2⟩ := splitLoop_spec hL hm hv hd hsp (cap := sub64 k 1) fuel 0 [] (Nat.zero_le _) (by omega)
  rw [h1]
  simp only [Eff.ret_bind, List.nil_append]
  have htrim : trimIt v d it' = it' := by unfold trimIt; rw [if_neg hsp]
  rw [if_pos (by omega), htrim, slice_rest hv]
  simp only [Eff.ret_bind]
  refine ⟨ps, v.drop it', rfl, ?_, ?_⟩
  · have hsub : sub64 k 1 = k - 1 := by unfold sub64; rw [if_pos (by omega)]
    rw [hsub] at h2
    rcases h2 with ⟨_, _, _, h6⟩ | ⟨_, _, _, _, _, _, _, h6⟩
    · by_cases hps : ps = []
      · subst hps; simp; omega
      · have := h6 hps; simp at this; omega
    · simp at h6; omega
  · rw [List.drop_zero] at h2
    rw [intercalate_snoc]
    rcases h2 with ⟨h3, _⟩ | ⟨qs, x, rfl, h4, h5, h6, h7, _⟩
    · left; exact h3.eq.symm
    · right
      refine ⟨h7, h4.toCut (.last h5 h6), ?_⟩
      rw [h7, h4.eq]
      simp [closed]

/-- `split(d, k)` exactly, for every `k` other than 1 and "no limit": at most `k - 1` times the part before the
leftmost delimiter is cut off, and the remainder, possibly empty, is the last piece.  `k = 0` counts as 2^64.

Partial: needs `memmem`, a non-empty delimiter and fewer than 2^31 characters. -/
theorem c28_split_at_most_partial (hd : d ≠ []) (hsp : d ≠ [32]) (h0 : v ≠ []) {k : Nat} (hk1 : k ≠ 1) (hkn : k < npos) :
    ∀ fuel, v.length < fuel → ∃ ps, split L fuel v d k = .ret ps ∧ CutAtMost d (if k = 0 then npos else k - 1) v ps := by
  intro fuel hf
  have hmx : v.length ≤ 2147483647 := hv
  unfold split
  have hl0 : v.length ≠ 0 := fun h => h0 (List.length_eq_zero_iff.mp h)
  rw [if_neg hl0, if_neg hk1]
  have hsub : sub64 k 1 = if k = 0 then npos else k - 1 := by
    unfold sub64 two64 npos
    by_cases h : k = 0
    · subst h; rfl
    · rw [if_pos (by omega), if_neg h]
  rw [← hsub]
  obtain ⟨it', ps, h1, h2⟩ := splitLoop_spec hL hm hv hd hsp (cap := sub64 k 1) fuel 0 [] (Nat.zero_le _) (by omega)
  rw [h1]
  simp only [Eff.ret_bind, List.nil_append]
  have htrim : trimIt v d it' = it' := by unfold trimIt; rw [if_neg hsp]
  rw [if_pos (by omega), htrim, slice_rest hv]
  simp only [Eff.ret_bind]
  refine ⟨ps ++ [v.drop it'], rfl, ?_⟩
  rw [List.drop_zero] at h2
  simp only [List.length_nil, Nat.zero_add] at h2
  rcases h2 with ⟨h3, h4, h5, h6⟩ | ⟨qs, x, rfl, h4, h5, h6, h7, h8⟩
  · refine h3.atMost ?_ fun h => ?_
    · by_cases hps : ps = []
      · subst hps; simp
      · exact h6 hps
    · rw [h5 h, List.drop_length]
  · rw [h7]
    exact h4.atMost_last h5 h6 (by simpa using h8)

end

/-- That determines the pieces, and there are never more than allowed. -/
theorem c28_split_at_most_unique {v d : Bytes} (hd : d ≠ []) {n : Nat} {ps ps' : List Bytes} (h : CutAtMost d n v ps)
    (h' : CutAtMost d n v ps') : ps = ps' ∧ ps.length ≤ n + 1 := ⟨cutAtMost_unique hd h h', cutAtMost_length h⟩

/-- `split(d, 1)` is the string itself, whatever the delimiter. -/
theorem c28_split_one (L : Libc) (fuel : Nat) {v : Bytes} (d : Bytes) (h0 : v ≠ []) : split L fuel v d 1 = .ret [v] := by
  have hl0 : v.length ≠ 0 := fun h => h0 (List.length_eq_zero_iff.mp h)
  unfold split
  rw [if_neg hl0, if_pos rfl]

/-- Splitting the empty string gives no pieces. -/
theorem c28_split_empty (L : Libc) (fuel : Nat) (d : Bytes) (k : Nat) : split L fuel [] d k = .ret [] := rfl

/-- `split(d, 0)` is unlimited, but adds the (empty) remainder as a piece; with limit 5 the one-piece
string "a" gives two pieces. -/
theorem c28_refuted_limit : split glibc 9 [97, 44, 98] [44] 0 = .ret [[97], [98], []] ∧
    split glibc 9 [97] [44] 5 = .ret [[97], []] := by decide

/-- Without `memmem`, `String("a,b,c").split(",")` is `{"a", "b,c"}`. -/
theorem c28_refuted_memmem : split noMemmem 9 [97, 44, 98, 44, 99] [44] npos = .ret [[97], [98, 44, 99]] := by decide

/-- With an empty delimiter the loop makes no progress: it does not end within 2^64 - 2 iterations (each of
which adds an element to the result). -/
theorem c28_refuted_empty (fuel : Nat) (h : fuel < npos - 1) : split glibc fuel [97] [] npos = .more := by
  unfold split
  rw [if_neg (by decide), if_neg (by decide)]
  have key : ∀ fuel acc, acc.length + fuel < npos - 1 → splitLoop glibc [97] [] (npos - 1) fuel 0 acc = .more := by
    intro fuel
    induction fuel with
    | zero => intros; rfl
    | succ fuel ih =>
      intro acc hacc
      unfold splitLoop
      rw [if_neg (by simp; omega)]
      have ht : trimIt [97] [] 0 = 0 := rfl
      have hs : slice ([97] : Bytes) 0 ((0 : Nat) : Int) = .ret [] := by decide
      simp only [ht]
      rw [if_neg (by decide)]
      have hf : find_ glibc [97] [] 0 = .ret 0 := rfl
      rw [hf]
      simp only [Eff.ret_bind]
      have h0 : (if (0 : Nat) = npos then List.length ([97] : Bytes) - 0 else 0) = 0 := by decide
      rw [h0]
      have hs' : slice ([97] : Bytes) ((0 : Nat) : Int) ((0 : Nat) : Int) = .ret [] := hs
      rw [hs']
      simp only [Eff.ret_bind]
      exact ih _ (by simp; omega)
  rw [cap_npos, key fuel [] (by simpa using h)]
  rfl

theorem slice_long (n : Nat) (hn : n = 2147483648) : slice (List.replicate n (97 : UInt8)) (0 : Nat) n = .ret [] := by
  unfold slice
  have hlen : (List.replicate n (97 : UInt8)).length = n := List.length_replicate
  have h32 : Rca.toInt32 n = -2147483648 := by subst hn; rfl
  simp only [hlen, h32]
  rw [if_pos (by omega)]

/-- A string of 2^31 characters without a delimiter is split into one empty piece. -/
theorem c28_refuted_long (n : Nat) (hn : n = 2147483648) :
    split glibc 2 (List.replicate n 97) [44] npos = .ret [[]] := by
  have hlen : (List.replicate n (97 : UInt8)).length = n := List.length_replicate
  have hnone : find_ glibc (List.replicate n 97) [44] 0 = .ret npos := by
    obtain ⟨r, h1, h2⟩ := find_spec glibc_ok (v := List.replicate n 97) (str := [44]) (by rw [hlen]; unfold npos; omega)
      (Nat.zero_le _) (Or.inl rfl)
    rcases h2 with ⟨⟨h2, _⟩, _⟩ | ⟨_, h3⟩
    · exfalso
      have : (44 : UInt8) ∈ List.replicate n (97 : UInt8) := occurs_single.mp ⟨_, h2⟩
      have := (List.mem_replicate.mp this).2
      exact absurd this (by decide)
    · rw [h1, h3]
  unfold split
  rw [if_neg (by rw [hlen]; omega), if_neg (by decide), cap_npos]
  have ht : ∀ it, trimIt (List.replicate n 97) [44] it = it := fun it => by unfold trimIt; rw [if_neg (by decide)]
  have hc : ¬ ¬ ([] : List Bytes).length < npos - 1 := by decide
  have hc' : ¬ ¬ ([[]] : List Bytes).length < npos - 1 := by decide
  have hloop : splitLoop glibc (List.replicate n 97) [44] (npos - 1) 2 0 [] = .ret (n + 1, [[]]) := by
    unfold splitLoop
    rw [if_neg hc]
    simp only [ht]
    rw [if_neg (by rw [hlen]; omega), hnone]
    simp only [Eff.ret_bind, if_true, hlen, Nat.sub_zero, slice_long n hn, Nat.zero_add, List.nil_append]
    unfold splitLoop
    rw [if_neg hc']
    simp only [ht]
    rw [if_pos (by rw [hlen]; simp)]
    rfl
  rw [hloop]
  rfl

example : split glibc 9 [97, 44, 98, 44] [44] npos = .ret [[97], [98]] := by decide
example : split glibc 9 [97, 44, 98, 44] [44] 2 = .ret [[97], [98, 44]] := by decide
example : CutAtMost [44] 1 [97, 44, 98, 44] [[97], [98, 44]] :=
  .cons ⟨rfl, fun i ⟨b, a, h1, h2⟩ => by
    cases b with
    | nil => cases h1
    | cons x b => subst h2; simp⟩ .enough
example : split glibc 9 [97, 44, 44, 98] [44] npos = .ret [[97], [], [98]] := by decide

end Bdlib.Str
