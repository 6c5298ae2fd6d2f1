import Verif.Str.Cut

/-!
# C30: `sub` replaces the leftmost non-overlapping occurrences

`Replaced d r n v out` (`Spec/Strings.lean`): `out` is `v` with the first `n` (`none`: all) leftmost
non-overlapping occurrences of `d` replaced by `r`.
-/

namespace Bdlib.Str
open Bdlib Bdlib.Spec

/-- The `limit` argument as a number of replacements: `-1` is no limit. -/
def limitOf (limit : Int) : Option Nat := if limit = -1 then none else some limit.toNat

/-- The `find` inside the loop (both build configurations: the search starts at 0). -/
theorem find_first {L : Libc} (hL : L.Ok) {v d : Bytes} (hv : v.length ≤ maxInt) :
    (∃ p rest, FirstAt d v p rest ∧ find L v d = .ret p.length ∧ p.length ≠ npos) ∨
    (¬ Occurs d v ∧ find L v d = .ret npos) := by
  have hmx : v.length ≤ 2147483647 := hv
  obtain ⟨r, h1, h2⟩ := c21_find hL (v := v) (by unfold npos; omega) d
  rcases h2 with ⟨⟨h2, h3⟩, h4⟩ | ⟨h2, h3⟩
  · left
    obtain ⟨p, rest, h5, h6⟩ := h2
    exact ⟨p, rest, ⟨h5, fun i hi => by rw [h6]; exact h3 i hi⟩, by rw [h6]; exact h1, by rw [h6]; exact h4⟩
  · right
    exact ⟨fun ⟨i, hi⟩ => h2 i hi, by rw [h1, h3]⟩

theorem subLoop_spec {L : Libc} (hL : L.Ok) {d r : Bytes} (hd : d ≠ []) {limit : Int} :
    ∀ fuel (str new : Bytes) (cnt : Int), str.length ≤ maxInt → str.length < fuel → 0 ≤ cnt → (1 ≤ limit → cnt < limit) →
    ∃ str' new', subLoop L d r limit fuel str new cnt = .ret (str', new') ∧
      ∃ out, new' ++ str' = new ++ out ∧ Replaced d r (if limit ≤ 0 then none else some (limit - cnt).toNat) str out := by
  intro fuel
  induction fuel with
  | zero => intro str new cnt _ h; omega
  | succ fuel ih =>
    intro str new cnt hs hf hc hcl
    have hdl : d.length ≠ 0 := fun h => hd (List.length_eq_zero_iff.mp h)
    unfold subLoop
    rcases find_first hL (d := d) hs with ⟨p, rest, h1, h2, h3⟩ | ⟨h1, h2⟩
    · rw [h2]
      simp only [Eff.ret_bind]
      rw [if_neg h3]
      have hlen := congrArg List.length h1.1
      simp only [List.length_append] at hlen
      have hsl : slice str 0 (p.length : Int) = .ret p := by
        have := slice_in (v := str) (i := 0) (k := p.length) hs (by omega)
        rw [show ((0 : Nat) : Int) = 0 from rfl] at this
        rw [this, List.drop_zero, h1.1]
        simp
      rw [hsl]
      simp only [Eff.ret_bind]
      rw [plusEq_eq, ← firstAt_drop h1]
      by_cases hstop : limit ≠ -1 ∧ cnt + 1 = limit
      · rw [if_pos hstop]
        refine ⟨rest, new ++ p ++ r, rfl, p ++ r ++ rest, by simp, ?_⟩
        rw [if_neg (by omega)]
        have : (limit - cnt).toNat = 1 := by omega
        rw [this]
        exact .step (by simp) h1 .stop
      · rw [if_neg hstop]
        have hcnt : ∃ cnt', (if limit ≠ -1 then cnt + 1 else cnt) = cnt' ∧ 0 ≤ cnt' ∧ (1 ≤ limit → cnt' = cnt + 1) := by
          by_cases hl : limit = -1
          · exact ⟨cnt, by rw [if_neg (by simpa using hl)], hc, fun h => by omega⟩
          · exact ⟨cnt + 1, by rw [if_pos hl], by omega, fun _ => rfl⟩
        obtain ⟨cnt', hc1, hc2, hc3⟩ := hcnt
        rw [hc1]
        obtain ⟨str', new', h4, out, h5, h6⟩ := ih rest (new ++ p ++ r) cnt' (by omega) (by omega) hc2
          (fun h => by have := hc3 h; have := hcl h; omega)
        refine ⟨str', new', h4, p ++ r ++ out, by rw [h5]; simp, ?_⟩
        by_cases hl : limit ≤ 0
        · rw [if_pos hl] at h6 ⊢
          exact .step (by simp) h1 h6
        · rw [if_neg hl] at h6 ⊢
          have := hc3 (by omega)
          have := hcl (by omega)
          refine .step (by simp; omega) h1 ?_
          have : (some (limit - cnt).toNat).map (· - 1) = some (limit - cnt').toNat := by simp; omega
          rw [this]
          exact h6
    · rw [h2]
      refine ⟨str, new, rfl, str, rfl, .done h1⟩

/-- What `sub` does for every limit and every non-empty search string shorter than 2^31 characters: any limit below 1 is no
limit. -/
theorem c30_sub_exact {L : Libc} (hL : L.Ok) {v d : Bytes} (r : Bytes) (hv : v.length ≤ maxInt) (hd : d ≠ [])
    (limit : Int) : ∀ fuel, v.length < fuel →
    ∃ out, sub L fuel v d r limit = .ret out ∧ Replaced d r (if limit ≤ 0 then none else some limit.toNat) v out := by
  intro fuel hf
  obtain ⟨str', new', h1, out, h2, h3⟩ := subLoop_spec hL (r := r) hd (limit := limit) fuel v [] 0 hv hf (by omega) (by omega)
  unfold sub
  rw [h1]
  simp only [Eff.ret_bind]
  have hout : new' ++ str' = out := by simpa using h2
  rw [Int.sub_zero] at h3
  by_cases hs : str'.length ≠ 0
  · rw [if_pos hs]; exact ⟨out, by rw [hout]; rfl, h3⟩
  · rw [if_neg hs]
    have : str' = [] := List.length_eq_zero_iff.mp (by simpa using hs)
    subst this
    exact ⟨out, by rw [← hout]; simp, h3⟩

/-- `sub(search, replacement, limit)` terminates and replaces the first `limit` (all, if -1) leftmost
non-overlapping occurrences.

Partial: the search string must not be empty (`c30_refuted_empty`), the limit must not be 0 or below -1
(`c30_refuted_zero`), and the string must be shorter than 2^31 characters. -/
theorem c30_sub_partial {L : Libc} (hL : L.Ok) {v d : Bytes} (r : Bytes) (hv : v.length ≤ maxInt) (hd : d ≠ [])
    {limit : Int} (hlim : limit = -1 ∨ 1 ≤ limit) : ∀ fuel, v.length < fuel →
    ∃ out, sub L fuel v d r limit = .ret out ∧ Replaced d r (limitOf limit) v out := by
  intro fuel hf
  obtain ⟨out, h1, h2⟩ := c30_sub_exact hL r hv hd limit fuel hf
  refine ⟨out, h1, ?_⟩
  unfold limitOf
  by_cases hl : limit = -1
  · rw [if_pos (by omega)] at h2
    rw [if_pos hl]
    exact h2
  · rw [if_neg (by omega)] at h2
    rw [if_neg hl]
    exact h2

theorem firstAt_unique {α : Type} {d v p p' rest rest' : List α} (h : FirstAt d v p rest) (h' : FirstAt d v p' rest') :
    p = p' ∧ rest = rest' := by
  have h1 := h.2 p'.length ⟨p', rest', h'.1, rfl⟩
  have h2 := h'.2 p.length ⟨p, rest, h.1, rfl⟩
  have hl : p.length = p'.length := by omega
  have he : p ++ (d ++ rest) = p' ++ (d ++ rest') := by
    rw [← List.append_assoc, ← List.append_assoc, ← h.1, ← h'.1]
  obtain ⟨h3, h4⟩ := List.append_inj he hl
  exact ⟨h3, List.append_cancel_left h4⟩

/-- The specification determines the result. -/
theorem c30_unique {α : Type} {d r : List α} {n : Option Nat} {v out : List α} (h : Replaced d r n v out) :
    ∀ {out'}, Replaced d r n v out' → out = out' := by
  induction h with
  | stop =>
    intro out' h'
    cases h' with
    | stop => rfl
    | done _ => rfl
    | step h _ _ => exact absurd rfl h
  | done ho =>
    intro out' h'
    cases h' with
    | stop => rfl
    | done _ => rfl
    | step _ hf _ => exact absurd ⟨_, _, _, hf.1, rfl⟩ ho
  | step hn hf _ ih =>
    intro out' h'
    cases h' with
    | stop => exact absurd rfl hn
    | done ho => exact absurd ⟨_, _, _, hf.1, rfl⟩ ho
    | step _ hf' h' =>
      obtain ⟨rfl, rfl⟩ := firstAt_unique hf hf'
      rw [ih h']

/-- Replacing the search string by itself changes nothing. -/
theorem c30_identity {α : Type} {d : List α} {n : Option Nat} {v out : List α} (h : Replaced d d n v out) : out = v := by
  induction h with
  | stop => rfl
  | done _ => rfl
  | step _ hf _ ih => rw [ih, ← hf.1]

/-- One turn of the loop with an empty search string: the replacement is appended and nothing is consumed. -/
theorem subLoop_empty {L : Libc} (v r : Bytes) (hv : v.length ≤ maxInt) (limit : Int) (fuel : Nat) (new : Bytes) (cnt : Int) :
    subLoop L [] r limit (fuel + 1) v new cnt =
      if limit ≠ -1 ∧ cnt + 1 = limit then .ret (v, new ++ r)
      else subLoop L [] r limit fuel v (new ++ r) (if limit ≠ -1 then cnt + 1 else cnt) := by
  have hf : find L v [] = .ret 0 := rfl
  conv => lhs; unfold subLoop
  rw [hf]
  simp only [Eff.ret_bind]
  rw [if_neg (by decide)]
  have hs := slice_in (v := v) (i := 0) (k := 0) hv (by omega)
  have hs' : slice v 0 ((0 : Nat) : Int) = .ret [] := by simpa using hs
  rw [hs']
  simp only [Eff.ret_bind]
  rw [plusEq_eq]
  simp

/-- With an empty search string and a limit below 1 (-1 is the default: no limit) the loop makes no progress and never ends,
whatever the string and the platform. -/
theorem c30_refuted_empty (L : Libc) (v r : Bytes) (hv : v.length ≤ maxInt) {limit : Int} (hl : limit ≤ 0) (fuel : Nat) :
    sub L fuel v [] r limit = .more := by
  have key : ∀ fuel new cnt, 0 ≤ cnt → subLoop L [] r limit fuel v new cnt = .more := by
    intro fuel
    induction fuel with
    | zero => intros; rfl
    | succ fuel ih =>
      intro new cnt hc
      rw [subLoop_empty v r hv, if_neg (by omega)]
      exact ih _ _ (by split <;> omega)
  unfold sub
  rw [key _ _ _ (Int.le_refl 0)]
  rfl

/-- With an empty search string and a limit `n >= 1` the result is `n` copies of the replacement, then the string. -/
theorem c30_empty_limit (L : Libc) (v r : Bytes) (hv : v.length ≤ maxInt) {n : Nat} (hn : 1 ≤ n) {fuel : Nat} (hf : n ≤ fuel) :
    sub L fuel v [] r n = .ret ((List.replicate n r).flatten ++ v) := by
  have key : ∀ k fuel new, k + 1 ≤ n → k + 1 ≤ fuel →
      subLoop L [] r n fuel v new ((n - (k + 1) : Nat) : Int) = .ret (v, new ++ (List.replicate (k + 1) r).flatten) := by
    intro k
    induction k with
    | zero =>
      intro fuel new h1 h2
      obtain ⟨fuel, rfl⟩ := Nat.exists_eq_add_of_le' h2
      rw [subLoop_empty v r hv, if_pos (by omega)]
      simp
    | succ k ih =>
      intro fuel new h1 h2
      obtain ⟨fuel, rfl⟩ : ∃ f, fuel = f + 1 := ⟨fuel - 1, by omega⟩
      rw [subLoop_empty v r hv, if_neg (by omega), if_pos (by omega)]
      have := ih fuel (new ++ r) (by omega) (by omega)
      rw [show ((n - (k + 1) : Nat) : Int) = ((n - (k + 1 + 1) : Nat) : Int) + 1 by omega] at this
      rw [this, List.replicate_succ (n := k + 1), List.flatten_cons, List.append_assoc]
  obtain ⟨k, rfl⟩ := Nat.exists_eq_add_of_le' hn
  have := key k fuel [] (Nat.le_refl _) hf
  rw [Nat.sub_self] at this
  unfold sub
  rw [show ((0 : Nat) : Int) = 0 from rfl] at this
  rw [this]
  simp only [Eff.ret_bind]
  by_cases hz : v.length ≠ 0
  · rw [if_pos hz]; rfl
  · have : v = [] := List.length_eq_zero_iff.mp (by simpa using hz)
    rw [if_neg hz, this, List.append_nil]; rfl

/-- `sub(s, r, 0)` replaces all occurrences, not none; so do all limits below -1. -/
theorem c30_refuted_zero {L : Libc} (hL : L.Ok) {v d : Bytes} (r : Bytes) (hv : v.length ≤ maxInt) (hd : d ≠ [])
    {limit : Int} (hl : limit ≤ 0) (fuel : Nat) (hf : v.length < fuel) :
    ∃ out, sub L fuel v d r limit = .ret out ∧ Replaced d r none v out := by
  obtain ⟨out, h1, h2⟩ := c30_sub_exact hL r hv hd limit fuel hf
  exact ⟨out, h1, by rw [if_pos hl] at h2; exact h2⟩

example : sub glibc 9 [97, 98, 97] [97] [120] 0 = .ret [120, 98, 120] := by decide
example : sub glibc 9 [97, 98] [] [120] 2 = .ret [120, 120, 97, 98] := c30_empty_limit glibc [97, 98] [120] (by decide) (n := 2) (by decide) (by decide)
example : sub glibc 9 [97, 98, 97, 97] [97] [120, 121] (-1) = .ret [120, 121, 98, 120, 121, 120, 121] := by decide
example : sub glibc 9 [97, 97, 97] [97, 97] [98] (-1) = .ret [98, 97] := by decide
example : sub glibc 9 [97, 98, 97, 97] [97] [] 2 = .ret [98, 97] := by decide

end Bdlib.Str
