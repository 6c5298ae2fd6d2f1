import Verif.Props.C05

/-!
# C08 substring/slice/subarray select exactly the documented window
-/

namespace Bdlib.Rca
open Bdlib Bdlib.Spec

variable {T : Type} [DecidableEq T] {cfg : Cfg T}

/-- `slice(start, len)` leaves `sliceSpec v start len` (`Spec/Seq.lean`) and never fails.

Partial: `SliceOk` asks for fewer than `2^31` elements, no overflow of `start + len`, and that a negative
length does not reach before the start; see the refutations. -/
theorem c08_slice_partial (hv : cfg.Valid) (hp : cfg.Physical) {s : St T} {env : Env T} (h : Reach cfg s env)
    {o : Nat} {v : List T} (ho : env o = .val v) {start len : Int} (hok : SliceOk v.length start len) :
    GivesOk cfg s env (.slice o start len) o (sliceSpec v start len) := by
  refine givesOk_of hv hp h ⟨has_val ho, by rw [get_val ho]; exact hok⟩ fun out env' hpost => ?_
  simpa only [Post, get_val ho] using hpost

/-- `substring(start, len)`, `subarray(start, len)`, reading `s(start, len)`: a new object holding the
window; all other objects, including the original, keep their value. -/
theorem c08_substring_partial (hv : cfg.Valid) (hp : cfg.Physical) {s : St T} {env : Env T} (h : Reach cfg s env)
    {r : Nat} {v : List T} (hr : env r = .val v) {start len : Int} (hok : SliceOk v.length start len) :
    ∃ o s' env', run cfg (.substring r start len) s = .ok (.obj o) s' ∧ env o = .dead ∧
      Shows s' o (sliceSpec v start len) ∧ OthersKeep env o s' ∧ Reach cfg s' env' := by
  obtain ⟨out, s', env', hres, hpost, hreach⟩ := h.call hv hp (op := .substring r start len)
    ⟨has_val hr, by rw [get_val hr]; exact hok⟩
  simp only [Post, get_val hr] at hpost
  obtain ⟨o, hd, rfl, rfl⟩ := hpost
  exact ⟨o, s', _, result_ok hres, hd, hreach.shows hv hp Env.upd_self,
    fun p w hne hw => hreach.shows hv hp (by rw [Env.upd_ne hne]; exact hw), hreach⟩

/-- The specification element by element: for a start inside the array, element `i` of the result is
element `start + i` of the original, and the result ends at `start + len`, at the end of the array, or
`-len` elements before the end. -/
theorem sliceSpec_getElem (v : List T) (start len : Int) (hs : 0 ≤ start) (hl : 0 ≤ len) (i : Nat) :
    (sliceSpec v start len)[i]? = if (i : Int) < len then v[start.toNat + i]? else none := by
  unfold sliceSpec sliceFrom
  have h1 : ¬ start < 0 := by omega
  have h2 : ¬ len = -1 := by omega
  have h3 : ¬ len < 0 := by omega
  simp only [h1, h2, h3, if_false]
  rw [List.getElem?_take]
  by_cases h : i < len.toNat
  · rw [if_pos h, if_pos (by omega), List.getElem?_drop]
  · rw [if_neg h, if_neg (by omega)]

/-- A slice is never longer than the original. -/
theorem c08_never_longer_partial (v : List T) (start len : Int) : (sliceSpec v start len).length ≤ v.length := by
  unfold sliceSpec
  split
  · simp
  · split
    · simp; omega
    · simp; omega

example : SliceOk [1, 2, 3, 4, 5].length (-3) 2 ∧ sliceSpec [1, 2, 3, 4, 5] (-3) 2 = [3, 4] := by decide
example : SliceOk [1, 2, 3, 4, 5].length 1 (-2) ∧ sliceSpec [1, 2, 3, 4, 5] 1 (-2) = [2, 3] := by decide
example : sliceSpec [1, 2, 3, 4, 5] 3 (-4) = [] := rfl

theorem sliceSpec_start {n : Nat} {start st : Int}
    (hst : (if (if start < 0 then (n : Int) + start else start) < 0 then 0 else (if start < 0 then (n : Int) + start else start)) = st) :
    st = sliceFrom n start := by
  subst hst
  unfold sliceFrom
  split
  · split <;> omega
  · omega

/-- For every `ssize_t` argument that `SliceOk` leaves out, `slice` is undefined or leaves an array that claims to be longer
than the original. -/
theorem slice_wrong {s : St T} {o : Nat} {v : List T} (hs : s.view o = some v) (hn : v.length < 2147483648) {start len : Int}
    (hlen : -9223372036854775808 ≤ len) (hok : ¬ SliceOk v.length start len) :
    slice o start len s = .ub ∨ ∃ s' n, slice o start len s = .ok () s' ∧ length o s' = .ok n s' ∧ v.length < n := by
  obtain ⟨ob, ho, hvo, hl⟩ := obj_of_view hs
  unfold SliceOk at hok
  have hge : ¬ ((v.length : Int) ≤ start) := fun h => hok ⟨hn, .inl h⟩
  have h1 : len = -1 → ¬ (v.length - start < 9223372036854775808) := fun h h' => hok ⟨hn, .inr (.inl ⟨h, h'⟩)⟩
  have h2 : 0 ≤ len → ¬ (sliceFrom v.length start + len < 9223372036854775808) :=
    fun h h' => hok ⟨hn, .inr (.inr (.inl ⟨h, h'⟩))⟩
  have h3 : len < -1 → ¬ (len.natAbs ≤ v.length - sliceFrom v.length start) :=
    fun h h' => hok ⟨hn, .inr (.inr (.inr ⟨h, h'⟩))⟩
  clear hok
  have hfl : 0 ≤ start ∨ sliceFrom v.length start = v.length - start.natAbs := by
    unfold sliceFrom
    by_cases h : start < 0
    · simp [h]
    · omega
  unfold slice
  simp only [bind, M.bind, getObj, ho]
  rw [hl, toInt32_small hn, if_neg (by omega)]
  generalize hst : (if (if start < 0 then (v.length : Int) + start else start) < 0 then 0
      else (if start < 0 then (v.length : Int) + start else start)) = st
  have hst' := sliceSpec_start hst
  generalize hln : (if len = -1 then (v.length : Int) - start else len) = ln
  have hlnc : (len = -1 ∧ ln = v.length - start) ∨ (len ≠ -1 ∧ ln = len) := by
    by_cases h1 : len = -1
    · rw [if_pos h1] at hln; omega
    · rw [if_neg h1] at hln; omega
  by_cases hc : st + ln ≥ 9223372036854775808 ∨ st + ln < -9223372036854775808
  · rw [if_pos hc]
    exact .inl rfl
  · rw [if_neg hc]
    generalize hfin : ((if st + ln ≥ (v.length : Int) then (v.length : Int) - st
        else if ln < 0 then (v.length : Int) - st + ln else ln) % (two64 : Int)).toNat = fin
    refine .inr ⟨_, fin, rfl, ?_, ?_⟩
    · have hlt := St.obj_lt ho
      simp only [length, bind, M.bind, getObj, St.obj_setObj_self _ hlt]
      rfl
    · subst hfin
      have h4 : ¬ (st + ln ≥ (v.length : Int)) := by omega
      have h5 : ln < 0 := by omega
      rw [if_neg h4, if_pos h5]
      unfold two64
      omega

/-- Exactly when `slice(start, len)` is right, for arrays that fit an `int` and every pair of `ssize_t` arguments: when
`SliceOk` holds. -/
theorem c08_slice_exact (hv : cfg.Valid) (hp : cfg.Physical) {s : St T} {env : Env T} (h : Reach cfg s env)
    {o : Nat} {v : List T} (ho : env o = .val v) (hn : v.length < 2147483648) {start len : Int}
    (hlen : -9223372036854775808 ≤ len) :
    (∃ s', run cfg (.slice o start len) s = .ok .unit s' ∧ Shows s' o (sliceSpec v start len)) ↔ SliceOk v.length start len := by
  constructor
  · intro ⟨s', hrun, hsh⟩
    refine Decidable.byContradiction fun hok => ?_
    have hle := c08_never_longer_partial v start len
    rcases slice_wrong (h.view_eq hv hp ho) hn hlen hok with hub | ⟨s1, n, hs1, hln, hgt⟩
    · simp [run, mapOut, bind, M.bind, hub] at hrun
    · simp only [run, mapOut, bind, M.bind, hs1, pure, M.pure] at hrun
      cases hrun
      rw [hsh.1] at hln
      cases hln
      omega
  · intro hok
    obtain ⟨s', _, h1, h2, _⟩ := c08_slice_partial hv hp h ho hok
    exact ⟨s', h1, h2⟩

example : ¬ SliceOk [1, 2, 3, 4, 5].length 3 (-4) ∧ ¬ SliceOk [1, 2, 3, 4, 5].length 1 9223372036854775807 ∧
    SliceOk [1, 2, 3, 4, 5].length 0 9223372036854775807 := by decide

/-- An array of `2^31` to `2^32 - 1` elements has a negative length as an `int`: every slice from a nonnegative start is
empty. -/
theorem c08_refuted_long (hv : cfg.Valid) (hp : cfg.Physical) {s : St T} {env : Env T} (h : Reach cfg s env)
    {o : Nat} {v : List T} (ho : env o = .val v) (hlo : 2147483648 ≤ v.length) (hhi : v.length < 4294967296) {start len : Int}
    (hs : 0 ≤ start) : ∃ s', run cfg (.slice o start len) s = .ok .unit s' ∧ length o s' = .ok 0 s' := by
  obtain ⟨ob, hob, hvo, hl⟩ := obj_of_view (h.view_eq hv hp ho)
  have hneg : start ≥ toInt32 ob.sublen := by
    unfold toInt32
    dsimp only
    rw [hl, Nat.mod_eq_of_lt hhi, if_neg (by omega)]
    omega
  have hlt := St.obj_lt hob
  simp only [run, mapOut, slice, bind, M.bind, getObj, hob, if_pos hneg]
  refine ⟨_, rfl, ?_⟩
  simp only [length, bind, M.bind, getObj, St.obj_setObj_self _ hlt]
  rfl

/-- `{1,2,3,4,5}.slice(3, -4)` gives an array of length `2^64 - 2`. -/
theorem c08_refuted_negative : ∃ s', Reach arrCfg stA envA ∧ envA 0 = .val [1, 2, 3, 4, 5] ∧
    run arrCfg (.slice 0 3 (-4)) stA = .ok .unit s' ∧ length 0 s' = .ok 18446744073709551614 s' :=
  ⟨_, reachA, rfl, rfl, rfl⟩

/-- A start close to the largest `ssize_t` is fine, a length close to it overflows: undefined. -/
theorem c08_refuted_overflow : Reach arrCfg stA envA ∧
    run arrCfg (.slice 0 1 9223372036854775807) stA = .ub := ⟨reachA, rfl⟩

end Bdlib.Rca
