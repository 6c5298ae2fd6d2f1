import Verif.Tcl.Cast

/-!
# C55: Tcl integer conversions

Partial: `uint64_t` always becomes 0 (`c55_refuted_u64`); unsigned values whose top bit is set do not survive
the way to Tcl and back (`c55_refuted_unsigned`); Tcl integers outside the range of `long` may be taken for other
numbers, depending on the version of Tcl (`c55_refuted_wrap`).
-/

namespace Bdlib.Tcl

theorem convert_id (t : IntType) {n : Int} (h1 : t.lo ≤ n) (h2 : n ≤ t.hi) : convert t n = n := by
  unfold convert
  have hlo : (n - t.lo) % 2 ^ t.bits = n - t.lo := by
    apply Int.emod_eq_of_lt
    · omega
    · cases t <;> simp [IntType.lo, IntType.hi, IntType.signed, IntType.bits] at h1 h2 ⊢ <;> omega
  omega

/-- A Tcl integer (in the range of `long`) becomes the same number if it fits the type, and 0 otherwise. -/
theorem c55_to_c_partial (L : Long) (t : IntType) (ht : t ≠ .u64) {n : Int} (h1 : -(2 ^ 63) ≤ n) (h2 : n < 2 ^ 63) :
    toC L t (some n) = if t.lo ≤ n ∧ n ≤ t.hi then n else 0 := by
  have hg : L.get n = some n := L.fits n h1 h2
  have hc : ∀ t : IntType, checked t n = if t.lo ≤ n ∧ n ≤ t.hi then n else 0 := by
    intro t
    unfold checked
    by_cases h : t.lo ≤ n ∧ n ≤ t.hi
    · rw [if_pos h, if_neg (by omega), convert_id t h.1 h.2]
    · rw [if_neg h, if_pos (by omega)]
  cases t with
  | u64 => exact absurd rfl ht
  | i64 =>
    simp only [toC, Option.bind_some, hg]
    rw [if_pos]
    simp [IntType.lo, IntType.hi, IntType.signed, IntType.bits]
    omega
  | _ => simp only [toC, Option.bind_some, hg, hc]

/-- What is not an integer becomes 0. -/
theorem c55_not_integer (L : Long) (t : IntType) : toC L t none = 0 := by
  cases t <;> rfl

/-- Whatever Tcl value is converted, the result is a value of the type. -/
theorem c55_range (L : Long) (t : IntType) (x : Option Int) : t.lo ≤ toC L t x ∧ toC L t x ≤ t.hi := by
  have h0 : ∀ t : IntType, t.lo ≤ 0 ∧ 0 ≤ t.hi := by
    intro t; cases t <;> decide
  have hc : ∀ (t : IntType) v, t.lo ≤ checked t v ∧ checked t v ≤ t.hi := by
    intro t v
    unfold checked
    split
    · exact h0 t
    · rw [convert_id t (by omega) (by omega)]; omega
  cases t with
  | u64 =>
    unfold toC
    cases x.bind L.get <;> exact h0 _
  | i64 =>
    unfold toC
    cases hr : x.bind L.get with
    | none => exact h0 _
    | some v =>
      rw [Option.bind_eq_some_iff] at hr
      obtain ⟨n, -, hn⟩ := hr
      have := L.range n v hn
      simp [IntType.lo, IntType.hi, IntType.signed, IntType.bits]
      omega
  | _ =>
    unfold toC
    cases x.bind L.get with
    | none => exact h0 _
    | some v => exact hc _ v

/-- Every value of a signed type, and every value below `2 ^ (bits - 1)` of an unsigned one, denotes the same
number in Tcl. -/
theorem c55_of_c_partial (t : IntType) {n : Int} (h1 : t.lo ≤ n) (h2 : n < 2 ^ (t.bits - 1)) : ofC t n = n := by
  have key : ∀ u : IntType, u.signed = true → t.bits ≤ u.bits → convert u n = n := by
    intro u hs hb
    apply convert_id
    · revert h1 h2 hb hs
      cases t <;> cases u <;> simp [IntType.lo, IntType.signed, IntType.bits] <;> omega
    · revert h1 h2 hb hs
      cases t <;> cases u <;> simp [IntType.hi, IntType.lo, IntType.signed, IntType.bits] <;> omega
  cases t <;> simp only [ofC]
  · rw [key .i16 rfl (by decide), key .i32 rfl (by decide)]
  · rw [key .i8 rfl (by decide), key .i16 rfl (by decide), key .i32 rfl (by decide)]
  · rw [key .i32 rfl (by decide)]
  · rw [key .i16 rfl (by decide), key .i32 rfl (by decide)]
  · rw [key .i32 rfl (by decide)]
  · rw [key .i32 rfl (by decide)]
  · rw [key .i64 rfl (by decide)]
  · rw [key .i64 rfl (by decide)]

/-- Every value of a signed type survives the way to Tcl and back. -/
theorem c55_round_trip (L : Long) (t : IntType) (ht : t.signed = true) {n : Int} (h1 : t.lo ≤ n) (h2 : n ≤ t.hi) :
    toC L t (some (ofC t n)) = n := by
  have e : ofC t n = n := c55_of_c_partial t h1 (by
    revert h1 h2 ht
    cases t <;> simp [IntType.lo, IntType.hi, IntType.signed, IntType.bits] <;> omega)
  rw [e, c55_to_c_partial L t (by intro hc; subst hc; cases ht) ?_ ?_, if_pos ⟨h1, h2⟩]
  · revert h1 h2 ht
    cases t <;> simp [IntType.lo, IntType.hi, IntType.signed, IntType.bits] <;> omega
  · revert h1 h2 ht
    cases t <;> simp [IntType.lo, IntType.hi, IntType.signed, IntType.bits] <;> omega

/-- So do unsigned ones of up to 32 bits below `2 ^ (bits - 1)`. -/
theorem c55_round_trip_unsigned_partial (L : Long) (t : IntType) (ht : t ≠ .u64) {n : Int} (h1 : t.lo ≤ n) (h2 : n < 2 ^ (t.bits - 1)) :
    toC L t (some (ofC t n)) = n := by
  rw [c55_of_c_partial t h1 h2, c55_to_c_partial L t ht ?_ ?_, if_pos]
  · revert h1 h2 ht
    cases t <;> simp [IntType.lo, IntType.hi, IntType.signed, IntType.bits] <;> omega
  · revert h1 h2 ht
    cases t <;> simp [IntType.lo, IntType.hi, IntType.signed, IntType.bits] <;> omega
  · revert h1 h2 ht
    cases t <;> simp [IntType.lo, IntType.hi, IntType.signed, IntType.bits] <;> omega

/-! ## A Tcl, and refutations -/

/-- Tcl that rejects integers that do not fit. -/
def strictLong : Long where
  get n := if -(2 ^ 63) ≤ n ∧ n < 2 ^ 63 then some n else none
  fits n h1 h2 := if_pos ⟨h1, h2⟩
  range n v h := by
    split at h
    · injection h with h; subst h; assumption
    · cases h

/-- Tcl 8: integers of up to 64 bits are accepted and wrap. -/
def wrapLong : Long where
  get n := if -(2 ^ 64) < n ∧ n < 2 ^ 64 then some (convert .i64 n) else none
  fits n h1 h2 := by
    rw [if_pos (by omega), convert_id .i64 (by simp [IntType.lo, IntType.signed, IntType.bits]; omega) (by simp [IntType.hi, IntType.signed, IntType.bits]; omega)]
  range n v h := by
    split at h
    · injection h with h; subst h
      unfold convert
      simp only [IntType.lo, IntType.signed, IntType.bits, if_true]
      have h1 := Int.emod_nonneg (n - -(2 ^ (64 - 1))) (b := (2 : Int) ^ 64) (by decide)
      have h2 := Int.emod_lt_of_pos (n - -(2 ^ (64 - 1))) (b := (2 : Int) ^ 64) (by decide)
      omega
    · cases h

example : toC strictLong .i16 (some (-300)) = -300 := c55_to_c_partial _ _ (by decide) (by decide) (by decide)
example : toC strictLong .u8 (some 256) = 0 := by decide
example : toC strictLong .i32 (some (ofC .i32 (-2147483648))) = -2147483648 := c55_round_trip _ _ rfl (by decide) (by decide)

/-- Refutation: every `uint64_t` becomes 0, whatever the script gives. -/
theorem c55_refuted_u64 (L : Long) (x : Option Int) : toC L .u64 x = 0 := by
  unfold toC
  cases x.bind L.get <;> rfl

/-- Refutation, for every unsigned type and every value with the top bit set: in Tcl it is the negative number
`n - 2 ^ bits`, and it comes back as 0. -/
theorem c55_refuted_unsigned (L : Long) (t : IntType) (ht : t.signed = false) {n : Int} (h1 : 2 ^ (t.bits - 1) ≤ n)
    (h2 : n ≤ t.hi) : ofC t n = n - 2 ^ t.bits ∧ toC L t (some (ofC t n)) = 0 := by
  have hw : ∀ u : IntType, u.signed = true → u.bits = t.bits → convert u n = n - 2 ^ t.bits := by
    intro u hs hb
    unfold convert
    revert h1 h2 hb hs ht
    cases t <;> cases u <;> simp [IntType.lo, IntType.hi, IntType.signed, IntType.bits] <;> omega
  have key : ∀ u : IntType, u.signed = true → t.bits ≤ u.bits → convert u (n - 2 ^ t.bits) = n - 2 ^ t.bits := by
    intro u hs hb
    apply convert_id
    · revert h1 h2 hb hs ht
      cases t <;> cases u <;> simp [IntType.lo, IntType.hi, IntType.signed, IntType.bits] <;> omega
    · revert h1 h2 hb hs ht
      cases t <;> cases u <;> simp [IntType.hi, IntType.lo, IntType.signed, IntType.bits] <;> omega
  have e : ofC t n = n - 2 ^ t.bits := by
    cases t with
    | i8 => cases ht
    | i16 => cases ht
    | i32 => cases ht
    | i64 => cases ht
    | u8 => simp only [ofC]; rw [hw .i8 rfl rfl, key .i16 rfl (by decide), key .i32 rfl (by decide)]
    | u16 => simp only [ofC]; rw [hw .i16 rfl rfl, key .i32 rfl (by decide)]
    | u32 => simp only [ofC]; rw [hw .i32 rfl rfl]
    | u64 => simp only [ofC]; rw [hw .i64 rfl rfl]
  refine ⟨e, ?_⟩
  by_cases hu : t = .u64
  · subst hu; exact c55_refuted_u64 L _
  · rw [e, c55_to_c_partial L t hu ?_ ?_, if_neg]
    all_goals
      revert h1 h2 ht hu
      cases t <;> simp [IntType.lo, IntType.hi, IntType.signed, IntType.bits] <;> omega

/-- For instance `uint8_t` 200 is -56 in Tcl. -/
example : ofC .u8 200 = -56 ∧ ofC .u16 40000 = -25536 ∧ ofC .u32 3000000000 = -1294967296 ∧ ofC .u64 (2 ^ 63) = -(2 ^ 63) := by decide
example (L : Long) := c55_refuted_unsigned L .u8 rfl (n := 200) (by decide) (by decide)

/-- Refutation: with Tcl 8 the integer `2 ^ 64 - 1` becomes the `int8_t` -1 instead of being rejected. -/
theorem c55_refuted_wrap : toC wrapLong .i8 (some (2 ^ 64 - 1)) = -1 := by decide

end Bdlib.Tcl
