import Verif.Str.Model

/-!
# A concrete C library, for examples
-/

namespace Bdlib.Str
open Bdlib

/-- Difference of the first differing bytes, as usual implementations of `memcmp` return it. -/
def cmpBytes : Bytes → Bytes → Int
  | a :: v, b :: w => if a = b then cmpBytes v w else (a.toNat : Int) - b.toNat
  | _, _ => 0

/-- `isspace` in the C locale. -/
def isspaceC (c : UInt8) : Bool := c = 32 || (9 ≤ c && c ≤ 13)

/-- `toupper` in the C locale. -/
def toupperC (c : UInt8) : UInt8 := if 97 ≤ c && c ≤ 122 then c - 32 else c

/-- A platform with `memmem`. -/
def glibc : Libc := { memcmp := cmpBytes, memmem := true, isspace := isspaceC, toupper := toupperC }

/-- A platform without. -/
def noMemmem : Libc := { glibc with memmem := false }

theorem u8_lt {a b : UInt8} : a < b ↔ a.toNat < b.toNat := UInt8.lt_iff_toNat_lt

theorem cmpBytes_neg : ∀ a b : Bytes, a.length = b.length → (cmpBytes a b < 0 ↔ a < b)
  | [], [], _ => by simp [cmpBytes]
  | [], _ :: _, h => by cases h
  | _ :: _, [], h => by cases h
  | a :: v, b :: w, h => by
    have ih := cmpBytes_neg v w (by simpa using h)
    unfold cmpBytes
    by_cases hab : a = b
    · subst hab
      rw [if_pos rfl, ih, List.cons_lt_cons_iff]
      simp
    · rw [if_neg hab, List.cons_lt_cons_iff, u8_lt]
      have : a.toNat ≠ b.toNat := fun h => hab (UInt8.toNat_inj.mp h)
      simp only [hab, false_and, or_false]
      omega

theorem cmpBytes_zero : ∀ a b : Bytes, a.length = b.length → (cmpBytes a b = 0 ↔ a = b)
  | [], [], _ => by simp [cmpBytes]
  | [], _ :: _, h => by cases h
  | _ :: _, [], h => by cases h
  | a :: v, b :: w, h => by
    have ih := cmpBytes_zero v w (by simpa using h)
    unfold cmpBytes
    by_cases hab : a = b
    · subst hab
      rw [if_pos rfl, ih]
      simp
    · rw [if_neg hab]
      have : a.toNat ≠ b.toNat := fun h => hab (UInt8.toNat_inj.mp h)
      simp only [List.cons.injEq, hab, false_and, iff_false]
      omega

theorem glibc_ok : glibc.Ok := ⟨cmpBytes_neg, cmpBytes_zero⟩
theorem noMemmem_ok : noMemmem.Ok := ⟨cmpBytes_neg, cmpBytes_zero⟩

/-- The bytes of a string literal. -/
def s (x : String) : Bytes := x.toUTF8.data.toList

end Bdlib.Str
