/-!
# Specification: a file that other programs change while it is read

Time is counted in moments.
-/

namespace Bdlib.Spec

/-- What a file holds at each moment. -/
abbrev FileInTime := Nat → List UInt8

/-- From moment `a` to moment `b`, `x` was once at place `i` of the file. -/
def WasThere (file : FileInTime) (a b i : Nat) (x : UInt8) : Prop := ∃ m, a ≤ m ∧ m ≤ b ∧ (file m)[i]? = some x

/-- From `a` to `b` the file had always more than `i` bytes. -/
def Reaches (file : FileInTime) (a b i : Nat) : Prop := ∀ m, a ≤ m → m ≤ b → i < (file m).length

/-- From `a` to `b` others only append to the file. -/
def OnlyGrows (file : FileInTime) (a b : Nat) : Prop := ∀ m m', a ≤ m → m ≤ m' → m' ≤ b → file m <+: file m'

end Bdlib.Spec
