/-!
# Specification: what may be seen of a file while it is replaced
-/

namespace Bdlib.Spec

/-- `b` is no longer than `new`, and wherever it is not 0 it is the same. -/
def PartOf (b new : List UInt8) : Prop := b.length ≤ new.length ∧ ∀ (i : Nat) (x : UInt8), b[i]? = some x → x = 0 ∨ new[i]? = some x

end Bdlib.Spec
