/-!
# Specification: saving a file again and again
-/

namespace Bdlib.Spec

/-- What the file holds after saves of the given contents, each of which succeeded or not. -/
def lastSaved (old : Option (List UInt8)) (saves : List (List UInt8 × Bool)) : Option (List UInt8) :=
  saves.foldl (fun now s => if s.2 then some s.1 else now) old

end Bdlib.Spec
