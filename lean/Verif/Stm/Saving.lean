import Verif.Stm.Model
import Verif.Spec.Saving

/-!
# Model of what others see of a file while `writeFile` saves to it

The contents the file goes through, one after the other.  They are what other programs find meanwhile, and one of them is what is left when the
program is killed.
-/

namespace Bdlib.Stm
open Bdlib Bdlib.Str

/-- `memcpy` to the mapping of a file holding `b` (`Stream.cpp` 179): the bytes arrive in any order. -/
def stores (new : Bytes) : Bytes → List Nat → List Bytes
  | _, [] => []
  | b, i :: is => b.set i (new.getD i 0) :: stores new (b.set i (new.getD i 0)) is

/-- The `write(2)` calls behind `fwrite` and `fflush` (`Stream.cpp` 193), of `sizes` bytes, after `k` bytes of `w`. -/
def writes (base : Bytes) (off : Nat) (w : Bytes) : Nat → List Nat → List Bytes
  | _, [] => []
  | k, c :: cs => written base off (w.take (k + c)) :: writes base off w (k + c) cs

/-- `writeFile(int fd)` (`Stream.cpp` 166-200): the contents after each step. -/
def saveFd (mmap : Bool) (sys : Sys) (order sizes : List Nat) (s : Stream) (f : File) : List Bytes :=
  if mmap then
    if sys.ftruncateOk = false then []
    else resized f.bytes s.str.length ::
      (if s.str.length = 0 ∨ sys.mmapOk = false then [] else stores s.str (resized f.bytes s.str.length) order)
  else if sys.dupOk = false ∨ sys.fdopenOk = false then []
  else writes f.bytes f.off (s.str.take (sys.written.getD s.str.length)) 0 sizes

/-- `writeFile(const String& file, mode)` (`Stream.cpp` 156-164): the file after each step; opening truncates or creates it. -/
def saveFile (mmap : Bool) (sys : Sys) (order sizes : List Nat) (s : Stream) : List (Option Bytes) :=
  if sys.openOk = false then [] else some [] :: (saveFd mmap sys order sizes s ⟨[], 0⟩).map some

/-- All bytes are copied, and all that can be written is: in `order`, in pieces of `sizes`. -/
def Whole (sys : Sys) (order sizes : List Nat) (s : Stream) : Prop :=
  (∀ i, i < s.str.length → i ∈ order) ∧ sizes.sum = (s.str.take (sys.written.getD s.str.length)).length

end Bdlib.Stm
