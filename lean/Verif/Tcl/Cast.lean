/-!
# Model of the conversions of integers between C++ and Tcl

A Tcl value is given by the integer it denotes, if any.  `getLong` is `Tcl_GetLongFromObj` (`long` has 64
bits): integers that fit are returned; what happens with others depends on the version of Tcl.
-/

namespace Bdlib.Tcl

/-- The integer types. -/
inductive IntType | i8 | u8 | i16 | u16 | i32 | u32 | i64 | u64
  deriving DecidableEq

namespace IntType
def bits : IntType → Nat
  | .i8 | .u8 => 8
  | .i16 | .u16 => 16
  | .i32 | .u32 => 32
  | .i64 | .u64 => 64
def signed : IntType → Bool
  | .i8 | .i16 | .i32 | .i64 => true
  | _ => false
/-- Least and greatest value (`INT8_MIN` ... `UINT64_MAX`). -/
def lo (t : IntType) : Int := if t.signed then -(2 ^ (t.bits - 1)) else 0
def hi (t : IntType) : Int := if t.signed then 2 ^ (t.bits - 1) - 1 else 2 ^ t.bits - 1
end IntType

/-- Conversion to a type: the value modulo `2 ^ bits`. -/
def convert (t : IntType) (n : Int) : Int := (n - t.lo) % 2 ^ t.bits + t.lo

/-- `Tcl_GetLongFromObj`. -/
structure Long where
  get : Int → Option Int
  fits : ∀ n, -(2 ^ 63) ≤ n → n < 2 ^ 63 → get n = some n
  range : ∀ n v, get n = some v → -(2 ^ 63) ≤ v ∧ v < 2 ^ 63

/-- The range checks of the small types (`ScriptInterpTCL.cpp` 182-264): `v < MIN || v > MAX` gives 0. -/
def checked (t : IntType) (v : Int) : Int := if v < t.lo ∨ v > t.hi then 0 else convert t v

/-- `tcl_to_c_cast<T>::from` (`ScriptInterpTCL.cpp` 182-282); `none`: the value is not an integer. -/
def toC (L : Long) (t : IntType) (x : Option Int) : Int :=
  let r := x.bind L.get
  match t with
  | .i64 => match r with
    | some v => v
    | none => 0
  -- 275-282: the result of the call is tested the wrong way round
  | .u64 => match r with
    | some _ => 0
    | none => 0
  | t => match r with
    | some v => checked t v
    | none => 0

/-- `c_to_tcl_cast<const T&>::from` (`ScriptInterpTCL.h` 389-427): the integer the new Tcl value denotes.  Each
type is passed on as a reference to the next, which converts. -/
def ofC : IntType → Int → Int
  | .i8, n => convert .i32 (convert .i16 n)
  | .u8, n => convert .i32 (convert .i16 (convert .i8 n))
  | .i16, n => convert .i32 n
  | .u16, n => convert .i32 (convert .i16 n)
  | .i32, n => convert .i32 n
  | .u32, n => convert .i32 n
  | .i64, n => convert .i64 n
  | .u64, n => convert .i64 n

end Bdlib.Tcl
