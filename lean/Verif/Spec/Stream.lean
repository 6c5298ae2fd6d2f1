/-!
# Specification of a stream: a byte sequence and a position
-/

namespace Bdlib.Spec

/-- A stream as its user sees it. -/
structure Tape where
  content : List UInt8
  pos : Nat

/-- The first line of a text, with its newline if it has one. -/
def firstLine : List UInt8 → List UInt8
  | [] => []
  | c :: r => if c = 10 then [c] else c :: firstLine r

/-- The first piece of a text: the bytes before the first `d`, at most `n`; then `d`, if it is the next byte. -/
def firstPiece (d : UInt8) : Nat → List UInt8 → List UInt8
  | _, [] => []
  | 0, c :: _ => if c = d then [c] else []
  | n + 1, c :: r => if c = d then [c] else c :: firstPiece d n r

/-- The lines of a text. -/
inductive Lines : List UInt8 → List (List UInt8) → Prop
  | nil : Lines [] []
  | last {l} : l ≠ [] → 10 ∉ l → Lines l [l]
  | cons {l v ls} : 10 ∉ l → Lines v ls → Lines (l ++ [10] ++ v) ((l ++ [10]) :: ls)

/-- Calls. -/
inductive TapeOp
  | puts (x : List UInt8)
  | read (n : Nat)
  | readTo (n : Nat) (d : UInt8)
  | getline
  | seek (p : Nat)
  | skip (k : Int)
  | truncate
  | clear
  | peek
  | tell
  | length

inductive TapeOut
  | unit
  | bytes (x : List UInt8)
  | num (n : Nat)

/-- What each call does. -/
def Tape.step (t : Tape) : TapeOp → TapeOut × Tape
  | .puts x => (.unit, ⟨t.content.take t.pos ++ x ++ t.content.drop (t.pos + x.length), t.pos + x.length⟩)
  | .read n => (.bytes ((t.content.drop t.pos).take n), { t with pos := t.pos + min n (t.content.length - t.pos) })
  | .readTo n d =>
    (.bytes (firstPiece d n (t.content.drop t.pos)), { t with pos := t.pos + (firstPiece d n (t.content.drop t.pos)).length })
  | .getline =>
    (.bytes (firstLine (t.content.drop t.pos)), { t with pos := t.pos + (firstLine (t.content.drop t.pos)).length })
  | .seek p => (.num (min p t.content.length), { t with pos := min p t.content.length })
  | .skip k => (.num (min (t.pos + k).toNat t.content.length), { t with pos := min (t.pos + k).toNat t.content.length })
  | .truncate => (.unit, { t with content := t.content.take t.pos })
  | .clear => (.unit, ⟨[], 0⟩)
  | .peek => (.bytes (t.content.drop t.pos), t)
  | .tell => (.num t.pos, t)
  | .length => (.num t.content.length, t)

end Bdlib.Spec
