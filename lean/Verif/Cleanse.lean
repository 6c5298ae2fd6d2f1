import Verif.Machine.Basic

/-!
# `String::cleanse`

The bytes it leaves in a buffer, at the level of machine bytes and addresses.  In the memory machine the
same bytes are `Cfg.wipe g i` (`Rca/Model.lean`, `cleanse`): some function of the buffer and the index that
does not depend on what was stored.  The theorems here justify that.
-/

namespace Bdlib.Cleanse

/-- The `while(loop--)` loop (`String.h` 75-81) from address `p` with the counter at `ctr` over a buffer with
the given contents: new contents, counter and pointer afterwards.  `unsigned char` arithmetic wraps. -/
def loop (p : Nat) (ctr : UInt8) : List UInt8 → List UInt8 × UInt8 × Nat
  | [] => ([], ctr, p)
  | _ :: rest =>
    let r := loop (p + 1) (ctr + UInt8.ofNat (17 + (p + 1) % 16)) rest
    (ctr :: r.1, r.2)

/-- `cleanse()` (`String.h` 71-84): the loop, then `cleanse_ctr` is moved on if `memchr` finds it in the
buffer.  Returns the buffer and the static counter. -/
def cleanse (p : Nat) (ctr : UInt8) (buf : List UInt8) : List UInt8 × UInt8 :=
  let r := loop p ctr buf
  if r.1.contains r.2.1 then (r.1, r.2.1 + UInt8.ofNat (63 + r.2.2)) else (r.1, r.2.1)

/-- A sequence of buffers, given as address and contents, wiped one after the other
(`cleanse_ctr` is static, `String.h` 68). -/
def cleanseAll (ctr : UInt8) : List (Nat × List UInt8) → List (List UInt8)
  | [] => []
  | (p, buf) :: rest =>
    let r := cleanse p ctr buf
    r.1 :: cleanseAll r.2 rest

theorem loop_length (buf : List UInt8) : ∀ p ctr, (loop p ctr buf).1.length = buf.length := by
  induction buf with
  | nil => intros; rfl
  | cons x xs ih => intro p ctr; simp [loop, ih]

theorem loop_indep : ∀ (a b : List UInt8) (p : Nat) (ctr : UInt8), a.length = b.length → loop p ctr a = loop p ctr b
  | [], [], _, _, _ => rfl
  | x :: xs, y :: ys, p, ctr, h => by
    simp only [loop]
    rw [loop_indep xs ys _ _ (by simpa using h)]
  | [], _ :: _, _, _, h => by simp at h
  | _ :: _, [], _, _, h => by simp at h

theorem cleanse_indep {a b : List UInt8} (p : Nat) (ctr : UInt8) (h : a.length = b.length) :
    cleanse p ctr a = cleanse p ctr b := by
  unfold cleanse
  rw [loop_indep a b p ctr h]

theorem cleanse_length (p : Nat) (ctr : UInt8) (buf : List UInt8) : (cleanse p ctr buf).1.length = buf.length := by
  unfold cleanse
  dsimp only
  split <;> exact loop_length buf p ctr

end Bdlib.Cleanse
