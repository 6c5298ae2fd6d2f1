import Verif.Spec.Values

/-!
# How many elements a call has to find room for

This is what the caller can compute from the values of the objects involved.
-/

namespace Bdlib.Spec

variable {T : Type}

/-- The number of elements the call has to find room for. -/
def Op.needs (env : Env T) : Op T → Nat
  | .sizeCtor n => n
  | .fillCtor n _ => n
  | .listCtor xs => xs.length
  | .rangeCtor xs => xs.length
  | .strCtor xs => xs.length
  | .cstrCtor xs => xs.length
  | .charCtor _ => 1
  | .assignList _ xs => xs.length
  | .assignStd _ xs => xs.length
  | .assignCstr _ xs => xs.length
  | .cStr o => (env.get o).length + 1
  | .begin o => (env.get o).length
  | .reserve _ n => n
  | .resize _ n => n
  | .resizeFill _ n _ => n
  | .write o _ _ => (env.get o).length
  | .append o _ => (env.get o).length + 1
  | .appendRca o r n => (env.get o).length + min n (env.get r).length
  | .appendMove o r n => (env.get o).length + min n (env.get r).length
  | .insertItem o _ _ => (env.get o).length + 1
  | .insertRca o _ r => (env.get o).length + (env.get r).length
  | .insertRcaN o _ r n => (env.get o).length + min n (env.get r).length
  | .insertMove o _ r => (env.get o).length + (env.get r).length
  | .insertMoveN o _ r n => (env.get o).length + min n (env.get r).length
  | .insertRange o _ xs => (env.get o).length + xs.length
  | .insertC o _ xs => (env.get o).length + xs.length
  | .replaceItem o _ _ => (env.get o).length
  | .replaceRca o pos r n => max (env.get o).length (pos + min n (env.get r).length)
  | .replaceMove o pos r n => max (env.get o).length (pos + min n (env.get r).length)
  | .replaceC o pos xs => max (env.get o).length (pos + xs.length)
  | _ => 0

/-- The call takes its new buffer with the growth factor, rather than of the exact size. -/
def Op.grows : Op T → Bool
  | .sizeCtor _ => false
  | .listCtor _ => false
  | .strCtor _ => false
  | .cstrCtor _ => false
  | .charCtor _ => false
  | .assignList _ _ => false
  | .assignStd _ _ => false
  | .assignCstr _ _ => false
  | .reserve _ _ => false
  | _ => true

/-- The most a buffer of at most `k` elements can grow to by the growth factor. -/
def peak (scale : Nat → Nat) : Nat → Nat
  | 0 => scale 0
  | k + 1 => max (peak scale k) (scale (k + 1))

/-- The most the call may ask the allocator for: one element more than it needs (for the terminator of a `String`), or what
the growth factor makes of a buffer that is too small for what it needs. -/
def Op.demand (scale : Nat → Nat) (env : Env T) (op : Op T) : Nat :=
  if op.grows then max (op.needs env + 1) (peak scale (op.needs env)) else op.needs env + 1

theorem le_peak (scale : Nat → Nat) {m k : Nat} (h : m ≤ k) : scale m ≤ peak scale k := by
  induction k with
  | zero => cases Nat.le_zero.mp h; exact Nat.le_refl _
  | succ k ih =>
    unfold peak
    by_cases hm : m ≤ k
    · have := ih hm; omega
    · have : m = k + 1 := by omega
      subst this; omega

/-- With a growth factor that does not shrink anything and respects order, the demand is what one thinks it is. -/
theorem peak_mono {scale : Nat → Nat} (h : ∀ m n, m ≤ n → scale m ≤ scale n) (k : Nat) : peak scale k = scale k := by
  induction k with
  | zero => rfl
  | succ k ih =>
    unfold peak
    rw [ih]
    have := h k (k + 1) (by omega)
    omega

end Bdlib.Spec
