import Verif.Elems.Model

/-! Reasoning about the model of arrays whose elements may throw: what the range operations do to a block. -/

namespace Bdlib.Elems

variable {V α β : Type}

/-- `m` from `w` is not undefined; it returns with `Q` or throws with `X`. -/
def OK (m : M V α) (w : W V) (Q : α → W V → Prop) (X : Exc → W V → Prop) : Prop :=
  match m w with
  | .ret a w => Q a w
  | .exc e w => X e w
  | .ub => False

theorem OK.pure (a : α) (w : W V) {Q : α → W V → Prop} {X : Exc → W V → Prop} (h : Q a w) : OK (Pure.pure a : M V α) w Q X := h

theorem OK.bind {m : M V α} {f : α → M V β} {w : W V} {Q : β → W V → Prop} {X : Exc → W V → Prop} {P : α → W V → Prop}
    {Y : Exc → W V → Prop} (h : OK m w P Y) (hf : ∀ a w', P a w' → OK (f a) w' Q X) (hx : ∀ e w', Y e w' → X e w') : OK (m >>= f) w Q X := by
  change OK (M.bind m f) w Q X
  unfold OK M.bind at *
  cases hm : m w with
  | ret a w' => rw [hm] at h; simpa [OK] using hf a w' h
  | exc e w' => rw [hm] at h; exact hx e w' h
  | ub => rw [hm] at h; exact h.elim

theorem OK.mono {m : M V α} {w : W V} {Q Q' : α → W V → Prop} {X X' : Exc → W V → Prop} (h : OK m w Q X)
    (hq : ∀ a w', Q a w' → Q' a w') (hx : ∀ e w', X e w' → X' e w') : OK m w Q' X' := by
  unfold OK at *
  cases hm : m w with
  | ret a w' => rw [hm] at h; exact hq a w' h
  | exc e w' => rw [hm] at h; exact hx e w' h
  | ub => rw [hm] at h; exact h.elim

/-- Moving an element never throws. -/
def NoMove (F : Faults) : Prop := ∀ t, F t .move = false

/-- The state with another content of block `r`, another time, and another number of buffers. -/
def upd (w : W V) (r : Nat) (xs : List V) (n c out : Nat) : W V :=
  { w with clock := c, out := out, blks := w.blks.set r (some ⟨xs.map some, n⟩) }

theorem upd_upd (w : W V) (r : Nat) (xs ys : List V) (n c out c' out' : Nat) :
    upd (upd w r xs n c out) r ys n c' out' = upd w r ys n c' out' := by
  simp [upd, List.set_set]

theorem upd_blk {w : W V} {r : Nat} {b : Option (Blk V)} (h : w.blks[r]? = some b) (xs : List V) (n c out : Nat) :
    (upd w r xs n c out).blks[r]? = some (some ⟨xs.map some, n⟩) := by
  have : r < w.blks.length := (List.getElem?_eq_some_iff.mp h).1
  simp [upd, this]

theorem upd_self {w : W V} {r : Nat} {xs : List V} {n : Nat} (h : w.blks[r]? = some (some ⟨xs.map some, n⟩)) (c out : Nat) :
    { w with clock := c, out := out } = upd w r xs n c out := by
  obtain ⟨hl, he⟩ := List.getElem?_eq_some_iff.mp h
  have : w.blks.set r (some ⟨xs.map some, n⟩) = w.blks := by
    rw [← he]; exact List.set_getElem_self hl
  simp [upd, this]

theorem cell_get (xs : List V) (i : Nat) (h : i < xs.length) : (xs.map some)[i]? = some (some xs[i]) := by
  simp [h]

theorem cell_set (xs : List V) (i : Nat) (v : V) : (xs.map some).set i (some v) = (xs.set i v).map some := by
  rw [List.map_set]

theorem readCells_eq : ∀ (n i : Nat) (xs : List V), i + n ≤ xs.length → readCells (xs.map some) i n = some ((xs.drop i).take n)
  | 0, i, xs, _ => by simp [readCells]
  | n + 1, i, xs, h => by
    have hi : i < xs.length := by omega
    rw [readCells, cell_get xs i hi]
    simp only []
    rw [readCells_eq n (i + 1) xs (by omega), List.drop_eq_getElem_cons hi]
    rfl

theorem take_set_self (xs : List V) (i : Nat) (v : V) : (xs.set i v).take i = xs.take i := by
  apply List.ext_getElem?
  intro j
  by_cases hj : j < i
  · simp [hj, List.getElem?_set_ne (show i ≠ j by omega)]
  · simp [List.getElem?_take, hj]

/-! ## Range operations -/

section
variable (F : Faults) (E : Ty V)

theorem assignCell_ok {w : W V} {r i n : Nat} {xs : List V} (h : w.blks[r]? = some (some ⟨xs.map some, n⟩)) (hi : i < xs.length) (v : V) :
    OK (assignCell F E r i v) w (fun _ w' => ∃ c, w' = upd w r (xs.set i v) n c w.out)
      (fun e w' => e = .fault ∧ ∃ c u, w' = upd w r (xs.set i u) n c w.out) := by
  unfold OK assignCell
  rw [h]
  simp only [cell_get xs i hi, cell_set]
  by_cases hf : F w.clock .copy = true
  · rw [if_pos hf]; exact ⟨rfl, _, _, rfl⟩
  · rw [if_neg hf]; exact ⟨_, rfl⟩

/-- `us` written over `xs` from `i` on. -/
def over (xs : List V) : Nat → List V → List V
  | _, [] => xs
  | i, u :: us => over (xs.set i u) (i + 1) us

theorem over_length : ∀ (us xs : List V) (i : Nat), (over xs i us).length = xs.length
  | [], _, _ => rfl
  | _ :: us, xs, i => by rw [over, over_length us]; simp

theorem over_eq : ∀ (us xs : List V) (i : Nat), i + us.length ≤ xs.length → over xs i us = xs.take i ++ us ++ xs.drop (i + us.length)
  | [], xs, i, _ => by simp [over]
  | u :: us, xs, i, h => by
    simp only [List.length_cons] at h
    rw [over, over_eq us _ _ (by simp; omega)]
    have h1 : (xs.set i u).take (i + 1) = xs.take i ++ [u] := by
      rw [List.take_add_one]
      simp [show i < xs.length by omega, take_set_self]
    rw [h1, List.drop_set_of_lt (by omega)]
    simp [Nat.add_assoc, Nat.add_comm 1]

theorem assignCells_ok : ∀ (us : List V) {w : W V} {r i n : Nat} {xs : List V}, w.blks[r]? = some (some ⟨xs.map some, n⟩) → i + us.length ≤ xs.length →
    OK (assignCells F E r i us) w (fun _ w' => ∃ c, w' = upd w r (over xs i us) n c w.out)
      (fun e w' => e = .fault ∧ ∃ c ys, ys.length = xs.length ∧ ys.take i = xs.take i ∧ w' = upd w r ys n c w.out)
  | [], w, r, i, n, xs, h, _ => OK.pure () w ⟨w.clock, by rw [over, ← upd_self h]⟩
  | u :: us, w, r, i, n, xs, h, hl => by
    simp only [List.length_cons] at hl
    refine OK.bind (assignCell_ok F E h (by omega) u) ?_ ?_
    · rintro _ _ ⟨c, rfl⟩
      refine (assignCells_ok us (upd_blk h _ _ _ _) (i := i + 1) (by simp; omega)).mono ?_ ?_
      · rintro _ _ ⟨c', rfl⟩
        exact ⟨c', by rw [upd_upd]; rfl⟩
      · rintro _ _ ⟨he, c', ys, hy, ht, rfl⟩
        refine ⟨he, c', ys, by simpa using hy, ?_, by rw [upd_upd]; rfl⟩
        have := congrArg (List.take i) ht
        simpa [List.take_take, Nat.min_eq_left (show i ≤ i + 1 by omega), take_set_self] using this
    · rintro _ _ ⟨he, c, u', rfl⟩
      exact ⟨he, c, _, by simp, take_set_self _ _ _, rfl⟩

theorem moveCell_ok {w : W V} {r i j n : Nat} {xs : List V} (h : w.blks[r]? = some (some ⟨xs.map some, n⟩)) (hi : i < xs.length)
    (hj : j < xs.length) :
    OK (moveCell F E r i j) w (fun _ w' => ∃ c, w' = upd w r ((xs.set i (E.moved xs[i])).set j xs[i]) n c w.out)
      (fun e w' => e = .fault ∧ (∃ t, F t .move = true) ∧ ∃ c ys, ys.length = xs.length ∧ w' = upd w r ys n c w.out) := by
  unfold OK moveCell
  rw [h]
  simp only [cell_get xs i hi, cell_get xs j hj, cell_set]
  by_cases hf : F w.clock .move = true
  · rw [if_pos hf]; exact ⟨rfl, ⟨_, hf⟩, _, _, by simp, rfl⟩
  · rw [if_neg hf]; exact ⟨_, rfl⟩

/-- What moving cells down leaves. -/
def slidDown (E : Ty V) (xs : List V) : (src dst : Nat) → Nat → List V
  | _, _, 0 => xs
  | src, dst, n + 1 => slidDown E (match xs[src]? with
    | some v => (xs.set src (E.moved v)).set dst v
    | none => xs) (src + 1) (dst + 1) n

theorem slidDown_length : ∀ (n : Nat) (xs : List V) (src dst : Nat), (slidDown E xs src dst n).length = xs.length
  | 0, _, _, _ => rfl
  | n + 1, xs, src, dst => by
    rw [slidDown, slidDown_length n]
    split <;> simp

theorem slidDown_get : ∀ (n : Nat) (xs : List V) (src dst : Nat), dst < src → src + n ≤ xs.length →
    (∀ j, j < n → (slidDown E xs src dst n)[dst + j]? = xs[src + j]?) ∧ (∀ j, j < dst → (slidDown E xs src dst n)[j]? = xs[j]?)
  | 0, xs, src, dst, _, _ => ⟨fun j hj => absurd hj (Nat.not_lt_zero _), fun j _ => rfl⟩
  | n + 1, xs, src, dst, h, hl => by
    have hs : xs[src]? = some xs[src] := List.getElem?_eq_getElem (by omega)
    rw [slidDown, hs]
    simp only []
    obtain ⟨h1, h2⟩ := slidDown_get n ((xs.set src (E.moved xs[src])).set dst xs[src]) (src + 1) (dst + 1) (by omega) (by simp; omega)
    refine ⟨fun j hj => ?_, fun j hj => ?_⟩
    · cases j with
      | zero =>
        simp only [Nat.add_zero]
        rw [h2 dst (by omega), hs, List.getElem?_set_self (by simp; omega)]
      | succ j =>
        have := h1 j (by omega)
        rw [show dst + (j + 1) = dst + 1 + j by omega, this, List.getElem?_set_ne (by omega), List.getElem?_set_ne (by omega)]
        congr 1; omega
    · rw [h2 j (by omega), List.getElem?_set_ne (by omega), List.getElem?_set_ne (by omega)]

theorem moveDown_ok : ∀ (k : Nat) {w : W V} {r src dst n : Nat} {xs : List V}, w.blks[r]? = some (some ⟨xs.map some, n⟩) → dst < src → src + k ≤ xs.length →
    OK (moveDown F E r src dst k) w (fun _ w' => ∃ c, w' = upd w r (slidDown E xs src dst k) n c w.out)
      (fun e w' => e = .fault ∧ (∃ t, F t .move = true) ∧ ∃ c ys, ys.length = xs.length ∧ w' = upd w r ys n c w.out)
  | 0, w, r, src, dst, n, xs, h, _, _ => OK.pure () w ⟨w.clock, by rw [slidDown, ← upd_self h]⟩
  | k + 1, w, r, src, dst, n, xs, h, hd, hl => by
    refine OK.bind (moveCell_ok F E h (show src < xs.length by omega) (show dst < xs.length by omega)) ?_ ?_
    · rintro _ _ ⟨c, rfl⟩
      have hs : xs[src]? = some xs[src] := List.getElem?_eq_getElem (by omega)
      refine (moveDown_ok k (upd_blk h _ _ _ _) (by omega) (by simp; omega)).mono ?_ ?_
      · rintro _ _ ⟨c', rfl⟩
        exact ⟨c', by rw [upd_upd, slidDown, hs]; rfl⟩
      · rintro _ _ ⟨he, ht, c', ys, hy, rfl⟩
        exact ⟨he, ht, c', ys, by simpa using hy, by rw [upd_upd]; rfl⟩
    · intro e w' hw
      exact hw

theorem copyCell_ok {w : W V} {r i j n : Nat} {xs : List V} (h : w.blks[r]? = some (some ⟨xs.map some, n⟩)) (hi : i < xs.length)
    (hj : j < xs.length) :
    OK (copyCell F E r i j) w (fun _ w' => ∃ c, w' = upd w r (xs.set j xs[i]) n c w.out)
      (fun e w' => e = .fault ∧ ∃ c u, w' = upd w r (xs.set j u) n c w.out) := by
  unfold OK copyCell
  rw [h]
  simp only [cell_get xs i hi, cell_get xs j hj, cell_set]
  by_cases hf : F w.clock .copy = true
  · rw [if_pos hf]; exact ⟨rfl, _, _, rfl⟩
  · rw [if_neg hf]; exact ⟨_, rfl⟩

/-- What copying cells up leaves. -/
def slidUp (first k : Nat) : (xs : List V) → Nat → List V
  | xs, 0 => xs
  | xs, n + 1 => slidUp first k (match xs[first + n]? with
    | some v => xs.set (first + n + k) v
    | none => xs) n

theorem slidUp_length (first k : Nat) : ∀ (n : Nat) (xs : List V), (slidUp first k xs n).length = xs.length
  | 0, _ => rfl
  | n + 1, xs => by
    rw [slidUp, slidUp_length first k n]
    split <;> simp

theorem slidUp_get (first k : Nat) : ∀ (n : Nat) (xs : List V), first + n + k ≤ xs.length →
    (∀ j, j < n → (slidUp first k xs n)[first + k + j]? = xs[first + j]?) ∧
      (∀ j, j < first → (slidUp first k xs n)[j]? = xs[j]?) ∧ (∀ j, first + k + n ≤ j → (slidUp first k xs n)[j]? = xs[j]?)
  | 0, xs, _ => ⟨fun j hj => absurd hj (Nat.not_lt_zero _), fun j _ => rfl, fun j _ => rfl⟩
  | n + 1, xs, hl => by
    have hs : xs[first + n]? = some xs[first + n] := List.getElem?_eq_getElem (by omega)
    rw [slidUp, hs]
    simp only []
    obtain ⟨h1, h2, h3⟩ := slidUp_get first k n (xs.set (first + n + k) xs[first + n]) (by simp; omega)
    refine ⟨fun j hj => ?_, fun j hj => ?_, fun j hj => ?_⟩
    · by_cases hjn : j = n
      · subst hjn
        rw [h3 _ (by omega), hs, show first + k + j = first + j + k by omega, List.getElem?_set_self (by omega)]
      · rw [h1 j (by omega), List.getElem?_set_ne (by omega)]
    · rw [h2 j hj, List.getElem?_set_ne (by omega)]
    · rw [h3 j (by omega), List.getElem?_set_ne (by omega)]

theorem copyUp_ok (first k : Nat) : ∀ (m : Nat) {w : W V} {r n : Nat} {xs : List V}, w.blks[r]? = some (some ⟨xs.map some, n⟩) → first + m + k ≤ xs.length →
    OK (copyUp F E r first k m) w (fun _ w' => ∃ c, w' = upd w r (slidUp first k xs m) n c w.out)
      (fun e w' => e = .fault ∧ 0 < m ∧ ∃ c ys, ys.length = xs.length ∧ ys.take (first + k) = xs.take (first + k) ∧ w' = upd w r ys n c w.out)
  | 0, w, r, n, xs, h, _ => OK.pure () w ⟨w.clock, by rw [slidUp, ← upd_self h]⟩
  | m + 1, w, r, n, xs, h, hl => by
    have htake : ∀ u, (xs.set (first + m + k) u).take (first + k) = xs.take (first + k) := by
      intro u
      have := congrArg (List.take (first + k)) (take_set_self xs (first + m + k) u)
      simpa [List.take_take, Nat.min_eq_left (show first + k ≤ first + m + k by omega)] using this
    refine OK.bind (copyCell_ok F E h (show first + m < xs.length by omega) (show first + m + k < xs.length by omega)) ?_ ?_
    · rintro _ _ ⟨c, rfl⟩
      have hs : xs[first + m]? = some xs[first + m] := List.getElem?_eq_getElem (by omega)
      refine (copyUp_ok first k m (upd_blk h _ _ _ _) (by simp; omega)).mono ?_ ?_
      · rintro _ _ ⟨c', rfl⟩
        exact ⟨c', by rw [upd_upd, slidUp, hs]; rfl⟩
      · rintro _ _ ⟨he, -, c', ys, hy, ht, rfl⟩
        exact ⟨he, Nat.succ_pos _, c', ys, by simpa using hy, by rw [ht, htake], by rw [upd_upd]; rfl⟩
    · rintro _ _ ⟨he, c, u, rfl⟩
      exact ⟨he, Nat.succ_pos _, c, _, by simp, htake u, rfl⟩

theorem takeCell_ok {w : W V} {r i n : Nat} {xs : List V} (h : w.blks[r]? = some (some ⟨xs.map some, n⟩)) (hi : i < xs.length) :
    OK (takeCell F E r i) w (fun v w' => v = xs[i] ∧ ∃ c, w' = upd w r (xs.set i (E.moved xs[i])) n c w.out)
      (fun e w' => e = .fault ∧ (∃ t, F t .move = true) ∧ ∃ c ys, ys.length = xs.length ∧ w' = upd w r ys n c w.out) := by
  unfold OK takeCell
  rw [h]
  simp only [cell_get xs i hi, cell_set]
  by_cases hf : F w.clock .move = true
  · rw [if_pos hf]; exact ⟨rfl, ⟨_, hf⟩, _, _, by simp, rfl⟩
  · rw [if_neg hf]; exact ⟨rfl, _, rfl⟩

theorem takeCells_ok : ∀ (k : Nat) {w : W V} {r i n : Nat} {xs : List V}, w.blks[r]? = some (some ⟨xs.map some, n⟩) → i + k ≤ xs.length →
    OK (takeCells F E r i k) w (fun vs w' => vs = (xs.drop i).take k ∧ ∃ c ys, ys.length = xs.length ∧ w' = upd w r ys n c w.out)
      (fun e w' => e = .fault ∧ (∃ t, F t .move = true) ∧ ∃ c ys, ys.length = xs.length ∧ w' = upd w r ys n c w.out)
  | 0, w, r, i, n, xs, h, _ => OK.pure [] w ⟨by simp, w.clock, xs, rfl, by rw [← upd_self h]⟩
  | k + 1, w, r, i, n, xs, h, hl => by
    refine OK.bind (takeCell_ok F E h (show i < xs.length by omega)) ?_ (fun _ _ hw => hw)
    rintro _ _ ⟨rfl, c, rfl⟩
    refine OK.bind (takeCells_ok k (upd_blk h _ _ _ _) (i := i + 1) (by simp; omega)) ?_ ?_
    · rintro _ _ ⟨rfl, c', ys, hy, rfl⟩
      refine OK.pure _ _ ⟨?_, c', ys, by simpa using hy, by rw [upd_upd]; rfl⟩
      rw [List.drop_eq_getElem_cons (show i < xs.length by omega), List.drop_set_of_lt (by omega)]
      rfl
    · rintro _ _ ⟨he, ht, c', ys, hy, rfl⟩
      exact ⟨he, ht, c', ys, by simpa using hy, by rw [upd_upd]; rfl⟩

theorem act_ok (a : Act) (w : W V) : OK (act F a) w (fun _ w' => ∃ c, w' = { w with clock := c }) (fun e w' => e = .fault ∧ ∃ c, w' = { w with clock := c }) := by
  unfold OK act
  by_cases hf : F w.clock a = true
  · rw [if_pos hf]; exact ⟨rfl, _, rfl⟩
  · rw [if_neg hf]; exact ⟨_, rfl⟩

theorem fillNew_ok (v : V) : ∀ (k : Nat) (w : W V), OK (fillNew F v k) w (fun vs w' => vs = List.replicate k v ∧ ∃ c, w' = { w with clock := c })
    (fun e w' => e = .fault ∧ ∃ c, w' = { w with clock := c })
  | 0, w => OK.pure [] w ⟨rfl, w.clock, rfl⟩
  | k + 1, w => by
    refine OK.bind (act_ok F .copy w) ?_ (fun _ _ h => h)
    rintro _ _ ⟨c, rfl⟩
    refine OK.bind (fillNew_ok v k _) ?_ ?_
    · rintro _ _ ⟨rfl, c', rfl⟩
      exact OK.pure _ _ ⟨rfl, c', rfl⟩
    · rintro _ _ ⟨he, c', rfl⟩
      exact ⟨he, c', rfl⟩

/-- 1 if there is a buffer. -/
def some1 (xs : List V) : Nat := if xs.isEmpty then 0 else 1

theorem freeBuf_ok {w : W V} {r n : Nat} {xs : List V} (h : w.blks[r]? = some (some ⟨xs.map some, n⟩)) {X : Exc → W V → Prop} :
    OK (freeBuf r) w (fun _ w' => w' = { w with out := w.out - some1 xs }) X := by
  unfold OK freeBuf
  rw [h]
  have : (xs.map some).all Option.isSome = true := by simp
  simp only [this, if_true]
  cases xs <;> simp [some1]

theorem blk_ok {w : W V} {r : Nat} {b : Blk V} (h : w.blks[r]? = some (some b)) {X : Exc → W V → Prop} :
    OK (blk r) w (fun b' w' => b' = b ∧ w = w') X := by
  unfold OK blk; rw [h]; exact ⟨rfl, rfl⟩

theorem obj_ok {w : W V} {o : Nat} {ob : Ob} (h : w.objs[o]? = some (some ob)) {X : Exc → W V → Prop} :
    OK (obj o) w (fun b' w' => b' = ob ∧ w = w') X := by
  unfold OK obj; rw [h]; exact ⟨rfl, rfl⟩

/-- Making room: the elements are at the new offset, with room for `newSize`; a buffer more at most if there was none.  If it
throws there are as many cells as before, and they are untouched unless a move threw. -/
theorem arefReserve_ok {w : W V} {r newSize offset sublen n : Nat} {xs : List V} (scale : Nat → Nat)
    (h : w.blks[r]? = some (some ⟨xs.map some, n⟩)) (hl : offset + sublen ≤ xs.length) (hs : sublen ≤ newSize) :
    OK (arefReserve F E r newSize scale offset sublen) w
      (fun off w' => ∃ c ys out', w' = upd w r ys n c out' ∧ off + newSize ≤ ys.length ∧ (ys.drop off).take sublen = (xs.drop offset).take sublen ∧
        out' + some1 xs ≤ w.out + some1 ys)
      (fun e w' => e = .fault ∧ ∃ c ys out', w' = upd w r ys n c out' ∧ ys.length = xs.length ∧ out' ≤ w.out + 1 ∧ (NoMove F → ys = xs)) := by
  have hno : (∃ t, F t .move = true) → NoMove F → ∀ {p : Prop}, p := by
    rintro ⟨t, ht⟩ hn p; rw [hn t] at ht; exact absurd ht (by decide)
  refine OK.bind (blk_ok h (X := fun _ _ => False)) ?_ (fun _ _ hf => hf.elim)
  rintro _ _ ⟨rfl, rfl⟩
  simp only [List.length_map]
  by_cases hlt : xs.length < newSize
  · rw [if_pos hlt]
    refine OK.bind (act_ok F .alloc w) ?_ ?_
    rotate_left
    · rintro _ _ ⟨he, c, rfl⟩
      exact ⟨he, c, xs, w.out, by rw [← upd_self h], rfl, by omega, fun _ => rfl⟩
    rintro _ _ ⟨c, rfl⟩
    refine OK.bind (P := fun _ w' => w' = { w with clock := c, out := w.out + 1 }) (Y := fun _ _ => False) (show OK newBuf _ _ _ from rfl) ?_ (fun _ _ hf => hf.elim)
    rintro _ _ rfl
    refine OK.bind (act_ok F .make _) ?_ ?_
    rotate_left
    · rintro _ _ ⟨he, c, rfl⟩
      exact ⟨he, c, xs, w.out + 1, by rw [← upd_self h], rfl, by omega, fun _ => rfl⟩
    rintro _ _ ⟨c, rfl⟩
    refine OK.bind (fillNew_ok F _ _ _) ?_ ?_
    rotate_left
    · rintro _ _ ⟨he, c, rfl⟩
      exact ⟨he, c, xs, w.out + 1, by rw [← upd_self h], rfl, by omega, fun _ => rfl⟩
    rintro _ _ ⟨rfl, c, rfl⟩
    have hk : (if xs.map some = [] then 0 else sublen) = sublen := by
      by_cases hx : xs = []
      · subst hx; simp at hl ⊢; omega
      · simp [hx]
    rw [hk]
    refine OK.bind (takeCells_ok F E sublen (w := { w with clock := c, out := w.out + 1 }) h hl) ?_ ?_
    rotate_left
    · rintro _ _ ⟨he, ht, c, ys, hy, rfl⟩
      exact ⟨he, c, ys, w.out + 1, rfl, hy, by omega, fun hn => hno ht hn⟩
    rintro _ _ ⟨rfl, c, ys, hy, rfl⟩
    refine OK.bind (freeBuf_ok (X := fun _ _ => False) (upd_blk h _ _ _ _)) ?_ (fun _ _ hf => hf.elim)
    rintro _ _ rfl
    refine OK.bind (Y := fun _ _ => False) (blk_ok (b := ⟨ys.map some, n⟩) (by exact upd_blk (w := w) h ys n c (w.out + 1))) ?_ (fun _ _ hf => hf.elim)
    rintro _ _ ⟨rfl, rfl⟩
    refine OK.bind (P := fun _ w' => w' = upd w r ((xs.drop offset).take sublen ++ List.replicate (max (scale xs.length) newSize - sublen) E.dflt) n c (w.out + 1 - some1 ys))
      (Y := fun _ _ => False) ?_ ?_ (fun _ _ hf => hf.elim)
    · show _ = _
      simp [upd, List.set_set]
    rintro _ _ rfl
    refine OK.pure _ _ ⟨c, _, _, rfl, ?_, ?_, ?_⟩
    · simp; omega
    · rw [List.drop_zero, List.take_left']
      simp; omega
    · have : some1 ys = some1 xs := by cases ys <;> cases xs <;> simp_all [some1]
      rw [this]
      have hpos : some1 ((xs.drop offset).take sublen ++ List.replicate (max (scale xs.length) newSize - sublen) E.dflt) = 1 := by
        unfold some1
        rw [if_neg]
        intro he
        have := congrArg List.length (List.isEmpty_iff.mp he)
        simp at this; omega
      rw [hpos]
      have : some1 xs ≤ 1 := by unfold some1; split <;> omega
      omega
  · rw [if_neg hlt]
    by_cases hsh : xs.length - offset < newSize
    · rw [if_pos hsh]
      refine OK.bind (moveDown_ok F E sublen h (show 0 < offset by omega) hl) ?_ ?_
      · rintro _ _ ⟨c, rfl⟩
        refine OK.pure _ _ ⟨c, _, _, rfl, ?_, ?_, ?_⟩
        · rw [slidDown_length]; omega
        · apply List.ext_getElem?
          intro j
          by_cases hj : j < sublen
          · have := (slidDown_get E sublen xs offset 0 (by omega) hl).1 j hj
            simp [hj]
            simpa using this
          · simp [List.getElem?_take, hj]
        · have : some1 (slidDown E xs offset 0 sublen) = some1 xs := by
            have := slidDown_length E sublen xs offset 0
            unfold some1
            cases hx : slidDown E xs offset 0 sublen <;> cases xs <;> simp_all
          omega
      · rintro _ _ ⟨he, ht, c, ys, hy, rfl⟩
        exact ⟨he, c, ys, w.out, rfl, hy, by omega, fun hn => hno ht hn⟩
    · rw [if_neg hsh]
      exact OK.pure _ _ ⟨w.clock, xs, w.out, by rw [← upd_self h], by omega, rfl, by omega⟩

end

end Bdlib.Elems
