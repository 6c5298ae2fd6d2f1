import Verif.Rca.Growth
import Verif.Rca.Stay

/-!
# Calls that stay within the reserved room

An object that alone owns a buffer with room for `n` elements is changed in place by every call that keeps it within `n`:
nothing is asked of the allocator, so the call cannot throw `bad_alloc`, and the elements stay in the same buffer.  They
stay in the same place of it if there is room for `n` behind the first element.
-/

namespace Bdlib.Rca
open Bdlib Bdlib.Spec

variable {T α β : Type} {cfg : Cfg T}

/-- `o` alone owns buffer `g`, with `cap` cells, of block `a`, and has `L` elements from position `off` on; the last cell of
a String's buffer is a NUL; `G` allocations have been attempted so far. -/
structure Held (cfg : Cfg T) (o a g cap off L G : Nat) (s : St T) : Prop where
  obj : ∃ h, s.obj o = some ⟨some a, off, L, h⟩
  blk : ∃ cells, s.blk a = some ⟨g, cells, 1⟩ ∧ cells.length = cap ∧
    ∀ c, cfg.nul = some c → 0 < cap → cells.getLast? = some c
  fits : off + L ≤ cap
  gen : s.gen = G

/-- Positions in the buffer that an object may have and keep, or move to the front of the buffer, when it grows to at most
`n` elements. -/
def Roomy (cfg : Cfg T) (cap n : Nat) (R : Nat → Prop) : Prop :=
  ∀ off, R off → ∀ m, m ≤ n → off + room cfg m ≤ cap ∨ (R 0 ∧ room cfg m ≤ cap)

/-- Not an exception; `Q` if it returned. -/
def Res.Still (r : Res T α) (Q : α → St T → Prop) : Prop :=
  match r with
  | .ok a s => Q a s
  | .throw _ _ => False
  | .ub => True

section
variable {s : St T} {Q : β → St T → Prop} {o a g cap off n L G : Nat} {R : Nat → Prop}

theorem still_bind {m : M T α} {f : α → M T β} (h : Res.Still (m s) fun a s' => Res.Still (f a s') Q) :
    Res.Still ((m >>= f) s) Q := by
  show Res.Still (M.bind m f s) Q
  unfold M.bind
  cases hm : m s with
  | ok a s' => rw [hm] at h; exact h
  | throw e s' => rw [hm] at h; exact h.elim
  | ub => trivial

theorem still_mono {r : Res T α} {Q Q' : α → St T → Prop} (h : Res.Still r Q) (hq : ∀ a s, Q a s → Q' a s) : Res.Still r Q' := by
  cases r with
  | ok a s => exact hq _ _ h
  | throw e s => exact h.elim
  | ub => trivial

theorem still_obj (h : Held cfg o a g cap off L G s) {f : Obj → M T β} (hf : ∀ x, Res.Still (f ⟨some a, off, L, x⟩ s) Q) :
    Res.Still ((getObj o >>= f) s) Q := by
  obtain ⟨x, hx⟩ := h.obj
  rw [bind_ok (getObj_eq hx)]
  exact hf x

theorem still_anyObj {r : Nat} {f : Obj → M T β} (hf : ∀ ob, s.obj r = some ob → Res.Still (f ob s) Q) :
    Res.Still ((getObj r >>= f) s) Q := by
  apply still_bind
  unfold getObj
  cases ho : s.obj r with
  | none => trivial
  | some ob => exact hf ob ho

theorem still_length (h : Held cfg o a g cap off L G s) {f : Nat → M T β} (hf : Res.Still (f L s) Q) :
    Res.Still ((length o >>= f) s) Q := by
  apply still_bind
  unfold length
  exact still_obj h fun _ => hf

theorem still_anyLength {r k : Nat} (h : length r s = .ok k s) {f : Nat → M T β} (hf : Res.Still (f k s) Q) :
    Res.Still ((length r >>= f) s) Q := by
  rw [bind_ok h]
  exact hf

theorem still_blk (h : Held cfg o a g cap off L G s) {f : Block T → M T β}
    (hf : ∀ cells, s.blk a = some ⟨g, cells, 1⟩ → cells.length = cap → Res.Still (f ⟨g, cells, 1⟩ s) Q) :
    Res.Still ((getBlk a >>= f) s) Q := by
  obtain ⟨cells, hb, hle, _⟩ := h.blk
  rw [bind_ok (by unfold getBlk; rw [hb] : getBlk a s = .ok _ s)]
  exact hf cells hb hle

theorem Held.put (h : Held cfg o a g cap off L G s) {off' L' : Nat} (hfit : off' + L' ≤ cap) (x : UInt64) :
    Held cfg o a g cap off' L' G (s.setObj o (some ⟨some a, off', L', x⟩)) := by
  obtain ⟨y, hy⟩ := h.obj
  obtain ⟨cells, hb, hle, hc⟩ := h.blk
  exact ⟨⟨x, St.obj_setObj_self _ (St.obj_lt hy)⟩, ⟨cells, hb, hle, hc⟩, hfit, h.gen⟩

theorem still_put (h : Held cfg o a g cap off L G s) {off' L' : Nat} (hfit : off' + L' ≤ cap) {x : UInt64} {f : Unit → M T β}
    (hf : ∀ s', Held cfg o a g cap off' L' G s' → Res.Still (f () s') Q) :
    Res.Still ((putObj o ⟨some a, off', L', x⟩ >>= f) s) Q :=
  still_bind (hf _ (h.put hfit x))

theorem Held.cells (h : Held cfg o a g cap off L G s) {cells : List T} (hle : cells.length = cap)
    (hc : ∀ c, cfg.nul = some c → 0 < cap → cells.getLast? = some c) :
    Held cfg o a g cap off L G (s.setBlk a (some ⟨g, cells, 1⟩)) := by
  obtain ⟨y, hy⟩ := h.obj
  obtain ⟨old, hb, _, _⟩ := h.blk
  exact ⟨⟨y, hy⟩, ⟨cells, St.blk_setBlk_self _ (St.blk_lt hb), hle, hc⟩, h.fits, h.gen⟩

theorem still_read {r i k : Nat} {f : List T → M T β} (hf : ∀ xs, xs.length = k → Res.Still (f xs s) Q) :
    Res.Still ((readRange r i k >>= f) s) Q := by
  apply still_bind
  unfold readRange
  apply still_anyObj
  intro ob _
  by_cases hk : k = 0
  · rw [if_pos hk]
    exact hf [] hk.symm
  · rw [if_neg hk]
    cases hr : ob.ref with
    | none => trivial
    | some a =>
      apply still_bind
      unfold getBlk
      cases hb : s.blk a with
      | none => trivial
      | some b =>
        dsimp only
        show Res.Still ((if _ then _ else _ : M T (List T)) s) _
        split
        · rename_i hle
          exact hf _ (by rw [window_length hle])
        · trivial

theorem getLast_overwrite {cells vs : List T} {i : Nat} {c : T} (h : i + vs.length < cells.length)
    (hc : cells.getLast? = some c) : (overwrite cells i vs).getLast? = some c := by
  unfold overwrite
  rw [List.getLast?_append, List.getLast?_drop, if_neg (by omega), hc]
  rfl

theorem still_then {m : M T α} {f : α → M T β} {R : α → St T → Prop} (h : Res.Still (m s) R)
    (hf : ∀ a s', R a s' → Res.Still (f a s') Q) : Res.Still ((m >>= f) s) Q := still_bind (still_mono h hf)

/-- Writing elements among the `m` for which there is room. -/
theorem still_write (h : Held cfg o a g cap off L G s) {i m : Nat} (hroom : off + room cfg m ≤ cap) {vs : List T}
    (hi : i + vs.length ≤ m) :
    Res.Still (writeRange o i vs s) fun _ s' => Held cfg o a g cap off L G s' := by
  unfold writeRange
  apply still_obj h
  intro x
  split
  · exact h
  · rename_i hvs
    apply still_blk h
    intro cells hb hle
    dsimp only
    split
    · rename_i hle2
      refine h.cells (by rw [overwrite_length hle2]; exact hle) fun c hc h0 => ?_
      obtain ⟨cells', hb', _, hl⟩ := h.blk
      rw [hb] at hb'
      cases hb'
      refine getLast_overwrite ?_ (hl c hc h0)
      have hvs' : 0 < vs.length := by
        cases vs with
        | nil => exact absurd rfl hvs
        | cons _ _ => simp
      have : room cfg m = m + 1 := by unfold room; rw [if_pos ⟨by rw [hc]; rfl, by omega⟩]
      omega
    · trivial

theorem still_rcaReserve (h : Held cfg o a g cap off L G s) {k : Nat} (hk : k ≤ cap) (sc : Nat → Nat) :
    Res.Still (rcaReserve cfg o k sc s) fun _ s' => ∃ off', (off' = off ∨ off' = 0 ∧ ¬ (off + k ≤ cap)) ∧ off' + k ≤ cap ∧
      (off' = off → s' = s) ∧
      (∃ x, s'.obj o = some ⟨some a, off', L, x⟩) ∧ (∃ cells, s'.blk a = some ⟨g, cells, 1⟩ ∧ cells.length = cap) ∧
      off' + L ≤ cap ∧ s'.gen = G := by
  obtain ⟨x, hx⟩ := h.obj
  obtain ⟨cells, hb, hle, _⟩ := h.blk
  have hfit := h.fits
  by_cases hr : off + k ≤ cap
  · have : rcaReserve cfg o k sc s = .ok () s := by
      unfold rcaReserve
      rw [bind_ok (getObj_eq hx)]
      simp only [pure_bind']
      rw [bind_ok (arefReserve_noop hb (by simp only; omega)), bind_ok (getObj_eq hx)]
      exact congrArg _ (setObj_self hx)
    rw [this]
    exact ⟨off, Or.inl rfl, hr, fun _ => rfl, ⟨x, hx⟩, ⟨cells, hb, hle⟩, hfit, h.gen⟩
  · unfold rcaReserve
    rw [bind_ok (getObj_eq hx)]
    simp only [pure_bind']
    unfold arefReserve
    have hsub : sub64 cells.length off < k := by unfold sub64; rw [if_pos (by omega)]; omega
    apply still_bind
    rw [bind_ok (by unfold getBlk; rw [hb] : getBlk a s = .ok _ s)]
    dsimp only
    rw [if_neg (by omega), if_pos hsub, if_pos (by omega)]
    have hw : (window cells off L).length = L := window_length (by omega)
    have h1 : (overwrite cells off ((window cells off L).map cfg.moved)).length = cells.length :=
      overwrite_length (by rw [List.length_map, hw]; omega)
    have h2 : (overwrite (overwrite cells off ((window cells off L).map cfg.moved)) 0 (window cells off L)).length =
        cells.length := by
      rw [overwrite_length (by rw [hw, h1]; omega), h1]
    show Res.Still ((getObj o >>= _) (s.setBlk a _)) _
    rw [bind_ok (getObj_eq (s := s.setBlk a _) hx)]
    refine ⟨0, Or.inr ⟨rfl, hr⟩, by omega, fun e => absurd (e ▸ hr) (by omega), ⟨x, St.obj_setObj_self _ (St.obj_lt hx)⟩,
      ⟨_, St.blk_setBlk_self _ (St.blk_lt hb), h2.trans hle⟩, by omega, h.gen⟩

theorem still_reserve (h : Held cfg o a g cap off L G s) {m : Nat} (hm : room cfg m ≤ cap) (sc : Nat → Nat) :
    Res.Still (reserve cfg o m sc s) fun _ s' => ∃ off', (off' = off ∨ off' = 0 ∧ ¬ (off + room cfg m ≤ cap)) ∧
      off' + room cfg m ≤ cap ∧ Held cfg o a g cap off' L G s' := by
  unfold reserve
  cases hn : cfg.nul with
  | none =>
    simp only
    have hrm : room cfg m = m := by unfold room; rw [hn]; simp
    rw [hrm] at hm
    refine still_mono (still_rcaReserve h hm sc) ?_
    rintro _ s' ⟨off', h1, h2, _, h3, ⟨cells, h4, h5⟩, h6, h7⟩
    rw [hrm]
    exact ⟨off', h1, h2, h3, ⟨cells, h4, h5, fun c hc => by rw [hn] at hc; cases hc⟩, h6, h7⟩
  | some c =>
    simp only
    unfold strReserve
    have hrm : (if m > 0 then m + 1 else m) = room cfg m := by unfold room; rw [hn]; simp
    rw [hrm]
    refine still_then (still_rcaReserve h hm sc) ?_
    rintro _ s' ⟨off', h1, h2, he, ⟨x, h3⟩, ⟨cells, h4, h5⟩, h6, h7⟩
    rw [bind_ok (getObj_eq h3)]
    dsimp only
    rw [bind_ok (by unfold getBlk; rw [h4] : getBlk a s' = .ok _ s')]
    dsimp only
    split
    · split
      · exact ⟨off', h1, h2, ⟨x, h3⟩, ⟨cells, h4, h5, fun c _ h0 => by omega⟩, h6, h7⟩
      · trivial
    · rename_i h0
      have hlen : (overwrite cells (cells.length - 1) [c]).length = cells.length :=
        overwrite_length (by simp only [List.length_singleton]; omega)
      refine ⟨off', h1, h2, ⟨x, h3⟩, ⟨_, St.blk_setBlk_self _ (St.blk_lt h4), hlen.trans h5, fun c' hc' _ => ?_⟩, h6, h7⟩
      rw [hn] at hc'
      cases hc'
      unfold overwrite
      rw [List.length_singleton, List.drop_eq_nil_of_le (by omega), List.append_nil, List.getLast?_append]
      rfl

theorem Roomy.room {off m : Nat} (hR : Roomy cfg cap n R) (h : R off) (hm : m ≤ n) : room cfg m ≤ cap := by
  rcases hR off h m hm with h | h <;> omega

theorem Roomy.next {off off' m : Nat} (hR : Roomy cfg cap n R) (h : R off) (hm : m ≤ n)
    (h' : off' = off ∨ off' = 0 ∧ ¬ (off + Rca.room cfg m ≤ cap)) : R off' := by
  rcases h' with rfl | ⟨rfl, h'⟩
  · exact h
  · rcases hR off h m hm with h | h
    · exact absurd h h'
    · exact h.1

/-- After `AboutToModify(m)` there is room for `m` elements, in the same buffer. -/
theorem still_atm (hR : Roomy cfg cap n R) (h : Held cfg o a g cap off L G s) (ho : R off) {m : Nat} (hm : m ≤ n) :
    Res.Still (aboutToModify cfg o m s) fun _ s' => ∃ off', R off' ∧ off' + room cfg m ≤ cap ∧
      Held cfg o a g cap off' L G s' := by
  unfold aboutToModify
  apply still_obj h
  intro x
  apply still_put h h.fits
  intro s1 h1
  rw [bind_ok (show isShared o s1 = .ok false s1 by
    obtain ⟨y, hy⟩ := h1.obj
    obtain ⟨cells, hb, _, _⟩ := h1.blk
    unfold isShared
    rw [bind_ok (getObj_eq hy)]
    show (getBlk a >>= _) s1 = _
    rw [bind_ok (by unfold getBlk; rw [hb] : getBlk a s1 = .ok _ s1)]
    rfl)]
  simp only [Bool.false_eq_true, if_false]
  refine still_mono (still_reserve h1 (hR.room ho hm) cfg.scale) ?_
  rintro _ s' ⟨off', e1, e2, e3⟩
  exact ⟨off', hR.next ho hm e1, e2, e3⟩

/-! ## The calls -/

theorem bind_pure_M (m : M T α) : (m >>= pure) s = m s := by
  show M.bind m _ s = _
  unfold M.bind
  cases m s <;> rfl

theorem len_le_of_room {m L : Nat} (h : off + room cfg m ≤ cap) (hL : L ≤ m) : off + L ≤ cap := by
  have : m ≤ room cfg m := by unfold room; split <;> omega
  omega

theorem Held.ready (h : Held cfg o a g cap off L G s) : isShared o s = .ok false s := by
  obtain ⟨y, hy⟩ := h.obj
  obtain ⟨cells, hb, _, _⟩ := h.blk
  unfold isShared
  rw [bind_ok (getObj_eq hy)]
  show (getBlk a >>= _) s = _
  rw [bind_ok (by unfold getBlk; rw [hb] : getBlk a s = .ok _ s)]
  rfl

/-- `o` alone owns the buffer, in one of the positions `R`, and has `L` elements. -/
def FitsAt (R : Nat → Prop) (cfg : Cfg T) (o a g cap L G : Nat) (s : St T) : Prop :=
  ∃ off, R off ∧ Held cfg o a g cap off L G s

theorem Held.fit (h : Held cfg o a g cap off L G s) (ho : R off) : FitsAt R cfg o a g cap L G s := ⟨off, ho, h⟩

theorem still_shared (h : Held cfg o a g cap off L G s) {f : Bool → M T β} (hf : Res.Still (f false s) Q) :
    Res.Still ((isShared o >>= f) s) Q := by
  rw [bind_ok h.ready]
  exact hf

theorem still_pos (h : Held cfg o a g cap off L G s) {pos : Nat} (hp : pos ≤ L) {f : Unit → M T β} (hf : Res.Still (f () s) Q) :
    Res.Still ((validatePos o pos >>= f) s) Q := by
  apply still_bind
  unfold validatePos
  split
  · unfold validateIndex
    apply still_length h
    rw [if_neg (by omega)]
    exact hf
  · exact hf

theorem still_shift (h : Held cfg o a g cap off L G s) {pos k : Nat} (hp : pos ≤ L) (hk : off + room cfg (L + k) ≤ cap) :
    Res.Still (shiftRight o pos k s) fun _ s' => Held cfg o a g cap off L G s' := by
  unfold shiftRight
  apply still_obj h
  intro x
  apply still_read
  intro xs hxs
  exact still_write h hk (by rw [hxs]; simp only; omega)

theorem still_copy (h : Held cfg o a g cap off L G s) {r m pos n : Nat} (hr : off + room cfg n ≤ cap) (hm : pos + m ≤ n) :
    Res.Still (copyRange r m o pos s) fun _ s' => Held cfg o a g cap off L G s' := by
  unfold copyRange
  apply still_anyObj
  intro rb _
  apply still_obj h
  intro x
  split
  · trivial
  · apply still_read
    intro xs hxs
    exact still_write h hr (by rw [hxs]; exact hm)

theorem still_bump (h : Held cfg o a g cap off L G s) {k : Nat} (hk : off + room cfg (L + k) ≤ cap) :
    Res.Still (bumpLength o k s) fun _ s' => Held cfg o a g cap off (L + k) G s' := by
  unfold bumpLength
  apply still_obj h
  intro x
  exact h.put (len_le_of_room hk (Nat.le_refl _)) x

theorem still_insertItem (hR : Roomy cfg cap n R) (h : Held cfg o a g cap off L G s) (ho : R off) {pos : Nat} (hp : pos ≤ L)
    (hn : L + 1 ≤ n) (x : T) :
    Res.Still (insertItem cfg o pos x s) fun _ s' => FitsAt R cfg o a g cap (L + 1) G s' := by
  unfold insertItem
  apply still_pos h hp
  apply still_length h
  refine still_then (still_atm hR h ho hn) fun _ s1 ⟨off', ho', hr, h1⟩ => ?_
  refine still_then (still_shift h1 hp hr) fun _ s2 h2 => ?_
  refine still_then (still_write h2 hr (by simp only [List.length_singleton]; omega)) fun _ s3 h3 => ?_
  exact still_mono (still_bump h3 hr) fun _ _ h' => h'.fit ho'

theorem still_append (hR : Roomy cfg cap n R) (h : Held cfg o a g cap off L G s) (ho : R off) (hn : L + 1 ≤ n) (x : T) :
    Res.Still (append cfg o x s) fun _ s' => FitsAt R cfg o a g cap (L + 1) G s' := by
  unfold append
  apply still_length h
  exact still_insertItem hR h ho (Nat.le_refl _) hn x

theorem still_insertBody (hR : Roomy cfg cap n R) (h : Held cfg o a g cap off L G s) (ho : R off) {pos r k : Nat} (hp : pos ≤ L)
    (hn : L + k ≤ n) :
    Res.Still (insertBody cfg o pos r k s) fun _ s' => FitsAt R cfg o a g cap (L + k) G s' := by
  unfold insertBody
  apply still_length h
  refine still_then (still_atm hR h ho hn) fun _ s1 ⟨off', ho', hr, h1⟩ => ?_
  refine still_then (still_shift h1 hp hr) fun _ s2 h2 => ?_
  refine still_then (still_copy h2 hr (by omega)) fun _ s3 h3 => ?_
  exact still_mono (still_bump h3 hr) fun _ _ h' => h'.fit ho'

theorem still_insertRcaN (hR : Roomy cfg cap n R) (h : Held cfg o a g cap off L G s) (ho : R off) {pos r k M : Nat}
    (hr : length r s = .ok M s) (hp : pos ≤ L) (hn : L + min k M ≤ n) (hs : ¬ (pos = 0 ∧ M > L ∧ k = M)) :
    Res.Still (insertRcaN cfg o pos r k s) fun _ s' => ∃ L', FitsAt R cfg o a g cap L' G s' := by
  unfold insertRcaN
  split
  · exact ⟨L, h.fit ho⟩
  · apply still_pos h hp
    apply still_anyLength hr
    apply still_length h
    rw [if_neg hs]
    exact still_mono (still_insertBody hR h ho hp hn) fun _ _ h' => ⟨_, h'⟩

theorem still_insertMoveN (hR : Roomy cfg cap n R) (h : Held cfg o a g cap off L G s) (ho : R off) {pos r k M : Nat}
    (hr : length r s = .ok M s) (hp : pos ≤ L) (hn : L + min k M ≤ n) (hs : ¬ (pos = 0 ∧ M > L ∧ k = M)) :
    Res.Still (insertMoveN cfg o pos r k s) fun _ s' => ∃ L', FitsAt R cfg o a g cap L' G s' := by
  unfold insertMoveN
  split
  · exact ⟨L, h.fit ho⟩
  · apply still_pos h hp
    apply still_anyLength hr
    apply still_length h
    rw [if_neg hs]
    exact still_mono (still_insertBody hR h ho hp hn) fun _ _ h' => ⟨_, h'⟩

theorem still_insertRca (hR : Roomy cfg cap n R) (h : Held cfg o a g cap off L G s) (ho : R off) {pos r M : Nat}
    (hr : length r s = .ok M s) (hp : pos ≤ L) (hn : L + M ≤ n) (hs : ¬ (pos = 0 ∧ M > L)) :
    Res.Still (insertRca cfg o pos r s) fun _ s' => ∃ L', FitsAt R cfg o a g cap L' G s' := by
  unfold insertRca
  apply still_pos h hp
  apply still_anyLength hr
  apply still_length h
  rw [if_neg hs]
  exact still_mono (still_insertBody hR h ho hp hn) fun _ _ h' => ⟨_, h'⟩

theorem still_insertMove (hR : Roomy cfg cap n R) (h : Held cfg o a g cap off L G s) (ho : R off) {pos r M : Nat}
    (hr : length r s = .ok M s) (hp : pos ≤ L) (hn : L + M ≤ n) (hs : ¬ (pos = 0 ∧ M > L)) :
    Res.Still (insertMove cfg o pos r s) fun _ s' => ∃ L', FitsAt R cfg o a g cap L' G s' := by
  unfold insertMove
  apply still_pos h hp
  apply still_anyLength hr
  apply still_length h
  rw [if_neg hs]
  exact still_mono (still_insertBody hR h ho hp hn) fun _ _ h' => ⟨_, h'⟩

theorem still_own (hR : Roomy cfg cap n R) (h : Held cfg o a g cap off L G s) (ho : R off) (hL : L ≤ n) :
    Res.Still (getOwnCopy cfg o s) fun _ s' => ∃ off', R off' ∧ off' + room cfg L ≤ cap ∧ Held cfg o a g cap off' L G s' := by
  unfold getOwnCopy
  apply still_length h
  exact still_atm hR h ho hL

theorem still_insertLoop (hR : Roomy cfg cap n R) : ∀ (xs : List T) {s : St T} {L off pos : Nat},
    Held cfg o a g cap off L G s → R off → pos ≤ L → L + xs.length ≤ n →
    Res.Still (insertLoop cfg o pos xs s) fun _ s' => FitsAt R cfg o a g cap (L + xs.length) G s'
  | [], _, _, _, _, h, ho, _, _ => h.fit ho
  | x :: xs, s, L, off, pos, h, ho, hp, hn => by
    simp only [List.length_cons] at hn
    unfold insertLoop
    refine still_then (R := fun _ s' => FitsAt R cfg o a g cap (L + 1) G s') ?_ fun _ s1 h1 => ?_
    · unfold insertIter
      refine still_then (still_own hR h ho (by omega)) fun _ s1 ⟨off1, ho1, _, h1⟩ => ?_
      refine still_then (still_insertItem hR h1 ho1 hp (by omega) x) fun _ s2 ⟨off2, ho2, h2⟩ => ?_
      exact still_mono (still_own hR h2 ho2 (by omega)) fun _ _ ⟨off3, ho3, _, h3⟩ => ⟨off3, ho3, h3⟩
    · obtain ⟨off1, ho1, h1⟩ := h1
      have := still_insertLoop hR xs h1 ho1 (pos := pos + 1) (by omega) (by omega)
      rwa [show L + 1 + xs.length = L + (x :: xs).length by simp only [List.length_cons]; omega] at this

theorem still_insertRange (hR : Roomy cfg cap n R) (h : Held cfg o a g cap off L G s) (ho : R off) {pos : Nat} {xs : List T}
    (hp : pos ≤ L) (hn : L + xs.length ≤ n) :
    Res.Still (insertRange cfg o pos xs s) fun _ s' => FitsAt R cfg o a g cap (L + xs.length) G s' := by
  unfold insertRange
  apply still_length h
  refine still_then (still_atm hR h ho hn) fun _ s1 ⟨off1, ho1, _, h1⟩ => ?_
  refine still_then (still_insertLoop hR xs h1 ho1 hp hn) fun _ s2 ⟨off2, ho2, h2⟩ => ?_
  exact still_mono (still_own hR h2 ho2 hn) fun _ _ ⟨off3, ho3, _, h3⟩ => ⟨off3, ho3, h3⟩

theorem still_insertC (hR : Roomy cfg cap n R) (h : Held cfg o a g cap off L G s) (ho : R off) {pos : Nat} {xs : List T}
    {early : Bool} (hp : pos ≤ L) (hn : L + xs.length ≤ n) :
    Res.Still (insertC cfg o pos xs early s) fun _ s' => ∃ L', FitsAt R cfg o a g cap L' G s' := by
  unfold insertC
  split
  · exact ⟨L, h.fit ho⟩
  · apply still_pos h hp
    apply still_length h
    refine still_then (still_atm hR h ho hn) fun _ s1 ⟨off1, ho1, hr, h1⟩ => ?_
    refine still_then (still_shift h1 hp hr) fun _ s2 h2 => ?_
    refine still_then (still_bump h2 hr) fun _ s3 h3 => ?_
    exact still_mono (still_write h3 hr (by omega)) fun _ _ h' => ⟨_, h'.fit ho1⟩

theorem still_write1 (hR : Roomy cfg cap n R) (h : Held cfg o a g cap off L G s) (ho : R off) {i : Nat} (hi : i + 1 ≤ L)
    (hL : L ≤ n) (x : T) :
    Res.Still (write cfg o i x s) fun _ s' => FitsAt R cfg o a g cap L G s' := by
  unfold write
  refine still_then (still_own hR h ho hL) fun _ s1 ⟨off1, ho1, hr, h1⟩ => ?_
  exact still_mono (still_write h1 hr hi) fun _ _ h' => h'.fit ho1

theorem still_replaceItem (hR : Roomy cfg cap n R) (h : Held cfg o a g cap off L G s) (ho : R off) {i : Nat} (hi : i + 1 ≤ L)
    (hL : L ≤ n) (x : T) :
    Res.Still (replaceItem cfg o i x s) fun _ s' => FitsAt R cfg o a g cap L G s' := by
  unfold replaceItem
  apply still_pos h (by omega)
  exact still_write1 hR h ho hi hL x

theorem still_replaceBody (hR : Roomy cfg cap n R) (h : Held cfg o a g cap off L G s) (ho : R off) {pos r k : Nat} (hL : L ≤ n)
    (hn : pos + k ≤ n) :
    Res.Still (replaceBody cfg o pos r k s) fun _ s' => ∃ L', FitsAt R cfg o a g cap L' G s' := by
  unfold replaceBody
  apply still_length h
  refine still_then (still_atm hR h ho (m := if pos + k < L then L else pos + k) (by split <;> omega))
    fun _ s1 ⟨off1, ho1, hr, h1⟩ => ?_
  refine still_then (still_copy h1 hr (by split <;> omega)) fun _ s3 h3 => ?_
  apply still_obj h3
  intro x
  exact ⟨_, (h3.put (len_le_of_room hr (Nat.le_refl _)) x).fit ho1⟩

theorem still_replaceRca (hR : Roomy cfg cap n R) (h : Held cfg o a g cap off L G s) (ho : R off) {pos r k M : Nat}
    (hr : length r s = .ok M s) (hp : pos ≤ L) (hL : L ≤ n) (hn : pos + min k M ≤ n) (hM : M ≤ npos)
    (hs : ¬ (pos = 0 ∧ M > L ∧ (k = npos ∨ k = M))) :
    Res.Still (replaceRca cfg o pos r k s) fun _ s' => ∃ L', FitsAt R cfg o a g cap L' G s' := by
  unfold replaceRca
  split
  · exact ⟨L, h.fit ho⟩
  · apply still_pos h hp
    apply still_anyLength hr
    apply still_length h
    rw [if_neg hs]
    refine still_replaceBody hR h ho hL ?_
    split <;> omega

theorem still_replaceMove (hR : Roomy cfg cap n R) (h : Held cfg o a g cap off L G s) (ho : R off) {pos r k M : Nat}
    (hr : length r s = .ok M s) (hp : pos ≤ L) (hL : L ≤ n) (hn : pos + min k M ≤ n) (hM : M ≤ npos)
    (hs : ¬ (pos = 0 ∧ M > L ∧ (k = npos ∨ k = M))) :
    Res.Still (replaceMove cfg o pos r k s) fun _ s' => ∃ L', FitsAt R cfg o a g cap L' G s' := by
  unfold replaceMove
  split
  · exact ⟨L, h.fit ho⟩
  · apply still_pos h hp
    apply still_anyLength hr
    apply still_length h
    rw [if_neg hs]
    refine still_replaceBody hR h ho hL ?_
    split <;> omega

theorem still_replaceC (hR : Roomy cfg cap n R) (h : Held cfg o a g cap off L G s) (ho : R off) {pos : Nat} {xs : List T}
    {early : Bool} (hp : pos ≤ L) (hL : L ≤ n) (hn : pos + xs.length ≤ n) :
    Res.Still (replaceC cfg o pos xs early s) fun _ s' => ∃ L', FitsAt R cfg o a g cap L' G s' := by
  unfold replaceC
  split
  · exact ⟨L, h.fit ho⟩
  · apply still_pos h hp
    apply still_length h
    refine still_then (still_atm hR h ho (m := if pos + xs.length < L then L else pos + xs.length) (by split <;> omega))
      fun _ s1 ⟨off1, ho1, hr, h1⟩ => ?_
    apply still_obj h1
    intro x
    refine still_put h1 (len_le_of_room hr (Nat.le_refl _)) fun s2 h2 => ?_
    exact still_mono (still_write h2 hr (by split <;> omega)) fun _ _ h' => ⟨_, h'.fit ho1⟩

theorem still_setLength (h : Held cfg o a g cap off L G s) {k : Nat} (hk : k ≤ L) :
    Res.Still (setLength o k s) fun _ s' => Held cfg o a g cap off k G s' := by
  unfold setLength
  apply still_obj h
  intro x
  have := h.fits
  exact h.put (by omega) 0

theorem still_growTo (hR : Roomy cfg cap n R) (h : Held cfg o a g cap off L G s) (ho : R off) {m : Nat} (hm : m ≤ n)
    (hnp : cfg.nul.isSome → m ≠ npos) :
    Res.Still (growTo cfg o m s) fun _ s' => ∃ off', R off' ∧ off' + room cfg m ≤ cap ∧ Held cfg o a g cap off' L G s' := by
  unfold growTo
  rw [if_pos fun hc => hnp hc.1 hc.2]
  exact still_atm hR h ho hm

theorem still_resize (hR : Roomy cfg cap n R) (h : Held cfg o a g cap off L G s) (ho : R off) {m : Nat} (hm : m ≤ n)
    (hnp : cfg.nul.isSome → m ≠ npos) :
    Res.Still (resize cfg o m s) fun _ s' => FitsAt R cfg o a g cap m G s' := by
  unfold resize
  apply still_length h
  split
  · exact still_mono (still_setLength h (by omega)) fun _ _ h' => h'.fit ho
  · refine still_then (still_growTo hR h ho hm hnp) fun _ s1 ⟨off1, ho1, hr, h1⟩ => ?_
    apply still_obj h1
    intro x
    exact (h1.put (len_le_of_room hr (Nat.le_refl _)) x).fit ho1

theorem still_resizeFill (hR : Roomy cfg cap n R) (h : Held cfg o a g cap off L G s) (ho : R off) {m : Nat} (hm : m ≤ n)
    (hnp : cfg.nul.isSome → m ≠ npos) (v : T) :
    Res.Still (resizeFill cfg o m v s) fun _ s' => FitsAt R cfg o a g cap m G s' := by
  unfold resizeFill
  apply still_length h
  split
  · exact still_mono (still_setLength h (by omega)) fun _ _ h' => h'.fit ho
  · refine still_then (still_growTo hR h ho hm hnp) fun _ s1 ⟨off1, ho1, hr, h1⟩ => ?_
    apply still_obj h1
    intro x
    refine still_then (still_write h1 hr (by simp only [List.length_replicate]; omega)) fun _ s2 h2 => ?_
    apply still_obj h2
    intro x
    exact (h2.put (len_le_of_room hr (Nat.le_refl _)) x).fit ho1

theorem still_popBack (h : Held cfg o a g cap off L G s) (h0 : 0 < L) :
    Res.Still (popBack o s) fun _ s' => ∃ L', Held cfg o a g cap off L' G s' := by
  unfold popBack
  apply still_obj h
  intro x
  have := h.fits
  have hl : sub64 L 1 = L - 1 := by unfold sub64; rw [if_pos (by omega)]
  exact ⟨_, h.put (by rw [hl]; omega) 0⟩

theorem still_dropBack (h : Held cfg o a g cap off L G s) {k : Nat} (hk : k ≤ L) :
    Res.Still (dropBack o k s) fun _ s' => ∃ L', Held cfg o a g cap off L' G s' := by
  unfold dropBack
  apply still_obj h
  intro x
  have := h.fits
  dsimp only
  split
  · exact ⟨L, h⟩
  · rw [if_neg (by omega)]
    exact ⟨_, h.put (by omega) 0⟩

theorem still_arrDropBack (h : Held cfg o a g cap off L G s) {k : Nat} (hk : k ≤ L) (hL : L < 2147483648) :
    Res.Still (arrDropBack o k s) fun _ s' => ∃ L', Held cfg o a g cap off L' G s' := by
  unfold arrDropBack
  apply still_obj h
  intro x
  have := h.fits
  dsimp only
  split
  · exact ⟨L, h⟩
  · rw [toInt32_small hL, if_neg (by omega)]
    exact ⟨_, h.put (by
      have : (((L : Int) - k) % (two64 : Int)).toNat ≤ L := by
        unfold two64
        omega
      omega) 0⟩

theorem still_pop (hc : cfg.nul = none) (h : Held cfg o a g cap off L G s) (h0 : 0 < L) :
    Res.Still (pop cfg o s) fun _ s' => ∃ L', Held cfg o a g cap off L' G s' := by
  have hr : off + room cfg L ≤ cap := by have := h.fits; unfold room; rw [hc]; simpa using this
  unfold pop
  apply still_obj h
  intro x
  have hl : sub64 L 1 = L - 1 := by unfold sub64; rw [if_pos (by omega)]
  dsimp only
  rw [hl]
  apply still_read
  intro xs hxs
  apply still_shared h
  simp only [Bool.false_eq_true, if_false]
  refine still_then (still_write h hr (by rw [List.length_map, hxs]; omega)) fun _ s1 h1 => ?_
  refine still_then (still_popBack h1 h0) fun _ s2 h2 => ?_
  exact h2

theorem still_hash (h : Held cfg o a g cap off L G s) :
    Res.Still (hash cfg o s) fun _ s' => Held cfg o a g cap off L G s' := by
  unfold hash
  apply still_obj h
  intro x
  split
  · exact h
  · apply still_read
    intro xs _
    exact h.put h.fits _

theorem still_reservePub (hR : Roomy cfg cap n R) (h : Held cfg o a g cap off L G s) (ho : R off) {m : Nat} (hm : m ≤ n) :
    Res.Still (reservePub cfg o m s) fun _ s' => FitsAt R cfg o a g cap L G s' := by
  unfold reservePub
  have hm' : (if cfg.nul.isSome ∧ m = npos then 0 else m) ≤ n := by split <;> omega
  refine still_mono (still_reserve h (hR.room ho hm') _) ?_
  rintro _ s' ⟨off', e1, e2, e3⟩
  exact ⟨off', hR.next ho hm' e1, e3⟩

/-- `c_str()` needs a cell more than `reserve` provides, unless the NUL is there already; it is. -/
theorem still_cStr [DecidableEq T] {c : T} (hc : cfg.nul = some c) (hR : Roomy cfg cap n R) (h : Held cfg o a g cap off L G s)
    (ho : R off) (hL : L ≤ n) :
    Res.Still (cStr cfg c o s) fun _ s' => FitsAt R cfg o a g cap L G s' := by
  have hread : ∀ {s' : St T} {k : Nat}, FitsAt R cfg o a g cap L G s' →
      Res.Still (readRange o 0 k s') fun _ s'' => FitsAt R cfg o a g cap L G s'' := by
    intro s' k h'
    have := still_read (s := s') (r := o) (i := 0) (k := k) (f := pure)
      (Q := fun _ s' => FitsAt R cfg o a g cap L G s') fun _ _ => h'
    rwa [bind_pure_M] at this
  unfold cStr
  apply still_obj h
  intro x
  dsimp only
  split
  · exact h.fit ho
  · rename_i h0
    obtain ⟨y, hy⟩ := h.obj
    obtain ⟨cells, e1, e2, e3⟩ := h.blk
    by_cases hcap : off + L + 1 ≤ cells.length
    · have ht : readRange o L 1 s = .ok (window cells (off + L) 1) s := by
        unfold readRange
        rw [bind_ok (getObj_eq hy), if_neg (by omega)]
        dsimp only
        rw [bind_ok (by unfold getBlk; rw [e1] : getBlk a s = .ok _ s)]
        dsimp only
        rw [if_pos (by omega)]
        rfl
      rw [bind_ok ht]
      by_cases hlast : off + L + 1 = cells.length
      · have hlast' := e3 c hc (by omega)
        rw [List.getLast?_eq_getElem?] at hlast'
        obtain ⟨hi, he⟩ := List.getElem?_eq_some_iff.1 hlast'
        have hk : off + L = cells.length - 1 := by omega
        have hw : window cells (off + L) 1 = [c] := by
          unfold window
          rw [hk, List.drop_eq_getElem_cons hi, he]
          rfl
        rw [hw, if_neg (by simp)]
        exact hread (h.fit ho)
      · split
        · -- a cell behind the terminator is left: nothing moves
          have hroom : off + room cfg (L + 1) ≤ cap := by
            unfold room
            rw [if_pos ⟨by rw [hc]; rfl, by omega⟩]
            omega
          have hR1 : Roomy cfg cap (L + 1) (fun x => x = off) := by
            rintro _ rfl m hm
            have := room_mono cfg hm
            exact Or.inl (by omega)
          refine still_then (still_atm hR1 h rfl (Nat.le_refl _)) fun _ s1 ⟨_, he, hr, h1⟩ => ?_
          subst he
          refine still_then (still_write h1 hr (by simp only [List.length_singleton]; omega)) fun _ s2 h2 => ?_
          exact hread (h2.fit ho)
        · exact hread (h.fit ho)
    · have ht : readRange o L 1 s = .ub := by
        unfold readRange
        rw [bind_ok (getObj_eq hy), if_neg (by omega)]
        dsimp only
        rw [bind_ok (by unfold getBlk; rw [e1] : getBlk a s = .ok _ s)]
        dsimp only
        rw [if_neg (by omega)]
        rfl
      show Res.Still (M.bind _ _ _) _
      unfold M.bind
      rw [ht]
      trivial

/-! ## Calls after which the elements may be elsewhere in the buffer -/

theorem still_clear (h : Held cfg o a g cap off L G s) :
    Res.Still (clear o s) fun _ s' => Held cfg o a g cap 0 0 G s' := by
  unfold clear
  apply still_shared h
  simp only [Bool.false_eq_true, if_false]
  apply still_obj h
  intro x
  exact h.put (by omega) 0

theorem still_assignList (hR : Roomy cfg cap n R) (h0 : R 0) (h : Held cfg o a g cap off L G s) {xs : List T}
    (hn : xs.length ≤ n) :
    Res.Still (assignList cfg o xs s) fun _ s' => FitsAt R cfg o a g cap xs.length G s' := by
  unfold assignList
  refine still_then (still_clear h) fun _ s1 h1 => ?_
  refine still_then (still_reserve h1 (hR.room h0 hn) id) fun _ s2 ⟨off2, e1, e2, h2⟩ => ?_
  refine still_then (still_write h2 e2 (by omega)) fun _ s3 h3 => ?_
  apply still_obj h3
  intro x
  exact (h3.put (len_le_of_room e2 (Nat.le_refl _)) x).fit (hR.next h0 hn e1)

theorem still_assignStd {c : T} (hc : cfg.nul = some c) (hR : Roomy cfg cap n R) (h0 : R 0)
    (h : Held cfg o a g cap off L G s) {xs : List T} (hn : xs.length ≤ n) (hpos : 0 < n) :
    Res.Still (assignStd cfg c o xs s) fun _ s' => FitsAt R cfg o a g cap xs.length G s' := by
  unfold assignStd
  refine still_then (still_clear h) fun _ s1 h1 => ?_
  have hroom : room cfg n = n + 1 := by unfold room; rw [if_pos ⟨by rw [hc]; rfl, hpos⟩]
  have hcap := hR.room h0 (Nat.le_refl n)
  obtain ⟨x, hx⟩ := h1.obj
  obtain ⟨cells, hb, hle, hl⟩ := h1.blk
  have hres : rcaReserve cfg o (xs.length + 1) id s1 = .ok () s1 := by
    unfold rcaReserve
    rw [bind_ok (getObj_eq hx)]
    simp only [pure_bind']
    rw [bind_ok (arefReserve_noop hb (by simp only; omega)), bind_ok (getObj_eq hx)]
    exact congrArg _ (setObj_self hx)
  rw [bind_ok hres]
  apply still_obj h1
  intro y
  refine still_put h1 (off' := 0) (L' := xs.length) (by omega) fun s2 h2 => ?_
  obtain ⟨z, hz⟩ := h2.obj
  obtain ⟨cells2, hb2, hle2, hl2⟩ := h2.blk
  unfold writeRange
  rw [bind_ok (getObj_eq hz), if_neg (by simp)]
  dsimp only
  rw [bind_ok (by unfold getBlk; rw [hb2] : getBlk a s2 = .ok _ s2)]
  dsimp only
  have hlen : (xs ++ [c]).length = xs.length + 1 := by simp
  rw [if_pos (by rw [hlen]; omega)]
  refine Held.fit (h2.cells (by rw [overwrite_length (by rw [hlen]; omega)]; exact hle2) fun c' hc' h0' => ?_) h0
  rw [hc] at hc'
  cases hc'
  by_cases he : xs.length + 1 < cells2.length
  · exact getLast_overwrite (by rw [hlen]; omega) (hl2 c hc h0')
  · unfold overwrite
    rw [List.drop_eq_nil_of_le (by rw [hlen]; omega), List.append_nil, List.getLast?_append]
    simp

/-- Only the object itself changed, and it still refers to the buffer. -/
theorem Held.narrow (h : Held cfg o a g cap off L G s) (off' L' : Nat) (x : UInt64) :
    (∃ y, (s.setObj o (some ⟨some a, off', L', x⟩)).obj o = some ⟨some a, off', L', y⟩) ∧
      (off' + L' ≤ cap → Held cfg o a g cap off' L' G (s.setObj o (some ⟨some a, off', L', x⟩))) := by
  obtain ⟨y, hy⟩ := h.obj
  exact ⟨⟨x, St.obj_setObj_self _ (St.obj_lt hy)⟩, fun hf => h.put hf x⟩

/-- The call left the object referring to the buffer; if its elements are within it, all is as before. -/
def Narrowed (cfg : Cfg T) (o a g cap G : Nat) (s : St T) : Prop :=
  ∃ off L, (∃ x, s.obj o = some ⟨some a, off, L, x⟩) ∧ (off + L ≤ cap → Held cfg o a g cap off L G s) ∧
    ∃ cells, s.blk a = some ⟨g, cells, 1⟩ ∧ cells.length = cap

theorem Held.narrowed (h : Held cfg o a g cap off L G s) : Narrowed cfg o a g cap G s := by
  obtain ⟨cells, hb, hl, _⟩ := h.blk
  exact ⟨off, L, h.obj, fun _ => h, cells, hb, hl⟩

theorem Held.narrows (h : Held cfg o a g cap off L G s) (off' L' : Nat) (x : UInt64) :
    Narrowed cfg o a g cap G (s.setObj o (some ⟨some a, off', L', x⟩)) := by
  obtain ⟨h1, h2⟩ := h.narrow off' L' x
  obtain ⟨cells, hb, hl, _⟩ := h.blk
  exact ⟨off', L', h1, h2, cells, hb, hl⟩

theorem still_slice (h : Held cfg o a g cap off L G s) (start len : Int) :
    Res.Still (slice o start len s) fun _ s' => Narrowed cfg o a g cap G s' := by
  unfold slice
  apply still_obj h
  intro x
  dsimp only
  generalize (if len = -1 then toInt32 L - start else len) = ln
  split
  · exact h.narrows _ _ _
  · generalize (if (if start < 0 then (L : Int) + start else start) < 0 then (0 : Int)
      else if start < 0 then (L : Int) + start else start) = st
    split
    · trivial
    · exact h.narrows _ _ _

theorem still_dropFront (h : Held cfg o a g cap off L G s) (k : Nat) :
    Res.Still (dropFront o k s) fun _ s' => Narrowed cfg o a g cap G s' := by
  unfold dropFront
  apply still_obj h
  intro x
  dsimp only
  split
  · exact h.narrowed
  · split
    · exact h.narrows _ _ _
    · exact h.narrows _ _ _

theorem still_dropBackAny (h : Held cfg o a g cap off L G s) (k : Nat) :
    Res.Still (dropBack o k s) fun _ s' => Narrowed cfg o a g cap G s' := by
  unfold dropBack
  apply still_obj h
  intro x
  dsimp only
  split
  · exact h.narrowed
  · split
    · exact h.narrows _ _ _
    · exact h.narrows _ _ _

theorem still_arrDropFront (h : Held cfg o a g cap off L G s) (k : Int) :
    Res.Still (arrDropFront o k s) fun _ s' => Narrowed cfg o a g cap G s' := by
  unfold arrDropFront
  apply still_obj h
  intro x
  dsimp only
  split
  · exact h.narrowed
  · split
    · exact h.narrows _ _ _
    · exact h.narrows _ _ _

theorem still_arrDropBackAny (h : Held cfg o a g cap off L G s) (k : Int) :
    Res.Still (arrDropBack o k s) fun _ s' => Narrowed cfg o a g cap G s' := by
  unfold arrDropBack
  apply still_obj h
  intro x
  dsimp only
  split
  · exact h.narrowed
  · split
    · exact h.narrows _ _ _
    · exact h.narrows _ _ _

theorem still_shiftOut (hc : cfg.nul = none) (h : Held cfg o a g cap off L G s) (h0 : 0 < L) :
    Res.Still (shift cfg o s) fun _ s' => Narrowed cfg o a g cap G s' := by
  have hr : off + room cfg L ≤ cap := by have := h.fits; unfold room; rw [hc]; simpa using this
  unfold shift
  apply still_read
  intro xs hxs
  apply still_shared h
  simp only [Bool.false_eq_true, if_false]
  refine still_then (still_write h hr (by rw [List.length_map, hxs]; omega)) fun _ s1 h1 => ?_
  apply still_obj h1
  intro x
  exact h1.narrows _ _ _

end

end Bdlib.Rca
