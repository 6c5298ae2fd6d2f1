import Verif.B64.Decode

/-!
# Model of `b64enc_buf` and `b64dec_buf` with source and destination in one piece of memory

`mem` is the memory, `data` points to its byte `d` and `dest` to its byte `e`.  Unlike in `B64/Model.lean` each byte is read
when the expression that has it is evaluated, so what was written before is seen.
-/

namespace Bdlib.B64
open Bdlib Bdlib.Str Bdlib.Spec

/-- `buf[k] = c`. -/
def wr (mem : Bytes) (i : Nat) (c : UInt8) : Eff Bytes := if i < mem.length then .ret (mem.set i c) else .ub

/-- The loop of `b64dec_buf` (`base64.cpp` 132-145): `data` at `i`, `buf` at `j`. -/
def decOverLoop (ix : Bytes) : Nat → Nat → Nat → Bytes → Eff (Nat × Bytes)
  | 0, _, j, mem => .ret (j, mem)
  | blocks + 1, i, j, mem => do
    let x0 ← rd ix (← rd mem i).toNat
    let x1 ← rd ix (← rd mem (i + 1)).toNat
    let mem ← wr mem j ((x0 <<< 2) + ((x1 &&& 0x30) >>> 4))
    let d2 ← rd mem (i + 2)
    if d2 ≠ pad then
      let x1 ← rd ix (← rd mem (i + 1)).toNat
      let x2 ← rd ix (← rd mem (i + 2)).toNat
      let mem ← wr mem (j + 1) (((x1 &&& 0x0f) <<< 4) + ((x2 &&& 0x3c) >>> 2))
      let d3 ← rd mem (i + 3)
      if d3 ≠ pad then
        let x2 ← rd ix (← rd mem (i + 2)).toNat
        let x3 ← rd ix (← rd mem (i + 3)).toNat
        let mem ← wr mem (j + 2) (((x2 &&& 0x03) <<< 6) + x3)
        decOverLoop ix blocks (i + 4) (j + 3) mem
      else decOverLoop ix blocks (i + 4) (j + 2) mem
    else decOverLoop ix blocks (i + 4) (j + 1) mem

/-- `b64dec_buf` (`base64.cpp` 122-148): the new `*len` and the memory. -/
def decOver (ix mem : Bytes) (d e len : Nat) : Eff (Nat × Bytes) := do
  let (j, mem) ← decOverLoop ix (blocksOf len) d e mem
  return (j - e, mem)

/-- The loop of `b64enc_buf` (`base64.cpp` 70-83): `data` at `i`, `buf` at `j`, `len` is `*len`. -/
def encOverLoop (cs : Bytes) : Nat → Nat → Nat → Nat → Bytes → Eff (Nat × Nat × Nat × Bytes)
  | 0, _, _, _, _ => .more
  | fuel + 1, i, j, len, mem =>
    if len ≥ 3 then do
      let d0 ← rd mem i
      let mem ← wr mem j (← rd cs ((d0.toNat &&& 0xfc) >>> 2))
      let d0 ← rd mem i
      let d1 ← rd mem (i + 1)
      let mem ← wr mem (j + 1) (← rd cs (((d0.toNat &&& 0x03) <<< 4) ||| ((d1.toNat &&& 0xf0) >>> 4)))
      let d1 ← rd mem (i + 1)
      let d2 ← rd mem (i + 2)
      let mem ← wr mem (j + 2) (← rd cs (((d1.toNat &&& 0x0f) <<< 2) ||| ((d2.toNat &&& 0xc0) >>> 6)))
      let d2 ← rd mem (i + 2)
      let mem ← wr mem (j + 3) (← rd cs (d2.toNat &&& 0x3f))
      encOverLoop cs fuel (i + 3) (j + 4) (len - 3) mem
    else .ret (i, j, len, mem)

/-- The end of `b64enc_buf` (`base64.cpp` 86-98). -/
def encOverTail (cs : Bytes) (i j len : Nat) (mem : Bytes) : Eff (Nat × Bytes) :=
  if len > 0 then do
    let d0 ← rd mem i
    let mem ← wr mem j (← rd cs ((d0.toNat &&& 0xfc) >>> 2))
    let d0 ← rd mem i
    if len = 1 then
      let mem ← wr mem (j + 1) (← rd cs ((d0.toNat &&& 0x03) <<< 4))
      let mem ← wr mem (j + 2) pad
      let mem ← wr mem (j + 3) pad
      return (j + 4, mem)
    else
      let d1 ← rd mem (i + 1)
      let mem ← wr mem (j + 1) (← rd cs (((d0.toNat &&& 0x03) <<< 4) ||| ((d1.toNat &&& 0xf0) >>> 4)))
      let d1 ← rd mem (i + 1)
      let mem ← wr mem (j + 2) (← rd cs ((d1.toNat &&& 0x0f) <<< 2))
      let mem ← wr mem (j + 3) pad
      return (j + 4, mem)
  else .ret (j, mem)

/-- `b64enc_buf` (`base64.cpp` 39-101): the new `*len` and the memory. -/
def encOver (cs mem : Bytes) (d e len : Nat) : Eff (Nat × Bytes) := do
  let (i, j, len, mem) ← encOverLoop cs (len + 1) d e len mem
  let (j, mem) ← encOverTail cs i j len mem
  return (j - e, mem)

/-! ## Lemmas -/

theorem wr_lt {mem : Bytes} {i : Nat} {c : UInt8} (h : i < mem.length) : wr mem i c = .ret (mem.set i c) := by
  unfold wr; rw [if_pos h]

theorem rd_set_ne {mem : Bytes} {i j : Nat} {c : UInt8} (h : j ≠ i) : rd (mem.set j c) i = rd mem i := by
  unfold rd; rw [List.getElem?_set_ne h]

theorem take_put {mem : Bytes} {j : Nat} {c : UInt8} (h : j < mem.length) : (mem.set j c).take (j + 1) = mem.take j ++ [c] := by
  rw [List.take_add_one, List.take_set_of_le (Nat.le_refl _), List.getElem?_set_self h]
  rfl

/-- What a block of four characters decodes to. -/
def block (ix : Bytes) (a b c d : UInt8) : Bytes :=
  let x := fun (k : UInt8) => ix.getD k.toNat 0
  ((x a <<< 2) + ((x b &&& 0x30) >>> 4)) :: (if c = pad then [] else
    (((x b &&& 0x0f) <<< 4) + ((x c &&& 0x3c) >>> 2)) :: (if d = pad then [] else [((x c &&& 0x03) <<< 6) + x d]))

/-- What a text decodes to. -/
def decText (ix : Bytes) : Bytes → Bytes
  | a :: b :: c :: d :: rest => block ix a b c d ++ decText ix rest
  | _ => []

theorem rd_ix {ix : Bytes} (hix : ix.length = 256) (c : UInt8) : rd ix c.toNat = .ret (ix.getD c.toNat 0) := by
  have := c.toNat_lt
  rw [rd_lt (by omega), List.getD_eq_getElem?_getD, List.getElem?_eq_getElem (by omega)]
  rfl

theorem decLoop_text {ix data tail : Bytes} (hix : ix.length = 256) {cap : Nat} : ∀ blocks (t : Bytes) i (out : Bytes),
    t.length = 4 * blocks → data.drop i = t ++ tail → out.length + 3 * blocks ≤ cap →
    decLoop ix data cap blocks i out = .ret (out ++ decText ix t)
  | 0, t, i, out, ht, _, _ => by
    have : t = [] := List.length_eq_zero_iff.mp (by omega)
    subst this; simp [decLoop, decText]
  | blocks + 1, a :: b :: c :: d :: t, i, out, ht, hd, hcap => by
    have e0 : rd data i = .ret a := rd_at (k := 0) hd (by simp)
    have e1 : rd data (i + 1) = .ret b := rd_at (k := 1) hd (by simp)
    have e2 : rd data (i + 2) = .ret c := rd_at (k := 2) hd (by simp)
    have e3 : rd data (i + 3) = .ret d := rd_at (k := 3) hd (by simp)
    have hd' : data.drop (i + 4) = t ++ tail := by rw [← List.drop_drop, hd]; rfl
    have ht' : t.length = 4 * blocks := by simp at ht; omega
    unfold decLoop
    rw [e0, e1, e2, e3]
    simp only [Eff.ret_bind, rd_ix hix]
    rw [put_lt (by omega)]
    simp only [Eff.ret_bind]
    by_cases hc : c = pad
    · rw [if_neg (by simp [hc]), decLoop_text hix blocks t (i + 4) _ ht' hd' (by simp; omega)]
      simp [decText, block, hc]
    · rw [if_pos hc, put_lt (by simp; omega)]
      simp only [Eff.ret_bind]
      by_cases hdp : d = pad
      · rw [if_neg (by simp [hdp]), decLoop_text hix blocks t (i + 4) _ ht' hd' (by simp; omega)]
        simp [decText, block, hc, hdp]
      · rw [if_pos hdp, put_lt (by simp; omega)]
        simp only [Eff.ret_bind]
        rw [decLoop_text hix blocks t (i + 4) _ ht' hd' (by simp; omega)]
        simp [decText, block, hc, hdp]
  | blocks + 1, [], _, _, ht, _, _ => by simp at ht
  | blocks + 1, [_], _, _, ht, _, _ => by simp at ht; omega
  | blocks + 1, [_, _], _, _, ht, _, _ => by simp at ht; omega
  | blocks + 1, [_, _, _], _, _, ht, _, _ => by simp at ht; omega

/-- `s` over the memory from `j` on. -/
def spread (mem : Bytes) (j : Nat) (s : Bytes) : Bytes := mem.take j ++ s ++ mem.drop (j + s.length)

theorem drop_len {m v tail : Bytes} {i : Nat} (h : m.drop i = v ++ tail) : i + v.length ≤ m.length ∨ v = [] := by
  have := congrArg List.length h
  simp at this
  by_cases hv : v = []
  · exact .inr hv
  · have := List.length_pos_iff.mpr hv
    exact .inl (by omega)

theorem decOver_text {ix tail : Bytes} (hix : ix.length = 256) : ∀ blocks (t : Bytes) (m : Bytes) i j,
    t.length = 4 * blocks → m.drop i = t ++ tail → j ≤ i →
    decOverLoop ix blocks i j m = .ret (j + (decText ix t).length, spread m j (decText ix t))
  | 0, t, m, i, j, ht, _, _ => by
    have : t = [] := List.length_eq_zero_iff.mp (by omega)
    subst this; simp [decOverLoop, decText, spread]
  | blocks + 1, a :: b :: c :: d :: t, m, i, j, ht, hd, hji => by
    have e0 : rd m i = .ret a := rd_at (k := 0) hd (by simp)
    have e1 : rd m (i + 1) = .ret b := rd_at (k := 1) hd (by simp)
    have e2 : rd m (i + 2) = .ret c := rd_at (k := 2) hd (by simp)
    have e3 : rd m (i + 3) = .ret d := rd_at (k := 3) hd (by simp)
    have hd' : m.drop (i + 4) = t ++ tail := by rw [← List.drop_drop, hd]; rfl
    have ht' : t.length = 4 * blocks := by simp at ht; omega
    have hlen : i + 4 ≤ m.length := by
      rcases drop_len hd with h | h
      · simp at h; omega
      · cases h
    unfold decOverLoop
    rw [e0, e1]
    simp only [Eff.ret_bind, rd_ix hix]
    rw [wr_lt (by omega)]
    simp only [Eff.ret_bind]
    rw [rd_set_ne (show j ≠ i + 2 by omega), rd_set_ne (show j ≠ i + 1 by omega), e2, e1]
    simp only [Eff.ret_bind, rd_ix hix]
    by_cases hc : c = pad
    · rw [if_neg (by simp [hc]), decOver_text hix blocks t _ (i + 4) (j + 1) ht' (by rw [List.drop_set_of_lt (by omega)]; exact hd') (by omega)]
      unfold spread
      rw [take_put (by omega), List.drop_set_of_lt (by omega)]
      simp [decText, block, hc]
      constructor
      · omega
      · congr 1; omega
    · rw [if_pos hc, wr_lt (by simp; omega)]
      simp only [Eff.ret_bind]
      rw [rd_set_ne (show j + 1 ≠ i + 3 by omega), rd_set_ne (show j ≠ i + 3 by omega), rd_set_ne (show j + 1 ≠ i + 2 by omega), rd_set_ne (show j ≠ i + 2 by omega),
        e3, e2]
      simp only [Eff.ret_bind, rd_ix hix]
      by_cases hdp : d = pad
      · rw [if_neg (by simp [hdp]), decOver_text hix blocks t _ (i + 4) (j + 2) ht'
          (by rw [List.drop_set_of_lt (by omega), List.drop_set_of_lt (by omega)]; exact hd') (by omega)]
        unfold spread
        rw [take_put (by simp; omega), take_put (by omega), List.drop_set_of_lt (by omega), List.drop_set_of_lt (by omega)]
        simp [decText, block, hc, hdp]
        constructor
        · omega
        · congr 1; omega
      · rw [if_pos hdp, wr_lt (by simp; omega)]
        simp only [Eff.ret_bind]
        rw [decOver_text hix blocks t _ (i + 4) (j + 3) ht'
          (by rw [List.drop_set_of_lt (by omega), List.drop_set_of_lt (by omega), List.drop_set_of_lt (by omega)]; exact hd') (by omega)]
        unfold spread
        rw [take_put (by simp; omega), take_put (by simp; omega), take_put (by omega), List.drop_set_of_lt (by omega), List.drop_set_of_lt (by omega),
          List.drop_set_of_lt (by omega)]
        simp [decText, block, hc, hdp]
        constructor
        · omega
        · congr 1; omega
  | blocks + 1, [], _, _, _, ht, _, _ => by simp at ht
  | blocks + 1, [_], _, _, _, ht, _, _ => by simp at ht; omega
  | blocks + 1, [_, _], _, _, _, ht, _, _ => by simp at ht; omega
  | blocks + 1, [_, _, _], _, _, _, ht, _, _ => by simp at ht; omega

theorem encOver_text {cs tail : Bytes} (hcs : 64 ≤ cs.length) : ∀ fuel (v m : Bytes) i j,
    v.length < fuel → m.drop i = v ++ tail → j + (v.length + 2) / 3 ≤ i → j + (v.length + 2) / 3 * 4 ≤ m.length →
    (encOverLoop cs fuel i j v.length m >>= fun (r : Nat × Nat × Nat × Bytes) => encOverTail cs r.1 r.2.1 r.2.2.1 r.2.2.2)
      = .ret (j + (v.length + 2) / 3 * 4, spread m j (rfc4648 (alphabet cs) v)) := by
  intro fuel
  induction fuel with
  | zero => intro v m i j h; omega
  | succ fuel ih =>
    intro v m i j hf hd hji hcap
    unfold encOverLoop
    match v, hf, hd, hji, hcap with
    | a :: b :: c :: rest, hf, hd, hji, hcap =>
      have ha := a.toNat_lt; have hb := b.toNat_lt; have hc := c.toNat_lt
      have hblk : ((a :: b :: c :: rest).length + 2) / 3 = (rest.length + 2) / 3 + 1 := by simp; omega
      rw [hblk] at hji hcap ⊢
      rw [if_pos (by simp)]
      have e0 : rd m i = .ret a := rd_at (k := 0) hd (by simp)
      have e1 : rd m (i + 1) = .ret b := rd_at (k := 1) hd (by simp)
      have e2 : rd m (i + 2) = .ret c := rd_at (k := 2) hd (by simp)
      have hd' : m.drop (i + 3) = rest ++ tail := by rw [← List.drop_drop, hd]; rfl
      rw [e0]
      simp only [Eff.ret_bind, byte_fc]
      rw [rd_cs hcs (by omega)]
      simp only [Eff.ret_bind]
      rw [wr_lt (by omega)]
      simp only [Eff.ret_bind]
      rw [rd_set_ne (show j ≠ i by omega), rd_set_ne (show j ≠ i + 1 by omega), e0, e1]
      simp only [Eff.ret_bind, second]
      rw [rd_cs hcs (by omega)]
      simp only [Eff.ret_bind]
      rw [wr_lt (by simp; omega)]
      simp only [Eff.ret_bind]
      rw [rd_set_ne (show j + 1 ≠ i + 1 by omega), rd_set_ne (show j ≠ i + 1 by omega), rd_set_ne (show j + 1 ≠ i + 2 by omega), rd_set_ne (show j ≠ i + 2 by omega), e1, e2]
      simp only [Eff.ret_bind, third]
      rw [rd_cs hcs (by omega)]
      simp only [Eff.ret_bind]
      rw [wr_lt (by simp; omega)]
      simp only [Eff.ret_bind]
      rw [rd_set_ne (show j + 2 ≠ i + 2 by omega), rd_set_ne (show j + 1 ≠ i + 2 by omega), rd_set_ne (show j ≠ i + 2 by omega), e2]
      simp only [Eff.ret_bind, byte_3f]
      rw [rd_cs hcs (by omega)]
      simp only [Eff.ret_bind]
      rw [wr_lt (by simp; omega)]
      simp only [Eff.ret_bind]
      have hdr : ∀ (x y z w : UInt8) k, j + 4 ≤ k → ((((m.set j x).set (j + 1) y).set (j + 2) z).set (j + 3) w).drop k = m.drop k := by
        intro x y z w k hk
        rw [List.drop_set_of_lt (by omega), List.drop_set_of_lt (by omega), List.drop_set_of_lt (by omega), List.drop_set_of_lt (by omega)]
      have := ih rest ((((m.set j (alphabet cs (a.toNat / 4))).set (j + 1) (alphabet cs (a.toNat % 4 * 16 + b.toNat / 16))).set (j + 2)
        (alphabet cs (b.toNat % 16 * 4 + c.toNat / 64))).set (j + 3) (alphabet cs (c.toNat % 64))) (i + 3) (j + 4) (by simp at hf; omega)
        (by rw [hdr _ _ _ _ _ (by omega)]; exact hd') (by omega) (by simp; omega)
      simp only [List.length_cons, Nat.add_sub_cancel] at this ⊢
      rw [show rest.length + 1 + 1 + 1 - 3 = rest.length by omega, this]
      unfold spread
      rw [hdr _ _ _ _ _ (by omega), take_put (by simp; omega), take_put (by simp; omega), take_put (by simp; omega), take_put (by omega)]
      simp [rfc4648, digits_eq]
      constructor
      · omega
      · congr 1; omega
    | [a, b], hf, hd, hji, hcap =>
      have ha := a.toNat_lt; have hb := b.toNat_lt
      have hblk : (([a, b] : Bytes).length + 2) / 3 = 1 := by simp
      rw [hblk] at hji hcap ⊢
      rw [if_neg (by simp)]
      simp only [Eff.ret_bind, List.length_cons, List.length_nil] at hcap ⊢
      unfold encOverTail
      rw [if_pos (by omega)]
      have e0 : rd m i = .ret a := rd_at (k := 0) hd (by simp)
      have e1 : rd m (i + 1) = .ret b := rd_at (k := 1) hd (by simp)
      rw [e0]
      simp only [Eff.ret_bind, byte_fc]
      rw [rd_cs hcs (by omega)]
      simp only [Eff.ret_bind]
      rw [wr_lt (by omega)]
      simp only [Eff.ret_bind]
      rw [rd_set_ne (show j ≠ i by omega), rd_set_ne (show j ≠ i + 1 by omega), e0, e1]
      simp only [Eff.ret_bind, second]
      rw [if_neg (by omega), rd_cs hcs (by omega)]
      simp only [Eff.ret_bind]
      rw [wr_lt (by simp; omega)]
      simp only [Eff.ret_bind]
      rw [rd_set_ne (show j + 1 ≠ i + 1 by omega), rd_set_ne (show j ≠ i + 1 by omega), e1]
      simp only [Eff.ret_bind, byte_0f]
      rw [Nat.shiftLeft_eq (b.toNat % 16) 2, rd_cs hcs (by omega)]
      simp only [Eff.ret_bind]
      rw [wr_lt (by simp; omega)]
      simp only [Eff.ret_bind]
      rw [wr_lt (by simp; omega)]
      simp only [Eff.ret_bind]
      have hl : (rfc4648 (alphabet cs) [a, b]).length = 4 := by rw [rfc4648_length]; simp
      unfold spread
      rw [hl]
      show Eff.ret _ = _
      congr 2
      rw [← List.take_append_drop (j + 4) (List.set _ _ _), take_put (by simp; omega), take_put (by simp; omega), take_put (by simp; omega), take_put (by omega),
        List.drop_set_of_lt (by omega), List.drop_set_of_lt (by omega), List.drop_set_of_lt (by omega), List.drop_set_of_lt (by omega)]
      simp [rfc4648, digits_eq, pad_eq]
    | [a], hf, hd, hji, hcap =>
      have ha := a.toNat_lt
      have hblk : (([a] : Bytes).length + 2) / 3 = 1 := by simp
      rw [hblk] at hji hcap ⊢
      rw [if_neg (by simp)]
      simp only [Eff.ret_bind, List.length_cons, List.length_nil] at hcap ⊢
      unfold encOverTail
      rw [if_pos (by omega)]
      have e0 : rd m i = .ret a := rd_at (k := 0) hd (by simp)
      rw [e0]
      simp only [Eff.ret_bind, byte_fc]
      rw [rd_cs hcs (by omega)]
      simp only [Eff.ret_bind]
      rw [wr_lt (by omega)]
      simp only [Eff.ret_bind]
      rw [rd_set_ne (show j ≠ i by omega), e0]
      simp only [Eff.ret_bind]
      rw [if_pos trivial, byte_03, Nat.shiftLeft_eq, rd_cs hcs (by omega)]
      simp only [Eff.ret_bind]
      rw [wr_lt (by simp; omega)]
      simp only [Eff.ret_bind]
      rw [wr_lt (by simp; omega)]
      simp only [Eff.ret_bind]
      rw [wr_lt (by simp; omega)]
      simp only [Eff.ret_bind]
      have hl : (rfc4648 (alphabet cs) [a]).length = 4 := by rw [rfc4648_length]; simp
      unfold spread
      rw [hl]
      show Eff.ret _ = _
      congr 2
      rw [← List.take_append_drop (j + 4) (List.set _ _ _), take_put (by simp; omega), take_put (by simp; omega), take_put (by simp; omega), take_put (by omega),
        List.drop_set_of_lt (by omega), List.drop_set_of_lt (by omega), List.drop_set_of_lt (by omega), List.drop_set_of_lt (by omega)]
      simp [rfc4648, digits_eq, pad_eq]
    | [], hf, hd, hji, hcap =>
      rw [if_neg (by simp)]
      simp [encOverTail, rfc4648, spread]

theorem decText_append {ix : Bytes} : ∀ (s t : Bytes), s.length % 4 = 0 → decText ix (s ++ t) = decText ix s ++ decText ix t
  | a :: b :: c :: d :: s, t, h => by
    have := decText_append (ix := ix) s t (by simp at h; omega)
    simp [decText, this]
  | [], t, _ => by simp [decText]
  | [_], _, h => by simp at h
  | [_, _], _, h => by simp at h
  | [_, _, _], _, h => by simp at h

theorem rfc4648_append (al : Nat → UInt8) : ∀ (s t : Bytes), s.length % 3 = 0 → rfc4648 al (s ++ t) = rfc4648 al s ++ rfc4648 al t
  | a :: b :: c :: s, t, h => by
    have := rfc4648_append al s t (by simp at h; omega)
    simp [rfc4648, this]
  | [], t, _ => by simp [rfc4648]
  | [_], _, h => by simp at h
  | [_, _], _, h => by simp at h

end Bdlib.B64
