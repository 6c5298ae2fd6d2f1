import Verif.B64.Encode

/-!
# The decoder inverts the encoder
-/

namespace Bdlib.B64
open Bdlib Bdlib.Str Bdlib.Spec

/-- `ix` is an index table for the charset `cs`. -/
structure IndexOf (cs ix : Bytes) : Prop where
  size : ix.length = 256
  inv : ∀ k, k < 64 → ix[(alphabet cs k).toNat]? = some (UInt8.ofNat k)
  noPad : ∀ k, k < 64 → alphabet cs k ≠ pad

theorem IndexOf.rd {cs ix : Bytes} (h : IndexOf cs ix) {k : Nat} (hk : k < 64) :
    Bdlib.rd ix (alphabet cs k).toNat = .ret (UInt8.ofNat k) := by
  unfold Bdlib.rd
  rw [h.inv k hk]

theorem part1 {d : Nat} (h : d < 64) : ((UInt8.ofNat d) <<< 2).toNat = d * 4 := by
  have key : ∀ m : Fin 64, ((UInt8.ofNat m.val) <<< 2).toNat = m.val * 4 := by decide
  exact key ⟨d, h⟩
theorem part2 {d : Nat} (h : d < 64) : ((UInt8.ofNat d &&& 0x30) >>> 4).toNat = d / 16 := by
  have key : ∀ m : Fin 64, ((UInt8.ofNat m.val &&& 0x30) >>> 4).toNat = m.val / 16 := by decide
  exact key ⟨d, h⟩
theorem part3 {d : Nat} (h : d < 64) : ((UInt8.ofNat d &&& 0x0f) <<< 4).toNat = d % 16 * 16 := by
  have key : ∀ m : Fin 64, ((UInt8.ofNat m.val &&& 0x0f) <<< 4).toNat = m.val % 16 * 16 := by decide
  exact key ⟨d, h⟩
theorem part4 {d : Nat} (h : d < 64) : ((UInt8.ofNat d &&& 0x3c) >>> 2).toNat = d / 4 := by
  have key : ∀ m : Fin 64, ((UInt8.ofNat m.val &&& 0x3c) >>> 2).toNat = m.val / 4 := by decide
  exact key ⟨d, h⟩
theorem part5 {d : Nat} (h : d < 64) : ((UInt8.ofNat d &&& 0x03) <<< 6).toNat = d % 4 * 64 := by
  have key : ∀ m : Fin 64, ((UInt8.ofNat m.val &&& 0x03) <<< 6).toNat = m.val % 4 * 64 := by decide
  exact key ⟨d, h⟩

theorem byte1 (a b : UInt8) : (UInt8.ofNat (a.toNat / 4) <<< 2) +
    ((UInt8.ofNat (a.toNat % 4 * 16 + b.toNat / 16) &&& 0x30) >>> 4) = a := by
  have ha := a.toNat_lt; have hb := b.toNat_lt
  apply UInt8.toNat_inj.mp
  rw [UInt8.toNat_add, part1 (by omega), part2 (by omega)]
  omega

theorem byte2 (a b c : UInt8) : ((UInt8.ofNat (a.toNat % 4 * 16 + b.toNat / 16) &&& 0x0f) <<< 4) +
    ((UInt8.ofNat (b.toNat % 16 * 4 + c.toNat / 64) &&& 0x3c) >>> 2) = b := by
  have ha := a.toNat_lt; have hb := b.toNat_lt; have hc := c.toNat_lt
  apply UInt8.toNat_inj.mp
  rw [UInt8.toNat_add, part3 (by omega), part4 (by omega)]
  omega

theorem byte3 (b c : UInt8) : ((UInt8.ofNat (b.toNat % 16 * 4 + c.toNat / 64) &&& 0x03) <<< 6) +
    UInt8.ofNat (c.toNat % 64) = c := by
  have hb := b.toNat_lt; have hc := c.toNat_lt
  apply UInt8.toNat_inj.mp
  rw [UInt8.toNat_add, part5 (by omega), UInt8.toNat_ofNat']
  omega

theorem decLoop_spec {cs ix data tail : Bytes} (hix : IndexOf cs ix) {cap : Nat} : ∀ (v : Bytes) i (out : Bytes),
    data.drop i = rfc4648 (alphabet cs) v ++ tail → out.length + v.length ≤ cap →
    decLoop ix data cap ((v.length + 2) / 3) i out = .ret (out ++ v)
  | a :: b :: c :: rest, i, out, hd, hcap => by
    have ha := a.toNat_lt; have hb := b.toNat_lt; have hc := c.toNat_lt
    simp only [List.length_cons] at hcap
    have hblk : ((a :: b :: c :: rest).length + 2) / 3 = (rest.length + 2) / 3 + 1 := by simp; omega
    rw [hblk]
    simp only [rfc4648, digits_eq, List.map_cons, List.map_nil, List.cons_append, List.nil_append] at hd
    have e0 := rd_at (v := _ :: _ :: _ :: _ :: (rfc4648 (alphabet cs) rest)) (k := 0) hd (by simp)
    have e1 := rd_at (v := _ :: _ :: _ :: _ :: (rfc4648 (alphabet cs) rest)) (k := 1) hd (by simp)
    have e2 := rd_at (v := _ :: _ :: _ :: _ :: (rfc4648 (alphabet cs) rest)) (k := 2) hd (by simp)
    have e3 := rd_at (v := _ :: _ :: _ :: _ :: (rfc4648 (alphabet cs) rest)) (k := 3) hd (by simp)
    simp only [List.getElem_cons_zero, List.getElem_cons_succ, Nat.add_zero] at e0 e1 e2 e3
    unfold decLoop
    rw [e0, e1, e2, e3]
    simp only [Eff.ret_bind]
    rw [hix.rd (by omega), hix.rd (by omega), hix.rd (by omega), hix.rd (by omega)]
    simp only [Eff.ret_bind, byte1, byte2, byte3]
    rw [put_lt (by omega)]
    simp only [Eff.ret_bind]
    rw [if_pos (hix.noPad _ (by omega)), put_lt (by simp; omega)]
    simp only [Eff.ret_bind]
    rw [if_pos (hix.noPad _ (by omega)), put_lt (by simp; omega)]
    simp only [Eff.ret_bind]
    have hd' : data.drop (i + 4) = rfc4648 (alphabet cs) rest ++ tail := by
      rw [← List.drop_drop, hd]; rfl
    rw [decLoop_spec hix rest (i + 4) _ hd' (by simp; omega)]
    simp
  | [a, b], i, out, hd, hcap => by
    have ha := a.toNat_lt; have hb := b.toNat_lt; have hz : (0 : UInt8).toNat = 0 := rfl
    simp only [List.length_cons, List.length_nil] at hcap
    have hblk : (([a, b] : Bytes).length + 2) / 3 = 0 + 1 := by simp
    rw [hblk]
    simp only [rfc4648, digits_eq, List.map_cons, List.map_nil, List.cons_append, List.nil_append, List.take_succ_cons,
      List.take_zero] at hd
    have e0 := rd_at (v := [_, _, _, _]) (k := 0) hd (by simp)
    have e1 := rd_at (v := [_, _, _, _]) (k := 1) hd (by simp)
    have e2 := rd_at (v := [_, _, _, _]) (k := 2) hd (by simp)
    have e3 := rd_at (v := [_, _, _, _]) (k := 3) hd (by simp)
    simp only [List.getElem_cons_zero, List.getElem_cons_succ, Nat.add_zero] at e0 e1 e2 e3
    unfold decLoop
    rw [e0, e1, e2, e3]
    simp only [Eff.ret_bind]
    rw [hix.rd (by omega), hix.rd (by omega), hix.rd (by omega)]
    simp only [Eff.ret_bind, byte1, byte2]
    rw [put_lt (by omega)]
    simp only [Eff.ret_bind]
    rw [if_pos (hix.noPad _ (by omega)), put_lt (by simp; omega)]
    simp only [Eff.ret_bind]
    rw [if_neg (by rw [pad_eq]; simp)]
    simp [decLoop]
  | [a], i, out, hd, hcap => by
    have ha := a.toNat_lt
    simp only [List.length_cons, List.length_nil] at hcap
    have hblk : (([a] : Bytes).length + 2) / 3 = 0 + 1 := by simp
    rw [hblk]
    simp only [rfc4648, digits_eq, List.map_cons, List.map_nil, List.cons_append, List.nil_append, List.take_succ_cons,
      List.take_zero] at hd
    have e0 := rd_at (v := [_, _, _, _]) (k := 0) hd (by simp)
    have e1 := rd_at (v := [_, _, _, _]) (k := 1) hd (by simp)
    have e2 := rd_at (v := [_, _, _, _]) (k := 2) hd (by simp)
    simp only [List.getElem_cons_zero, List.getElem_cons_succ, Nat.add_zero] at e0 e1 e2
    unfold decLoop
    rw [e0, e1, e2]
    simp only [Eff.ret_bind]
    rw [hix.rd (by omega), hix.rd (by simp; omega)]
    simp only [Eff.ret_bind, byte1]
    rw [put_lt (by omega)]
    simp only [Eff.ret_bind]
    rw [if_neg (by rw [pad_eq]; simp)]
    simp [decLoop]
  | [], i, out, hd, hcap => by simp [decLoop]

/-- Whenever all blocks can be read, decoding is defined: at most three bytes come out of each block. -/
theorem decLoop_safe {ix data : Bytes} (hix : ix.length = 256) {cap : Nat} : ∀ blocks i (out : Bytes),
    i + 4 * blocks ≤ data.length → out.length + 3 * blocks ≤ cap →
    ∃ r, decLoop ix data cap blocks i out = .ret r ∧ r.length ≤ out.length + 3 * blocks
  | 0, i, out, _, _ => ⟨out, rfl, by omega⟩
  | blocks + 1, i, out, hd, hcap => by
    have hrd : ∀ c : UInt8, rd ix c.toNat = .ret (ix[c.toNat]'(by have := c.toNat_lt; omega)) := fun c => rd_lt _
    unfold decLoop
    rw [rd_lt (show i < data.length by omega), rd_lt (show i + 1 < data.length by omega),
      rd_lt (show i + 2 < data.length by omega), rd_lt (show i + 3 < data.length by omega)]
    simp only [Eff.ret_bind, hrd]
    rw [put_lt (by omega)]
    simp only [Eff.ret_bind]
    split
    · rw [put_lt (by simp; omega)]
      simp only [Eff.ret_bind]
      split
      · rw [put_lt (by simp; omega)]
        simp only [Eff.ret_bind]
        obtain ⟨r, h1, h2⟩ := decLoop_safe (data := data) hix (cap := cap) blocks (i + 4) (out ++ [_] ++ [_] ++ [_]) (by omega) (by simp; omega)
        exact ⟨r, h1, by simp at h2; omega⟩
      · obtain ⟨r, h1, h2⟩ := decLoop_safe (data := data) hix (cap := cap) blocks (i + 4) (out ++ [_] ++ [_]) (by omega) (by simp; omega)
        exact ⟨r, h1, by simp at h2; omega⟩
    · obtain ⟨r, h1, h2⟩ := decLoop_safe (data := data) hix (cap := cap) blocks (i + 4) (out ++ [_]) (by omega) (by simp; omega)
      exact ⟨r, h1, by simp at h2; omega⟩

/-! ## Index tables -/

set_option maxRecDepth 4000 in
theorem std_index : IndexOf stdCharset stdIndexes where
  size := by decide
  inv := by
    have key : ∀ k : Fin 64, stdIndexes[(alphabet stdCharset k.val).toNat]? = some (UInt8.ofNat k.val) := by decide
    exact fun k hk => key ⟨k, hk⟩
  noPad := by
    have key : ∀ k : Fin 64, alphabet stdCharset k.val ≠ pad := by decide
    exact fun k hk => key ⟨k, hk⟩

/-- A usable character set: 64 different ASCII characters other than `=`. -/
structure Charset (cs : Bytes) : Prop where
  size : 64 ≤ cs.length
  ascii : ∀ c ∈ cs.take 64, c.toNat < 128
  distinct : (cs.take 64).Nodup
  noPad : '='.toUInt8 ∉ cs.take 64

theorem Charset.mem {cs : Bytes} (h : Charset cs) {k : Nat} (hk : k < 64) : alphabet cs k ∈ cs.take 64 := by
  have hs := h.size
  have : (cs.take 64)[k]? = some (alphabet cs k) := by
    rw [List.getElem?_take, if_pos hk]
    unfold alphabet
    rw [List.getD_eq_getElem?_getD, List.getElem?_eq_getElem (by omega)]
    rfl
  exact List.mem_of_getElem? this

theorem Charset.inj {cs : Bytes} (h : Charset cs) {j k : Nat} (hj : j < 64) (hk : k < 64)
    (he : alphabet cs j = alphabet cs k) : j = k := by
  have hs := h.size
  have e : ∀ {k : Nat}, k < 64 → (cs.take 64)[k]? = some (alphabet cs k) := by
    intro k hk
    rw [List.getElem?_take, if_pos hk]
    unfold alphabet
    rw [List.getD_eq_getElem?_getD, List.getElem?_eq_getElem (by omega)]
    rfl
  have hl : (cs.take 64).length = 64 := by simp; omega
  have h1 := e hj
  have h2 := e hk
  rw [he] at h1
  rw [List.getElem?_eq_getElem (by omega)] at h1 h2
  have := h.distinct
  exact (List.getElem_inj this).mp (Option.some.inj (h1.trans h2.symm))

theorem fillIndex_spec {cs : Bytes} (h : Charset cs) : ∀ k i (ix : Bytes), i + k = 64 → ix.length = 256 →
    (∀ j, j < i → ix[(alphabet cs j).toNat]? = some (UInt8.ofNat j)) →
    ∃ ix', fillIndex cs k i ix = .ret ix' ∧ ix'.length = 256 ∧
      ∀ j, j < 64 → ix'[(alphabet cs j).toNat]? = some (UInt8.ofNat j)
  | 0, i, ix, hi, hl, hinv => ⟨ix, rfl, hl, fun j hj => hinv j (by omega)⟩
  | k + 1, i, ix, hi, hl, hinv => by
    unfold fillIndex
    rw [rd_cs h.size (by omega)]
    simp only [Eff.ret_bind]
    rw [if_pos (h.ascii _ (h.mem (by omega)))]
    refine fillIndex_spec h k (i + 1) _ (by omega) (by simp [hl]) fun j hj => ?_
    have hlt := (alphabet cs i).toNat_lt
    by_cases hji : j = i
    · subst hji
      rw [List.getElem?_set_self (by omega)]
    · rw [List.getElem?_set_ne, hinv j (by omega)]
      intro he
      exact hji (h.inj (by omega) (by omega) (UInt8.toNat_inj.mp he).symm)

theorem Charset.index {cs : Bytes} (h : Charset cs) :
    ∃ ix, fillIndex cs 64 0 (List.replicate 256 255) = .ret ix ∧ IndexOf cs ix := by
  obtain ⟨ix, h1, h2, h3⟩ := fillIndex_spec h 64 0 (List.replicate 256 255) rfl (List.length_replicate) (fun j hj => by omega)
  exact ⟨ix, h1, h2, h3, fun k hk he => h.noPad (by rw [← pad_eq, ← he]; exact h.mem hk)⟩

theorem blocksOf_rfc (al : Nat → UInt8) (v : Bytes) : blocksOf (rfc4648 al v).length = (v.length + 2) / 3 := by
  rw [rfc4648_length]
  unfold blocksOf
  split <;> omega

theorem dec_rfc {charset : Option Bytes} {cs ix : Bytes} (hix : IndexOf cs ix)
    (hsel : indexFor charset = .ret ix)
    (v slack : Bytes) : base64Decode (rfc4648 (alphabet cs) v) slack charset = .ret v := by
  unfold base64Decode dec
  rw [hsel]
  simp only [Eff.ret_bind]
  unfold decBuf
  rw [blocksOf_rfc, decLoop_spec hix v 0 [] rfl (by simp; omega)]
  simp only [Eff.ret_bind, List.nil_append]
  rw [put_lt (by omega)]
  rfl

end Bdlib.B64
