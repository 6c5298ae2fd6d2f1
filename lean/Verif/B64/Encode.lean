import Verif.B64.Model
import Verif.Spec.Base64

/-!
# The encoder computes RFC 4648
-/

namespace Bdlib.B64
open Bdlib Bdlib.Str Bdlib.Spec

theorem put_lt {cap : Nat} {out : Bytes} {c : UInt8} (h : out.length < cap) : put cap out c = .ret (out ++ [c]) := by
  unfold put; rw [if_pos h]

set_option maxRecDepth 4000 in
theorem byte_fc (a : UInt8) : (a.toNat &&& 0xfc) >>> 2 = a.toNat / 4 := by
  have h := a.toNat_lt
  generalize a.toNat = n at h
  have key : ∀ m : Fin 256, (m.val &&& 0xfc) >>> 2 = m.val / 4 := by decide
  exact key ⟨n, h⟩

set_option maxRecDepth 4000 in
theorem byte_f0 (a : UInt8) : (a.toNat &&& 0xf0) >>> 4 = a.toNat / 16 := by
  have h := a.toNat_lt
  generalize a.toNat = n at h
  have key : ∀ m : Fin 256, (m.val &&& 0xf0) >>> 4 = m.val / 16 := by decide
  exact key ⟨n, h⟩

set_option maxRecDepth 4000 in
theorem byte_c0 (a : UInt8) : (a.toNat &&& 0xc0) >>> 6 = a.toNat / 64 := by
  have h := a.toNat_lt
  generalize a.toNat = n at h
  have key : ∀ m : Fin 256, (m.val &&& 0xc0) >>> 6 = m.val / 64 := by decide
  exact key ⟨n, h⟩

theorem byte_03 (a : UInt8) : a.toNat &&& 0x03 = a.toNat % 4 := Nat.and_two_pow_sub_one_eq_mod _ 2
theorem byte_0f (a : UInt8) : a.toNat &&& 0x0f = a.toNat % 16 := Nat.and_two_pow_sub_one_eq_mod _ 4
theorem byte_3f (a : UInt8) : a.toNat &&& 0x3f = a.toNat % 64 := Nat.and_two_pow_sub_one_eq_mod _ 6

theorem second (a b : UInt8) : ((a.toNat &&& 0x03) <<< 4) ||| ((b.toNat &&& 0xf0) >>> 4) = a.toNat % 4 * 16 + b.toNat / 16 := by
  have h := b.toNat_lt
  rw [byte_03, byte_f0, ← Nat.shiftLeft_add_eq_or_of_lt (by omega), Nat.shiftLeft_eq]

theorem third (b c : UInt8) : ((b.toNat &&& 0x0f) <<< 2) ||| ((c.toNat &&& 0xc0) >>> 6) = b.toNat % 16 * 4 + c.toNat / 64 := by
  have h := c.toNat_lt
  rw [byte_0f, byte_c0, ← Nat.shiftLeft_add_eq_or_of_lt (by omega), Nat.shiftLeft_eq]

theorem digits_eq (a b c : UInt8) : digits a b c =
    [a.toNat / 4, a.toNat % 4 * 16 + b.toNat / 16, b.toNat % 16 * 4 + c.toNat / 64, c.toNat % 64] := by
  have ha := a.toNat_lt; have hb := b.toNat_lt; have hc := c.toNat_lt
  unfold digits
  dsimp only
  congr 1
  · omega
  congr 1
  · omega
  congr 1
  · omega
  congr 1
  omega

/-- The alphabet a charset stands for. -/
def alphabet (cs : Bytes) (k : Nat) : UInt8 := cs.getD k 0

theorem rd_cs {cs : Bytes} (h : 64 ≤ cs.length) {k : Nat} (hk : k < 64) : rd cs k = .ret (alphabet cs k) := by
  rw [rd_lt (by omega)]
  unfold alphabet
  rw [List.getD_eq_getElem?_getD, List.getElem?_eq_getElem (by omega)]
  rfl

theorem rd_at {data v tail : Bytes} {i k : Nat} (h : data.drop i = v ++ tail) (hk : k < v.length) :
    rd data (i + k) = .ret v[k] := by
  have : data[i + k]? = some v[k] := by
    rw [← List.getElem?_drop, h, List.getElem?_append_left hk, List.getElem?_eq_getElem hk]
  unfold rd
  rw [this]

/-- Length of the encoding. -/
theorem rfc4648_length (al : Nat → UInt8) : ∀ v : List UInt8, (rfc4648 al v).length = (v.length + 2) / 3 * 4
  | a :: b :: c :: rest => by
    have ih := rfc4648_length al rest
    simp only [rfc4648, List.length_append, List.length_map, List.length_cons, digits, List.length_nil]
    rw [ih]
    omega
  | [a, b] => by simp [rfc4648, digits]
  | [a] => by simp [rfc4648, digits]
  | [] => rfl

theorem pad_eq : pad = '='.toUInt8 := by decide

theorem encLoop_spec {cs data tail : Bytes} (hcs : 64 ≤ cs.length) {cap : Nat} : ∀ fuel (v : Bytes) i (out : Bytes),
    v.length < fuel → data.drop i = v ++ tail → out.length + (v.length + 2) / 3 * 4 ≤ cap →
    (encLoop cs data cap fuel i v.length out >>= fun (r : Nat × Nat × Bytes) => encTail cs data cap r.1 r.2.1 r.2.2)
      = .ret (out ++ rfc4648 (alphabet cs) v) := by
  intro fuel
  induction fuel with
  | zero => intro v i out h; omega
  | succ fuel ih =>
    intro v i out hf hd hcap
    unfold encLoop
    match v, hf, hd, hcap with
    | a :: b :: c :: rest, hf, hd, hcap =>
      have ha := a.toNat_lt; have hb := b.toNat_lt; have hc := c.toNat_lt
      simp only [List.length_cons] at hf hcap
      rw [if_pos (by simp)]
      have e0 : rd data i = .ret a := rd_at (k := 0) hd (by simp)
      have e1 : rd data (i + 1) = .ret b := rd_at (k := 1) hd (by simp)
      have e2 : rd data (i + 2) = .ret c := rd_at (k := 2) hd (by simp)
      rw [e0, e1, e2]
      simp only [Eff.ret_bind, byte_fc, second, third, byte_3f]
      rw [rd_cs hcs (by omega), rd_cs hcs (by omega), rd_cs hcs (by omega), rd_cs hcs (by omega)]
      simp only [Eff.ret_bind]
      rw [put_lt (by omega)]
      simp only [Eff.ret_bind]
      rw [put_lt (by simp; omega)]
      simp only [Eff.ret_bind]
      rw [put_lt (by simp; omega)]
      simp only [Eff.ret_bind]
      rw [put_lt (by simp; omega)]
      simp only [Eff.ret_bind]
      have hd' : data.drop (i + 3) = rest ++ tail := by
        rw [← List.drop_drop, hd]; rfl
      have := ih rest (i + 3) (out ++ [alphabet cs (a.toNat / 4)] ++ [alphabet cs (a.toNat % 4 * 16 + b.toNat / 16)]
        ++ [alphabet cs (b.toNat % 16 * 4 + c.toNat / 64)] ++ [alphabet cs (c.toNat % 64)]) (by omega) hd'
        (by simp; omega)
      simp only [List.length_cons, Nat.add_sub_cancel] at this ⊢
      rw [show rest.length + 1 + 1 + 1 - 3 = rest.length by omega, this]
      simp [rfc4648, digits_eq]
    | [a, b], hf, hd, hcap =>
      have ha := a.toNat_lt; have hb := b.toNat_lt
      rw [if_neg (by simp)]
      simp only [Eff.ret_bind, List.length_cons, List.length_nil] at hcap ⊢
      unfold encTail
      rw [if_pos (by omega)]
      have e0 : rd data i = .ret a := rd_at (k := 0) hd (by simp)
      have e1 : rd data (i + 1) = .ret b := rd_at (k := 1) hd (by simp)
      rw [e0, e1]
      simp only [Eff.ret_bind, byte_fc, second, byte_0f]
      rw [rd_cs hcs (by omega)]
      simp only [Eff.ret_bind]
      rw [put_lt (by omega)]
      simp only [Eff.ret_bind]
      rw [if_neg (by omega), Nat.shiftLeft_eq (b.toNat % 16) 2, rd_cs hcs (by omega), rd_cs hcs (by omega)]
      simp only [Eff.ret_bind]
      rw [put_lt (by simp; omega)]
      simp only [Eff.ret_bind]
      rw [put_lt (by simp; omega)]
      simp only [Eff.ret_bind]
      rw [put_lt (by simp; omega)]
      simp [rfc4648, digits_eq, pad_eq]
    | [a], hf, hd, hcap =>
      have ha := a.toNat_lt
      rw [if_neg (by simp)]
      simp only [Eff.ret_bind, List.length_cons, List.length_nil] at hcap ⊢
      unfold encTail
      rw [if_pos (by omega)]
      have e0 : rd data i = .ret a := rd_at (k := 0) hd (by simp)
      rw [e0]
      simp only [Eff.ret_bind, byte_fc]
      rw [rd_cs hcs (by omega)]
      simp only [Eff.ret_bind]
      rw [put_lt (by omega)]
      simp only [Eff.ret_bind]
      rw [if_pos trivial, byte_03, Nat.shiftLeft_eq, rd_cs hcs (by omega)]
      simp only [Eff.ret_bind]
      rw [put_lt (by simp; omega)]
      simp only [Eff.ret_bind]
      rw [put_lt (by simp; omega)]
      simp only [Eff.ret_bind]
      rw [put_lt (by simp; omega)]
      simp [rfc4648, digits_eq, pad_eq]
    | [], hf, hd, hcap =>
      rw [if_neg (by simp)]
      simp [encTail, rfc4648]

theorem encBuf_spec {cs : Bytes} (hcs : 64 ≤ cs.length) (v slack : Bytes) {cap : Nat} (hcap : (v.length + 2) / 3 * 4 ≤ cap) :
    encBuf cs (v ++ slack) v.length cap = .ret (rfc4648 (alphabet cs) v) := by
  have := encLoop_spec (data := v ++ slack) (tail := slack) (cap := cap) hcs (v.length + 1) v 0 [] (by omega) rfl (by simpa using hcap)
  rw [List.nil_append] at this
  exact this

end Bdlib.B64
