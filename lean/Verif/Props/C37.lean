import Verif.B64.Decode

/-!
# C37: `base64Encode` implements RFC 4648

`rfc4648` is in `Spec/Base64.lean`.  The encoder is undefined in the model as soon as it reads outside its
input or writes outside its destination, so each result below also says that it does not.
-/

namespace Bdlib.B64
open Bdlib Bdlib.Str Bdlib.Spec

/-- `base64Encode(s)`. -/
theorem c37_encode (v slack : Bytes) : base64Encode v slack none = .ret (rfc4648 (alphabet stdCharset) v) := by
  unfold base64Encode enc
  dsimp only
  rw [show (none : Option Bytes).getD stdCharset = stdCharset from rfl, encBuf_spec (by decide) v slack (by omega)]
  simp only [Eff.ret_bind]
  rw [put_lt (by rw [rfc4648_length]; omega)]
  rfl

/-- `base64Encode(s, charset)`, for any 64 characters. -/
theorem c37_encode_charset (v slack cs : Bytes) (hcs : 64 ≤ cs.length) :
    base64Encode v slack (some cs) = .ret (rfc4648 (fun k => cs.getD k 0) v) := by
  unfold base64Encode enc
  dsimp only
  rw [show (some cs).getD stdCharset = cs from rfl, encBuf_spec hcs v slack (by omega)]
  simp only [Eff.ret_bind]
  rw [put_lt (by rw [rfc4648_length]; omega)]
  rfl

/-- `b64enc_buf` stays inside a destination of `4 * ceil(len / 3)` bytes. -/
theorem c37_buf (v slack cs : Bytes) (hcs : 64 ≤ cs.length) {cap : Nat} (hcap : (v.length + 2) / 3 * 4 ≤ cap) :
    encBuf cs (v ++ slack) v.length cap = .ret (rfc4648 (fun k => cs.getD k 0) v) := encBuf_spec hcs v slack hcap

/-- The alphabet is that of the RFC: `A-Z`, `a-z`, `0-9`, `+`, `/`. -/
theorem c37_alphabet : (List.range 64).map (alphabet stdCharset) =
    ("ABCDEFGHIJKLMNOPQRSTUVWXYZabcdefghijklmnopqrstuvwxyz0123456789+/".toList.map Char.toUInt8) := by decide

/-- Length of the result. -/
theorem c37_length (al : Nat → UInt8) (v : Bytes) : (rfc4648 al v).length = (v.length + 2) / 3 * 4 := rfc4648_length al v

/-- Every character of the result is one of the 64 or `=`. -/
theorem c37_characters (al : Nat → UInt8) : ∀ (v : Bytes), ∀ c ∈ rfc4648 al v, c = '='.toUInt8 ∨ ∃ k, k < 64 ∧ c = al k
  | a :: b :: d :: rest, c, hc => by
    have ha := a.toNat_lt; have hb := b.toNat_lt; have hd := d.toNat_lt
    simp only [rfc4648, digits_eq, List.mem_append, List.map_cons, List.map_nil, List.mem_cons] at hc
    rcases hc with (h | h | h | h | h) | h
    · exact Or.inr ⟨_, by omega, h⟩
    · exact Or.inr ⟨_, by omega, h⟩
    · exact Or.inr ⟨_, by omega, h⟩
    · exact Or.inr ⟨_, by omega, h⟩
    · cases h
    · exact c37_characters al rest c h
  | [a, b], c, hc => by
    have ha := a.toNat_lt; have hb := b.toNat_lt; have hz : (0 : UInt8).toNat = 0 := rfl
    simp only [rfc4648, digits_eq, List.take_succ_cons, List.take_zero, List.mem_append, List.map_cons, List.map_nil,
      List.mem_cons] at hc
    rcases hc with (h | h | h | h) | h | h
    · exact Or.inr ⟨_, by omega, h⟩
    · exact Or.inr ⟨_, by omega, h⟩
    · exact Or.inr ⟨_, by omega, h⟩
    · cases h
    · exact Or.inl h
    · cases h
  | [a], c, hc => by
    have ha := a.toNat_lt; have hz : (0 : UInt8).toNat = 0 := rfl
    simp only [rfc4648, digits_eq, List.take_succ_cons, List.take_zero, List.mem_append, List.map_cons, List.map_nil,
      List.mem_cons] at hc
    rcases hc with (h | h | h) | h | h | h
    · exact Or.inr ⟨_, by omega, h⟩
    · exact Or.inr ⟨_, by omega, h⟩
    · cases h
    · exact Or.inl h
    · exact Or.inl h
    · cases h
  | [], c, hc => by cases hc

/-- "foob" is "Zm9vYg==" (RFC 4648, section 10). -/
example : base64Encode [102, 111, 111, 98] [] none = .ret [90, 109, 57, 118, 89, 103, 61, 61] := by decide
example : rfc4648 (alphabet stdCharset) [102, 111, 111, 98] = "Zm9vYg==".toList.map Char.toUInt8 := by decide

end Bdlib.B64
