import Verif.B64.Overlap
import Verif.Props.C40

/-!
# C113: base64 in pieces and in one buffer
-/

namespace Bdlib.B64
open Bdlib Bdlib.Str Bdlib.Spec

/-! ## One buffer -/

/-- **C113, decoding.**  `b64dec_buf(data, &len, dest)` with `dest` at or before `data` in the same memory, whatever the text and the
table: it writes what it would write to another buffer, and changes nothing else. -/
theorem c113_decode_overlap {ix mem : Bytes} (hix : ix.length = 256) {d e len : Nat} (hde : e ≤ d) (hr : d + blocksOf len * 4 ≤ mem.length) :
    ∃ out, decBuf ix (mem.drop d) len (blocksOf len * 3) = .ret out ∧
      decOver ix mem d e len = .ret (out.length, mem.take e ++ out ++ mem.drop (e + out.length)) := by
  have ht : ((mem.drop d).take (blocksOf len * 4)).length = 4 * blocksOf len := by rw [List.length_take, List.length_drop]; omega
  have hs : mem.drop d = (mem.drop d).take (blocksOf len * 4) ++ (mem.drop d).drop (blocksOf len * 4) := (List.take_append_drop _ _).symm
  refine ⟨decText ix ((mem.drop d).take (blocksOf len * 4)), ?_, ?_⟩
  · have := decLoop_text hix (cap := blocksOf len * 3) (blocksOf len) _ 0 [] ht hs (by show 0 + _ ≤ _; omega)
    rw [List.nil_append] at this
    exact this
  · unfold decOver
    rw [decOver_text hix (blocksOf len) _ mem d e ht hs hde]
    simp only [Eff.ret_bind]
    show Eff.ret _ = _
    rw [Nat.add_sub_cancel_left]
    rfl

/-- **C113, decoding in place.**  The encoding of `v` decoded onto itself: `v` is there, and behind it all is as before. -/
theorem c113_decode_in_place (v rest : Bytes) :
    ∃ t, base64Encode v [] none = .ret t ∧
      decOver stdIndexes (t ++ rest) 0 0 t.length = .ret (v.length, v ++ (t ++ rest).drop v.length) := by
  refine ⟨_, c37_encode v [], ?_⟩
  have hb := blocksOf_rfc (alphabet stdCharset) v
  have hl := rfc4648_length (alphabet stdCharset) v
  obtain ⟨out, h1, h2⟩ := c113_decode_overlap (ix := stdIndexes) (mem := rfc4648 (alphabet stdCharset) v ++ rest) std_index.size (d := 0) (e := 0)
    (len := (rfc4648 (alphabet stdCharset) v).length) (Nat.le_refl _) (by rw [hb, List.length_append, hl]; omega)
  have h3 := decLoop_spec std_index (data := rfc4648 (alphabet stdCharset) v ++ rest) (tail := rest) (cap := blocksOf (rfc4648 (alphabet stdCharset) v).length * 3) v 0 [] rfl
    (by rw [hb]; simp; omega)
  unfold decBuf at h1
  rw [List.drop_zero, hb] at h1
  rw [hb] at h3
  rw [h3] at h1
  cases h1
  simpa using h2

/-- **C113, encoding.**  `b64enc_buf(data, &len, dest)` with `data` at least `ceil(len / 3)` bytes behind `dest` in the same memory: it
writes the encoding of what was there, and changes nothing else. -/
theorem c113_encode_overlap {cs mem v rest : Bytes} (hcs : 64 ≤ cs.length) {d e : Nat} (hv : mem.drop d = v ++ rest) (hde : e + (v.length + 2) / 3 ≤ d)
    (hr : e + (v.length + 2) / 3 * 4 ≤ mem.length) :
    encOver cs mem d e v.length =
      .ret ((v.length + 2) / 3 * 4, mem.take e ++ rfc4648 (fun k => cs.getD k 0) v ++ mem.drop (e + (v.length + 2) / 3 * 4)) := by
  have h := encOver_text hcs (v.length + 1) v mem d e (by omega) hv hde hr
  unfold encOver
  cases hl : encOverLoop cs (v.length + 1) d e v.length mem with
  | ret r =>
    rw [hl] at h
    simp only [Eff.ret_bind] at h ⊢
    rw [h]
    simp only [Eff.ret_bind]
    show Eff.ret _ = _
    rw [Nat.add_sub_cancel_left]
    unfold spread
    rw [rfc4648_length]
    rfl
  | _ => rw [hl] at h; cases h

/-- **C113, encoding in place.**  If the last bytes of a buffer of just the size of the encoding are encoded into it, the encoding
fills it. -/
theorem c113_encode_at_end {cs gap v : Bytes} (hcs : 64 ≤ cs.length) (hl : gap.length + v.length = (v.length + 2) / 3 * 4) :
    encOver cs (gap ++ v) gap.length 0 v.length = .ret ((v.length + 2) / 3 * 4, rfc4648 (fun k => cs.getD k 0) v) := by
  have := c113_encode_overlap (mem := gap ++ v) (rest := []) (d := gap.length) (e := 0) hcs (v := v) (by simp) (by omega) (by simp; omega)
  rw [this, List.take_zero, List.nil_append, List.drop_eq_nil_of_le (by simp; omega), List.append_nil]

/-! ## Pieces -/

/-- **C113, encoding in pieces.**  If the pieces, but for the last, have lengths divisible by three, their encodings one behind the other are the encoding
of the whole. -/
theorem c113_encode_pieces (a b s s' s'' : Bytes) (charset : Option Bytes) (hcs : ∀ cs, charset = some cs → 64 ≤ cs.length) (ha : a.length % 3 = 0) :
    ∃ ea eb, base64Encode a s charset = .ret ea ∧ base64Encode b s' charset = .ret eb ∧ base64Encode (a ++ b) s'' charset = .ret (ea ++ eb) := by
  cases charset with
  | none => exact ⟨_, _, c37_encode a s, c37_encode b s', by rw [c37_encode, rfc4648_append _ _ _ ha]⟩
  | some cs =>
    have h := hcs cs rfl
    exact ⟨_, _, c37_encode_charset a s cs h, c37_encode_charset b s' cs h, by rw [c37_encode_charset _ _ cs h, rfc4648_append _ _ _ ha]⟩

theorem dec_text {charset : Option Bytes} {ix : Bytes} (hsel : indexFor charset = .ret ix) (hix : ix.length = 256) (t slack : Bytes) (ht : t.length % 4 = 0) :
    base64Decode t slack charset = .ret (decText ix t) := by
  have hb : blocksOf t.length = t.length / 4 := by unfold blocksOf; rw [if_neg (by omega)]; omega
  have hbound : ∀ (n : Nat) (u : Bytes), u.length = 4 * n → (decText ix u).length ≤ 3 * n := by
    intro n u hu
    obtain ⟨r, h1, h2⟩ := decLoop_safe (data := u) hix (cap := 3 * n) n 0 [] (by omega) (by simp)
    have h3 := decLoop_text hix (cap := 3 * n) (data := u) (tail := []) n u 0 [] hu (by simp) (by simp)
    rw [h3] at h1
    cases h1
    simpa using h2
  unfold base64Decode dec
  rw [hsel]
  simp only [Eff.ret_bind]
  unfold decBuf
  rw [hb, decLoop_text hix (tail := slack) (t.length / 4) t 0 [] (by omega) rfl (by simp; omega)]
  simp only [Eff.ret_bind, List.nil_append]
  rw [put_lt (by have := hbound (t.length / 4) t (by omega); omega)]
  rfl

theorem index_length {charset : Option Bytes} (hcs : ∀ cs, charset = some cs → Charset cs) : ∃ ix, indexFor charset = .ret ix ∧ ix.length = 256 ∧
    IndexOf (charset.getD stdCharset) ix := by
  cases charset with
  | none => exact ⟨_, rfl, std_index.size, std_index⟩
  | some cs =>
    obtain ⟨ix, h1, h2⟩ := (hcs cs rfl).index
    exact ⟨ix, h1, h2.size, h2⟩

/-- **C113, decoding in pieces.**  Texts whose lengths are divisible by four, valid or not, decode one behind the other to what they decode to alone. -/
theorem c113_decode_pieces (a b s s' s'' : Bytes) (charset : Option Bytes) (hcs : ∀ cs, charset = some cs → Charset cs) (ha : a.length % 4 = 0)
    (hb : b.length % 4 = 0) :
    ∃ ra rb, base64Decode a s charset = .ret ra ∧ base64Decode b s' charset = .ret rb ∧ base64Decode (a ++ b) s'' charset = .ret (ra ++ rb) := by
  obtain ⟨ix, h1, h2, -⟩ := index_length hcs
  exact ⟨_, _, dec_text h1 h2 a s ha, dec_text h1 h2 b s' hb,
    by rw [dec_text h1 h2 (a ++ b) s'' (by rw [List.length_append]; omega), decText_append _ _ ha]⟩

/-- **C113, encodings one behind the other.**  However a text was cut into pieces, and though all their encodings may have padding, decoding them together gives the text. -/
theorem c113_decode_concat (vs : List Bytes) (slack : Bytes) (charset : Option Bytes) (hcs : ∀ cs, charset = some cs → Charset cs) :
    ∃ es : List Bytes, es.length = vs.length ∧ (∀ (i : Nat) v e, vs[i]? = some v → es[i]? = some e → base64Encode v [] charset = .ret e) ∧
      base64Decode es.flatten slack charset = .ret vs.flatten := by
  obtain ⟨ix, h1, h2, h3⟩ := index_length hcs
  have henc : ∀ v, base64Encode v [] charset = .ret (rfc4648 (alphabet (charset.getD stdCharset)) v) := by
    intro v
    cases charset with
    | none => exact c37_encode v []
    | some cs =>
      have h64 : 64 ≤ cs.length := (hcs cs rfl).size
      exact c37_encode_charset v [] cs h64
  refine ⟨vs.map (rfc4648 (alphabet (charset.getD stdCharset))), by simp, ?_, ?_⟩
  · intro i v e hv he
    rw [List.getElem?_map, hv] at he
    cases he
    exact henc v
  have hlen : ∀ us : List Bytes, (us.map (rfc4648 (alphabet (charset.getD stdCharset)))).flatten.length % 4 = 0 := by
    intro us
    induction us with
    | nil => rfl
    | cons u us ih => rw [List.map_cons, List.flatten_cons, List.length_append, rfc4648_length]; omega
  rw [dec_text h1 h2 _ slack (hlen vs)]
  congr 1
  induction vs with
  | nil => rfl
  | cons v vs ih =>
    rw [List.map_cons, List.flatten_cons, List.flatten_cons, decText_append _ _ (by rw [rfc4648_length]; omega), ih]
    congr 1
    have h4 := dec_text h1 h2 (rfc4648 (alphabet (charset.getD stdCharset)) v) [] (by rw [rfc4648_length]; omega)
    rw [dec_rfc h3 h1 v []] at h4
    injection h4 with h5
    exact h5.symm

/-! ## Cases that meet the hypotheses, and cases that do not -/

set_option maxRecDepth 8000

/-- "QUJDRA==" decoded onto itself. -/
example : decOver stdIndexes [81, 85, 74, 68, 82, 65, 61, 61, 9] 0 0 8 = .ret (4, [65, 66, 67, 68, 82, 65, 61, 61, 9]) := by decide +kernel

/-- "ABCD" at the end of eight bytes encoded into them. -/
example : encOver stdCharset [0, 0, 0, 0, 65, 66, 67, 68] 4 0 4 = .ret (8, [81, 85, 74, 68, 82, 65, 61, 61]) := by decide +kernel

/-- Encoding onto itself is another thing: "ABC" gives "QUVW" instead of "QUJD".  One byte less than `ceil(len / 3)` is not enough: "ABCDEF" gives "QUJDRkt0"
instead of "QUJDREVG". -/
example : encOver stdCharset [65, 66, 67, 0] 0 0 3 = .ret (4, [81, 85, 86, 87]) ∧ base64Encode [65, 66, 67] [] none = .ret [81, 85, 74, 68] ∧
    encOver stdCharset [0, 65, 66, 67, 68, 69, 70, 0] 1 0 6 = .ret (8, [81, 85, 74, 68, 82, 107, 116, 48]) ∧
    encOver stdCharset [0, 0, 65, 66, 67, 68, 69, 70] 2 0 6 = .ret (8, [81, 85, 74, 68, 82, 69, 86, 71]) := by decide +kernel

/-- "A" and "BC", encoded and decoded together: "QQ==" "QkM=". -/
example : base64Encode [65] [] none = .ret [81, 81, 61, 61] ∧ base64Encode [66, 67] [] none = .ret [81, 107, 77, 61] ∧
    base64Decode [81, 81, 61, 61, 81, 107, 77, 61] [0] none = .ret [65, 66, 67] := by decide +kernel

/-- Also with the URL-safe characters. -/
example : ∃ ra rb, base64Decode [81, 81, 61, 61] [] (some (stdCharset.take 62 ++ [45, 95])) = .ret ra ∧ base64Decode [45, 95, 95, 45] [] (some (stdCharset.take 62 ++ [45, 95])) = .ret rb ∧
    base64Decode ([81, 81, 61, 61] ++ [45, 95, 95, 45]) [] (some (stdCharset.take 62 ++ [45, 95])) = .ret (ra ++ rb) :=
  c113_decode_pieces _ _ _ _ _ _ (fun cs h => by cases h; exact c40_url) rfl rfl

end Bdlib.B64
