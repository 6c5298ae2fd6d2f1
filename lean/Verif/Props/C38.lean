import Verif.Props.C37

/-!
# C38: base64 round trip
-/

namespace Bdlib.B64
open Bdlib Bdlib.Str Bdlib.Spec

/-- `base64Decode(base64Encode(s)) == s`, whatever lies behind the two strings in memory. -/
theorem c38_round_trip (v slack slack' : Bytes) :
    ∃ e, base64Encode v slack none = .ret e ∧ base64Decode e slack' none = .ret v :=
  ⟨_, c37_encode v slack, dec_rfc std_index rfl v slack'⟩

/-- Different strings have different encodings. -/
theorem c38_injective {v w slack slack' e : Bytes} (h : base64Encode v slack none = .ret e)
    (h' : base64Encode w slack' none = .ret e) : v = w := by
  obtain ⟨e1, h1, h2⟩ := c38_round_trip v slack []
  obtain ⟨e2, h3, h4⟩ := c38_round_trip w slack' []
  rw [h] at h1; rw [h'] at h3
  cases h1; cases h3
  rw [h2] at h4
  injection h4

set_option maxRecDepth 4000 in
example : base64Decode [65, 65, 69, 67] [] none = .ret [0, 1, 2] := by decide

end Bdlib.B64
