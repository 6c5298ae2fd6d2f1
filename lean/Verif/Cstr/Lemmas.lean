import Verif.Cstr.Model

/-!
# Lemmas on C strings
-/

namespace Bdlib.Cstr
open Bdlib Bdlib.Str

/-- `mem` holds the C string with the characters `txt`: they contain no NUL and a NUL follows. -/
def Holds (mem txt : Bytes) : Prop := 0 ∉ txt ∧ ∃ rest, mem = txt ++ 0 :: rest

theorem wr_lt {v : Bytes} {i : Nat} {c : UInt8} (h : i < v.length) : wr v i c = .ret (v.set i c) := by
  unfold wr; rw [if_pos h]

theorem rd_ge {v : Bytes} {i : Nat} (h : v.length ≤ i) : rd v i = .ub := by
  unfold rd; rw [List.getElem?_eq_none h]

theorem rd_txt {mem txt : Bytes} (h : Holds mem txt) {i : Nat} (hi : i < txt.length) :
    rd mem i = .ret txt[i] ∧ txt[i] ≠ 0 := by
  obtain ⟨h0, rest, rfl⟩ := h
  refine ⟨?_, fun he => h0 (by rw [← he]; exact List.getElem_mem hi)⟩
  rw [rd_lt (by simp; omega), List.getElem_append_left hi]

theorem rd_nul {mem txt : Bytes} (h : Holds mem txt) : rd mem txt.length = .ret 0 := by
  obtain ⟨h0, rest, rfl⟩ := h
  rw [rd_lt (by simp)]
  simp

theorem Holds.lt {mem txt : Bytes} (h : Holds mem txt) : txt.length < mem.length := by
  obtain ⟨h0, rest, rfl⟩ := h
  simp

theorem nulFrom_spec {mem txt : Bytes} (h : Holds mem txt) : ∀ k i, i ≤ txt.length → txt.length < i + k →
    nulFrom mem k i = .ret txt.length := by
  intro k
  induction k with
  | zero => intro i h1 h2; omega
  | succ k ih =>
    intro i h1 h2
    unfold nulFrom
    by_cases hi : i = txt.length
    · subst hi
      rw [rd_nul h]
      rfl
    · obtain ⟨e1, e2⟩ := rd_txt h (show i < txt.length by omega)
      rw [e1]
      simp only [Eff.ret_bind]
      rw [if_neg e2]
      exact ih (i + 1) (by omega) (by omega)

theorem strlen_spec {mem txt : Bytes} (h : Holds mem txt) : strlen mem = .ret txt.length :=
  nulFrom_spec h _ 0 (Nat.zero_le _) (by have := h.lt; omega)

theorem take_set_drop {v : Bytes} {p : Bytes} {i : Nat} {c : UInt8} (hp : p.length = i) (hi : i < v.length) :
    (p ++ v.drop i).set i c = p ++ [c] ++ v.drop (i + 1) := by
  subst hp
  rw [List.set_append_right _ _ (Nat.le_refl _), Nat.sub_self, List.drop_eq_getElem_cons hi, List.set_cons_zero]
  rw [List.append_assoc]
  rfl

theorem take_append_getElem {txt : Bytes} {i : Nat} (h : i < txt.length) : txt.take i ++ [txt[i]] = txt.take (i + 1) := by
  rw [List.take_succ_eq_append_getElem h]

theorem holds_txt_set {mem txt : Bytes} (h : Holds mem txt) : mem = txt ++ mem.drop txt.length := by
  obtain ⟨h0, rest, rfl⟩ := h
  simp

end Bdlib.Cstr
