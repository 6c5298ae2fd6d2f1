import Verif.Af.Path

/-!
# C51: the temporary file is in the target's directory

`entryOf` (`Spec/Path.lean`): the directory entry a path denotes.  Partial: names of up to 4085 bytes; the
template is made by `String::printf`, which reads out of bounds for longer ones (`c51_refuted_long`).
-/

namespace Bdlib.Af
open Bdlib Bdlib.Str Bdlib.Spec

section
variable [Tree]

/-- The name `mkstemp` makes of a template. -/
def filled (t sfx : Bytes) : Bytes := t.take (t.length - 6) ++ sfx

theorem filled_append (a sfx : Bytes) : filled (a ++ xs) sfx = a ++ sfx := by
  unfold filled
  simp [xs]

/-- What the template is. -/
theorem template_cases {L : Libc} (hL : L.Ok) {fname : Bytes} (h0 : 0 ∉ fname) (hl : fname.length ≤ 4085) :
    ∃ a, template L fname = .ret (a ++ xs) ∧ ∀ sfx, 47 ∉ sfx →
      (entryOf (a ++ sfx)).dir = (entryOf fname).dir ∧
      ((entryOf (a ++ sfx)).name = (entryOf fname).name ++ [46] ++ sfx ∨
       (entryOf (a ++ sfx)).name = [46] ++ (entryOf fname).name ++ [46] ++ sfx) := by
  by_cases hs : 47 ∈ fname
  · obtain ⟨d, b, rfl, hb⟩ := last_slash hs
    refine ⟨d ++ 47 :: ([46] ++ 47 :: (b ++ [46])), ?_, fun sfx hx => ?_⟩
    · rw [template_slash hL hb h0 (by omega)]
      simp
    · have e : d ++ 47 :: ([46] ++ 47 :: (b ++ [46])) ++ sfx = (d ++ 47 :: [46]) ++ 47 :: (b ++ [46] ++ sfx) := by simp
      have hn : 47 ∉ b ++ [46] ++ sfx := by simp [hb, hx]
      rw [e, entryOf_slash _ hn, entryOf_slash d hb]
      refine ⟨?_, .inl rfl⟩
      rw [pieces_append]
      cases d <;> simp [pieces]
  · refine ⟨[46] ++ 47 :: ([46] ++ fname ++ [46]), ?_, fun sfx hx => ?_⟩
    · rw [template_noslash hL hs h0 hl]
      simp
    · have e : [46] ++ 47 :: ([46] ++ fname ++ [46]) ++ sfx = [46] ++ 47 :: ([46] ++ fname ++ [46] ++ sfx) := by simp
      have hn : 47 ∉ [46] ++ fname ++ [46] ++ sfx := by simp [hs, hx]
      rw [e, entryOf_slash _ hn, entryOf_noslash hs]
      refine ⟨by simp [pieces], .inr rfl⟩

/-- For every file name the temporary file is an entry of the same directory, whose own name is the target's
with a suffix (and possibly a dot in front): never the target itself. -/
theorem c51_same_directory_partial {L : Libc} (hL : L.Ok) {fname : Bytes} (h0 : 0 ∉ fname) (hl : fname.length ≤ 4085) :
    ∃ t, template L fname = .ret t ∧ ∀ sfx, 47 ∉ sfx →
      (entryOf (filled t sfx)).dir = (entryOf fname).dir ∧
      entryOf (filled t sfx) ≠ entryOf fname ∧ ∃ p, (p = [] ∨ p = [46]) ∧
        (entryOf (filled t sfx)).name = p ++ (entryOf fname).name ++ [46] ++ sfx := by
  obtain ⟨a, h1, h2⟩ := template_cases hL h0 hl
  refine ⟨_, h1, fun sfx hx => ?_⟩
  rw [filled_append]
  obtain ⟨h3, h5⟩ := h2 sfx hx
  refine ⟨h3, fun he => ?_, ?_⟩
  · rw [he] at h5
    rcases h5 with h5 | h5
    · have := congrArg List.length h5
      simp at this
    · have := congrArg List.length h5
      simp at this
      omega
  · rcases h5 with h5 | h5
    · exact ⟨[], .inl rfl, h5⟩
    · exact ⟨[46], .inr rfl, h5⟩

/-- Refutation for all names: one of 5000 bytes (a path the system would reject) makes `open` read out of
bounds. -/
theorem c51_refuted_long {L : Libc} (hL : L.Ok) (S : Sys) (w : World) (fresh : Nat) (mode : Option Nat) :
    «open» L S w fresh (List.replicate 5000 97) mode = .ub := by
  have hs : (47 : UInt8) ∉ List.replicate 5000 (97 : UInt8) := by
    intro h; have := (List.mem_replicate.1 h).2; simp at this
  have h0 : (0 : UInt8) ∉ List.replicate 5000 (97 : UInt8) := by
    intro h; have := (List.mem_replicate.1 h).2; simp at this
  have hl : (List.replicate 5000 (97 : UInt8)).length = 5000 := List.length_replicate ..
  revert hs h0 hl
  generalize List.replicate 5000 (97 : UInt8) = b
  intro hs h0 hl
  unfold «open» template
  rw [rfind_noslash hL hs (by unfold npos; omega)]
  simp only [Eff.ret_bind, if_true]
  have e1 := slice_rest (v := b) (i := 0) (by unfold maxInt; omega)
  rw [show ((0 : Nat) : Int) = 0 from rfl] at e1 ⊢
  rw [e1]
  simp only [Eff.ret_bind, List.drop_zero]
  rw [cstr_id (by decide), cstr_id h0, c36_refuted_long]
  · rfl
  · simp only [List.length_append, List.length_cons, List.length_nil]; omega

/-- "/tmp/f" is written through "/tmp/./f.XXXXXX", "f" through "./.f.XXXXXX". -/
example : template glibc [47, 116, 109, 112, 47, 102] =
    .ret [47, 116, 109, 112, 47, 46, 47, 102, 46, 88, 88, 88, 88, 88, 88] :=
  template_slash glibc_ok (d := [47, 116, 109, 112]) (b := [102]) (by decide) (by decide) (by decide)
example : template glibc [102] = .ret [46, 47, 46, 102, 46, 88, 88, 88, 88, 88, 88] :=
  template_noslash glibc_ok (by decide) (by decide) (by decide)

end

attribute [local instance] linkTree

/-- "l/f", where `l` is a link to the directory `d/e`: the temporary file is made in `d/e`. -/
example := c51_same_directory_partial glibc_ok (fname := [108, 47, 102]) (by decide) (by decide)
example : (entryOf [108, 47, 46, 47, 102, 46, 97, 98, 99, 100, 101, 102]).dir = (false, [[100], [101]]) := by decide

end Bdlib.Af
