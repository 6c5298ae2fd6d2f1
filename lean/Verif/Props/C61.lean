import Verif.Tcl.Script
import Verif.Props.C22

/-!
# C61: `loadScript` only accepts `.tcl` files

The decision is right for every name.  Partial: for a name with a NUL inside, the file evaluated is another one
(`c61_refuted_nul`).
-/

namespace Bdlib.Tcl
open Bdlib Bdlib.Str

/-- The name ends in `.tcl`. -/
def IsTcl (name : Bytes) : Prop := ∃ stem, name = stem ++ ".tcl".toUTF8.data.toList

theorem rfind_tcl {L : Libc} (hL : L.Ok) {name : Bytes} (hn : name.length ≤ npos) :
    ∃ r, rfind L name [46, 116, 99, 108] (sub64 name.length 4) = .ret r ∧ (r = npos ↔ ¬ IsTcl name) := by
  obtain ⟨r, hr, hf⟩ := c22_rfind hL hn (str := [46, 116, 99, 108]) nofun (sub64 name.length 4)
  refine ⟨r, hr, ?_⟩
  have ht : ".tcl".toUTF8.data.toList = ([46, 116, 99, 108] : Bytes) := by decide
  have key : ∀ i, (sub64 name.length 4 ≤ i ∧ Spec.OccursAt [46, 116, 99, 108] name i) → IsTcl name := by
    rintro i ⟨hi, before, after, e, hb⟩
    have hl := congrArg List.length e
    simp only [List.length_append, List.length_cons, List.length_nil] at hl
    unfold sub64 at hi
    rw [if_pos (by omega)] at hi
    refine ⟨before, ?_⟩
    rw [ht, e, List.length_eq_zero_iff.mp (show after.length = 0 by omega), List.append_nil]
  have conv : IsTcl name → ∃ i, (sub64 name.length 4 ≤ i ∧ Spec.OccursAt [46, 116, 99, 108] name i) := by
    rintro ⟨stem, rfl⟩
    refine ⟨stem.length, ?_, stem, [], by rw [ht, List.append_nil], rfl⟩
    rw [ht]
    unfold sub64
    rw [if_pos (by simp)]
    simp
  rcases hf with ⟨⟨h1, -⟩, h2⟩ | ⟨h1, h2⟩
  · exact ⟨fun h => absurd h h2, fun h => absurd (key r h1) h⟩
  · exact ⟨fun _ hc => have ⟨i, hi⟩ := conv hc; h1 i hi, fun _ => h2⟩

/-- The name ends in `.tcl`: the file is evaluated, and nothing else is; the code tells if it failed, and then
the result text is the interpreter's. -/
theorem c61_load_partial {L : Libc} (hL : L.Ok) (evalFile : Bytes → Option Bytes) {name : Bytes} (resultStr : Bytes)
    (hn : name.length ≤ npos) (h : IsTcl name) (hz : 0 ∉ name) :
    loadScript L evalFile name resultStr = .ret (match evalFile name with
      | none => ⟨.ok, [name], resultStr⟩
      | some e => ⟨.error, [name], e⟩) := by
  obtain ⟨r, hr, hi⟩ := rfind_tcl hL hn
  unfold loadScript
  rw [hr]
  simp only [Eff.ret_bind]
  rw [if_neg (fun e => hi.mp e h)]
  rw [cstr_self hz]
  cases evalFile name <;> rfl

/-- The name does not end in `.tcl` (for instance because it is shorter): nothing is evaluated. -/
theorem c61_refuse {L : Libc} (hL : L.Ok) (evalFile : Bytes → Option Bytes) {name : Bytes} (resultStr : Bytes)
    (hn : name.length ≤ npos) (h : ¬ IsTcl name) :
    loadScript L evalFile name resultStr = .ret ⟨.wrongInterp, [], resultStr⟩ := by
  obtain ⟨r, hr, hi⟩ := rfind_tcl hL hn
  unfold loadScript
  rw [hr]
  simp only [Eff.ret_bind]
  rw [if_pos (hi.mpr h)]
  rfl

/-- For every name: something is evaluated exactly if the name ends in `.tcl`. -/
theorem c61_iff {L : Libc} (hL : L.Ok) (evalFile : Bytes → Option Bytes) {name : Bytes} (resultStr : Bytes) (hn : name.length ≤ npos) :
    ∃ r, loadScript L evalFile name resultStr = .ret r ∧ (r.files ≠ [] ↔ IsTcl name) ∧ (r.code = .wrongInterp ↔ ¬ IsTcl name) := by
  by_cases h : IsTcl name
  · obtain ⟨r, hr, hi⟩ := rfind_tcl hL hn
    unfold loadScript
    rw [hr]
    simp only [Eff.ret_bind]
    rw [if_neg (fun e => hi.mp e h)]
    cases evalFile (cstr name) with
    | none => exact ⟨_, rfl, ⟨fun _ => h, fun _ => nofun⟩, nofun, fun hc => absurd h hc⟩
    | some e => exact ⟨_, rfl, ⟨fun _ => h, fun _ => nofun⟩, nofun, fun hc => absurd h hc⟩
  · exact ⟨_, c61_refuse hL evalFile resultStr hn h, ⟨fun hc => absurd rfl hc, fun hc => absurd hc h⟩, fun _ => h, fun _ => rfl⟩

example : IsTcl [97, 46, 116, 99, 108] := ⟨[97], by decide⟩
example : loadScript glibc (fun _ => none) [97, 46, 116, 99, 108] [] = .ret ⟨.ok, [[97, 46, 116, 99, 108]], []⟩ := by decide
example : loadScript glibc (fun _ => none) [116, 99, 108] [] = .ret ⟨.wrongInterp, [], []⟩ := by decide

/-- Refutation for all names with a NUL that end in `.tcl`: the file evaluated is the one named by the part before the NUL, whatever that ends in. -/
theorem c61_refuted_nul_all {L : Libc} (hL : L.Ok) (evalFile : Bytes → Option Bytes) {u w : Bytes} (resultStr : Bytes)
    (hn : (u ++ 0 :: w).length ≤ npos) (h : IsTcl (u ++ 0 :: w)) (hu : 0 ∉ u) :
    loadScript L evalFile (u ++ 0 :: w) resultStr = .ret (match evalFile u with
      | none => ⟨.ok, [u], resultStr⟩
      | some e => ⟨.error, [u], e⟩) := by
  obtain ⟨r, hr, hi⟩ := rfind_tcl hL hn
  unfold loadScript
  rw [hr]
  simp only [Eff.ret_bind]
  rw [if_neg (fun e => hi.mp e h)]
  have : cstr (u ++ 0 :: w) = u := by
    unfold cstr
    rw [List.takeWhile_append_of_pos (fun x hx => by simp only [ne_eq, decide_eq_true_eq]; rintro rfl; exact hu hx)]
    simp
  rw [this]
  cases evalFile u <;> rfl

example := c61_refuted_nul_all glibc_ok (fun _ => none) (u := [97, 46, 116, 120, 116]) (w := [46, 116, 99, 108]) [] (by decide)
  ⟨[97, 46, 116, 120, 116, 0], by decide⟩ (by decide)

/-- Refutation for names with a NUL: `a.txt\0.tcl` makes it evaluate `a.txt`. -/
theorem c61_refuted_nul : loadScript glibc (fun _ => none) [97, 46, 116, 120, 116, 0, 46, 116, 99, 108] [] =
    .ret ⟨.ok, ["a.txt".toUTF8.data.toList], []⟩ := by decide

end Bdlib.Tcl
