import Verif.Props.C84
import Verif.Props.C114

/-!
# C84: loading, which takes time, while an AtomicFile replaces the file

Here the calls of the reader (asking for the length, reading or copying) are at different moments, between which the writer goes on.
-/

namespace Bdlib.Af
open Bdlib Bdlib.Str Bdlib.Spec

section
variable [Tree]

/-- What the file `i` holds, `m` states of the file system after it was opened. -/
def heldBy (opened : FS) (after : List FS) (i : Nat) : FileInTime := fun m => (((opened :: after)[m]?.getD opened).ino i).data

/-- **C84** The reader opened the target in one state and loads it while the writer goes on (any calls, also saves that fail): at whichever moments the
reader asks for the length, reads, or copies single bytes, in both builds `loadFile` ends, reports success and gives exactly the
file from before or the complete contents of one commit.  Not so with `writeFile(name)` (C115).

Partial: names of up to 4085 bytes, `mmap` readers of empty files. -/
theorem c84_reader_in_time_partial {L : Libc} {S : Sys} {fname : Bytes} {w₀ : World} {old : Option Bytes} {h : Hist}
    (hL : L.Ok) (hS : ∀ n, 47 ∉ S.suffix n) (h0 : 0 ∉ fname) (hl : fname.length ≤ 4085)
    (he : (entryOf fname).name ≠ []) (hw : Settled old (entryOf fname) w₀) (hr : Reach L S fname w₀ h)
    {before after : List FS} {opened : FS} (hsplit : w₀.fs :: h.w.trace = before ++ opened :: after)
    {i : Nat} (hopen : opened.dir (entryOf fname) = some i) {sys : Stm.Sys} (hsys : sys.AllOk)
    (hlen : (opened.ino i).data.length < 4611686018427387904) (start page : Nat) (touch at_ count : Nat → Nat) (cap0 : Nat) (cap : Nat → Nat)
    (s : Stm.Stream) :
    ∃ x, (old = some x ∨ x ∈ h.log) ∧
      (x ≠ [] → ∃ c, Stm.loadMapInTime sys page (heldBy opened after i) start touch cap0 cap s = .ret (0, ⟨x, c, 0, false⟩)) ∧
      ∃ c, Stm.loadStdioInTime sys (heldBy opened after i) start at_ count (x.length + 1) cap0 cap s = .ret (0, ⟨x, c, 0, false⟩) := by
  obtain ⟨h1, h2⟩ := c84_open_reader_partial hL hS h0 hl he hw hr hsplit hopen
  have hfile : heldBy opened after i = fun _ => (opened.ino i).data := by
    funext m
    unfold heldBy
    cases m with
    | zero => rfl
    | succ m =>
      rw [List.getElem?_cons_succ]
      cases hm : after[m]? with
      | none => rfl
      | some fs => exact h1 fs (List.mem_of_getElem? hm)
  refine ⟨(opened.ino i).data, h2, fun hne => ?_, ?_⟩
  · rw [hfile]
    have := Stm.c114_map_grows (sys := sys) (page := page) (file := fun _ => (opened.ino i).data) (start := 0) (finish := 0) (touch := fun _ => 0)
      ⟨hsys.2.1, hsys.2.2.2.1⟩ hne hlen (fun _ => ⟨Nat.le_refl _, Nat.le_refl _⟩) (fun _ _ _ _ _ => List.prefix_refl _) cap0 cap s
    rw [(Stm.c114_unchanged sys hsys.2.2.2.2.2.2.2.1 page start touch at_ count (opened.ino i).data 0 ((opened.ino i).data.length + 1) (by omega) cap0 cap s).1]
    rwa [(Stm.c114_unchanged sys hsys.2.2.2.2.2.2.2.1 page 0 (fun _ => 0) at_ count (opened.ino i).data 0 ((opened.ino i).data.length + 1) (by omega) cap0 cap s).1]
      at this
  · rw [hfile]
    have h3 := Stm.readCalls_unchanged (opened.ino i).data at_ count ((opened.ino i).data.length + 1) 0 0 (by omega) (Nat.zero_le _)
    exact (Stm.loadStdio_eq ⟨hsys.2.2.2.2.2.1, hsys.2.2.2.2.2.2.1⟩ hlen cap0 cap s).2 _ h3

end

attribute [local instance] plainTree

/-- The old file is loaded while the new one replaces it. -/
example := c84_reader_in_time_partial glibc_ok (S := sysOk) (fun n => by simp [sysOk]) (fname := [102]) (by decide) (by decide) (by decide)
  settled₀ reach_commit (before := []) (opened := fs₀) rfl (i := 0) (by decide) (sys := {}) (by unfold Stm.Sys.AllOk; decide) (by decide +kernel) 1 4096
  (fun i => i + 2) (fun k => k + 2) (fun _ => 0) 16 (fun _ => 16) (Stm.ofString [] 16)

end Bdlib.Af
