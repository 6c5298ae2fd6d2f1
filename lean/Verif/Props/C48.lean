import Verif.Stm.History

/-!
# C48: file round trip

`mmap = true` is the build with `HAVE_MMAP`, `false` the `stdio` build.  Partial: the `mmap` build cannot load
an empty file (`c48_refuted_empty`); the `stdio` build does not notice read errors (`c48_refuted_read_error`)
and `writeFile(fd)` leaves the tail of a longer file (`c48_refuted_tail`).
-/

namespace Bdlib.Stm
open Bdlib Bdlib.Str Bdlib.Spec

/-- All system calls succeed. -/
def Sys.AllOk (sys : Sys) : Prop :=
  sys.openOk = true ∧ sys.lseekOk = true ∧ sys.ftruncateOk = true ∧ sys.mmapOk = true ∧ sys.munmapOk = true ∧
    sys.dupOk = true ∧ sys.fdopenOk = true ∧ sys.readable = none ∧ sys.written = none

/-- If `writeFile(name)` returns 0 the file holds exactly the contents, whatever it held before. -/
theorem c48_write (mmap : Bool) (sys : Sys) (s : Stream) (file : Option Bytes)
    (h : (writeFile mmap sys s file).1 = 0) : (writeFile mmap sys s file).2 = some s.str := by
  unfold writeFile at h ⊢
  by_cases ho : sys.openOk = false
  · rw [if_pos ho] at h; cases h
  rw [if_neg ho] at h ⊢
  dsimp only at h ⊢
  congr 1
  unfold writeFd at h ⊢
  cases mmap with
  | true =>
    simp only [if_true] at h ⊢
    by_cases h1 : sys.ftruncateOk = false
    · rw [if_pos h1] at h; cases h
    rw [if_neg h1] at h ⊢
    by_cases h2 : s.str.length = 0
    · rw [if_pos h2]
      rw [List.length_eq_zero_iff.1 h2]
      rfl
    rw [if_neg h2] at h ⊢
    by_cases h3 : sys.mmapOk = false
    · rw [if_pos h3] at h; cases h
    rw [if_neg h3] at h ⊢
    have e : s.str ++ (resized [] s.str.length).drop s.str.length = s.str := by
      unfold resized
      simp
    split
    · exact e
    · exact e
  | false =>
    simp only [Bool.false_eq_true, if_false] at h ⊢
    by_cases h1 : sys.dupOk = false
    · rw [if_pos h1] at h; cases h
    rw [if_neg h1] at h ⊢
    by_cases h2 : sys.fdopenOk = false
    · rw [if_pos h2] at h; cases h
    rw [if_neg h2] at h ⊢
    by_cases h3 : (s.str.take (sys.written.getD s.str.length)).length ≠ s.str.length
    · rw [if_pos h3] at h; cases h
    rw [if_neg h3]
    have e : s.str.take (sys.written.getD s.str.length) = s.str :=
      (List.take_prefix _ _).eq_of_length (Classical.not_not.1 h3)
    dsimp only
    rw [e]
    unfold written
    split
    · rename_i he; exact he.symm
    · simp

/-- It returns 0 if the system calls succeed, and 1 if the file cannot be opened. -/
theorem c48_write_ok (mmap : Bool) {sys : Sys} (h : sys.AllOk) (s : Stream) (file : Option Bytes) :
    (writeFile mmap sys s file).1 = 0 := by
  obtain ⟨h1, h2, h3, h4, h5, h6, h7, h8, h9⟩ := h
  cases mmap with
  | true =>
    by_cases he : s.str.length = 0
    · simp [writeFile, writeFd, h1, h3, he]
    · simp [writeFile, writeFd, h1, h3, h4, h5, he]
  | false => simp [writeFile, writeFd, h1, h6, h7, h9]

/-- Failures of the calls used are reported (`mmap` build). -/
theorem c48_write_fails_mmap {sys : Sys} (s : Stream) (file : Option Bytes)
    (h : sys.openOk = false ∨ sys.ftruncateOk = false ∨ (s.str ≠ [] ∧ (sys.mmapOk = false ∨ sys.munmapOk = false))) :
    (writeFile true sys s file).1 = 1 := by
  unfold writeFile writeFd
  by_cases h1 : sys.openOk = false
  · rw [if_pos h1]
  rw [if_neg h1]
  simp only [if_true]
  by_cases h2 : sys.ftruncateOk = false
  · rw [if_pos h2]
  rw [if_neg h2]
  rcases h with h | h | ⟨h3, h⟩
  · exact absurd h h1
  · exact absurd h h2
  rw [if_neg (by simpa using h3)]
  by_cases h4 : sys.mmapOk = false
  · rw [if_pos h4]
  rw [if_neg h4, if_pos (h.resolve_left h4)]

/-- Failures of the calls used are reported (`stdio` build); `k`: the number of bytes that get written. -/
theorem c48_write_fails_stdio {sys : Sys} (s : Stream) (file : Option Bytes)
    (h : sys.openOk = false ∨ sys.dupOk = false ∨ sys.fdopenOk = false ∨
      ∃ k, sys.written = some k ∧ k < s.str.length) :
    (writeFile false sys s file).1 = 1 := by
  unfold writeFile writeFd
  by_cases h1 : sys.openOk = false
  · rw [if_pos h1]
  rw [if_neg h1]
  simp only [Bool.false_eq_true, if_false]
  by_cases h2 : sys.dupOk = false
  · rw [if_pos h2]
  rw [if_neg h2]
  by_cases h3 : sys.fdopenOk = false
  · rw [if_pos h3]
  rw [if_neg h3]
  obtain ⟨k, hk, hlt⟩ := ((h.resolve_left h1).resolve_left h2).resolve_left h3
  rw [if_pos]
  rw [hk]
  simp
  omega

/-- What `writeFile(name)` leaves in the file, whatever fails (`mmap` build).  Opening has emptied it: if its size cannot be set it
stays empty, and if it cannot be mapped it consists of zeros. -/
theorem c48_write_left_mmap (sys : Sys) (s : Stream) (file : Option Bytes) :
    (writeFile true sys s file).2 =
      if sys.openOk = false then file
      else if sys.ftruncateOk = false then some []
      else if s.str ≠ [] ∧ sys.mmapOk = false then some (List.replicate s.str.length 0)
      else some s.str := by
  unfold writeFile writeFd
  by_cases h1 : sys.openOk = false
  · rw [if_pos h1, if_pos h1]
  rw [if_neg h1, if_neg h1]
  simp only [if_true]
  by_cases h2 : sys.ftruncateOk = false
  · rw [if_pos h2, if_pos h2]
  rw [if_neg h2, if_neg h2]
  by_cases h3 : s.str = []
  · rw [if_pos (by rw [h3]; rfl), if_neg (fun h => h.1 h3), h3]
    rfl
  rw [if_neg (by simpa using h3)]
  by_cases h4 : sys.mmapOk = false
  · rw [if_pos h4, if_pos ⟨h3, h4⟩]
    unfold resized
    simp
  have hA : ¬ (s.str ≠ [] ∧ sys.mmapOk = false) := fun h => h4 h.2
  rw [if_neg h4, if_neg hA]
  have e : s.str ++ (resized [] s.str.length).drop s.str.length = s.str := by
    unfold resized
    simp
  split
  · exact congrArg some e
  · exact congrArg some e

/-- The same for the `stdio` build: the part of the contents that could be written. -/
theorem c48_write_left_stdio (sys : Sys) (s : Stream) (file : Option Bytes) :
    (writeFile false sys s file).2 =
      if sys.openOk = false then file
      else if sys.dupOk = false ∨ sys.fdopenOk = false then some []
      else some (s.str.take (sys.written.getD s.str.length)) := by
  unfold writeFile writeFd
  by_cases h1 : sys.openOk = false
  · rw [if_pos h1, if_pos h1]
  rw [if_neg h1, if_neg h1]
  simp only [Bool.false_eq_true, if_false]
  by_cases h2 : sys.dupOk = false
  · rw [if_pos h2, if_pos (Or.inl h2)]
  rw [if_neg h2]
  by_cases h3 : sys.fdopenOk = false
  · rw [if_pos h3, if_pos (Or.inr h3)]
  have hA : ¬ (sys.dupOk = false ∨ sys.fdopenOk = false) := fun h => h.elim h2 h3
  rw [if_neg h3, if_neg hA]
  have e : written [] 0 (s.str.take (sys.written.getD s.str.length)) = s.str.take (sys.written.getD s.str.length) := by
    unfold written
    split
    · rename_i he; exact he.symm
    · simp
  split
  · exact congrArg some e
  · exact congrArg some e

/-- `writeFile(fd)`, `mmap` build, when the file cannot be mapped: it has been cut to the length of the contents, or extended with
zeros. -/
theorem c48_write_fd_unmapped {sys : Sys} (h : sys.ftruncateOk = true ∧ sys.mmapOk = false) {s : Stream} (hne : s.str ≠ []) (f : File) :
    writeFd true sys s f = (1, ⟨f.bytes.take s.str.length ++ List.replicate (s.str.length - f.bytes.length) 0, f.off⟩) := by
  unfold writeFd
  simp only [h.1, h.2, Bool.true_eq_false, if_false, if_true]
  rw [if_neg (by simpa using hne)]
  rfl

example : writeFile true { mmapOk := false } (ofString [97, 98] 16) (some [99]) = (1, some [0, 0]) ∧
    writeFile false { written := some 1 } (ofString [97, 98] 16) (some [99]) = (1, some [97]) ∧
    writeFd true { mmapOk := false } (ofString [97, 98] 16) ⟨[99], 0⟩ = (1, ⟨[99, 0], 0⟩) := by decide

theorem reserve_ok {s : Stream} {n : Nat} (h : n < 4611686018427387904) : reserve s n = .ret () := by
  unfold reserve
  split
  · rfl
  · unfold Str.alloc
    rw [if_pos]
    unfold two64 Rca.maxCells
    omega

theorem loadLoop_spec (cap : Nat → Nat) : ∀ k (rest : Bytes) (s : Stream), rest.length < k → s.pos = s.str.length →
    ∃ c, loadLoop cap k rest s = .ret ⟨s.str ++ rest, c, s.pos + rest.length, s.loading⟩ := by
  intro k
  induction k with
  | zero => intro rest s h; omega
  | succ k ih =>
    intro rest s h hp
    unfold loadLoop
    by_cases h0 : (rest.take 1024).length = 0
    · rw [if_pos h0]
      have : rest = [] := by
        cases rest with
        | nil => rfl
        | cons a r => simp at h0
      subst this
      exact ⟨s.cap, by simp⟩
    · rw [if_neg h0]
      have e : puts s (rest.take 1024) (cap rest.length) =
          .ret { s with str := s.str ++ rest.take 1024, cap := cap rest.length, pos := s.pos + (rest.take 1024).length } := by
        unfold puts
        rw [replace_ok (by omega), List.take_of_length_le (l := s.str) (by omega), List.drop_eq_nil_of_le (by omega), List.append_nil]
        rfl
      rw [e]
      simp only [Eff.ret_bind]
      obtain ⟨c, hc⟩ := ih (rest.drop 1024) { s with str := s.str ++ rest.take 1024, cap := cap rest.length, pos := s.pos + (rest.take 1024).length }
        (by rw [List.length_take] at h0; rw [List.length_drop]; omega) (by simp [hp])
      refine ⟨c, hc.trans ?_⟩
      dsimp only
      rw [List.append_assoc, List.take_append_drop, Nat.add_assoc, ← List.length_append, List.take_append_drop]

theorem seek_zero (s : Stream) : seek s 0 .set = (0, { s with pos := 0 }) := by
  unfold seek newpos clampPos
  dsimp only
  rw [if_neg (by omega), if_neg (by omega)]
  rfl

/-- `loadFile(name)`, `mmap` build, non-empty file: the stream then holds the file, with position 0. -/
theorem c48_load_mmap_partial {sys : Sys} (h : sys.openOk = true ∧ sys.lseekOk = true ∧ sys.mmapOk = true)
    {bytes : Bytes} (hne : bytes ≠ []) (hl : bytes.length < 4611686018427387904) (cap0 : Nat) (cap : Nat → Nat) (s : Stream) :
    ∃ c, loadFile true sys cap0 cap (some bytes) s = .ret (0, ⟨bytes, c, 0, false⟩) := by
  obtain ⟨h1, h2, h3⟩ := h
  unfold loadFile loadFd
  simp only [h1, h2, h3, Bool.true_eq_false, if_false, if_true, false_or]
  rw [reserve_ok hl]
  simp only [Eff.ret_bind]
  rw [if_neg (by simpa using hne)]
  refine ⟨cap bytes.length, ?_⟩
  unfold puts
  rw [replace_ok (Nat.le_refl 0 : 0 ≤ ([] : Bytes).length)]
  simp only [Eff.ret_bind, Eff.pure_eq, seek_zero]
  simp [clear]

/-- `loadFile(name)`, `stdio` build, no read error. -/
theorem c48_load_stdio_partial {sys : Sys} (h : sys.openOk = true ∧ sys.dupOk = true ∧ sys.fdopenOk = true)
    (hr : sys.readable = none) {bytes : Bytes} (hl : bytes.length < 4611686018427387904) (cap0 : Nat) (cap : Nat → Nat)
    (s : Stream) : ∃ c, loadFile false sys cap0 cap (some bytes) s = .ret (0, ⟨bytes, c, 0, false⟩) := by
  obtain ⟨h1, h2, h3⟩ := h
  unfold loadFile loadFd
  simp only [h1, h2, h3, hr, Bool.true_eq_false, Bool.false_eq_true, if_false, Option.getD_none, List.take_length]
  rw [reserve_ok hl]
  simp only [Eff.ret_bind]
  obtain ⟨c, hc⟩ := loadLoop_spec cap (bytes.length + 1) bytes { clear s cap0 with loading := true } (by omega) rfl
  refine ⟨c, ?_⟩
  rw [hc]
  simp only [Eff.ret_bind, Eff.pure_eq, seek_zero]
  simp [clear]

/-- Failures before reading are reported, in both builds: the stream is as it was if there is no file to open, else it is empty. -/
theorem c48_load_fails (mmap : Bool) {sys : Sys} {file : Option Bytes} (hf : file = none ∨ sys.openOk = false ∨
    (mmap = true ∧ sys.lseekOk = false) ∨ (mmap = false ∧ (sys.dupOk = false ∨ sys.fdopenOk = false)))
    (cap0 : Nat) (cap : Nat → Nat) (s : Stream) :
    loadFile mmap sys cap0 cap file s = .ret (1, if file = none ∨ sys.openOk = false then s else ⟨[], cap0, 0, s.loading⟩) := by
  unfold loadFile
  cases file with
  | none => rw [if_pos (Or.inl rfl)]
  | some bytes =>
    dsimp only
    by_cases h1 : sys.openOk = false
    · rw [if_pos h1, if_pos (Or.inr h1)]
    rw [if_neg h1, if_neg (c := _ ∨ _) (fun h => h.elim (fun h => nomatch h) h1)]
    rcases hf with hf | hf | ⟨hm, hf⟩ | ⟨hm, hf⟩
    · cases hf
    · exact absurd hf h1
    · subst hm
      unfold loadFd
      rw [if_pos rfl, if_pos hf]
      rfl
    · subst hm
      unfold loadFd
      rw [if_neg (by decide)]
      by_cases h2 : sys.dupOk = false
      · rw [if_pos h2]; rfl
      · rw [if_neg h2, if_pos (hf.resolve_left h2)]; rfl

/-- `mmap` failing is reported, and the stream is empty. -/
theorem c48_load_fails_mmap {sys : Sys} {bytes : Bytes} (ho : sys.openOk = true) (h : sys.mmapOk = false) (hl : bytes.length < 4611686018427387904)
    (cap0 : Nat) (cap : Nat → Nat) (s : Stream) : loadFile true sys cap0 cap (some bytes) s = .ret (1, ⟨[], cap0, 0, s.loading⟩) := by
  unfold loadFile loadFd
  simp only [h, true_or, if_true]
  rw [if_neg (by rw [ho]; decide)]
  by_cases h2 : sys.lseekOk = false
  · rw [if_pos h2]; rfl
  rw [if_neg h2, reserve_ok hl]
  rfl

/-- Memory: `loadFile(fd)` throws `bad_alloc` before it reads anything exactly if the buffer left by emptying the stream (`cap0` bytes)
is not larger than the file and the size rounded up to blocks of 1024 bytes is more than can be allocated. -/
theorem c48_load_no_memory {sys : Sys} (h : sys.lseekOk = true ∧ sys.mmapOk = true) {f : File} (hl : f.bytes.length < 9223372036854775808)
    (cap0 : Nat) (cap : Nat → Nat) (s : Stream) :
    loadFd true sys cap0 cap f s = .exc .badAlloc ↔ cap0 ≤ f.bytes.length ∧ Rca.maxCells ≤ (f.bytes.length + 1023) / 1024 * 1024 := by
  unfold loadFd
  simp only [h.1, h.2, Bool.true_eq_false, if_false, if_true, false_or]
  have key : reserve (clear s cap0) f.bytes.length =
      if cap0 ≤ f.bytes.length ∧ Rca.maxCells ≤ (f.bytes.length + 1023) / 1024 * 1024 then .exc .badAlloc else .ret () := by
    unfold reserve Str.alloc clear
    dsimp only
    by_cases hc : f.bytes.length < cap0
    · rw [if_pos hc, if_neg (by omega)]
    · rw [if_neg hc]
      have : 1024 * ((f.bytes.length + 1023) % two64 / 1024) % two64 = (f.bytes.length + 1023) / 1024 * 1024 := by
        unfold two64; omega
      rw [this]
      by_cases hm : Rca.maxCells ≤ (f.bytes.length + 1023) / 1024 * 1024
      · rw [if_neg (by omega), if_pos ⟨by omega, hm⟩]
      · rw [if_pos (by omega), if_neg (fun h => hm h.2)]
  rw [key]
  split
  · rename_i hc
    exact ⟨fun _ => hc, fun _ => rfl⟩
  · rename_i hc
    refine ⟨fun he => ?_, fun h => absurd h hc⟩
    simp only [Eff.ret_bind] at he
    split at he
    · cases he
    · unfold puts at he
      rw [replace_ok (Nat.le_refl 0 : 0 ≤ ([] : Bytes).length)] at he
      cases he

/-- The round trip, in any combination of builds: what `writeFile` saved successfully, `loadFile` gives
back, with position 0, into any stream; if the file is loaded by an `mmap` build it must not be empty. -/
theorem c48_round_trip_partial (mw ml : Bool) {sysw sysl : Sys} (hl : sysl.AllOk) (s s0 : Stream) (file : Option Bytes)
    (hw : (writeFile mw sysw s file).1 = 0) (hlen : s.str.length < 4611686018427387904)
    (hne : ml = true → s.str ≠ []) (cap0 : Nat) (cap : Nat → Nat) :
    ∃ c, loadFile ml sysl cap0 cap (writeFile mw sysw s file).2 s0 = .ret (0, ⟨s.str, c, 0, false⟩) := by
  rw [c48_write mw sysw s file hw]
  obtain ⟨h1, h2, h3, h4, h5, h6, h7, h8, h9⟩ := hl
  cases ml with
  | true => exact c48_load_mmap_partial ⟨h1, h2, h4⟩ (hne rfl) hlen cap0 cap s0
  | false => exact c48_load_stdio_partial ⟨h1, h6, h7⟩ h8 hlen cap0 cap s0

/-- `writeFile(fd)`, `mmap` build: the file becomes exactly the contents, whatever it held. -/
theorem c48_write_fd_mmap {sys : Sys} (h : sys.AllOk) (s : Stream) (f : File) :
    writeFd true sys s f = (0, ⟨s.str, f.off⟩) := by
  obtain ⟨h1, h2, h3, h4, h5, h6, h7, h8, h9⟩ := h
  unfold writeFd
  simp only [h3, h4, h5, Bool.true_eq_false, if_false, if_true]
  have hd : (resized f.bytes s.str.length).length = s.str.length := by unfold resized; simp; omega
  split
  · rename_i he
    rw [he] at hd
    rw [List.length_eq_zero_iff.1 he]
    congr 2
    exact List.length_eq_zero_iff.1 hd
  · rw [List.drop_eq_nil_of_le (by omega), List.append_nil]

/-- `writeFile(fd)`, `stdio` build, at offset 0 of a file that is not longer. -/
theorem c48_write_fd_stdio_partial {sys : Sys} (h : sys.AllOk) (s : Stream) {f : File} (ho : f.off = 0)
    (hl : f.bytes.length ≤ s.str.length) : writeFd false sys s f = (0, ⟨s.str, s.str.length⟩) := by
  obtain ⟨h1, h2, h3, h4, h5, h6, h7, h8, h9⟩ := h
  unfold writeFd
  simp only [h6, h7, h9, ho, Bool.true_eq_false, Bool.false_eq_true, if_false, Option.getD_none, List.take_length]
  rw [if_neg (by simp)]
  unfold written
  split
  · rename_i he
    rw [he] at hl ⊢
    simp at hl
    simp [hl]
  · simp
    omega

/-- `writeFile(fd)`, `stdio` build, in general: the contents overwrite the file from the current offset on (a gap is filled with
zeros); what lies before and behind stays. -/
theorem c48_write_fd_stdio_exact {sys : Sys} (h : sys.AllOk) {s : Stream} (hne : s.str ≠ []) (f : File) :
    writeFd false sys s f = (0, ⟨f.bytes.take f.off ++ List.replicate (f.off - f.bytes.length) 0 ++ s.str ++
      f.bytes.drop (f.off + s.str.length), f.off + s.str.length⟩) := by
  obtain ⟨h1, h2, h3, h4, h5, h6, h7, h8, h9⟩ := h
  unfold writeFd
  simp only [h6, h7, h9, Bool.true_eq_false, Bool.false_eq_true, if_false, Option.getD_none, List.take_length]
  rw [if_neg (by simp)]
  unfold written
  rw [if_neg hne]

/-- `loadFile(name)`, `stdio` build, with or without a read error after `k` bytes: 0 is returned and the stream holds the
first `k` bytes. -/
theorem c48_load_stdio_exact {sys : Sys} (h : sys.openOk = true ∧ sys.dupOk = true ∧ sys.fdopenOk = true)
    {bytes : Bytes} (hl : bytes.length < 4611686018427387904) (cap0 : Nat) (cap : Nat → Nat) (s : Stream) :
    ∃ c, loadFile false sys cap0 cap (some bytes) s = .ret (0, ⟨bytes.take (sys.readable.getD bytes.length), c, 0, false⟩) := by
  obtain ⟨h1, h2, h3⟩ := h
  unfold loadFile loadFd
  simp only [h1, h2, h3, Bool.true_eq_false, Bool.false_eq_true, if_false]
  rw [reserve_ok hl]
  simp only [Eff.ret_bind]
  generalize bytes.take (sys.readable.getD bytes.length) = avail
  obtain ⟨c, hc⟩ := loadLoop_spec cap (avail.length + 1) avail { clear s cap0 with loading := true } (by omega) rfl
  refine ⟨c, ?_⟩
  rw [hc]
  simp only [Eff.ret_bind, Eff.pure_eq, seek_zero]
  simp [clear]

/-- `loadFile(fd)` of a pipe.  The `mmap` build always reports an error and leaves the stream empty.  The `stdio` build loads what can be read
before the end or an error, although the size it reserves is 2^64 - 1: rounding it up to blocks gives 0. -/
theorem c48_load_pipe (sys : Sys) (rest : Bytes) (cap0 : Nat) (cap : Nat → Nat) (s : Stream) :
    loadPipe true sys cap0 cap rest s = .ret (1, ⟨[], cap0, 0, s.loading⟩) ∧
    (sys.dupOk = false ∨ sys.fdopenOk = false → loadPipe false sys cap0 cap rest s = .ret (1, ⟨[], cap0, 0, s.loading⟩)) ∧
    (sys.dupOk = true → sys.fdopenOk = true →
      ∃ c, loadPipe false sys cap0 cap rest s = .ret (0, ⟨rest.take (sys.readable.getD rest.length), c, 0, false⟩)) := by
  refine ⟨rfl, fun h => ?_, fun h1 h2 => ?_⟩
  · unfold loadPipe
    simp only [Bool.false_eq_true, if_false]
    by_cases h1 : sys.dupOk = false
    · rw [if_pos h1]; rfl
    · rw [if_neg h1, if_pos (h.resolve_left h1)]; rfl
  · unfold loadPipe
    simp only [h1, h2, Bool.true_eq_false, Bool.false_eq_true, if_false]
    have hr : reserve (clear s cap0) (two64 - 1) = .ret () := by
      unfold reserve Str.alloc
      split
      · rfl
      · rw [if_pos (by decide)]
    rw [hr]
    simp only [Eff.ret_bind]
    generalize rest.take (sys.readable.getD rest.length) = avail
    obtain ⟨c, hc⟩ := loadLoop_spec cap (avail.length + 1) avail { clear s cap0 with loading := true } (by omega) rfl
    refine ⟨c, ?_⟩
    rw [hc]
    simp only [Eff.ret_bind, Eff.pure_eq, seek_zero]
    simp [clear]

example : loadPipe false {} 0 (fun _ => 16) [97, 98] (ofString [99] 16) = .ret (0, ⟨[97, 98], 16, 0, false⟩) ∧
    loadPipe true {} 0 (fun _ => 16) [97, 98] (ofString [99] 16) = .ret (1, ⟨[], 0, 0, false⟩) := by decide

/-- Refutation 1: an empty stream is saved successfully, but loading it in an `mmap` build reports an error, always. -/
theorem c48_refuted_empty (mmap : Bool) {sys sys' : Sys} (h : sys.AllOk) {s : Stream} (hs : s.str = []) (file : Option Bytes)
    (s0 : Stream) (cap0 : Nat) (cap : Nat → Nat) :
    writeFile mmap sys s file = (0, some []) ∧ ∃ s', loadFile true sys' cap0 cap (some []) s0 = .ret (1, s') := by
  have h0 := c48_write_ok mmap h s file
  have h1 := c48_write mmap sys s file h0
  refine ⟨Prod.ext h0 (by rw [h1, hs]), ?_⟩
  unfold loadFile loadFd
  simp only [if_true]
  by_cases h2 : sys'.openOk = false
  · rw [if_pos h2]; exact ⟨_, rfl⟩
  rw [if_neg h2]
  by_cases h3 : sys'.lseekOk = false
  · rw [if_pos h3]; exact ⟨_, rfl⟩
  rw [if_neg h3, reserve_ok (by decide)]
  simp only [Eff.ret_bind, List.length_nil, or_true, if_true]
  exact ⟨_, rfl⟩

/-- Refutation 2: with `stdio`, an I/O error after `k` bytes of a longer file is not reported, and the rest is missing. -/
theorem c48_refuted_read_error {sys : Sys} (h : sys.openOk = true ∧ sys.dupOk = true ∧ sys.fdopenOk = true)
    {bytes : Bytes} (hl : bytes.length < 4611686018427387904) {k : Nat} (hr : sys.readable = some k) (hk : k < bytes.length)
    (cap0 : Nat) (cap : Nat → Nat) (s : Stream) :
    ∃ s', loadFile false sys cap0 cap (some bytes) s = .ret (0, s') ∧ s'.str = bytes.take k ∧ s'.str ≠ bytes := by
  obtain ⟨c, hc⟩ := c48_load_stdio_exact h hl cap0 cap s
  rw [hr, Option.getD_some] at hc
  refine ⟨_, hc, rfl, fun e => ?_⟩
  have := congrArg List.length e
  rw [List.length_take] at this
  omega

example : loadFile false { readable := some 1 } 0 (fun _ => 16) (some [97, 98]) (empty 0) =
    .ret (0, ⟨[97], 16, 0, false⟩) := by decide

/-- Refutation 3: with `stdio`, writing "x" to a descriptor of a file holding "abc" leaves "xbc"; the `mmap`
build leaves "x". -/
theorem c48_refuted_tail : writeFd false {} (ofString [120] 16) ⟨[97, 98, 99], 0⟩ = (0, ⟨[120, 98, 99], 1⟩) ∧
    writeFd true {} (ofString [120] 16) ⟨[97, 98, 99], 0⟩ = (0, ⟨[120], 0⟩) := by decide

example : ({} : Sys).AllOk := ⟨rfl, rfl, rfl, rfl, rfl, rfl, rfl, rfl, rfl⟩
example : writeFile true {} (ofString [97, 98] 16) (some [99]) = (0, some [97, 98]) := by decide

end Bdlib.Stm
