import Verif.Props.C48
import Verif.Stm.Full

/-!
# C116: full disks, and disks that fail

With enough room and a disk that can be read all is well (`c116_save_partial`, `c116_load_partial`).  Otherwise an `mmap` build is killed
(`c116_refuted_save`, `c116_refuted_load`); a `stdio` build reports a full disk (`c116_save_stdio`), but takes a beginning of a file
for all of it (`c116_refuted_short`).
-/

namespace Bdlib.Stm
open Bdlib Bdlib.Str Bdlib.Spec

theorem fillMap_false {page : Nat} : ∀ (order taken : List Nat) (space : Nat), taken.Nodup → fillMap page order taken space = false →
    ∃ D : List Nat, D.Nodup ∧ D.length = taken.length + space + 1 ∧ ∀ p ∈ D, p ∈ taken ∨ ∃ i ∈ order, p = i / page
  | [], _, _, _, h => by cases h
  | i :: is, taken, space, hn, h => by
    rw [fillMap] at h
    split at h
    · obtain ⟨D, h1, h2, h3⟩ := fillMap_false is taken space hn h
      exact ⟨D, h1, h2, fun p hp => (h3 p hp).imp_right fun ⟨j, hj, e⟩ => ⟨j, List.mem_cons_of_mem _ hj, e⟩⟩
    · rename_i hi
      have hn' : (i / page :: taken).Nodup := List.nodup_cons.2 ⟨hi, hn⟩
      cases space with
      | zero =>
        refine ⟨i / page :: taken, hn', rfl, fun p hp => ?_⟩
        rcases List.mem_cons.1 hp with rfl | hp
        · exact Or.inr ⟨i, List.mem_cons_self, rfl⟩
        · exact Or.inl hp
      | succ space =>
        rw [if_neg (by omega), Nat.add_sub_cancel] at h
        obtain ⟨D, h1, h2, h3⟩ := fillMap_false is _ space hn' h
        refine ⟨D, h1, by rw [h2, List.length_cons]; omega, fun p hp => ?_⟩
        rcases h3 p hp with h4 | ⟨j, hj, e⟩
        · rcases List.mem_cons.1 h4 with rfl | h4
          · exact Or.inr ⟨i, List.mem_cons_self, rfl⟩
          · exact Or.inl h4
        · exact Or.inr ⟨j, List.mem_cons_of_mem _ hj, e⟩

theorem fillMap_true {page : Nat} : ∀ (order taken : List Nat) (space : Nat), fillMap page order taken space = true →
    ∃ D : List Nat, D.length ≤ taken.length + space ∧ (∀ p ∈ taken, p ∈ D) ∧ ∀ i ∈ order, i / page ∈ D
  | [], taken, space, _ => ⟨taken, by omega, fun _ h => h, fun _ h => by cases h⟩
  | i :: is, taken, space, h => by
    rw [fillMap] at h
    split at h
    · rename_i hi
      obtain ⟨D, h1, h2, h3⟩ := fillMap_true is taken space h
      refine ⟨D, h1, h2, fun j hj => ?_⟩
      rcases List.mem_cons.1 hj with rfl | hj
      · exact h2 _ hi
      · exact h3 j hj
    · cases space with
      | zero => cases h
      | succ space =>
        rw [if_neg (by omega), Nat.add_sub_cancel] at h
        obtain ⟨D, h1, h2, h3⟩ := fillMap_true is _ space h
        refine ⟨D, by rw [List.length_cons] at h1; omega, fun p hp => h2 p (List.mem_cons_of_mem _ hp), fun j hj => ?_⟩
        rcases List.mem_cons.1 hj with rfl | hj
        · exact h2 _ List.mem_cons_self
        · exact h3 j hj

/-- All bytes of a text are stored, in any order: there is room exactly if the text is no longer than the room. -/
theorem fillMap_room {page : Nat} (hp : 0 < page) {n space : Nat} {order : List Nat} (ho : ∀ i, i ∈ order ↔ i < n) :
    fillMap page order [] space = false ↔ space * page < n := by
  constructor
  · intro h
    obtain ⟨D, h1, h2, h3⟩ := fillMap_false order [] space List.nodup_nil h
    refine Nat.lt_of_not_le fun hle => ?_
    have hsub : D ⊆ List.range space := by
      intro p hp'
      rcases h3 p hp' with h4 | ⟨i, hi, rfl⟩
      · cases h4
      · have := (ho i).1 hi
        exact List.mem_range.2 ((Nat.div_lt_iff_lt_mul hp).2 (by omega))
    have := h1.length_le_of_subset hsub
    rw [h2, List.length_range, List.length_nil] at this
    omega
  · intro h
    cases hf : fillMap page order [] space with
    | false => rfl
    | true =>
      obtain ⟨D, h1, -, h3⟩ := fillMap_true order [] space hf
      have hsub : List.range (space + 1) ⊆ D := by
        intro p hp'
        have hle : p ≤ space := by have := List.mem_range.1 hp'; omega
        have hlt : p * page < n := Nat.lt_of_le_of_lt (Nat.mul_le_mul_right page hle) h
        have := h3 (p * page) ((ho _).2 hlt)
        rwa [Nat.mul_div_cancel p hp] at this
      have := List.nodup_range.length_le_of_subset hsub
      rw [List.length_range, List.length_nil] at *
      omega

/-- **C116 refuted** Saving kills the program exactly in an `mmap` build where opening, `ftruncate` and mapping succeed and the text is longer than the room on the
disk, in whichever order the bytes are stored. -/
theorem c116_refuted_save (mmap : Bool) (sys : Sys) {page : Nat} (hp : 0 < page) {space : Nat}
    {order : List Nat} {s : Stream} (ho : ∀ i, i ∈ order ↔ i < s.str.length) (old : Option Bytes) :
    saveFull mmap sys page space order s old = .ub ↔
      mmap = true ∧ sys.openOk = true ∧ sys.ftruncateOk = true ∧ sys.mmapOk = true ∧ space * page < s.str.length := by
  rw [← fillMap_room hp ho]
  unfold saveFull
  by_cases hz : s.str.length = 0
  · have : fillMap page order [] space ≠ false := fun hh => by
      have := (fillMap_room hp ho).1 hh; omega
    simp [hz, this]
  · split
    · rename_i hh
      exact ⟨fun _ => ⟨hh.1, hh.2.1, hh.2.2.1, hh.2.2.2.2.1, hh.2.2.2.2.2⟩, fun _ => rfl⟩
    · rename_i hh
      exact ⟨fun h => (by cases h), fun ⟨h1, h2, h3, h4, h5⟩ => absurd ⟨h1, h2, h3, hz, h4, h5⟩ hh⟩

/-- **C116** With enough room, saving does what C48 is about, whatever calls fail. -/
theorem c116_save_room (mmap : Bool) {sys : Sys} (hw : sys.written = none) {page : Nat} (hp : 0 < page) {space : Nat} {order : List Nat} {s : Stream}
    (ho : ∀ i, i ∈ order ↔ i < s.str.length) (hr : s.str.length ≤ space * page) (old : Option Bytes) :
    saveFull mmap sys page space order s old = .ret (writeFile mmap sys s old) := by
  have hf : fillMap page order [] space ≠ false := fun hh => by
    have := (fillMap_room hp ho).1 hh; omega
  unfold saveFull
  rw [if_neg (fun hh => hf hh.2.2.2.2.2)]
  refine congrArg Eff.ret ?_
  unfold writeFile writeFd
  simp only [hw, Option.getD_some, Option.getD_none, List.take_length, List.take_of_length_le hr]

/-- **C116 (partial)** With enough room, and if no call fails, both builds report success, and the file holds the text.  Missing: no room in an `mmap` build
(`c116_refuted_save`). -/
theorem c116_save_partial (mmap : Bool) {sys : Sys} (h : sys.AllOk) {page : Nat} (hp : 0 < page) {space : Nat} {order : List Nat} {s : Stream}
    (ho : ∀ i, i ∈ order ↔ i < s.str.length) (hr : s.str.length ≤ space * page) (old : Option Bytes) :
    saveFull mmap sys page space order s old = .ret (0, some s.str) := by
  have hf : fillMap page order [] space ≠ false := fun hh => by
    have := (fillMap_room hp ho).1 hh; omega
  obtain ⟨h1, h2, h3, h4, h5, h6, h7, h8, h9⟩ := h
  unfold saveFull
  rw [if_neg (fun hh => hf hh.2.2.2.2.2)]
  have h0 : (writeFile mmap { sys with written := some (space * page) } s old).1 = 0 := by
    unfold writeFile writeFd
    cases mmap with
    | true => by_cases hz : s.str.length = 0 <;> simp [h1, h3, h4, h5, hz]
    | false => simp [h1, h6, h7, Nat.min_eq_right hr]
  exact congrArg Eff.ret (Prod.ext h0 (c48_write mmap _ s old h0))

/-- **C116** A `stdio` build is not killed: it reports success exactly if there is room, if no other call fails; otherwise the file holds as much as there was
room for. -/
theorem c116_save_stdio {sys : Sys} (h : sys.AllOk) (page space : Nat) (order : List Nat) (s : Stream) (old : Option Bytes) :
    saveFull false sys page space order s old =
      .ret (if s.str.length ≤ space * page then 0 else 1, some (s.str.take (space * page))) := by
  obtain ⟨h1, h2, h3, h4, h5, h6, h7, h8, h9⟩ := h
  unfold saveFull
  rw [if_neg (fun hh => by cases hh.1)]
  unfold writeFile writeFd
  simp only [Bool.false_eq_true, if_false, h1, h6, h7, Bool.true_eq_false, Option.getD_some, List.length_take]
  have hw : written [] 0 (s.str.take (space * page)) = s.str.take (space * page) := by
    unfold written
    split
    · rename_i hh; exact hh.symm
    · simp
  by_cases hr : s.str.length ≤ space * page
  · rw [if_neg (by omega), if_pos hr]; simp only [hw]
  · rw [if_pos (by omega), if_neg hr]; simp only [hw]

theorem goodBytes_le (page : Nat) (bad : Nat → Bool) (n : Nat) : goodBytes page bad n ≤ n := by
  unfold goodBytes
  have := (List.takeWhile_prefix (fun i => !bad (i / page)) (l := List.range n)).length_le
  rwa [List.length_range] at this

theorem goodBytes_lt {page : Nat} {bad : Nat → Bool} {n : Nat} : goodBytes page bad n < n ↔ ∃ i, i < n ∧ bad (i / page) = true := by
  constructor
  · intro h
    refine Classical.byContradiction fun hn => ?_
    have hall : ∀ i ∈ List.range n, (!bad (i / page)) = true := by
      intro i hi
      cases hb : bad (i / page) with
      | false => rfl
      | true => exact absurd ⟨i, List.mem_range.1 hi, hb⟩ hn
    have : goodBytes page bad n = n := by
      unfold goodBytes
      have e : (List.range n).takeWhile (fun i => !bad (i / page)) = List.range n := by
        have := List.takeWhile_append_of_pos (l₂ := []) hall
        simpa using this
      rw [e, List.length_range]
    omega
  · rintro ⟨i, hi, hb⟩
    refine Nat.lt_of_not_le fun hle => ?_
    have hpre := List.takeWhile_prefix (fun i => !bad (i / page)) (l := List.range n)
    have he : (List.range n).takeWhile (fun i => !bad (i / page)) = List.range n :=
      hpre.eq_of_length_le (by rw [List.length_range]; exact hle)
    have hm : i ∈ (List.range n).takeWhile (fun i => !bad (i / page)) := by rw [he]; exact List.mem_range.2 hi
    have hh := List.all_takeWhile (p := fun i => !bad (i / page)) (l := List.range n)
    have := List.all_eq_true.1 hh i hm
    rw [hb] at this
    cases this

theorem loadBad_stdio {sys : Sys} (h : sys.dupOk = true ∧ sys.fdopenOk = true) {page : Nat} {bad : Nat → Bool} {bytes : Bytes} (hl : bytes.length < 4611686018427387904)
    (cap0 : Nat) (cap : Nat → Nat) (s : Stream) :
    ∃ c, loadBad false sys page bad cap0 cap bytes s = .ret (0, ⟨bytes.take (goodBytes page bad bytes.length), c, 0, false⟩) := by
  obtain ⟨h6, h7⟩ := h
  unfold loadBad
  rw [if_neg (fun hh => by cases hh.1)]
  unfold loadFd
  simp only [h6, h7, Bool.true_eq_false, Bool.false_eq_true, if_false, Option.getD_some]
  rw [reserve_ok hl]
  simp only [Eff.ret_bind]
  obtain ⟨c, hc⟩ := loadLoop_spec cap ((bytes.take (goodBytes page bad bytes.length)).length + 1) (bytes.take (goodBytes page bad bytes.length))
    { clear s cap0 with loading := true } (by omega) rfl
  refine ⟨c, ?_⟩
  rw [hc]
  simp only [Eff.ret_bind, Eff.pure_eq, seek_zero]
  simp [clear, Eff.bind]

/-- **C116 refuted** Loading kills the program exactly in an `mmap` build where `lseek` and mapping succeed and some byte of the file is on a page that cannot be
read. -/
theorem c116_refuted_load (mmap : Bool) (sys : Sys) {page : Nat} {bad : Nat → Bool} {bytes : Bytes}
    (hl : bytes.length < 4611686018427387904) (cap0 : Nat) (cap : Nat → Nat) (s : Stream) :
    loadBad mmap sys page bad cap0 cap bytes s = .ub ↔
      mmap = true ∧ sys.lseekOk = true ∧ sys.mmapOk = true ∧ ∃ i, i < bytes.length ∧ bad (i / page) = true := by
  rw [← goodBytes_lt]
  by_cases hg : mmap = true ∧ sys.lseekOk = true ∧ sys.mmapOk = true ∧ goodBytes page bad bytes.length < bytes.length
  · unfold loadBad
    rw [if_pos hg]
    exact ⟨fun _ => hg, fun _ => rfl⟩
  · refine ⟨fun hh => ?_, fun hh => absurd hh hg⟩
    exfalso
    cases mmap with
    | true =>
      unfold loadBad at hh
      rw [if_neg hg] at hh
      unfold loadFd at hh
      simp only [if_true] at hh
      by_cases h2 : sys.lseekOk = false
      · simp only [h2, if_true] at hh; cases hh
      · simp only [h2, Bool.true_eq_false, if_false] at hh
        rw [reserve_ok hl] at hh
        simp only [Eff.ret_bind] at hh
        split at hh
        · cases hh
        · unfold puts at hh
          rw [replace_ok (Nat.le_refl 0 : 0 ≤ ([] : Bytes).length)] at hh
          simp only [Eff.ret_bind, Eff.pure_eq, seek_zero] at hh
          cases hh
    | false =>
      by_cases h6 : sys.dupOk = false
      · unfold loadBad loadFd at hh
        simp [h6, Eff.bind] at hh
      · by_cases h7 : sys.fdopenOk = false
        · unfold loadBad loadFd at hh
          simp [h6, h7, Eff.bind] at hh
        · obtain ⟨c, hc⟩ := loadBad_stdio (sys := sys) ⟨by simpa using h6, by simpa using h7⟩ hl cap0 cap s (page := page) (bad := bad)
          rw [hc] at hh
          cases hh

/-- **C116 refuted** Loading in a `stdio` build: if some page cannot be read, success is reported, and the stream holds only what is before it. -/
theorem c116_refuted_short {sys : Sys} (h : sys.dupOk = true ∧ sys.fdopenOk = true) {page : Nat} {bad : Nat → Bool} {bytes : Bytes} (hl : bytes.length < 4611686018427387904)
    (hb : ∃ i, i < bytes.length ∧ bad (i / page) = true) (cap0 : Nat) (cap : Nat → Nat) (s : Stream) :
    ∃ x c, loadBad false sys page bad cap0 cap bytes s = .ret (0, ⟨x, c, 0, false⟩) ∧ x <+: bytes ∧ x.length < bytes.length := by
  obtain ⟨c, hc⟩ := loadBad_stdio h hl cap0 cap s (page := page) (bad := bad)
  refine ⟨_, c, hc, List.take_prefix _ _, ?_⟩
  have := goodBytes_lt.2 hb
  rw [List.length_take]
  omega

/-- **C116 (partial)** If all pages of the file can be read and no call fails, it is loaded exactly.  Missing: other disks, and empty files in an `mmap` build
(C48). -/
theorem c116_load_partial {mmap : Bool} {sys : Sys} (h : sys.AllOk) {page : Nat} {bad : Nat → Bool} {bytes : Bytes}
    (hl : bytes.length < 4611686018427387904) (hb : ∀ i, i < bytes.length → bad (i / page) = false) (hne : mmap = true → bytes ≠ [])
    (cap0 : Nat) (cap : Nat → Nat) (s : Stream) : ∃ c, loadBad mmap sys page bad cap0 cap bytes s = .ret (0, ⟨bytes, c, 0, false⟩) := by
  have hg : ¬ goodBytes page bad bytes.length < bytes.length := fun hh => by
    obtain ⟨i, hi, h'⟩ := goodBytes_lt.1 hh
    rw [hb i hi] at h'
    cases h'
  cases mmap with
  | false =>
    obtain ⟨c, hc⟩ := loadBad_stdio ⟨h.2.2.2.2.2.1, h.2.2.2.2.2.2.1⟩ hl cap0 cap s (page := page) (bad := bad)
    exact ⟨c, by rw [hc, List.take_of_length_le (by omega)]⟩
  | true =>
    obtain ⟨h1, h2, h3, h4, h5, h6, h7, h8, h9⟩ := h
    unfold loadBad
    rw [if_neg (fun hh => hg hh.2.2.2)]
    unfold loadFd
    simp only [h2, h4, Bool.true_eq_false, if_false, if_true, false_or]
    rw [reserve_ok hl]
    simp only [Eff.ret_bind]
    rw [if_neg (by simpa using hne rfl)]
    unfold puts
    rw [replace_ok (Nat.le_refl 0 : 0 ≤ ([] : Bytes).length)]
    refine ⟨cap bytes.length, ?_⟩
    simp only [Eff.ret_bind, Eff.pure_eq, seek_zero]
    simp [clear, Eff.bind]

/-- Six bytes, pages of four, one page left, or two. -/
example : saveFull true {} 4 1 [0, 1, 2, 3, 4, 5] (ofString [97, 98, 99, 100, 101, 102] 16) (some [120]) = .ub ∧
    saveFull true {} 4 2 [5, 1, 2, 3, 4, 0] (ofString [97, 98, 99, 100, 101, 102] 16) (some [120]) = .ret (0, some [97, 98, 99, 100, 101, 102]) ∧
    saveFull false {} 4 1 [] (ofString [97, 98, 99, 100, 101, 102] 16) (some [120]) = .ret (1, some [97, 98, 99, 100]) := by decide +kernel

/-- The second page cannot be read. -/
example : loadBad true {} 4 (fun p => p == 1) 0 (fun _ => 16) [97, 98, 99, 100, 101, 102] (ofString [99] 16) = .ub ∧
    loadBad true {} 4 (fun p => p == 1) 0 (fun _ => 16) [97, 98, 99, 100] (ofString [99] 16) = .ret (0, ⟨[97, 98, 99, 100], 16, 0, false⟩) ∧
    loadBad false {} 4 (fun p => p == 1) 0 (fun _ => 16) [97, 98, 99, 100, 101, 102] (ofString [99] 16) = .ret (0, ⟨[97, 98, 99, 100], 16, 0, false⟩) := by
  decide +kernel

/-- Hypotheses: an order of the stores, and a bad page. -/
example : (∀ i, i ∈ [5, 1, 2, 3, 4, 0] ↔ i < (ofString [97, 98, 99, 100, 101, 102] 16).str.length) ∧ ({} : Sys).AllOk ∧
    ∃ i, i < ([97, 98, 99, 100, 101, 102] : Bytes).length ∧ (fun p => p == 1) (i / 4) = true :=
  ⟨fun i => by simp [ofString]; omega, ⟨rfl, rfl, rfl, rfl, rfl, rfl, rfl, rfl, rfl⟩, 4, by decide, by decide⟩

end Bdlib.Stm
