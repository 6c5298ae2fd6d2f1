import Verif.Props.C48
import Verif.Stm.Saving
import Verif.Props.C114

/-!
# C115: what others see of a file while `writeFile` saves to it, and what is left if the program is killed

Neither the old nor the new file (`c115_refuted_neither`), but only parts of the new one (`c115_seen_partial`); how to tell that it is whole:
`c115_whole`.
-/

namespace Bdlib.Stm
open Bdlib Bdlib.Str Bdlib.Spec

theorem stores_seen {new : Bytes} : ∀ (order : List Nat) {b : Bytes}, b.length = new.length → ∀ x ∈ stores new b order,
    x.length = new.length ∧ ∀ j : Nat, x[j]? = b[j]? ∨ x[j]? = new[j]?
  | [], b, _, x, hx => by cases hx
  | i :: is, b, h, x, hx => by
    rw [stores] at hx
    have hset : ∀ j : Nat, (b.set i (new.getD i 0))[j]? = b[j]? ∨ (b.set i (new.getD i 0))[j]? = new[j]? := by
      intro j
      by_cases hij : i = j
      · subst hij
        by_cases hi : i < b.length
        · right
          rw [List.getElem?_set_self hi, List.getD_eq_getElem?_getD, List.getElem?_eq_getElem (by omega)]; rfl
        · left
          rw [List.set_eq_of_length_le (by omega)]
      · left
        rw [List.getElem?_set_ne hij]
    rcases List.mem_cons.1 hx with rfl | hx
    · exact ⟨by rw [List.length_set, h], hset⟩
    · obtain ⟨h1, h2⟩ := stores_seen is (by rw [List.length_set, h]) x hx
      refine ⟨h1, fun j => ?_⟩
      rcases h2 j with h3 | h3
      · rw [h3]; exact hset j
      · exact Or.inr h3

theorem stores_last {new : Bytes} : ∀ (order : List Nat) {b : Bytes}, b.length = new.length →
    ((stores new b order).getLastD b).length = new.length ∧
    ∀ j : Nat, j ∈ order ∨ b[j]? = new[j]? → ((stores new b order).getLastD b)[j]? = new[j]?
  | [], b, h => ⟨h, fun j hj => hj.elim (fun hh => by cases hh) id⟩
  | i :: is, b, h => by
    rw [stores, List.getLastD_cons]
    obtain ⟨h1, h2⟩ := stores_last (new := new) is (b := b.set i (new.getD i 0)) (by rw [List.length_set, h])
    refine ⟨h1, fun j hj => h2 j ?_⟩
    by_cases hij : i = j
    · subst hij
      right
      by_cases hi : i < b.length
      · rw [List.getElem?_set_self hi, List.getD_eq_getElem?_getD, List.getElem?_eq_getElem (by omega)]; rfl
      · rw [List.set_eq_of_length_le (by omega), List.getElem?_eq_none (by omega), List.getElem?_eq_none (by omega)]
    · rw [List.getElem?_set_ne hij]
      rcases hj with hj | hj
      · rcases List.mem_cons.1 hj with hj | hj
        · exact absurd hj.symm hij
        · exact Or.inl hj
      · exact Or.inr hj

theorem writes_seen {base w : Bytes} {off : Nat} : ∀ (sizes : List Nat) (k : Nat), ∀ x ∈ writes base off w k sizes, ∃ m, x = written base off (w.take m)
  | [], k, x, hx => by cases hx
  | c :: cs, k, x, hx => by
    rw [writes] at hx
    rcases List.mem_cons.1 hx with rfl | hx
    · exact ⟨_, rfl⟩
    · exact writes_seen cs _ x hx

theorem writes_last {base w : Bytes} {off : Nat} : ∀ (sizes : List Nat) (k : Nat),
    (writes base off w k sizes).getLastD (written base off (w.take k)) = written base off (w.take (k + sizes.sum))
  | [], k => rfl
  | c :: cs, k => by
    rw [writes, List.getLastD_cons, writes_last cs (k + c), List.sum_cons, Nat.add_assoc]

theorem resized_length (b : Bytes) (n : Nat) : (resized b n).length = n := by
  unfold resized
  rw [List.length_append, List.length_take, List.length_replicate]
  omega

theorem resized_seen {b : Bytes} {n j : Nat} {y : UInt8} (h : (resized b n)[j]? = some y) : b[j]? = some y ∨ (b.length ≤ j ∧ y = 0) := by
  unfold resized at h
  by_cases hj : j < (b.take n).length
  · rw [List.getElem?_append_left hj, List.getElem?_take] at h
    split at h
    · exact Or.inl h
    · cases h
  · rw [List.getElem?_append_right (by omega)] at h
    have h1 := List.getElem?_eq_some_iff.1 h
    obtain ⟨h2, h3⟩ := h1
    rw [List.getElem_replicate] at h3
    rw [List.length_replicate, List.length_take] at h2
    rw [List.length_take] at hj
    exact Or.inr ⟨by omega, h3.symm⟩

theorem written_nil (w : Bytes) : written [] 0 w = w := by
  unfold written
  split
  · rename_i h; exact h.symm
  · simp

/-- **C115** The last of the contents is the one `writeFile` of C48 leaves, whatever fails, in whichever order the bytes are copied and in whichever pieces
they are written. -/
theorem c115_last (mmap : Bool) (sys : Sys) {order sizes : List Nat} {s : Stream} (h : Whole sys order sizes s) (old : Option Bytes) :
    (saveFile mmap sys order sizes s).getLastD old = (writeFile mmap sys s old).2 ∧
    ∀ f : File, (saveFd mmap sys order sizes s f).getLastD f.bytes = (writeFd mmap sys s f).2.bytes := by
  obtain ⟨ho, hz⟩ := h
  have hfd : ∀ f : File, (saveFd mmap sys order sizes s f).getLastD f.bytes = (writeFd mmap sys s f).2.bytes := by
    intro f
    unfold saveFd writeFd
    cases mmap with
    | true =>
      simp only [if_true]
      by_cases h1 : sys.ftruncateOk = false
      · simp only [h1, if_true]; rfl
      · simp only [h1, Bool.true_eq_false, if_false]
        rw [List.getLastD_cons]
        by_cases h2 : s.str.length = 0
        · simp only [h2, true_or, if_true]; rfl
        · by_cases h3 : sys.mmapOk = false
          · simp only [h2, h3, or_true, if_true, if_false]; rfl
          · simp only [h2, h3, Bool.true_eq_false, or_false, if_false]
            have hlast := stores_last (new := s.str) order (resized_length f.bytes s.str.length)
            have he : (stores s.str (resized f.bytes s.str.length) order).getLastD (resized f.bytes s.str.length) = s.str := by
              apply List.ext_getElem?
              intro j
              by_cases hj : j < s.str.length
              · exact hlast.2 j (Or.inl (ho j hj))
              · rw [List.getElem?_eq_none (by omega), List.getElem?_eq_none (by omega)]
            rw [he, List.drop_eq_nil_of_le (by rw [resized_length]; exact Nat.le_refl _)]
            split <;> simp
    | false =>
      simp only [Bool.false_eq_true, if_false]
      by_cases h1 : sys.dupOk = false
      · simp only [h1, true_or, if_true]; rfl
      · by_cases h2 : sys.fdopenOk = false
        · simp only [h1, h2, or_true, if_true, Bool.true_eq_false, if_false]; rfl
        · simp only [h1, h2, Bool.true_eq_false, or_self, if_false]
          have := writes_last (base := f.bytes) (w := s.str.take (sys.written.getD s.str.length)) (off := f.off) sizes 0
          rw [List.take_zero, show written f.bytes f.off [] = f.bytes from rfl, Nat.zero_add, hz, List.take_length] at this
          rw [this]
          split <;> rfl
  refine ⟨?_, hfd⟩
  unfold saveFile writeFile
  by_cases h0 : sys.openOk = false
  · simp only [h0, if_true]; rfl
  · simp only [h0, Bool.true_eq_false, if_false]
    rw [List.getLastD_cons]
    have h1 := hfd ⟨[], 0⟩
    have hm : ∀ (l : List Bytes) (a : Bytes), (l.map some).getLastD (some a) = some (l.getLastD a) := by
      intro l
      induction l with
      | nil => intro a; rfl
      | cons x xs ih => intro a; rw [List.map_cons, List.getLastD_cons, List.getLastD_cons, ih]
    rw [hm, h1]

/-- **C115 (partial)** Whatever fails, and in whichever order and pieces the bytes arrive: what others find under the name at any moment, and what is left if the
program is killed at any moment, is the file from before, or a part of the stream's text: no longer, and the same wherever it is not 0; in a `stdio`
build it is a beginning of the text.  Missing: that it is never less than one of the two. -/
theorem c115_seen_partial (mmap : Bool) (sys : Sys) (order sizes : List Nat) (s : Stream) (c : Option Bytes)
    (hc : c ∈ saveFile mmap sys order sizes s) : ∃ b, c = some b ∧ PartOf b s.str ∧ (mmap = false → b <+: s.str) := by
  unfold saveFile at hc
  split at hc
  · cases hc
  · rcases List.mem_cons.1 hc with rfl | hc
    · exact ⟨[], rfl, ⟨Nat.zero_le _, fun i x h => by cases h⟩, fun _ => List.nil_prefix⟩
    · obtain ⟨x, hx, rfl⟩ := List.mem_map.1 hc
      refine ⟨x, rfl, ?_⟩
      unfold saveFd at hx
      cases mmap with
      | true =>
        refine ⟨?_, fun h => by cases h⟩
        simp only [if_true] at hx
        split at hx
        · cases hx
        · have hres : PartOf (resized [] s.str.length) s.str := by
            refine ⟨by rw [resized_length]; exact Nat.le_refl _, fun i x h => ?_⟩
            rcases resized_seen h with h | h
            · cases h
            · exact Or.inl h.2
          rcases List.mem_cons.1 hx with rfl | hx
          · exact hres
          · split at hx
            · cases hx
            · obtain ⟨h1, h2⟩ := stores_seen order (resized_length [] s.str.length) x hx
              refine ⟨by omega, fun i y h => ?_⟩
              rcases h2 i with h3 | h3
              · exact hres.2 i y (by rw [← h3]; exact h)
              · exact Or.inr (by rw [← h3]; exact h)
      | false =>
        simp only [Bool.false_eq_true, if_false] at hx
        split at hx
        · cases hx
        · obtain ⟨m, rfl⟩ := writes_seen sizes 0 x hx
          rw [written_nil]
          have hp : (s.str.take (sys.written.getD s.str.length)).take m <+: s.str := (List.take_prefix _ _).trans (List.take_prefix _ _)
          refine ⟨⟨hp.length_le, fun i y h => Or.inr ?_⟩, fun _ => hp⟩
          obtain ⟨t, ht⟩ := hp
          rw [← ht, List.getElem?_append_left (List.getElem?_eq_some_iff.1 h).1]
          exact h

/-- **C115** So if what is found has as many bytes as the text and none of them is 0, it is the whole text. -/
theorem c115_whole {mmap : Bool} {sys : Sys} {order sizes : List Nat} {s : Stream} {b : Bytes} (hb : some b ∈ saveFile mmap sys order sizes s)
    (hl : b.length = s.str.length) (h0 : 0 ∉ b) : b = s.str := by
  obtain ⟨b', he, ⟨_, h2⟩, -⟩ := c115_seen_partial mmap sys order sizes s _ hb
  cases he
  apply List.ext_getElem?
  intro i
  by_cases hi : i < b.length
  · rcases h2 i _ (List.getElem?_eq_getElem hi) with h | h
    · exact absurd (h ▸ List.getElem_mem hi) h0
    · rw [h, List.getElem?_eq_getElem hi]
  · rw [List.getElem?_eq_none (by omega), List.getElem?_eq_none (by omega)]

/-- **C115 refuted** Whenever the file can be opened, and neither the file nor the text is empty, there is a moment when the file is neither: a
program killed then has lost both. -/
theorem c115_refuted_neither (mmap : Bool) {sys : Sys} (h : sys.openOk = true) (order sizes : List Nat) {s : Stream} (hs : s.str ≠ []) {old : Bytes}
    (ho : old ≠ []) : ∃ c ∈ saveFile mmap sys order sizes s, c ≠ some old ∧ c ≠ some s.str := by
  refine ⟨some [], ?_, fun h => ho (Option.some.inj h).symm, fun h => hs (Option.some.inj h).symm⟩
  unfold saveFile
  rw [if_neg (by simp [h])]
  exact List.mem_cons_self

/-- **C115 refuted** In an `mmap` build there is also a moment when the file has the length of the text and holds only zeros. -/
theorem c115_refuted_zeros {sys : Sys} (h : sys.openOk = true ∧ sys.ftruncateOk = true) (order sizes : List Nat) (s : Stream) :
    some (List.replicate s.str.length 0) ∈ saveFile true sys order sizes s := by
  unfold saveFile saveFd
  simp [h.1, h.2, resized]

/-- **C115** Saving to a descriptor, `mmap` build: the file is as before, or has the length of the text, and each byte is the one from before, the text's,
or, behind the end of the file from before, 0. -/
theorem c115_fd_mmap (sys : Sys) (order sizes : List Nat) (s : Stream) (f : File) (x : Bytes) (hx : x ∈ saveFd true sys order sizes s f) :
    x.length = s.str.length ∧ ∀ j y, x[j]? = some y → f.bytes[j]? = some y ∨ s.str[j]? = some y ∨ (f.bytes.length ≤ j ∧ y = 0) := by
  unfold saveFd at hx
  simp only [if_true] at hx
  split at hx
  · cases hx
  · rcases List.mem_cons.1 hx with rfl | hx
    · exact ⟨resized_length _ _, fun j y h => (resized_seen h).imp_right Or.inr⟩
    · split at hx
      · cases hx
      · obtain ⟨h1, h2⟩ := stores_seen order (resized_length f.bytes s.str.length) x hx
        refine ⟨h1, fun j y h => ?_⟩
        rcases h2 j with h3 | h3
        · exact (resized_seen (by rw [← h3]; exact h)).imp_right Or.inr
        · exact Or.inr (Or.inl (by rw [← h3]; exact h))

/-- **C115** Saving to a descriptor, `stdio` build, at a position within the file: at each moment a beginning of the text stands at this position, and the
rest of the file is as before. -/
theorem c115_fd_stdio (sys : Sys) (order sizes : List Nat) (s : Stream) (f : File) (hf : f.off ≤ f.bytes.length) (x : Bytes)
    (hx : x ∈ saveFd false sys order sizes s f) : ∃ w, w <+: s.str ∧ x = f.bytes.take f.off ++ w ++ f.bytes.drop (f.off + w.length) := by
  unfold saveFd at hx
  simp only [Bool.false_eq_true, if_false] at hx
  split at hx
  · cases hx
  · obtain ⟨m, rfl⟩ := writes_seen sizes 0 x hx
    refine ⟨_, (List.take_prefix m _).trans (List.take_prefix (sys.written.getD s.str.length) s.str), ?_⟩
    unfold written
    split
    · rename_i h; rw [h]; simp
    · rw [Nat.sub_eq_zero_of_le hf]; simp

/-- **C115** One program loads while others save, again and again, any texts `news` over the file `old` (no program's save starts before that of another has
ended; any of them may be killed): if the loading one is a `stdio` build it is never killed, and each byte it gets was at its place in the old file
or in one of the texts, or is 0. -/
theorem c115_reader {sys : Sys} (h : sys.dupOk = true ∧ sys.fdopenOk = true) {file : FileInTime} {start finish : Nat} {at_ count : Nat → Nat}
    (hl : (file start).length < 4611686018427387904) (ht : ∀ k, start ≤ at_ k ∧ at_ k ≤ finish) {old : Bytes} {news : List Stream}
    (hf : ∀ m, file m = old ∨ ∃ s ∈ news, ∃ mmap sys order sizes, some (file m) ∈ saveFile mmap sys order sizes s)
    (fuel cap0 : Nat) (cap : Nat → Nat) (s : Stream) :
    loadStdioInTime sys file start at_ count fuel cap0 cap s = .more ∨
    ∃ x c, loadStdioInTime sys file start at_ count fuel cap0 cap s = .ret (0, ⟨x, c, 0, false⟩) ∧
      ∀ (i : Nat) (b : UInt8), x[i]? = some b → b = 0 ∨ old[i]? = some b ∨ ∃ t ∈ news, t.str[i]? = some b := by
  rcases c114_stdio h hl ht fuel cap0 cap s (count := count) with h1 | ⟨x, c, h1, h2, -⟩
  · exact Or.inl h1
  · refine Or.inr ⟨x, c, h1, fun i b hb => ?_⟩
    obtain ⟨m, -, -, hm⟩ := h2 i b hb
    rcases hf m with he | ⟨t, htn, mmap, sys', order, sizes, hs⟩
    · exact Or.inr (Or.inl (by rw [← he]; exact hm))
    · obtain ⟨b', e, ⟨-, hp⟩, -⟩ := c115_seen_partial mmap sys' order sizes t _ hs
      cases e
      rcases hp i b hm with h0 | h0
      · exact Or.inl h0
      · exact Or.inr (Or.inr ⟨t, htn, h0⟩)

/-- **C115 refuted** If the loading one is an `mmap` build, any save under the name kills it, when it comes between asking for the length and copying the first
byte: the file is empty then. -/
theorem c115_refuted_reader {sys : Sys} (h : sys.lseekOk = true ∧ sys.mmapOk = true) {page : Nat} (hp : 0 < page) {file : FileInTime} {start : Nat}
    {touch : Nat → Nat} (hne : file start ≠ []) (hl : (file start).length < 4611686018427387904) (h0 : file (touch 0) = [])
    (cap0 : Nat) (cap : Nat → Nat) (s : Stream) : loadMapInTime sys page file start touch cap0 cap s = .ub := by
  refine (c114_refuted_killed h hne hl cap0 cap s).2 ⟨0, List.length_pos_iff.2 hne, by rw [h0]; exact Nat.le_refl _, ?_⟩
  rw [h0, List.length_nil, Nat.zero_add, Nat.div_eq_of_lt (by omega)]
  exact Nat.zero_le _

/-- Loading while "abc" is saved over "xy", with hypotheses of `c115_reader`: the reader gets "x", then "b" and a zero. -/
example : ∃ file : FileInTime, (∀ m, file m = [120, 121] ∨ ∃ s ∈ [ofString [97, 98, 99] 16], ∃ mmap sys order sizes,
      some (file m) ∈ saveFile mmap sys order sizes s) ∧
    loadStdioInTime {} file 0 id (fun _ => 0) 9 0 (fun _ => 16) (ofString [] 16) = .ret (0, ⟨[120, 98, 0], 16, 0, false⟩) := by
  refine ⟨fun m => if m = 0 then [120, 121] else [0, 98, 0], fun m => ?_, by decide +kernel⟩
  dsimp only
  split
  · exact Or.inl rfl
  · exact Or.inr ⟨_, List.mem_singleton.2 rfl, true, {}, [1], [], by decide +kernel⟩

/-- Saving "abc" over "xy", byte 2 first; and in two pieces; and to a full disk. -/
example : saveFile true {} [2, 0, 1] [] (ofString [97, 98, 99] 16) =
      [some [], some [0, 0, 0], some [0, 0, 99], some [97, 0, 99], some [97, 98, 99]] ∧
    saveFile false {} [] [1, 2] (ofString [97, 98, 99] 16) = [some [], some [97], some [97, 98, 99]] ∧
    saveFile false { written := some 2 } [] [1, 1] (ofString [97, 98, 99] 16) = [some [], some [97], some [97, 98]] ∧
    saveFd true {} [2, 0, 1] [] (ofString [97, 98, 99] 16) ⟨[120, 121], 0⟩ =
      [[120, 121, 0], [120, 121, 99], [97, 121, 99], [97, 98, 99]] ∧
    saveFd false {} [] [1, 2] (ofString [97, 98, 99] 16) ⟨[120, 121, 122, 122, 122], 1⟩ =
      [[120, 97, 122, 122, 122], [120, 97, 98, 99, 122]] := by decide +kernel

example : Whole {} [2, 0, 1] [1, 2] (ofString [97, 98, 99] 16) ∧ Whole { written := some 2 } [2, 0, 1] [1, 1] (ofString [97, 98, 99] 16) := by
  unfold Whole; decide +kernel

end Bdlib.Stm
