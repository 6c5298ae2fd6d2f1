import Verif.Props.C48
import Verif.Stm.Moving

/-!
# C114: loading a file that other programs change meanwhile

The `stdio` build is safe (`c114_stdio`), but need not end (`c114_refuted_endless`).  The `mmap` build is safe only as long as the file does not get
shorter (`c114_map_partial`); otherwise it is killed or makes up zeros (`c114_refuted_killed`, `c114_refuted_zeros`).
-/

namespace Bdlib.Stm
open Bdlib Bdlib.Str Bdlib.Spec

theorem copyMap_some {page : Nat} {file : FileInTime} {touch : Nat → Nat} : ∀ (n i : Nat) {x : Bytes}, copyMap page file touch i n = some x →
    x.length = n ∧ ∀ j, j < n → x[j]? = mapped page (file (touch (i + j))) (i + j)
  | 0, i, x, h => by
    simp only [copyMap, Option.some.injEq] at h
    subst h
    exact ⟨rfl, fun j hj => absurd hj (Nat.not_lt_zero _)⟩
  | n + 1, i, x, h => by
    rw [copyMap] at h
    cases hm : mapped page (file (touch i)) i with
    | none => rw [hm] at h; cases h
    | some c =>
      rw [hm] at h
      dsimp only at h
      cases hr : copyMap page file touch (i + 1) n with
      | none => rw [hr] at h; cases h
      | some xs =>
        rw [hr] at h
        simp only [Option.some.injEq] at h
        subst h
        obtain ⟨h1, h2⟩ := copyMap_some n (i + 1) hr
        refine ⟨by simp [h1], fun j hj => ?_⟩
        cases j with
        | zero => simp [hm]
        | succ j =>
          have := h2 j (by omega)
          rw [show i + 1 + j = i + (j + 1) by omega] at this
          simpa using this

theorem copyMap_none {page : Nat} {file : FileInTime} {touch : Nat → Nat} : ∀ (n i : Nat),
    copyMap page file touch i n = none ↔ ∃ j, j < n ∧ mapped page (file (touch (i + j))) (i + j) = none
  | 0, i => ⟨fun h => (Option.some_ne_none _ h).elim, fun ⟨_, h, _⟩ => absurd h (Nat.not_lt_zero _)⟩
  | n + 1, i => by
    rw [copyMap]
    cases hm : mapped page (file (touch i)) i with
    | none => exact ⟨fun _ => ⟨0, by omega, hm⟩, fun _ => rfl⟩
    | some c =>
      dsimp only
      have ih := copyMap_none (page := page) (file := file) (touch := touch) n (i + 1)
      have : (∃ j, j < n + 1 ∧ mapped page (file (touch (i + j))) (i + j) = none) ↔
          ∃ j, j < n ∧ mapped page (file (touch (i + 1 + j))) (i + 1 + j) = none := by
        constructor
        · rintro ⟨j, h1, h2⟩
          cases j with
          | zero => rw [Nat.add_zero, hm] at h2; cases h2
          | succ j => exact ⟨j, by omega, by rw [show i + 1 + j = i + (j + 1) by omega]; exact h2⟩
        · rintro ⟨j, h1, h2⟩
          exact ⟨j + 1, by omega, by rw [show i + (j + 1) = i + 1 + j by omega]; exact h2⟩
      rw [this, ← ih]
      cases copyMap page file touch (i + 1) n <;> simp

theorem mapped_none {page : Nat} {bytes : Bytes} {i : Nat} : mapped page bytes i = none ↔ bytes.length ≤ i ∧ pages page bytes.length ≤ i / page := by
  unfold mapped
  cases h : bytes[i]? with
  | some x =>
    have := (List.getElem?_eq_some_iff.1 h).1
    simp; omega
  | none =>
    have := List.getElem?_eq_none_iff.1 h
    dsimp only
    split <;> simp <;> omega

theorem loadMap_eq {sys : Sys} (h : sys.lseekOk = true ∧ sys.mmapOk = true) {page : Nat} {file : FileInTime} {start : Nat} {touch : Nat → Nat}
    (hne : file start ≠ []) (hl : (file start).length < 4611686018427387904) (cap0 : Nat) (cap : Nat → Nat) (s : Stream) :
    loadMapInTime sys page file start touch cap0 cap s = match copyMap page file touch 0 (file start).length with
      | none => .ub
      | some x => .ret (0, ⟨x, cap (file start).length, 0, false⟩) := by
  obtain ⟨h1, h2⟩ := h
  unfold loadMapInTime
  simp only [h1, h2, Bool.true_eq_false, if_false, false_or]
  rw [reserve_ok hl]
  simp only [Eff.ret_bind]
  rw [if_neg (by simpa using hne)]
  cases copyMap page file touch 0 (file start).length with
  | none => rfl
  | some x =>
    dsimp only
    unfold puts
    rw [replace_ok (Nat.le_refl 0 : 0 ≤ ([] : Bytes).length)]
    simp only [Eff.ret_bind, Eff.pure_eq, seek_zero]
    simp [clear]

/-- **C114 (partial)** `mmap` build.  If the file, while it is loaded, always has the bytes it had at first (others may overwrite them and append), loading
reports success, and the stream has as many bytes as the file had at first, each of which was at its place in the file at some moment since; the
position is 0.  Missing: files that get shorter. -/
theorem c114_map_partial {sys : Sys} (h : sys.lseekOk = true ∧ sys.mmapOk = true) {page : Nat} {file : FileInTime} {start finish : Nat}
    {touch : Nat → Nat} (hne : file start ≠ []) (hl : (file start).length < 4611686018427387904)
    (ht : ∀ i, start ≤ touch i ∧ touch i ≤ finish) (hr : ∀ i, i < (file start).length → Reaches file start finish i)
    (cap0 : Nat) (cap : Nat → Nat) (s : Stream) :
    ∃ x c, loadMapInTime sys page file start touch cap0 cap s = .ret (0, ⟨x, c, 0, false⟩) ∧ x.length = (file start).length ∧
      ∀ i b, x[i]? = some b → WasThere file start finish i b := by
  rw [loadMap_eq h hne hl]
  cases hc : copyMap page file touch 0 (file start).length with
  | none =>
    obtain ⟨j, h1, h2⟩ := (copyMap_none _ 0).1 hc
    rw [Nat.zero_add] at h2
    have := (mapped_none.1 h2).1
    have := hr j h1 (touch j) (ht j).1 (ht j).2
    omega
  | some x =>
    obtain ⟨h1, h2⟩ := copyMap_some _ 0 hc
    refine ⟨x, _, rfl, h1, fun i b hb => ?_⟩
    have hi : i < (file start).length := by rw [← h1]; exact (List.getElem?_eq_some_iff.1 hb).1
    refine ⟨touch i, (ht i).1, (ht i).2, ?_⟩
    have h3 := h2 i hi
    rw [Nat.zero_add, hb] at h3
    have hlt := hr i hi (touch i) (ht i).1 (ht i).2
    unfold mapped at h3
    rw [List.getElem?_eq_getElem hlt] at h3 ⊢
    exact h3.symm

/-- **C114** `mmap` build: a file that others only append to is loaded exactly as it was at the moment its length was asked for; in particular one
that does not change. -/
theorem c114_map_grows {sys : Sys} (h : sys.lseekOk = true ∧ sys.mmapOk = true) {page : Nat} {file : FileInTime} {start finish : Nat}
    {touch : Nat → Nat} (hne : file start ≠ []) (hl : (file start).length < 4611686018427387904)
    (ht : ∀ i, start ≤ touch i ∧ touch i ≤ finish) (hg : OnlyGrows file start finish) (cap0 : Nat) (cap : Nat → Nat) (s : Stream) :
    ∃ c, loadMapInTime sys page file start touch cap0 cap s = .ret (0, ⟨file start, c, 0, false⟩) := by
  have hp : ∀ m, start ≤ m → m ≤ finish → file start <+: file m := fun m h1 h2 => hg start m (Nat.le_refl _) h1 h2
  obtain ⟨x, c, h1, h2, h3⟩ := c114_map_partial h hne hl ht (fun i hi m h1 h2 => Nat.lt_of_lt_of_le hi (hp m h1 h2).length_le) cap0 cap s (page := page)
  refine ⟨c, ?_⟩
  rw [h1]
  have : x = file start := by
    apply List.ext_getElem?
    intro i
    by_cases hi : i < x.length
    · obtain ⟨m, m1, m2, m3⟩ := h3 i _ (List.getElem?_eq_getElem hi)
      obtain ⟨t, ht⟩ := hp m m1 m2
      rw [← ht, List.getElem?_append_left (by omega)] at m3
      rw [m3, List.getElem?_eq_getElem hi]
    · rw [List.getElem?_eq_none (by omega), List.getElem?_eq_none (by omega)]
  rw [this]

/-- **C114 refuted** `mmap` build: the program is killed exactly if some byte is copied at a moment when the file has become so short that this byte
is behind its last page. -/
theorem c114_refuted_killed {sys : Sys} (h : sys.lseekOk = true ∧ sys.mmapOk = true) {page : Nat} {file : FileInTime} {start : Nat}
    {touch : Nat → Nat} (hne : file start ≠ []) (hl : (file start).length < 4611686018427387904) (cap0 : Nat) (cap : Nat → Nat) (s : Stream) :
    loadMapInTime sys page file start touch cap0 cap s = .ub ↔ ∃ i, i < (file start).length ∧ (file (touch i)).length ≤ i ∧
      ((file (touch i)).length + page - 1) / page ≤ i / page := by
  rw [loadMap_eq h hne hl]
  have : copyMap page file touch 0 (file start).length = none ↔ ∃ i, i < (file start).length ∧ (file (touch i)).length ≤ i ∧
      ((file (touch i)).length + page - 1) / page ≤ i / page := by
    rw [copyMap_none]
    refine exists_congr fun j => and_congr_right fun _ => ?_
    rw [Nat.zero_add]
    exact mapped_none
  rw [← this]
  cases copyMap page file touch 0 (file start).length <;> simp

/-- **C114 refuted** … and otherwise a byte copied when the file no longer has it becomes 0, and success is reported. -/
theorem c114_refuted_zeros {sys : Sys} (h : sys.lseekOk = true ∧ sys.mmapOk = true) {page : Nat} {file : FileInTime} {start : Nat}
    {touch : Nat → Nat} (hne : file start ≠ []) (hl : (file start).length < 4611686018427387904)
    (hp : ∀ i, i < (file start).length → i < (file (touch i)).length ∨ i / page < ((file (touch i)).length + page - 1) / page)
    (cap0 : Nat) (cap : Nat → Nat) (s : Stream) :
    ∃ x c, loadMapInTime sys page file start touch cap0 cap s = .ret (0, ⟨x, c, 0, false⟩) ∧ x.length = (file start).length ∧
      ∀ i, i < (file start).length → (file (touch i)).length ≤ i → x[i]? = some 0 := by
  rw [loadMap_eq h hne hl]
  cases hc : copyMap page file touch 0 (file start).length with
  | none =>
    obtain ⟨j, h1, h2⟩ := (copyMap_none _ 0).1 hc
    rw [Nat.zero_add] at h2
    obtain ⟨h3, h4⟩ := mapped_none.1 h2
    have := hp j h1
    unfold pages at h4
    omega
  | some x =>
    obtain ⟨h1, h2⟩ := copyMap_some _ 0 hc
    refine ⟨x, _, rfl, h1, fun i hi hs => ?_⟩
    rw [h2 i hi, Nat.zero_add]
    unfold mapped
    rw [List.getElem?_eq_none hs]
    exact if_pos ((hp i hi).resolve_left (by omega))

theorem readCalls_spec {file : FileInTime} {at_ count : Nat → Nat} : ∀ (fuel k off : Nat) {x : Bytes}, readCalls file at_ count fuel k off = some x →
    (∀ i b, x[i]? = some b → ∃ j, k ≤ j ∧ (file (at_ j))[off + i]? = some b) ∧ ∃ j, k ≤ j ∧ (file (at_ j)).length ≤ off + x.length ∧
      (∀ i b, x[i]? = some b → ∃ j', k ≤ j' ∧ j' ≤ j ∧ (file (at_ j'))[off + i]? = some b)
  | 0, k, off, x, h => by cases h
  | fuel + 1, k, off, x, h => by
    rw [readCalls] at h
    split at h
    · rename_i hg
      simp only [Option.some.injEq] at h
      subst h
      refine ⟨fun i b hb => (by simp at hb), k, Nat.le_refl _, ?_, fun i b hb => (by simp at hb)⟩
      have : (((file (at_ k)).drop off).take (count k + 1)).length = 0 := by rw [hg]; rfl
      rw [List.length_take, List.length_drop] at this
      simp only [List.length_nil]
      omega
    · cases hr : readCalls file at_ count fuel (k + 1) (off + (((file (at_ k)).drop off).take (count k + 1)).length) with
      | none => rw [hr] at h; cases h
      | some more =>
        rw [hr] at h
        simp only [Option.some.injEq] at h
        obtain ⟨h1, j, hj, h2, h3⟩ := readCalls_spec fuel (k + 1) _ hr
        subst h
        generalize hG : ((file (at_ k)).drop off).take (count k + 1) = got at *
        have hgot : ∀ i b, got[i]? = some b → (file (at_ k))[off + i]? = some b := by
          intro i b hb
          have hi := (List.getElem?_eq_some_iff.1 hb).1
          rw [← hG, List.getElem?_take] at hb
          split at hb
          · rw [List.getElem?_drop] at hb; exact hb
          · cases hb
        have key : ∀ i b, (got ++ more)[i]? = some b → ∃ j', k ≤ j' ∧ j' ≤ j ∧ (file (at_ j'))[off + i]? = some b := by
          intro i b hb
          by_cases hi : i < got.length
          · rw [List.getElem?_append_left hi] at hb
            exact ⟨k, Nat.le_refl _, by omega, hgot i b hb⟩
          · rw [List.getElem?_append_right (by omega)] at hb
            obtain ⟨j', g1, g2, g3⟩ := h3 _ b hb
            exact ⟨j', by omega, g2, by rw [← g3]; congr 1; omega⟩
        refine ⟨fun i b hb => ?_, j, by omega, by rw [List.length_append]; omega, key⟩
        obtain ⟨j', g1, _, g3⟩ := key i b hb
        exact ⟨j', g1, g3⟩

theorem loadStdio_eq {sys : Sys} (h : sys.dupOk = true ∧ sys.fdopenOk = true) {file : FileInTime} {start : Nat} {at_ count : Nat → Nat} {fuel : Nat}
    (hl : (file start).length < 4611686018427387904) (cap0 : Nat) (cap : Nat → Nat) (s : Stream) :
    (readCalls file at_ count fuel 0 0 = none → loadStdioInTime sys file start at_ count fuel cap0 cap s = .more) ∧
    ∀ x, readCalls file at_ count fuel 0 0 = some x → ∃ c, loadStdioInTime sys file start at_ count fuel cap0 cap s = .ret (0, ⟨x, c, 0, false⟩) := by
  obtain ⟨h1, h2⟩ := h
  unfold loadStdioInTime
  simp only [h1, h2, Bool.true_eq_false, if_false]
  rw [reserve_ok hl]
  simp only [Eff.ret_bind]
  constructor
  · intro hn
    rw [hn]
  · intro x hx
    rw [hx]
    obtain ⟨c, hc⟩ := loadLoop_spec cap (x.length + 1) x { clear s cap0 with loading := true } (by omega) rfl
    refine ⟨c, ?_⟩
    dsimp only
    rw [hc]
    simp only [Eff.ret_bind, Eff.pure_eq, seek_zero]
    simp [clear]

/-- **C114** `stdio` build: whatever others do to the file, also making it shorter, loading is either still reading or reports success; then every byte of
the stream was at its place in the file at some moment while it was loaded, the stream has no fewer bytes than the file had at one such moment,
and the position is 0. -/
theorem c114_stdio {sys : Sys} (h : sys.dupOk = true ∧ sys.fdopenOk = true) {file : FileInTime} {start finish : Nat} {at_ count : Nat → Nat}
    (hl : (file start).length < 4611686018427387904) (ht : ∀ k, start ≤ at_ k ∧ at_ k ≤ finish) (fuel cap0 : Nat) (cap : Nat → Nat) (s : Stream) :
    loadStdioInTime sys file start at_ count fuel cap0 cap s = .more ∨
    ∃ x c, loadStdioInTime sys file start at_ count fuel cap0 cap s = .ret (0, ⟨x, c, 0, false⟩) ∧
      (∀ i b, x[i]? = some b → WasThere file start finish i b) ∧ ∃ m, start ≤ m ∧ m ≤ finish ∧ (file m).length ≤ x.length := by
  obtain ⟨h1, h2⟩ := loadStdio_eq h hl cap0 cap s (at_ := at_) (count := count) (fuel := fuel)
  cases hr : readCalls file at_ count fuel 0 0 with
  | none => exact Or.inl (h1 hr)
  | some x =>
    obtain ⟨c, hc⟩ := h2 x hr
    obtain ⟨g1, j, -, g2, -⟩ := readCalls_spec fuel 0 0 hr
    refine Or.inr ⟨x, c, hc, fun i b hb => ?_, at_ j, (ht j).1, (ht j).2, by omega⟩
    obtain ⟨j', -, hj'⟩ := g1 i b hb
    exact ⟨at_ j', (ht j').1, (ht j').2, by rwa [Nat.zero_add] at hj'⟩

/-- **C114** `stdio` build: a file that others only append to is loaded exactly as it was at one moment. -/
theorem c114_stdio_grows {sys : Sys} (h : sys.dupOk = true ∧ sys.fdopenOk = true) {file : FileInTime} {start finish : Nat} {at_ count : Nat → Nat}
    (hl : (file start).length < 4611686018427387904) (ht : ∀ k, start ≤ at_ k ∧ at_ k ≤ finish) (hm : ∀ k j, k ≤ j → at_ k ≤ at_ j)
    (hg : OnlyGrows file start finish) (fuel cap0 : Nat) (cap : Nat → Nat) (s : Stream) :
    loadStdioInTime sys file start at_ count fuel cap0 cap s = .more ∨
    ∃ m c, start ≤ m ∧ m ≤ finish ∧ loadStdioInTime sys file start at_ count fuel cap0 cap s = .ret (0, ⟨file m, c, 0, false⟩) := by
  obtain ⟨h1, h2⟩ := loadStdio_eq h hl cap0 cap s (at_ := at_) (count := count) (fuel := fuel)
  cases hr : readCalls file at_ count fuel 0 0 with
  | none => exact Or.inl (h1 hr)
  | some x =>
    obtain ⟨c, hc⟩ := h2 x hr
    obtain ⟨-, j, -, g2, g3⟩ := readCalls_spec fuel 0 0 hr
    refine Or.inr ⟨at_ j, c, (ht j).1, (ht j).2, ?_⟩
    rw [hc]
    have hx : x = file (at_ j) := by
      apply List.ext_getElem?
      intro i
      by_cases hi : i < x.length
      · obtain ⟨j', -, k2, k3⟩ := g3 i _ (List.getElem?_eq_getElem hi)
        obtain ⟨t, ht'⟩ := hg (at_ j') (at_ j) (ht j').1 (hm _ _ k2) (ht j).2
        rw [Nat.zero_add] at k3
        rw [← ht', List.getElem?_append_left (List.getElem?_eq_some_iff.1 k3).1, k3, List.getElem?_eq_getElem hi]
      · rw [List.getElem?_eq_none (by omega), List.getElem?_eq_none (by omega)]
    rw [hx]

theorem readCalls_ends {file : FileInTime} {at_ count : Nat → Nat} {n : Nat} (hb : ∀ k, (file (at_ k)).length ≤ n) : ∀ (fuel k off : Nat), off ≤ n →
    n < off + fuel → ∃ x, readCalls file at_ count fuel k off = some x
  | 0, k, off, h0, h => by omega
  | fuel + 1, k, off, h0, h => by
    rw [readCalls]
    split
    · exact ⟨_, rfl⟩
    · rename_i hg
      have hpos : 0 < (((file (at_ k)).drop off).take (count k + 1)).length := List.length_pos_iff.2 hg
      have hle : (((file (at_ k)).drop off).take (count k + 1)).length ≤ (file (at_ k)).length - off := by
        rw [List.length_take, List.length_drop]; omega
      have := hb k
      obtain ⟨x, hx⟩ := readCalls_ends hb fuel (k + 1) (off + (((file (at_ k)).drop off).take (count k + 1)).length) (by omega) (by omega)
      rw [hx]
      exact ⟨_, rfl⟩

/-- **C114** `stdio` build: if the file never has more than `n` bytes, loading ends. -/
theorem c114_stdio_ends {sys : Sys} (h : sys.dupOk = true ∧ sys.fdopenOk = true) {file : FileInTime} {start n : Nat} {at_ count : Nat → Nat}
    (hl : (file start).length < 4611686018427387904) (hb : ∀ k, (file (at_ k)).length ≤ n) (cap0 : Nat) (cap : Nat → Nat) (s : Stream) :
    ∃ x c, loadStdioInTime sys file start at_ count (n + 1) cap0 cap s = .ret (0, ⟨x, c, 0, false⟩) := by
  obtain ⟨x, hx⟩ := readCalls_ends hb (count := count) (n + 1) 0 0 (by omega) (by omega)
  obtain ⟨c, hc⟩ := (loadStdio_eq h hl cap0 cap s).2 x hx
  exact ⟨x, c, hc⟩

theorem readCalls_endless {file : FileInTime} {at_ count : Nat → Nat} {buf : Nat} (hc : ∀ k, count k < buf) (hg : ∀ k, k * buf < (file (at_ k)).length) :
    ∀ (fuel k off : Nat), off ≤ k * buf → readCalls file at_ count fuel k off = none
  | 0, k, off, h => rfl
  | fuel + 1, k, off, h => by
    rw [readCalls]
    have h1 := hc k
    have h2 := hg k
    have hlen : (((file (at_ k)).drop off).take (count k + 1)).length = min (count k + 1) ((file (at_ k)).length - off) := by
      rw [List.length_take, List.length_drop]
    rw [if_neg (fun hn => by rw [hn, List.length_nil] at hlen; omega)]
    rw [readCalls_endless hc hg fuel (k + 1) _ (by rw [Nat.add_mul]; omega)]

/-- **C114 refuted** `stdio` build: while another program appends as fast as this one reads, loading does not end, after any number of calls, though the
length was asked for at first. -/
theorem c114_refuted_endless {sys : Sys} (h : sys.dupOk = true ∧ sys.fdopenOk = true) {file : FileInTime} {start buf : Nat} {at_ count : Nat → Nat}
    (hl : (file start).length < 4611686018427387904) (hc : ∀ k, count k < buf) (hg : ∀ k, k * buf < (file (at_ k)).length)
    (fuel cap0 : Nat) (cap : Nat → Nat) (s : Stream) : loadStdioInTime sys file start at_ count fuel cap0 cap s = .more :=
  (loadStdio_eq h hl cap0 cap s).1 (readCalls_endless hc hg fuel 0 0 (by omega))

theorem storeMap_false {page : Nat} {len touch : Nat → Nat} : ∀ (n i : Nat),
    storeMap page len touch i n = false ↔ ∃ j, j < n ∧ pages page (len (touch (i + j))) ≤ (i + j) / page
  | 0, i => ⟨fun h => (by cases h), fun ⟨_, h, _⟩ => absurd h (Nat.not_lt_zero _)⟩
  | n + 1, i => by
    rw [storeMap]
    by_cases hp : i / page < pages page (len (touch i))
    · rw [if_pos hp, storeMap_false n (i + 1)]
      constructor
      · rintro ⟨j, h1, h2⟩
        exact ⟨j + 1, by omega, by rw [show i + (j + 1) = i + 1 + j by omega]; exact h2⟩
      · rintro ⟨j, h1, h2⟩
        cases j with
        | zero => rw [Nat.add_zero] at h2; omega
        | succ j => exact ⟨j, by omega, by rw [show i + 1 + j = i + (j + 1) by omega]; exact h2⟩
    · rw [if_neg hp]
      exact ⟨fun _ => ⟨0, by omega, by rw [Nat.add_zero]; omega⟩, fun _ => rfl⟩

/-- **C114 refuted** `mmap` build, saving: the program is killed exactly if some byte is stored at a moment when another program has made the file so short
that the byte is behind its last page. -/
theorem c114_refuted_saving {sys : Sys} (h : sys.ftruncateOk = true ∧ sys.mmapOk = true) {page : Nat} {len touch : Nat → Nat} {s : Stream}
    (hne : s.str ≠ []) : writeMapInTime sys page len touch s = .ub ↔
      ∃ i, i < s.str.length ∧ (len (touch i) + page - 1) / page ≤ i / page := by
  have hz : s.str.length ≠ 0 := fun hh => hne (List.length_eq_zero_iff.1 hh)
  have hs := storeMap_false (page := page) (len := len) (touch := touch) s.str.length 0
  simp only [Nat.zero_add] at hs
  have hs' : storeMap page len touch 0 s.str.length = false ↔ ∃ i, i < s.str.length ∧ (len (touch i) + page - 1) / page ≤ i / page := hs
  rw [← hs']
  unfold writeMapInTime
  simp only [h.1, h.2, Bool.true_eq_false, if_false, hz]
  cases storeMap page len touch 0 s.str.length <;> simp

/-- **C114 (partial)** `mmap` build, saving: if nobody makes the file shorter than the stream meanwhile, saving is not killed, and reports success exactly
if unmapping succeeds.  Missing: files that get shorter. -/
theorem c114_saving_partial {sys : Sys} (h : sys.ftruncateOk = true ∧ sys.mmapOk = true) {page : Nat} (hp : 0 < page) {len touch : Nat → Nat} {s : Stream}
    (hne : s.str ≠ []) (hlen : ∀ i, s.str.length ≤ len (touch i)) :
    writeMapInTime sys page len touch s = .ret (if sys.munmapOk = true then 0 else 1) := by
  have hz : s.str.length ≠ 0 := fun hh => hne (List.length_eq_zero_iff.1 hh)
  have hs : storeMap page len touch 0 s.str.length = true := by
    cases hh : storeMap page len touch 0 s.str.length with
    | true => rfl
    | false =>
      obtain ⟨j, h1, h2⟩ := (storeMap_false _ 0).1 hh
      rw [Nat.zero_add] at h2
      have h3 := hlen j
      have h4 : (j + page) / page ≤ pages page (len (touch j)) := Nat.div_le_div_right (by omega)
      rw [Nat.add_div_right j hp] at h4
      omega
  unfold writeMapInTime
  simp only [h.1, h.2, Bool.true_eq_false, if_false, hz, hs, if_true]
  cases sys.munmapOk <;> rfl

/-- **C114** Saving, `mmap` build: if nobody makes the file shorter meanwhile, what is returned is what C48 is about, whatever fails. -/
theorem c114_saving_unchanged (sys : Sys) {page : Nat} (hp : 0 < page) {len touch : Nat → Nat} {s : Stream}
    (hlen : ∀ i, s.str.length ≤ len (touch i)) (f : File) : writeMapInTime sys page len touch s = .ret (writeFd true sys s f).1 := by
  by_cases h1 : sys.ftruncateOk = false
  · unfold writeMapInTime writeFd; simp [h1]
  · by_cases h2 : s.str.length = 0
    · unfold writeMapInTime writeFd; simp [h1, h2]
    · by_cases h3 : sys.mmapOk = false
      · unfold writeMapInTime writeFd; simp [h1, h2, h3]
      · rw [c114_saving_partial ⟨by simpa using h1, by simpa using h3⟩ hp (fun hh => h2 (by rw [hh]; rfl)) hlen]
        unfold writeFd
        cases h4 : sys.munmapOk <;> simp [h1, h2, h3]

theorem copyMap_unchanged {page : Nat} (bytes : Bytes) (touch : Nat → Nat) : ∀ (n i : Nat), i + n = bytes.length →
    copyMap page (fun _ => bytes) touch i n = some (bytes.drop i)
  | 0, i, h => by rw [copyMap, List.drop_eq_nil_of_le (by omega)]
  | n + 1, i, h => by
    have hi : i < bytes.length := by omega
    rw [copyMap, mapped, List.getElem?_eq_getElem hi]
    dsimp only
    rw [copyMap_unchanged bytes touch n (i + 1) (by omega), List.drop_eq_getElem_cons hi]

theorem readCalls_unchanged (bytes : Bytes) (at_ count : Nat → Nat) : ∀ (fuel k off : Nat), bytes.length < off + fuel → off ≤ bytes.length →
    readCalls (fun _ => bytes) at_ count fuel k off = some (bytes.drop off)
  | 0, k, off, h, h0 => by omega
  | fuel + 1, k, off, h, h0 => by
    rw [readCalls]
    split
    · rename_i hg
      have : ((bytes.drop off).take (count k + 1)).length = 0 := by rw [hg]; rfl
      rw [List.length_take, List.length_drop] at this
      rw [List.drop_eq_nil_of_le (by omega)]
    · rename_i hg
      have hpos : 0 < ((bytes.drop off).take (count k + 1)).length := List.length_pos_iff.2 hg
      have hle : ((bytes.drop off).take (count k + 1)).length ≤ bytes.length - off := by rw [List.length_take, List.length_drop]; omega
      rw [readCalls_unchanged bytes at_ count fuel (k + 1) _ (by omega) (by omega)]
      dsimp only
      congr 1
      rw [← List.drop_drop]
      conv => rhs; rw [← List.take_append_drop (count k + 1) (bytes.drop off)]
      congr 1
      rw [List.length_take]
      by_cases hc : count k + 1 ≤ (bytes.drop off).length
      · rw [Nat.min_eq_left hc]
      · rw [Nat.min_eq_right (by omega), List.drop_length, List.drop_eq_nil_of_le (by omega)]

/-- **C114** If nobody changes the file, both builds do what C48 is about, whatever fails. -/
theorem c114_unchanged (sys : Sys) (hr : sys.readable = none) (page start : Nat) (touch at_ count : Nat → Nat) (bytes : Bytes) (off fuel : Nat)
    (hf : bytes.length < fuel) (cap0 : Nat) (cap : Nat → Nat) (s : Stream) :
    loadMapInTime sys page (fun _ => bytes) start touch cap0 cap s =
      ((loadFd true sys cap0 cap ⟨bytes, off⟩ s).bind fun r => .ret (r.1, r.2.2)) ∧
    loadStdioInTime sys (fun _ => bytes) start at_ count fuel cap0 cap s =
      ((loadFd false sys cap0 cap ⟨bytes, off⟩ s).bind fun r => .ret (r.1, r.2.2)) := by
  constructor
  · unfold loadMapInTime loadFd
    simp only [if_true]
    by_cases h1 : sys.lseekOk = false
    · simp only [h1, if_true]; rfl
    · simp only [h1]
      cases reserve (clear s cap0) bytes.length with
      | ret u =>
        simp only [Eff.ret_bind]
        by_cases h2 : sys.mmapOk = false ∨ bytes.length = 0
        · simp only [h2, if_true]; rfl
        · simp only [h2, if_false]
          rw [copyMap_unchanged bytes touch _ 0 (by omega), List.drop_zero]
          dsimp only
          cases puts { clear s cap0 with loading := true } bytes (cap bytes.length) <;> rfl
      | _ => rfl
  · unfold loadStdioInTime loadFd
    simp only [Bool.false_eq_true, if_false]
    by_cases h1 : sys.dupOk = false
    · simp only [h1, if_true]; rfl
    · by_cases h2 : sys.fdopenOk = false
      · simp only [h1, h2, if_true]; rfl
      · simp only [h1, h2]
        cases reserve (clear s cap0) bytes.length with
        | ret u =>
          simp only [Eff.ret_bind]
          rw [readCalls_unchanged bytes at_ count fuel 0 0 (by omega) (by omega), List.drop_zero, hr]
          simp only [Option.getD_none, List.take_length]
          cases loadLoop cap (bytes.length + 1) bytes { clear s cap0 with loading := true } <;> rfl
        | _ => rfl

/-- A file that is cut to one byte at moment 2, with pages of 4 bytes. -/
def c114cut : FileInTime := fun m => if m < 2 then [97, 98, 99, 100, 101, 102] else [97]

/-- Cut before anything is copied: killed.  Copied before: all is well.  Cut within the page: zeros. -/
example : loadMapInTime {} 4 c114cut 1 (fun _ => 2) 0 (fun _ => 16) (ofString [99] 16) = .ub ∧
    loadMapInTime {} 4 c114cut 1 (fun _ => 1) 0 (fun _ => 16) (ofString [99] 16) = .ret (0, ⟨[97, 98, 99, 100, 101, 102], 16, 0, false⟩) ∧
    loadMapInTime {} 8 c114cut 1 (fun _ => 2) 0 (fun _ => 16) (ofString [99] 16) = .ret (0, ⟨[97, 0, 0, 0, 0, 0], 16, 0, false⟩) ∧
    loadStdioInTime {} c114cut 1 (fun k => k + 1) (fun _ => 1) 5 0 (fun _ => 16) (ofString [99] 16) = .ret (0, ⟨[97, 98], 16, 0, false⟩) := by
  decide +kernel

theorem readCalls_step {file : FileInTime} {at_ count : Nat → Nat} {fuel k off : Nat} {got : Bytes}
    (h : ((file (at_ k)).drop off).take (count k + 1) = got) (hg : got ≠ []) :
    readCalls file at_ count (fuel + 1) k off = match readCalls file at_ count fuel (k + 1) (off + got.length) with
      | none => none
      | some more => some (got ++ more) := by
  subst h
  rw [readCalls]
  exact if_neg hg

theorem readCalls_stop {file : FileInTime} {at_ count : Nat → Nat} {fuel k off : Nat} (h : ((file (at_ k)).drop off).take (count k + 1) = []) :
    readCalls file at_ count (fuel + 1) k off = some [] := by
  rw [readCalls]
  exact if_pos h

/-- **C114 refuted** A file that is overwritten meanwhile, all at once, by a text of the same length: for any `k` it can be that the stream has `k` bytes of the old
text and the others of the new one, in both builds, and success is reported. -/
theorem c114_refuted_torn {a b : Bytes} (hab : a.length = b.length) (hl : a.length < 4611686018427387904) {k : Nat} (hk : 0 < k) (hka : k ≤ a.length)
    {page : Nat} {sys : Sys} (h : sys.AllOk) (cap0 : Nat) (cap : Nat → Nat) (s : Stream) :
    ∃ (file : FileInTime) (touch at_ count : Nat → Nat) (fuel : Nat), (∀ m, file m = if m = 0 then a else b) ∧
      (∃ c, loadMapInTime sys page file 0 touch cap0 cap s = .ret (0, ⟨a.take k ++ b.drop k, c, 0, false⟩)) ∧
      ∃ c, loadStdioInTime sys file 0 at_ count fuel cap0 cap s = .ret (0, ⟨a.take k ++ b.drop k, c, 0, false⟩) := by
  obtain ⟨-, g1, -, g2, -, g3, g4, -, -⟩ := h
  have hne : a ≠ [] := fun hh => by rw [hh] at hka; simp at hka; omega
  let file : FileInTime := fun m => if m = 0 then a else b
  let touch : Nat → Nat := fun i => if i < k then 0 else 1
  have hlen : ∀ m, (file m).length = a.length := by
    intro m
    show (if m = 0 then a else b).length = a.length
    split
    · rfl
    · exact hab.symm
  refine ⟨file, touch, id, fun j => if j = 0 then k - 1 else b.length, b.length + 2, fun _ => rfl, ?_, ?_⟩
  · rw [loadMap_eq ⟨g1, g2⟩ hne hl]
    cases hc : copyMap page file touch 0 (file 0).length with
    | none =>
      obtain ⟨j, h1, h2⟩ := (copyMap_none _ 0).1 hc
      have h3 := (mapped_none.1 h2).1
      rw [hlen] at h1 h3
      omega
    | some x =>
      obtain ⟨h1, h2⟩ := copyMap_some _ 0 hc
      have hx : x = a.take k ++ b.drop k := by
        apply List.ext_getElem?
        intro j
        rw [hlen] at h1 h2
        by_cases hj : j < a.length
        · rw [h2 j hj, Nat.zero_add]
          by_cases hjk : j < k
          · rw [show touch j = 0 from if_pos hjk]
            show mapped page a j = _
            unfold mapped
            rw [List.getElem?_eq_getElem hj,
              List.getElem?_append_left (by rw [List.length_take]; omega), List.getElem?_take, if_pos hjk, List.getElem?_eq_getElem hj]
          · rw [show touch j = 1 from if_neg hjk]
            show mapped page b j = _
            unfold mapped
            rw [List.getElem?_append_right (by rw [List.length_take]; omega), List.getElem?_drop, List.length_take,
              show k + (j - min k a.length) = j by omega, List.getElem?_eq_getElem (by omega)]
        · rw [List.getElem?_eq_none (by omega), List.getElem?_eq_none (by rw [List.length_append, List.length_take, List.length_drop]; omega)]
      rw [hx]
      exact ⟨_, rfl⟩
  · refine (loadStdio_eq ⟨g3, g4⟩ (by rw [hlen]; exact hl) cap0 cap s).2 _ ?_
    have e0 : ((file (id 0)).drop 0).take ((if (0 : Nat) = 0 then k - 1 else b.length) + 1) = a.take k := by
      rw [List.drop_zero, if_pos rfl, show k - 1 + 1 = k by omega]; rfl
    have hlk : (a.take k).length = k := by rw [List.length_take]; omega
    have hnt : a.take k ≠ [] := fun hh => by rw [hh] at hlk; simp at hlk; omega
    rw [readCalls_step e0 hnt, hlk, Nat.zero_add, Nat.zero_add]
    have rest : ∀ fuel off j, b.length < off + fuel → off ≤ b.length →
        readCalls file id (fun j => if j = 0 then k - 1 else b.length) fuel (j + 1) off = some (b.drop off) := by
      intro fuel
      induction fuel with
      | zero => intro off j h1 h2; omega
      | succ fuel ih =>
        intro off j h1 h2
        have e1 : ((file (id (j + 1))).drop off).take ((if j + 1 = 0 then k - 1 else b.length) + 1) = b.drop off := by
          rw [if_neg (by omega)]
          show (b.drop off).take _ = _
          exact List.take_of_length_le (by rw [List.length_drop]; omega)
        by_cases hh : b.drop off = []
        · rw [hh] at e1 ⊢
          exact readCalls_stop e1
        · have hpos : 0 < (b.drop off).length := List.length_pos_iff.2 hh
          rw [readCalls_step e1 hh, List.length_drop]
          rw [List.length_drop] at hpos
          rw [ih (off + (b.length - off)) (j + 1) (by omega) (by omega), List.drop_eq_nil_of_le (i := off + (b.length - off)) (by omega)]
          simp
    rw [rest (b.length + 1) k 0 (by omega) (by omega)]

example : (({} : Sys).AllOk) ∧ ([97, 97, 97, 97] : Bytes).length = ([98, 98, 98, 98] : Bytes).length := ⟨⟨rfl, rfl, rfl, rfl, rfl, rfl, rfl, rfl, rfl⟩, rfl⟩

/-- The hypotheses of `c114_map_partial`, `c114_map_grows`, `c114_stdio_grows`: a file that grows by a byte a moment. -/
example : OnlyGrows (fun m => List.replicate (m + 1) 97) 0 9 ∧ (∀ i, i < 1 → Reaches (fun m => List.replicate (m + 1) 97) 0 9 i) ∧
    (∀ i : Nat, 0 ≤ min i 9 ∧ min i 9 ≤ 9) ∧ (∀ k j : Nat, k ≤ j → min k 9 ≤ min j 9) := by
  refine ⟨fun m m' _ h _ => ⟨List.replicate (m' - m) 97, ?_⟩, fun i hi m _ _ => ?_, fun i => by omega, fun k j h => by omega⟩
  · dsimp only
    rw [List.replicate_append_replicate]
    congr 1
    omega
  · simp only [List.length_replicate]; omega

/-- … of `c114_refuted_zeros`. -/
example : ∀ i, i < (c114cut 1).length → i < (c114cut 2).length ∨ i / 8 < ((c114cut 2).length + 8 - 1) / 8 := by decide +kernel

/-- … of `c114_refuted_endless`: reading a byte at a time from a file that grows by a byte a moment. -/
example : (∀ k : Nat, (fun _ => 0) k < 1) ∧ ∀ k, k * 1 < ((fun m => List.replicate (m + 1) (97 : UInt8)) k).length :=
  ⟨fun _ => Nat.one_pos, fun k => by simp⟩

/-- Saving: the file is cut to nothing, or to one page of two. -/
example : writeMapInTime {} 4 (fun m => if m < 3 then 6 else 4) id (ofString [97, 98, 99, 100, 101, 102] 16) = .ub ∧
    writeMapInTime {} 4 (fun m => if m < 6 then 6 else 0) id (ofString [97, 98, 99, 100, 101, 102] 16) = .ret 0 ∧
    writeMapInTime {} 8 (fun m => if m < 3 then 6 else 4) id (ofString [97, 98, 99, 100, 101, 102] 16) = .ret 0 := by decide +kernel

end Bdlib.Stm
