import Verif.Af.Kept
import Verif.Af.Save
import Verif.Spec.Saves
import Verif.Props.C48
import Verif.Props.C52

/-!
# C84: saving a Stream through an AtomicFile, and reading it

`save` (`Af/Save.lean`) is `open`, `writeFile(fd())`, `commit()`; `saves` is a sequence of saves of any streams, any of
which may fail at any call.  `sees`, `MaySee` and `Hist.log` as in C49.  Partial: names of up to 4085 bytes that do not
end in a slash; empty files with an `mmap` reader (`c84_refuted_empty`).
-/

namespace Bdlib.Af
open Bdlib Bdlib.Str Bdlib.Spec

section
variable [Tree]

/-- `writeFile` returns 0 for this save: its file is new, hence empty. -/
def Req.written (q : Req) : Prop := (Stm.writeFd q.mmap q.sys q.stream ⟨[], 0⟩).1 = 0

variable {L : Libc} {S : Sys} {fname : Bytes} {old : Option Bytes} {w₀ : World} {h : Hist}

theorem written_bytes {q : Req} (hq : q.written) : (Stm.writeFd q.mmap q.sys q.stream ⟨[], 0⟩).2.bytes = q.stream.str := by
  have e : Stm.writeFd q.mmap { q.sys with openOk := true } q.stream ⟨[], 0⟩ = Stm.writeFd q.mmap q.sys q.stream ⟨[], 0⟩ := rfl
  have h1 : Stm.writeFile q.mmap { q.sys with openOk := true } q.stream none =
      ((Stm.writeFd q.mmap q.sys q.stream ⟨[], 0⟩).1, some (Stm.writeFd q.mmap q.sys q.stream ⟨[], 0⟩).2.bytes) := by
    unfold Stm.writeFile
    rw [if_neg (by simp), e]
  have := Stm.c48_write q.mmap { q.sys with openOk := true } q.stream none (by rw [h1]; exact hq)
  rw [h1] at this
  exact Option.some.inj this

theorem sees_kept {e : Entry} {fs fs' : FS} (hk : Kept e fs fs') (hd : fs'.dir e = fs.dir e) : sees fs' e = sees fs e := by
  unfold sees
  rw [hd]
  cases hi : fs.dir e with
  | none => rfl
  | some i => simp [hk.data fs.dir (List.mem_cons_self ..) i hi]

theorem sees_untouched {e : Entry} {fs fs' : FS} (hu : Untouched e fs fs') : sees fs' e = sees fs e := by
  unfold sees
  rw [hu.1]
  cases hi : fs.dir e with
  | none => rfl
  | some i => simp [hu.2 i hi]

/-- Writing to the temporary file any number of times. -/
theorem writes_proper (hp : Proper L S fname w₀ h) (bs : List Bytes) :
    Proper L S fname w₀ { h with w := bs.foldl (fun w b => write w h.o.fd fun _ => b) h.w } := by
  induction bs generalizing h with
  | nil => exact hp
  | cons b bs ih => exact ih (h := { h with w := write h.w h.o.fd fun _ => b }) (.step (.write fun _ => b) hp trivial rfl)

theorem write_fds (w : World) (fd : Option Nat) (g : Bytes → Bytes) :
    (write w fd g).fs.fds = w.fs.fds ∧ (write w fd g).fs.dir = w.fs.dir := by
  unfold write
  dsimp only
  split <;> exact ⟨rfl, rfl⟩

theorem write_data {w : World} {fd : Option Nat} {i : Nat} (hi : fd.bind w.fs.fds = some i) (g : Bytes → Bytes) :
    ((write w fd g).fs.ino i).data = g (w.fs.ino i).data := by
  unfold write
  dsimp only
  rw [hi]
  simp [World.push]

theorem writes_fds (bs : List Bytes) (w : World) (fd : Option Nat) :
    (bs.foldl (fun w b => write w fd fun _ => b) w).fs.fds = w.fs.fds ∧
      (bs.foldl (fun w b => write w fd fun _ => b) w).fs.dir = w.fs.dir := by
  induction bs generalizing w with
  | nil => exact ⟨rfl, rfl⟩
  | cons b bs ih =>
    obtain ⟨h1, h2⟩ := ih (write w fd fun _ => b)
    obtain ⟨h3, h4⟩ := write_fds w fd fun _ => b
    exact ⟨h1.trans h3, h2.trans h4⟩

theorem write_sees (hL : L.Ok) (hS : ∀ n, 47 ∉ S.suffix n) (h0 : 0 ∉ fname) (hl : fname.length ≤ 4085)
    (he : (entryOf fname).name ≠ []) (hw : Settled old (entryOf fname) w₀) (hp : Proper L S fname w₀ h) (g : Bytes → Bytes) :
    sees (write h.w h.o.fd g).fs (entryOf fname) = sees h.w.fs (entryOf fname) := by
  have hi := Inv.reach hL h0 hl he hS hw.good hp.reach
  have hc : Calm (entryOf fname) h.w.fs ⟨h.w.fs, [], h.w.calls⟩ :=
    ⟨fun fs hf => by rw [List.mem_singleton.1 hf]; exact .refl, by simp⟩
  have := hc.write (fd := h.o.fd) g fun i hfi => by
    have hfd : h.o.fd ≠ none := by intro hn; rw [hn] at hfi; cases hfi
    obtain ⟨j, hj⟩ := hi.own hfd
    have hfi' : h.o.fd.bind h.w.fs.fds = some i := hfi
    rw [hj.fd] at hfi'
    injection hfi' with hfi'
    subst hfi'
    exact hj.unref
  have hk := this.1 h.w.fs (List.mem_cons_self ..)
  have e : (write ⟨h.w.fs, [], h.w.calls⟩ h.o.fd g).fs = (write h.w h.o.fd g).fs := by
    unfold write
    dsimp only
    cases h.o.fd.bind h.w.fs.fds <;> rfl
  rw [e] at hk
  exact sees_kept hk (by rw [(write_fds ..).2])

theorem writes_sees (hL : L.Ok) (hS : ∀ n, 47 ∉ S.suffix n) (h0 : 0 ∉ fname) (hl : fname.length ≤ 4085)
    (he : (entryOf fname).name ≠ []) (hw : Settled old (entryOf fname) w₀) (hp : Proper L S fname w₀ h) (bs : List Bytes) :
    sees (bs.foldl (fun w b => write w h.o.fd fun _ => b) h.w).fs (entryOf fname) = sees h.w.fs (entryOf fname) := by
  induction bs generalizing h with
  | nil => rfl
  | cons b bs ih =>
    exact (ih (h := { h with w := write h.w h.o.fd fun _ => b }) (.step (.write fun _ => b) hp trivial rfl)).trans
      (write_sees hL hS h0 hl he hw hp _)

theorem destroy_sees (hL : L.Ok) (hS : ∀ n, 47 ∉ S.suffix n) (h0 : 0 ∉ fname) (hl : fname.length ≤ 4085)
    (he : (entryOf fname).name ≠ []) (hw : Settled old (entryOf fname) w₀) (hp : Proper L S fname w₀ h) :
    sees (destroy S h.w h.o).fs (entryOf fname) = sees h.w.fs (entryOf fname) := by
  rw [c50_destroy]
  cases hf : h.o.fd with
  | none => rw [c50_abort_closed S h.w hf]
  | some f =>
    obtain ⟨w', e1, e2, -⟩ := c50_abort_partial hL hS h0 hl he hw hp.reach hf
    rw [e1]
    exact sees_untouched e2

/-- The state after a save, and what it returned. -/
structure Saved (L : Libc) (S : Sys) (fname : Bytes) (w₀ : World) (h : Hist) (q : Req) (ok : Bool) (h' : Hist) : Prop where
  proper : Proper L S fname w₀ h'
  closed : h'.o.fd = none
  log : h'.log = h.log ∨ (q.written ∧ h'.log = h.log ++ [q.stream.str])
  now : sees h'.w.fs (entryOf fname) = if ok = true then some q.stream.str else sees h.w.fs (entryOf fname)
  wrote : ok = true → q.written

theorem open_sees (hL : L.Ok) (hS : ∀ n, 47 ∉ S.suffix n) (h0 : 0 ∉ fname) (hl : fname.length ≤ 4085)
    (he : (entryOf fname).name ≠ []) (hw : Settled old (entryOf fname) w₀) (hp : Proper L S fname w₀ h) {fresh : Nat} {mode : Option Nat} :
    ∃ h', act L S fname h (.open fresh mode) = .ret h' ∧ h'.log = h.log ∧
      sees h'.w.fs (entryOf fname) = sees h.w.fs (entryOf fname) ∧
      (h'.o.fd = none ∨ fileOf h' = ⟨[], 0⟩) := by
  have hi := Inv.reach hL h0 hl he hS hw.good hp.reach
  obtain ⟨t, -, h2, h3, h4⟩ := open_cases hL h0 hl (S := S) (w := h.w) (fresh := fresh) (mode := mode)
  refine ⟨⟨(mkstemp S h.w fresh t).2.2, ⟨fname, (mkstemp S h.w fresh t).2.1, (mkstemp S h.w fresh t).1, mode⟩, h.log⟩, ?_, rfl, ?_, ?_⟩
  · simp only [act, h2, Eff.ret_bind]
    rfl
  · dsimp only
    have hc : Calm (entryOf fname) h.w.fs ⟨h.w.fs, [], h.w.calls⟩ :=
      ⟨fun fs hf => by rw [List.mem_singleton.1 hf]; exact .refl, by simp⟩
    have hk := (hc.mkstemp (S := S) (fresh := fresh) (t := t) hi.good.1).1 h.w.fs (List.mem_cons_self ..)
    have e : (mkstemp S ⟨h.w.fs, [], h.w.calls⟩ fresh t).2.2.fs = (mkstemp S h.w fresh t).2.2.fs := by
      unfold mkstemp
      dsimp only
      split <;> rfl
    rw [e] at hk
    refine sees_kept hk ?_
    unfold mkstemp
    dsimp only
    split
    · exact setFn_ne _ _ (Ne.symm (h3 _ (hS h.w.calls)))
    · rfl
  · unfold fileOf
    dsimp only
    unfold mkstemp
    dsimp only
    split
    · right; simp [World.push]
    · exact .inl rfl

theorem save_saved (hL : L.Ok) (hS : ∀ n, 47 ∉ S.suffix n) (h0 : 0 ∉ fname) (hl : fname.length ≤ 4085)
    (he : (entryOf fname).name ≠ []) (hw : Settled old (entryOf fname) w₀) (hp : Proper L S fname w₀ h) (hf : h.o.fd = none)
    (q : Req) : ∃ ok h', save L S fname h q = .ret (ok, h') ∧ Saved L S fname w₀ h q ok h' := by
  obtain ⟨h1, a1, l1, s1, f1⟩ := open_sees hL hS h0 hl he hw hp (fresh := q.fresh) (mode := q.mode)
  have p1 : Proper L S fname w₀ h1 := .step (.open q.fresh q.mode) hp hf a1
  unfold save
  rw [a1]
  simp only [Eff.ret_bind]
  by_cases hn : h1.o.fd = none
  · rw [if_pos hn]
    refine ⟨false, _, rfl, .step .destroy p1 trivial rfl, rfl, .inl l1, ?_, nofun⟩
    exact (destroy_sees hL hS h0 hl he hw p1).trans s1
  · rw [if_neg hn]
    have hfile := f1.resolve_left hn
    have p2 := writes_proper p1 q.mids
    have p3 : Proper L S fname w₀ (writeStream h1 q).2 := .step (.write fun _ => (Stm.writeFd q.mmap q.sys q.stream (fileOf h1)).2.bytes) p2 trivial rfl
    have s3 : sees (writeStream h1 q).2.w.fs (entryOf fname) = sees h.w.fs (entryOf fname) :=
      ((write_sees hL hS h0 hl he hw p2 _).trans (writes_sees hL hS h0 hl he hw p1 q.mids)).trans s1
    have l3 : (writeStream h1 q).2.log = h.log := l1
    have o3 : (writeStream h1 q).2.o = h1.o := rfl
    have r3 : (writeStream h1 q).1 = (Stm.writeFd q.mmap q.sys q.stream ⟨[], 0⟩).1 := by
      unfold writeStream; rw [hfile]
    by_cases hr : (writeStream h1 q).1 = 0
    · have hq : q.written := by unfold Req.written; rw [← r3]; exact hr
      rw [if_neg (by simpa using hr)]
      -- the temporary file holds the stream
      have hd : ∃ i, (writeStream h1 q).2.o.fd.bind (writeStream h1 q).2.w.fs.fds = some i ∧ ((writeStream h1 q).2.w.fs.ino i).data = q.stream.str := by
        obtain ⟨i, hi⟩ := (Inv.reach hL h0 hl he hS hw.good p2.reach).own (by exact hn)
        have hfi : h1.o.fd.bind (q.mids.foldl (fun w b => write w h1.o.fd fun _ => b) h1.w).fs.fds = some i := hi.fd
        refine ⟨i, ?_, ?_⟩
        · show h1.o.fd.bind (write _ h1.o.fd _).fs.fds = some i
          rw [(write_fds ..).1]
          exact hfi
        · show ((write _ h1.o.fd _).fs.ino i).data = _
          rw [write_data hfi, hfile]
          exact written_bytes hq
      obtain ⟨i, d1, d2⟩ := hd
      have p4 : Proper L S fname w₀ ⟨(commit S (writeStream h1 q).2.w (writeStream h1 q).2.o).2.2, (commit S (writeStream h1 q).2.w (writeStream h1 q).2.o).2.1,
          (writeStream h1 q).2.log ++ (((writeStream h1 q).2.o.fd.bind (writeStream h1 q).2.w.fs.fds).map fun i => ((writeStream h1 q).2.w.fs.ino i).data).toList⟩ :=
        .step .commit p3 (by show (writeStream h1 q).2.o.fd ≠ none; rw [o3]; exact hn) rfl
      refine ⟨_, _, rfl, .step .destroy p4 trivial rfl, rfl, .inr ⟨hq, ?_⟩, ?_, fun _ => hq⟩
      · dsimp only
        rw [l3, d1]
        simp [d2]
      · refine (destroy_sees hL hS h0 hl he hw p4).trans ?_
        dsimp only
        cases hc : (commit S (writeStream h1 q).2.w (writeStream h1 q).2.o).1 with
        | false =>
          rw [if_neg (by decide)]
          exact (sees_untouched (c50_commit_false_partial hL hS h0 hl he hw p3.reach hc).1).trans s3
        | true =>
          rw [if_pos rfl]
          obtain ⟨j, j1, -, j3, -⟩ := c50_commit_true_partial hL hS h0 hl he hw p3.reach hc
          rw [d1] at j1
          injection j1 with j1
          subst j1
          rw [j3, d2]
    · rw [if_pos (by simpa using hr)]
      refine ⟨false, _, rfl, .step .destroy p3 trivial rfl, rfl, .inl l3, ?_, nofun⟩
      exact (destroy_sees hL hS h0 hl he hw p3).trans s3

theorem saves_saved (hL : L.Ok) (hS : ∀ n, 47 ∉ S.suffix n) (h0 : 0 ∉ fname) (hl : fname.length ≤ 4085)
    (he : (entryOf fname).name ≠ []) (hw : Settled old (entryOf fname) w₀) (qs : List Req) :
    ∀ h, Proper L S fname w₀ h → h.o.fd = none →
    ∃ oks h', saves L S fname h qs = .ret (oks, h') ∧ oks.length = qs.length ∧ Proper L S fname w₀ h' ∧ h'.o.fd = none ∧
      (∀ x ∈ h'.log, x ∈ h.log ∨ ∃ q ∈ qs, q.written ∧ x = q.stream.str) ∧
      sees h'.w.fs (entryOf fname) = lastSaved (sees h.w.fs (entryOf fname)) ((qs.map fun q => q.stream.str).zip oks) := by
  induction qs with
  | nil => exact fun h hp hf => ⟨[], h, rfl, rfl, hp, hf, fun x hx => .inl hx, rfl⟩
  | cons q qs ih =>
    intro h hp hf
    obtain ⟨ok, h1, a1, b1⟩ := save_saved hL hS h0 hl he hw hp hf q
    obtain ⟨oks, h2, a2, len, p2, f2, l2, s2⟩ := ih h1 b1.proper b1.closed
    refine ⟨ok :: oks, h2, ?_, by simp [len], p2, f2, fun x hx => ?_, ?_⟩
    · unfold saves
      rw [a1]
      simp only [Eff.ret_bind]
      rw [a2]
      rfl
    · rcases l2 x hx with hx | ⟨q', m', r'⟩
      · rcases b1.log with e | ⟨hq, e⟩
        · rw [e] at hx; exact .inl hx
        · rw [e] at hx
          rcases List.mem_append.1 hx with hx | hx
          · exact .inl hx
          · exact .inr ⟨q, List.mem_cons_self .., hq, List.mem_singleton.1 hx⟩
      · exact .inr ⟨q', List.mem_cons_of_mem _ m', r'⟩
    · rw [s2, b1.now]
      rfl

/-- Any number of saves, each of which may fail at any system call: the program is never undefined; afterwards the target
holds the stream of the last save that said true (the old file if there is none).  In every state on the way, and after a
crash in any of them, it holds the old file or the complete contents of one of the streams, and one that `writeFile`
reported as completely written. -/
theorem c84_saves_partial (hL : L.Ok) (hS : ∀ n, 47 ∉ S.suffix n) (h0 : 0 ∉ fname) (hl : fname.length ≤ 4085)
    (he : (entryOf fname).name ≠ []) (hw : Settled old (entryOf fname) w₀) (qs : List Req) :
    ∃ oks h, saves L S fname ⟨w₀, {}, []⟩ qs = .ret (oks, h) ∧ oks.length = qs.length ∧
      sees h.w.fs (entryOf fname) = lastSaved old ((qs.map fun q => q.stream.str).zip oks) ∧
      ∀ fs ∈ h.w.fs :: h.w.trace, ∀ c, c = sees fs (entryOf fname) ∨ MaySee fs (entryOf fname) c →
        c = old ∨ ∃ q ∈ qs, q.written ∧ c = some q.stream.str := by
  obtain ⟨oks, h, a, len, p, f, l, s⟩ := saves_saved hL hS h0 hl he hw qs ⟨w₀, {}, []⟩ .init rfl
  refine ⟨oks, h, a, len, ?_, fun fs hf c hc => ?_⟩
  · rw [s, hw.only _ (maySee_sees ..)]
  · have hm : MaySee fs (entryOf fname) c := by
      rcases hc with rfl | hc
      · exact maySee_sees ..
      · exact hc
    rcases (c49_crash_partial hL hS h0 hl he hw p.reach fs hf).2 c hm with h | ⟨x, hx, rfl⟩
    · exact .inl h
    · rcases l x hx with hx | ⟨q, m, r, rfl⟩
      · cases hx
      · exact .inr ⟨q, m, r, rfl⟩

/-- After the saves the descriptors and all other directory entries are as before, if `fchmod`, `fsync` and `unlink` do not
fail (see C52). -/
theorem c84_tidy_partial (hL : L.Ok) (hS : ∀ n, 47 ∉ S.suffix n) (h0 : 0 ∉ fname) (hl : fname.length ≤ 4085)
    (he : (entryOf fname).name ≠ []) (hw : Settled old (entryOf fname) w₀)
    (h1 : ∀ n, S.ok .fsync n = true) (h2 : ∀ n, S.ok .fchmod n = true) (h3 : ∀ n, S.ok .unlink n = true) (qs : List Req) :
    ∃ oks h, saves L S fname ⟨w₀, {}, []⟩ qs = .ret (oks, h) ∧
      (∀ f, h.w.fs.fds f = w₀.fs.fds f) ∧ ∀ x, x ≠ entryOf fname → h.w.fs.dir x = w₀.fs.dir x := by
  obtain ⟨oks, h, a, -, p, f, -⟩ := saves_saved hL hS h0 hl he hw qs ⟨w₀, {}, []⟩ .init rfl
  exact ⟨oks, h, a, c52_no_leak_partial hL hS h0 hl he h1 h2 h3 hw p f⟩

/-- If a temporary file can be made and no call fails, the save says true. -/
theorem c84_succeeds_partial (hL : L.Ok) (hS : ∀ n, 47 ∉ S.suffix n) (h0 : 0 ∉ fname) (hl : fname.length ≤ 4085)
    (he : (entryOf fname).name ≠ []) (hw : Settled old (entryOf fname) w₀) (hp : Proper L S fname w₀ h) (hf : h.o.fd = none)
    {q : Req} (hok : ∀ c n, S.ok c n = true) (hsys : q.sys.AllOk)
    (hopen : ∃ o w, «open» L S h.w q.fresh fname q.mode = .ret (true, o, w)) :
    ∃ h', save L S fname h q = .ret (true, h') ∧ sees h'.w.fs (entryOf fname) = some q.stream.str := by
  obtain ⟨ok, h', a, b⟩ := save_saved hL hS h0 hl he hw hp hf q
  suffices ok = true by
    subst this
    exact ⟨h', a, b.now⟩
  obtain ⟨h1, a1, -, -, f1⟩ := open_sees hL hS h0 hl he hw hp (fresh := q.fresh) (mode := q.mode)
  have p1 : Proper L S fname w₀ h1 := .step (.open q.fresh q.mode) hp hf a1
  have hn : h1.o.fd ≠ none := by
    obtain ⟨o, w, ho⟩ := hopen
    obtain ⟨t, -, h2, -, -⟩ := open_cases hL h0 hl (S := S) (w := h.w) (fresh := q.fresh) (mode := q.mode)
    simp only [act, h2, Eff.ret_bind] at a1
    injection a1 with a1
    subst a1
    rw [h2] at ho
    injection ho with ho
    have := congrArg Prod.fst ho
    dsimp only at this ⊢
    intro hc
    rw [hc] at this
    cases this
  have hfile := f1.resolve_left hn
  have p2 := writes_proper p1 q.mids
  have p3 : Proper L S fname w₀ (writeStream h1 q).2 := .step (.write fun _ => (Stm.writeFd q.mmap q.sys q.stream (fileOf h1)).2.bytes) p2 trivial rfl
  have hr : (writeStream h1 q).1 = 0 := by
    unfold writeStream
    rw [hfile]
    dsimp only
    cases hm : q.mmap with
    | true => rw [Stm.c48_write_fd_mmap hsys]
    | false => rw [Stm.c48_write_fd_stdio_partial hsys q.stream rfl (Nat.zero_le _)]
  unfold save at a
  rw [a1] at a
  simp only [Eff.ret_bind] at a
  rw [if_neg hn, if_neg (by simpa using hr)] at a
  have hc := c50_commit_succeeds_partial hL hS h0 hl he hw p3.reach (by exact hn) hok
  simp only [act, Eff.ret_bind] at a
  injection a with a
  have e : _ = ok := congrArg Prod.fst a
  exact e.symm.trans hc

/-! ## Readers -/

/-- A reader, in any state on the way or after a crash in it, in any build: `loadFile` reports that there is no file, and
there was none to begin with, or fills its stream with the old file or with the complete contents of one of the streams.

Partial: `mmap` readers of empty files; see `c84_refuted_empty`. -/
theorem c84_reader_partial (hL : L.Ok) (hS : ∀ n, 47 ∉ S.suffix n) (h0 : 0 ∉ fname) (hl : fname.length ≤ 4085)
    (he : (entryOf fname).name ≠ []) (hw : Settled old (entryOf fname) w₀) {qs : List Req} {oks : List Bool} {h : Hist}
    (hs : saves L S fname ⟨w₀, {}, []⟩ qs = .ret (oks, h)) {fs : FS} (hfs : fs ∈ h.w.fs :: h.w.trace)
    {c : Option Bytes} (hc : c = sees fs (entryOf fname) ∨ MaySee fs (entryOf fname) c)
    {mmap : Bool} {sys : Stm.Sys} (hsys : sys.AllOk) (hlen : ∀ x, c = some x → x.length < 4611686018427387904 ∧ (mmap = true → x ≠ []))
    (cap0 : Nat) (cap : Nat → Nat) (s0 : Stm.Stream) :
    (old = none ∧ Stm.loadFile mmap sys cap0 cap c s0 = .ret (1, s0)) ∨
    ∃ x k, (old = some x ∨ ∃ q ∈ qs, q.written ∧ x = q.stream.str) ∧ Stm.loadFile mmap sys cap0 cap c s0 = .ret (0, ⟨x, k, 0, false⟩) := by
  obtain ⟨oks', h', a, -, -, hall⟩ := c84_saves_partial hL hS h0 hl he hw qs
  rw [hs] at a
  injection a with a
  have e : h = h' := congrArg Prod.snd a
  subst e
  have hx := hall fs hfs c hc
  cases c with
  | none =>
    refine .inl ⟨?_, rfl⟩
    rcases hx with hx | ⟨q, -, -, hx⟩
    · exact hx.symm
    · cases hx
  | some x =>
    obtain ⟨h1, h2, h3, h4, h5, h6, h7, h8, h9⟩ := hsys
    obtain ⟨hlt, hne⟩ := hlen x rfl
    have hload : ∃ k, Stm.loadFile mmap sys cap0 cap (some x) s0 = .ret (0, ⟨x, k, 0, false⟩) := by
      cases mmap with
      | true => exact Stm.c48_load_mmap_partial ⟨h1, h2, h4⟩ (hne rfl) hlt cap0 cap s0
      | false => exact Stm.c48_load_stdio_partial ⟨h1, h6, h7⟩ h8 hlt cap0 cap s0
    obtain ⟨k, hk⟩ := hload
    refine .inr ⟨x, k, ?_, hk⟩
    rcases hx with hx | ⟨q, m, r, hx⟩
    · exact .inl hx.symm
    · exact .inr ⟨q, m, r, Option.some.inj hx⟩

/-- A reader that opened the target in one state and reads the file in a later one, whatever the writer did in between
(any calls, not only saves): the file still has the data it had when it was opened. -/
theorem c84_open_reader_partial (hL : L.Ok) (hS : ∀ n, 47 ∉ S.suffix n) (h0 : 0 ∉ fname) (hl : fname.length ≤ 4085)
    (he : (entryOf fname).name ≠ []) (hw : Settled old (entryOf fname) w₀) (hr : Reach L S fname w₀ h)
    {before after : List FS} {opened : FS} (hsplit : w₀.fs :: h.w.trace = before ++ opened :: after)
    {i : Nat} (hopen : opened.dir (entryOf fname) = some i) :
    (∀ fs ∈ after, (fs.ino i).data = (opened.ino i).data) ∧
      (old = some (opened.ino i).data ∨ (opened.ino i).data ∈ h.log) := by
  have hc := Calm.reach hL h0 hl he hS hw.good hw.new hr
  have hp := hc.2
  rw [hsplit, List.pairwise_append, List.pairwise_cons] at hp
  refine ⟨fun fs hf => (hp.2.1.1 fs hf).data _ (List.mem_cons_self ..) i hopen, ?_⟩
  have hi := Inv.reach hL h0 hl he hS hw.good hr
  have hg : Good old h.log (entryOf fname) opened := by
    have hm : opened ∈ w₀.fs :: h.w.trace := by rw [hsplit]; simp
    rcases List.mem_cons.1 hm with e | hm
    · rw [e]; exact (GoodW.mono hw.good (by simp)).1
    · exact hi.good.2 _ hm
  exact ((hg _ (List.mem_cons_self ..)).2 i hopen).2.2

end

/-! ## Cases -/

attribute [local instance] plainTree

/-- "new" and then nothing at all, by the two builds; the first save fails when writing to the disk, after part of it. -/
def reqs : List Req :=
  [⟨Stm.ofString [108, 111, 115, 116] 16, none, 3, false, { written := some 2 }, []⟩,
    ⟨Stm.ofString [110, 101, 119] 16, some 416, 3, true, {}, [[0, 0, 0]]⟩]

/-- What the saves returned, and what is then seen under "f". -/
def outcome : Eff (List Bool × Hist) → Option (List Bool × Option Bytes)
  | .ret (oks, h) => some (oks, sees h.w.fs (entryOf [102]))
  | _ => none

theorem of_outcome {r : Eff (List Bool × Hist)} {oks : List Bool} {x : Option Bytes} (h : outcome r = some (oks, x)) :
    ∃ h, r = .ret (oks, h) ∧ sees h.w.fs (entryOf [102]) = x := by
  match r, h with
  | .ret (oks', h'), h =>
    injection h with h
    injection h with h1 h2
    subst h1
    exact ⟨h', rfl, h2⟩

theorem saves_reqs : ∃ h, saves glibc sysTwo [102] ⟨⟨fs₀, [], 0⟩, {}, []⟩ reqs = .ret ([false, true], h) ∧
    sees h.w.fs (entryOf [102]) = some [110, 101, 119] := by
  apply of_outcome
  unfold reqs saves saves saves save
  simp only [act_open, Eff.ret_bind]
  decide

example : lastSaved (some [111, 108, 100]) ((reqs.map fun q => q.stream.str).zip [false, true]) = some [110, 101, 119] := by decide
example := c84_saves_partial glibc_ok (S := sysTwo) (fun n => by unfold sysTwo; dsimp only; split <;> decide) (fname := [102]) (by decide)
  (by decide) (by decide) settled₀ reqs
example := c84_tidy_partial glibc_ok (S := sysTwo) (fun n => by unfold sysTwo; dsimp only; split <;> decide) (fname := [102]) (by decide)
  (by decide) (by decide) settled₀ (fun _ => rfl) (fun _ => rfl) (fun _ => rfl) reqs
example := c84_succeeds_partial glibc_ok (S := sysOk) (fun n => by simp [sysOk]) (fname := [102]) (by decide)
  (by decide) (by decide) settled₀ .init rfl (q := ⟨Stm.ofString [110, 101, 119] 16, some 416, 3, true, {}, [[0, 0, 0]]⟩) (fun _ _ => rfl)
  (by unfold Stm.Sys.AllOk; decide) ⟨_, _, by unfold «open»; rw [template_noslash glibc_ok (by decide) (by decide) (by decide)]; rfl⟩

/-- A reader after the saves of `reqs`. -/
example : ∃ h, saves glibc sysTwo [102] ⟨⟨fs₀, [], 0⟩, {}, []⟩ reqs = .ret ([false, true], h) ∧
    ((some [(111 : UInt8), 108, 100] = none ∧ Stm.loadFile true {} 16 (fun _ => 16) (sees h.w.fs (entryOf [102])) (Stm.ofString [] 16) = .ret (1, Stm.ofString [] 16)) ∨
      ∃ x k, (some [111, 108, 100] = some x ∨ ∃ q ∈ reqs, q.written ∧ x = q.stream.str) ∧
        Stm.loadFile true {} 16 (fun _ => 16) (sees h.w.fs (entryOf [102])) (Stm.ofString [] 16) = .ret (0, ⟨x, k, 0, false⟩)) := by
  obtain ⟨h, h1, h2⟩ := saves_reqs
  refine ⟨h, h1, c84_reader_partial glibc_ok (S := sysTwo) (fun n => by unfold sysTwo; dsimp only; split <;> decide) (fname := [102]) (by decide)
    (by decide) (by decide) settled₀ h1 (List.mem_cons_self ..) (.inl rfl) (by unfold Stm.Sys.AllOk; decide) ?_ 16 (fun _ => 16) (Stm.ofString [] 16)⟩
  intro x hx
  rw [h2] at hx
  cases hx
  exact ⟨by decide, fun _ => by decide⟩

/-- The old file is read after the new one has replaced it. -/
example := c84_open_reader_partial glibc_ok (S := sysOk) (fun n => by simp [sysOk]) (fname := [102]) (by decide) (by decide) (by decide)
  settled₀ reach_commit (before := []) (opened := fs₀) rfl (i := 0) (by decide)

/-! ## Refutation -/

/-- An empty stream is saved, the save says true, and `loadFile` of an `mmap` build reports an error. -/
theorem c84_refuted_empty : ∃ h, saves glibc sysOk [102] ⟨⟨fs₀, [], 0⟩, {}, []⟩ [⟨Stm.ofString [] 16, none, 3, true, {}, []⟩] = .ret ([true], h) ∧
    sees h.w.fs (entryOf [102]) = some [] ∧
    ∃ s, Stm.loadFile true {} 16 (fun _ => 16) (sees h.w.fs (entryOf [102])) (Stm.ofString [] 16) = .ret (1, s) := by
  obtain ⟨h, h1, h2⟩ := of_outcome (r := saves glibc sysOk [102] ⟨⟨fs₀, [], 0⟩, {}, []⟩ [⟨Stm.ofString [] 16, none, 3, true, {}, []⟩])
    (oks := [true]) (x := some []) (by
      unfold saves saves save
      simp only [act_open, Eff.ret_bind]
      decide)
  exact ⟨h, h1, h2, by rw [h2]; exact ⟨_, rfl⟩⟩

end Bdlib.Af
