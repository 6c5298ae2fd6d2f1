import Verif.Af.Hist

/-!
# C49: AtomicFile and crashes

`sees fs e`: what is under an entry now; `MaySee fs e c`: what may be there after a crash (`Af/Model.lean`).
`Hist.log`: the complete contents handed to `commit()` so far.  Partial: names of up to 4085 bytes
(`c51_refuted_long`) that do not end in a slash.
-/

namespace Bdlib.Af
open Bdlib Bdlib.Str Bdlib.Spec

section
variable [Tree]

/-- Before anything happens, a crash shows one content under `e` only. -/
structure Settled (old : Option Bytes) (e : Entry) (w : World) : Prop where
  only : ∀ c, MaySee w.fs e c → c = old
  used : ∀ d ∈ w.fs.dir :: w.fs.past, ∀ i, d e = some i → i < w.fs.inos
  new : w.trace = []

theorem Settled.good {old : Option Bytes} {e : Entry} {w : World} (h : Settled old e w) : GoodW old [] e w := by
  refine ⟨fun d hd => ⟨fun hn => ?_, fun i hi => ?_⟩, by rw [h.new]; nofun⟩
  · exact (h.only none ⟨d, hd, by rw [hn]⟩).symm
  · have hx : ∀ x, ((w.fs.ino i).synced = true → x = (w.fs.ino i).data) → some x = old := fun x hx =>
      h.only (some x) ⟨d, hd, by rw [hi]; exact ⟨x, rfl, hx⟩⟩
    refine ⟨h.used d hd i hi, ?_, .inl (hx _ fun _ => rfl).symm⟩
    cases hs : (w.fs.ino i).synced with
    | true => rfl
    | false =>
      have h1 := hx [] (by rw [hs]; nofun)
      have h2 := hx [0] (by rw [hs]; nofun)
      rw [← h2] at h1
      cases h1

theorem Good.sees {old : Option Bytes} {log : List Bytes} {e : Entry} {fs : FS} (h : Good old log e fs) {c : Option Bytes}
    (hc : MaySee fs e c) : c = old ∨ ∃ x ∈ log, c = some x := by
  obtain ⟨d, hd, hm⟩ := hc
  split at hm
  · rename_i hn; rw [hm]; exact .inl ((h d hd).1 hn).symm
  · rename_i i hi
    obtain ⟨x, rfl, hx⟩ := hm
    obtain ⟨-, h2, h3⟩ := (h d hd).2 i hi
    rw [hx h2]
    rcases h3 with h3 | h3
    · exact .inl h3.symm
    · exact .inr ⟨_, h3, rfl⟩

/-- What is there now is one of the things a crash may show. -/
theorem maySee_sees (fs : FS) (e : Entry) : MaySee fs e (sees fs e) := by
  refine ⟨fs.dir, List.mem_cons_self .., ?_⟩
  unfold sees
  cases fs.dir e with
  | none => rfl
  | some i => exact ⟨_, rfl, fun _ => rfl⟩

/-- Whatever calls are made, whatever is written, and whichever system calls fail: in every state the file
system goes through, the target is, and after a crash will be, the file from before or one whose complete
content was given to `commit()`. -/
theorem c49_crash_partial {L : Libc} (hL : L.Ok) {S : Sys} (hS : ∀ n, 47 ∉ S.suffix n) {fname : Bytes}
    (h0 : 0 ∉ fname) (hl : fname.length ≤ 4085) (he : (entryOf fname).name ≠ []) {old : Option Bytes} {w₀ : World}
    (hw : Settled old (entryOf fname) w₀) {h : Hist} (hr : Reach L S fname w₀ h) :
    ∀ fs ∈ h.w.fs :: h.w.trace,
      (sees fs (entryOf fname) = old ∨ ∃ x ∈ h.log, sees fs (entryOf fname) = some x) ∧
      ∀ c, MaySee fs (entryOf fname) c → c = old ∨ ∃ x ∈ h.log, c = some x := by
  have hi := Inv.reach hL h0 hl he hS hw.good hr
  intro fs hf
  have hg : Good old h.log (entryOf fname) fs := by
    rcases List.mem_cons.1 hf with rfl | hf
    · exact hi.good.1
    · exact hi.good.2 fs hf
  exact ⟨hg.sees (maySee_sees ..), fun c => hg.sees⟩

/-- Until `commit()` is called the old file is there in every case. -/
theorem c49_before_commit_partial {L : Libc} (hL : L.Ok) {S : Sys} (hS : ∀ n, 47 ∉ S.suffix n) {fname : Bytes}
    (h0 : 0 ∉ fname) (hl : fname.length ≤ 4085) (he : (entryOf fname).name ≠ []) {old : Option Bytes} {w₀ : World}
    (hw : Settled old (entryOf fname) w₀) {h : Hist} (hr : Reach L S fname w₀ h) (hlog : h.log = []) :
    ∀ fs ∈ h.w.fs :: h.w.trace, sees fs (entryOf fname) = old ∧ ∀ c, MaySee fs (entryOf fname) c → c = old := by
  intro fs hf
  have := c49_crash_partial hL hS h0 hl he hw hr fs hf
  rw [hlog] at this
  exact ⟨this.1.resolve_right (by rintro ⟨_, hx, -⟩; cases hx), fun c hc => (this.2 c hc).resolve_right (by rintro ⟨_, hx, -⟩; cases hx)⟩

end

/-! ## A case -/

attribute [local instance] plainTree

/-- All system calls succeed. -/
def sysOk : Sys := ⟨fun _ _ => true, fun _ => [97, 98, 99, 100, 101, 102]⟩

/-- One file "f" with content "old". -/
def fs₀ : FS where
  dir := setFn (fun _ => none) (entryOf [102]) (some 0)
  past := []
  ino := fun _ => ⟨[111, 108, 100], true, 420⟩
  inos := 1
  fds := fun _ => none

theorem settled₀ : Settled (some [111, 108, 100]) (entryOf [102]) ⟨fs₀, [], 0⟩ where
  only := by
    rintro c ⟨d, hd, hm⟩
    simp only [fs₀, List.mem_singleton] at hd
    subst hd
    simp only [setFn_same] at hm
    obtain ⟨x, rfl, hx⟩ := hm
    rw [hx rfl]
    rfl
  used := by
    intro d hd i hi
    simp only [fs₀, List.mem_singleton] at hd
    subst hd
    simp only [setFn_same] at hi
    injection hi with hi
    subst hi
    simp [fs₀]
  new := rfl

/-- The state after `open("f")`, writing "new", and `commit()`. -/
def afterOpen : World := (mkstemp sysOk ⟨fs₀, [], 0⟩ 3 [46, 47, 46, 102, 46, 88, 88, 88, 88, 88, 88]).2.2
def openObj : Obj := ⟨[102], [46, 47, 46, 102, 46, 97, 98, 99, 100, 101, 102], some 3, some 416⟩
def afterWrite : World := write afterOpen openObj.fd fun _ => [110, 101, 119]
def afterCommit : Hist := ⟨(commit sysOk afterWrite openObj).2.2, (commit sysOk afterWrite openObj).2.1, [[110, 101, 119]]⟩

theorem reach_open : Reach glibc sysOk [102] ⟨fs₀, [], 0⟩ ⟨afterOpen, openObj, []⟩ := by
  refine .step (.open 3 (some 416)) .init ?_
  unfold act «open»
  rw [template_noslash glibc_ok (by decide) (by decide) (by decide)]
  rfl
theorem reach_write : Reach glibc sysOk [102] ⟨fs₀, [], 0⟩ ⟨afterWrite, openObj, []⟩ :=
  .step (.write fun _ => [110, 101, 119]) reach_open rfl
theorem reach_commit : Reach glibc sysOk [102] ⟨fs₀, [], 0⟩ afterCommit := .step .commit reach_write rfl

/-- The target is then "new", and after a crash may still be "old". -/
example : sees afterCommit.w.fs (entryOf [102]) = some [110, 101, 119] := by decide
example : MaySee afterCommit.w.fs (entryOf [102]) (some [111, 108, 100]) :=
  ⟨fs₀.dir, by simp [afterCommit, afterWrite, afterOpen, openObj, commit, commitData, fsync, fchmod, close, rename, mkstemp, write, World.push, sysOk, fs₀, setFn, entryOf, pieces, endsX, cstr],
    ⟨_, rfl, fun _ => by decide⟩⟩
example := c49_crash_partial glibc_ok (S := sysOk) (fun n => by simp [sysOk]) (fname := [102]) (by decide) (by decide)
  (by decide) settled₀ reach_commit

end Bdlib.Af
