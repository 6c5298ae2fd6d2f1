import Verif.Af.Commit
import Verif.Props.C49

/-!
# C50: AtomicFile: what `abort`, destruction and `commit` do

For every reachable state.  Partial: names of up to 4085 bytes, as in C49.  If `unlink` fails the temporary file stays.
-/

namespace Bdlib.Af
open Bdlib Bdlib.Str Bdlib.Spec

section
variable [Tree]

/-- The file under `e` is exactly as before: the same file, with the same data and mode. -/
def Untouched (e : Entry) (fs fs' : FS) : Prop := fs'.dir e = fs.dir e ∧ ∀ i, fs.dir e = some i → fs'.ino i = fs.ino i

variable {L : Libc} {S : Sys} {fname : Bytes} {old : Option Bytes} {w₀ : World} {h : Hist}

theorem untouched_same {fs : FS} {w' : World} (hi : Inv old fname h)
    (hs : Same h.o (h.o.fd.bind h.w.fs.fds) h.w w') (hfs : fs = w'.fs) : Untouched (entryOf fname) h.w.fs fs := by
  subst hfs
  refine ⟨hs.dir _ (Ne.symm hi.tmp), fun i hd => hs.ino i fun hf => ?_⟩
  have hfd : h.o.fd ≠ none := by intro hn; rw [hn] at hf; cases hf
  obtain ⟨j, hj⟩ := hi.own hfd
  rw [hj.fd] at hf
  injection hf with hf
  subst hf
  exact hj.unref _ (List.mem_cons_self ..) hd

/-- After `abort()` of an open file: it says true, the target and all other entries are as before, the
descriptor is closed and the temporary file is gone, unless `unlink` itself failed. -/
theorem c50_abort_partial (hL : L.Ok) (hS : ∀ n, 47 ∉ S.suffix n)
    (h0 : 0 ∉ fname) (hl : fname.length ≤ 4085) (he : (entryOf fname).name ≠ [])
    (hw : Settled old (entryOf fname) w₀) (hr : Reach L S fname w₀ h) {f : Nat} (ho : h.o.fd = some f) :
    ∃ w', abort S h.w h.o = (true, { h.o with fd := none }, w') ∧
      Untouched (entryOf fname) h.w.fs w'.fs ∧ (∀ x, x ≠ entryOf h.o.tmpname → w'.fs.dir x = h.w.fs.dir x) ∧
      w'.fs.fds = setFn h.w.fs.fds f none ∧
      (w'.fs.dir (entryOf h.o.tmpname) = none ∨ S.ok .unlink h.w.calls = false) := by
  have hi := Inv.reach hL h0 hl he hS hw.good hr
  have hs : Same h.o (h.o.fd.bind h.w.fs.fds) h.w (close S (unlink S h.w h.o.tmpname).2 h.o.fd).2 :=
    (same_unlink S h.w h.o _).trans (same_close S _ h.o _)
  refine ⟨(close S (unlink S h.w h.o.tmpname).2 h.o.fd).2, ?_, untouched_same hi hs rfl, hs.dir, ?_, ?_⟩
  · unfold abort
    rw [if_neg (by rw [ho]; nofun)]
  · rw [ho]
    unfold close
    simp only [World.push]
    rw [(unlink_frame S h.w h.o.tmpname).2.2.1]
  · rw [(close_frame ..).1]
    exact unlink_gone ..

/-- `abort()` of a file that is not open does nothing and says false. -/
theorem c50_abort_closed (S : Sys) (w : World) {o : Obj} (ho : o.fd = none) : abort S w o = (false, o, w) := by
  unfold abort
  rw [if_pos ho]

/-- Destruction is `abort()` of an open file, and nothing otherwise. -/
theorem c50_destroy (S : Sys) (w : World) (o : Obj) : destroy S w o = (abort S w o).2.2 := by
  unfold destroy abort
  split <;> rfl

/-- After `commit()` said false: the target and all other entries are as before, and the temporary file is
gone, unless `unlink` itself failed. -/
theorem c50_commit_false_partial (hL : L.Ok) (hS : ∀ n, 47 ∉ S.suffix n)
    (h0 : 0 ∉ fname) (hl : fname.length ≤ 4085) (he : (entryOf fname).name ≠ [])
    (hw : Settled old (entryOf fname) w₀) (hr : Reach L S fname w₀ h) (hc : (commit S h.w h.o).1 = false) :
    Untouched (entryOf fname) h.w.fs (commit S h.w h.o).2.2.fs ∧
      (∀ x, x ≠ entryOf h.o.tmpname → (commit S h.w h.o).2.2.fs.dir x = h.w.fs.dir x) ∧
      ((commit S h.w h.o).2.2.fs.dir (entryOf h.o.tmpname) = none ∨ ∃ n ≥ h.w.calls, S.ok .unlink n = false) := by
  have hi := Inv.reach hL h0 hl he hS hw.good hr
  have hf := commit_false hc
  exact ⟨untouched_same hi hf.same rfl, hf.same.dir, hf.gone⟩

/-- After `commit()` said true: the target is the file that was written, with all its data on disk and the
requested mode; the temporary name is gone and all other entries and files are as before. -/
theorem c50_commit_true_partial (hL : L.Ok) (hS : ∀ n, 47 ∉ S.suffix n)
    (h0 : 0 ∉ fname) (hl : fname.length ≤ 4085) (he : (entryOf fname).name ≠ [])
    (hw : Settled old (entryOf fname) w₀) (hr : Reach L S fname w₀ h) (hc : (commit S h.w h.o).1 = true) :
    ∃ i, h.o.fd.bind h.w.fs.fds = some i ∧
      (commit S h.w h.o).2.2.fs.dir (entryOf fname) = some i ∧
      sees (commit S h.w h.o).2.2.fs (entryOf fname) = some (h.w.fs.ino i).data ∧
      ((commit S h.w h.o).2.2.fs.ino i).synced = true ∧
      ((commit S h.w h.o).2.2.fs.ino i).mode = h.o.mode.getD (h.w.fs.ino i).mode ∧
      (commit S h.w h.o).2.2.fs.dir (entryOf h.o.tmpname) = none ∧
      (∀ x, x ≠ entryOf h.o.tmpname → x ≠ entryOf fname → (commit S h.w h.o).2.2.fs.dir x = h.w.fs.dir x) ∧
      ∀ j, j ≠ i → (commit S h.w h.o).2.2.fs.ino j = h.w.fs.ino j := by
  have hi := Inv.reach hL h0 hl he hS hw.good hr
  have hfd : h.o.fd ≠ none := by
    intro hn; rw [commit_none hn] at hc; cases hc
  obtain ⟨i, hown⟩ := hi.own hfd
  have hn := hi.name hfd
  have hd := commit_true hown.fd hown.tmp (by rw [hn]; exact hi.tmp) hc
  have ht := hd.target
  rw [hn] at ht
  refine ⟨i, hown.fd, ht, ?_, hd.synced, hd.mode, hd.gone, by rw [← hn]; exact hd.dir, hd.ino⟩
  unfold sees
  rw [ht]
  simp [hd.data]

/-- If no system call fails, `commit()` of an open file says true. -/
theorem c50_commit_succeeds_partial (hL : L.Ok) (hS : ∀ n, 47 ∉ S.suffix n)
    (h0 : 0 ∉ fname) (hl : fname.length ≤ 4085) (he : (entryOf fname).name ≠ [])
    (hw : Settled old (entryOf fname) w₀) (hr : Reach L S fname w₀ h) (ho : h.o.fd ≠ none)
    (hok : ∀ c n, S.ok c n = true) : (commit S h.w h.o).1 = true := by
  have hi := Inv.reach hL h0 hl he hS hw.good hr
  obtain ⟨i, hown⟩ := hi.own ho
  have key : ∀ w : World, w.fs.dir (entryOf h.o.tmpname) = some i → h.o.fd.bind w.fs.fds = some i → (commitData S w h.o).1 = true := by
    intro w hd hf
    have s1 : (fsync S w h.o.fd).1 = true := by
      unfold fsync; simp [hf, hok]
    have s2 : (close S (fsync S w h.o.fd).2 h.o.fd).1 = true := by
      unfold close
      cases hfd : h.o.fd with
      | none => exact absurd hfd ho
      | some f => simp [hok]
    have s3 : (rename S (close S (fsync S w h.o.fd).2 h.o.fd).2 h.o.tmpname h.o.fname).1 = true := by
      unfold rename
      rw [(close_frame ..).1, (fsync_frame ..).1, hd]
      simp [hok]
    unfold commitData
    simp [s1, s2, s3]
  unfold commit
  split
  · exact key _ hown.tmp hown.fd
  · rename_i m _
    have s1 : (fchmod S h.w h.o.fd m).1 = true := by
      unfold fchmod; simp [hown.fd, hok]
    dsimp only
    rw [if_neg (by rw [s1]; nofun)]
    obtain ⟨f1, -, f3, -⟩ := fchmod_frame S h.w h.o.fd m
    exact key _ (by rw [f1]; exact hown.tmp) (by rw [f3]; exact hown.fd)

/-- `commit()` says true only if every system call it makes succeeded: `fchmod` if there is a mode, `fsync`,
`close` and `rename`.  So when any of them reports an error, `commit()` says false. -/
theorem c50_commit_reports (S : Sys) (w : World) (o : Obj) (hc : (commit S w o).1 = true) :
    (o.mode ≠ none → ∃ n, w.calls ≤ n ∧ n < (commit S w o).2.2.calls ∧ S.ok .fchmod n = true) ∧
      ∃ n, w.calls ≤ n ∧ n + 3 = (commit S w o).2.2.calls ∧
        S.ok .fsync n = true ∧ S.ok .close (n + 1) = true ∧ S.ok .rename (n + 2) = true := by
  have key : ∀ w : World, (commitData S w o).1 = true →
      w.calls + 3 = (commitData S w o).2.2.calls ∧ S.ok .fsync w.calls = true ∧
        S.ok .close (w.calls + 1) = true ∧ S.ok .rename (w.calls + 2) = true := by
    intro w hc
    unfold commitData fsync close rename cleanup World.push at hc ⊢
    cases h1 : o.fd with
    | none => rw [h1] at hc; simp at hc
    | some f =>
      cases h2 : w.fs.fds f with
      | none => rw [h1] at hc; simp [h2] at hc
      | some i =>
        cases h3 : S.ok .fsync w.calls with
        | false => rw [h1] at hc; simp [h2, h3] at hc
        | true =>
          cases h4 : S.ok .close (w.calls + 1) with
          | false => rw [h1] at hc; simp [h2, h3, h4] at hc
          | true =>
            cases h5 : w.fs.dir (entryOf o.tmpname) with
            | none => rw [h1] at hc; simp [h2, h3, h4, h5] at hc
            | some j =>
              cases h6 : S.ok .rename (w.calls + 2) with
              | false => rw [h1] at hc; simp [h2, h3, h4, h5, h6] at hc
              | true => simp [h2, h3, h4, h5, h6]
  unfold commit at hc ⊢
  cases hm : o.mode with
  | none =>
    rw [hm] at hc
    obtain ⟨k1, k2, k3, k4⟩ := key w hc
    exact ⟨fun h => absurd rfl h, w.calls, Nat.le_refl _, k1, k2, k3, k4⟩
  | some m =>
    rw [hm] at hc
    dsimp only at hc ⊢
    cases h1 : (fchmod S w o.fd m).1 with
    | false => rw [if_pos h1] at hc; exact absurd hc (by simp [cleanup])
    | true =>
      rw [h1, if_neg (by nofun)] at hc
      rw [if_neg (by nofun)]
      have hcalls : (fchmod S w o.fd m).2.calls = w.calls + 1 ∧ S.ok .fchmod w.calls = true := by
        unfold fchmod World.push at h1 ⊢
        cases h2 : o.fd.bind w.fs.fds with
        | none => simp [h2] at h1
        | some i =>
          cases h3 : S.ok .fchmod w.calls with
          | false => simp [h2, h3] at h1
          | true => simp
      obtain ⟨k1, k2, k3, k4⟩ := key _ hc
      rw [hcalls.1] at k1 k2 k3 k4
      exact ⟨fun _ => ⟨w.calls, Nat.le_refl _, by omega, hcalls.2⟩, w.calls + 1, by omega, k1, k2, k3, k4⟩

end

attribute [local instance] plainTree

/-- Cases: the state after writing, aborted, committed, and with a failing `rename`. -/
example := c50_abort_partial glibc_ok (fun n => by first | simp [sysOk] | simp [sysNoRename]) (by decide) (by decide) (by decide) settled₀ reach_write (f := 3) rfl
example : (commit sysOk afterWrite openObj).1 = true := by decide
example := c50_commit_true_partial glibc_ok (fun n => by first | simp [sysOk] | simp [sysNoRename]) (by decide) (by decide) (by decide) settled₀ reach_write (by decide)
example := c50_commit_reports sysOk afterWrite openObj (by decide)
example := c50_commit_succeeds_partial glibc_ok (fun n => by first | simp [sysOk] | simp [sysNoRename]) (by decide) (by decide) (by decide) settled₀ reach_write
  (by simp [openObj]) (fun _ _ => rfl)

/-- `rename` fails. -/
def sysNoRename : Sys := ⟨fun c _ => match c with | .rename => false | _ => true, fun _ => [97, 98, 99, 100, 101, 102]⟩
theorem reach_norename : Reach glibc sysNoRename [102] ⟨fs₀, [], 0⟩ ⟨afterOpen, openObj, []⟩ := by
  refine .step (.open 3 (some 416)) .init ?_
  unfold act «open»
  rw [template_noslash glibc_ok (by decide) (by decide) (by decide)]
  rfl
example := c50_commit_false_partial glibc_ok (fun n => by first | simp [sysOk] | simp [sysNoRename]) (by decide) (by decide) (by decide) settled₀ reach_norename
  (by decide)

end Bdlib.Af
