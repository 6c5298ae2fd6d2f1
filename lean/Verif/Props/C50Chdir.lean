import Verif.Props.C52

/-!
# C50, C52: the current directory changes between `open()` and `commit()`

`AtomicFile` keeps the names it was given, relative ones included.
-/

namespace Bdlib.Af
open Bdlib Bdlib.Str Bdlib.Spec

/-- The same tree, with another current directory. -/
@[reducible] def inDir (T : Tree) (d : T.Dir) : Tree := { T with here := d }

/-- The same entry. -/
def sameEntry {T : Tree} {d : T.Dir} (e : @Entry (inDir T d)) : @Entry T := @Entry.mk T (@Entry.dir (inDir T d) e) (@Entry.name (inDir T d) e)

/-- `chdir(2)`, called by the program between two calls of `AtomicFile` (src/AtomicFile.cpp never calls it): the file system is the same. -/
def chdirFS (T : Tree) (d : T.Dir) (fs : @FS T) : @FS (inDir T d) :=
  @FS.mk (inDir T d) (fun e => fs.dir (sameEntry e)) (fs.past.map fun f e => f (sameEntry e)) fs.ino fs.inos fs.fds

/-- `chdir(2)`. -/
def chdir (T : Tree) (d : T.Dir) (w : @World T) : @World (inDir T d) :=
  @World.mk (inDir T d) (chdirFS T d w.fs) (w.trace.map (chdirFS T d)) w.calls

/-- What an entry leads to, in the tree `T`. -/
def leads (T : Tree) (w : @World T) : @Entry T → Option Nat := @FS.dir T (@World.fs T w)

section
variable [Tree] {S : Sys}

/-- Calls that do not find the temporary file leave all entries as they are, and `commit()` says false. -/
theorem lost_calls {w : World} {o : Obj} (hd : w.fs.dir (entryOf o.tmpname) = none) :
    (commit S w o).1 = false ∧ (commit S w o).2.2.fs.dir = w.fs.dir ∧ (abort S w o).2.2.fs.dir = w.fs.dir ∧ (destroy S w o).fs.dir = w.fs.dir := by
  have hu : ∀ w : World, w.fs.dir (entryOf o.tmpname) = none → (unlink S w o.tmpname).2.fs.dir = w.fs.dir := by
    intro w h
    unfold unlink
    dsimp only
    rw [h]
  have hc : ∀ (w : World) (fd : Option Nat), (close S w fd).2.fs.dir = w.fs.dir := by
    intro w fd
    unfold close
    cases fd <;> rfl
  have hcl : ∀ w : World, w.fs.dir (entryOf o.tmpname) = none → (cleanup S w o).1 = false ∧ (cleanup S w o).2.2.fs.dir = w.fs.dir :=
    fun w h => ⟨rfl, hu w h⟩
  have hdat : ∀ w : World, w.fs.dir (entryOf o.tmpname) = none → (commitData S w o).1 = false ∧ (commitData S w o).2.2.fs.dir = w.fs.dir := by
    intro w h
    have s1 : (fsync S w o.fd).2.fs.dir = w.fs.dir := (fsync_frame ..).1
    unfold commitData
    dsimp only
    split
    · obtain ⟨a, b⟩ := hcl (fsync S w o.fd).2 (by rw [s1]; exact h)
      exact ⟨a, b.trans s1⟩
    · have s2 : (close S (fsync S w o.fd).2 o.fd).2.fs.dir = w.fs.dir := (hc _ _).trans s1
      split
      · obtain ⟨a, b⟩ := hcl (close S (fsync S w o.fd).2 o.fd).2 (by rw [s2]; exact h)
        exact ⟨a, b.trans s2⟩
      · have s3 : (rename S (close S (fsync S w o.fd).2 o.fd).2 o.tmpname o.fname).1 = false ∧
            (rename S (close S (fsync S w o.fd).2 o.fd).2 o.tmpname o.fname).2.fs.dir = w.fs.dir := by
          unfold rename
          dsimp only
          rw [show (close S (fsync S w o.fd).2 o.fd).2.fs.dir (entryOf o.tmpname) = none by rw [s2]; exact h]
          exact ⟨rfl, s2⟩
        rw [if_pos s3.1]
        obtain ⟨a, b⟩ := hcl (rename S (close S (fsync S w o.fd).2 o.fd).2 o.tmpname o.fname).2 (by rw [s3.2]; exact h)
        exact ⟨a, b.trans s3.2⟩
  have hab : (abort S w o).2.2.fs.dir = w.fs.dir := by
    unfold abort
    split
    · rfl
    · dsimp only; rw [hc, hu w hd]
  refine ⟨?_, ?_, hab, ?_⟩
  · unfold commit
    split
    · exact (hdat w hd).1
    · rename_i m _
      dsimp only
      split
      · rfl
      · exact (hdat _ (by rw [(fchmod_frame ..).1]; exact hd)).1
  · unfold commit
    split
    · exact (hdat w hd).2
    · rename_i m _
      dsimp only
      have s1 : (fchmod S w o.fd m).2.fs.dir = w.fs.dir := (fchmod_frame ..).1
      split
      · exact (hcl _ (by rw [s1]; exact hd)).2.trans s1
      · exact (hdat _ (by rw [s1]; exact hd)).2.trans s1
  · unfold destroy
    split
    · rfl
    · exact hab

end

/-- **C50** (refuted in general) A file was opened under any name; then the current directory changes to one from which the temporary name
leads nowhere (as it does in every other directory if the name was relative).  Whatever was written is lost: `commit()` says false, and
neither it nor `abort()` nor destruction removes the temporary file. -/
theorem c50_refuted_chdir {T : Tree} {L : Libc} {S : Sys} {fname : Bytes} {old : Option Bytes} {w₀ : World} {h : Hist} (hL : L.Ok) (hS : ∀ n, 47 ∉ S.suffix n)
    (h0 : 0 ∉ fname) (hl : fname.length ≤ 4085) (he : (entryOf fname).name ≠ []) (hw : Settled old (entryOf fname) w₀)
    (hr : Reach L S fname w₀ h) (ho : h.o.fd ≠ none) (d : T.Dir)
    (hd : leads (inDir T d) (chdir T d h.w) (@entryOf (inDir T d) h.o.tmpname) = none) :
    leads T h.w (entryOf h.o.tmpname) ≠ none ∧
    (@commit (inDir T d) S (chdir T d h.w) h.o).1 = false ∧
    (∀ e, leads (inDir T d) (@commit (inDir T d) S (chdir T d h.w) h.o).2.2 e = leads T h.w (sameEntry e)) ∧
    (∀ e, leads (inDir T d) (@abort (inDir T d) S (chdir T d h.w) h.o).2.2 e = leads T h.w (sameEntry e)) ∧
    (∀ e, leads (inDir T d) (@destroy (inDir T d) S (chdir T d h.w) h.o) e = leads T h.w (sameEntry e)) := by
  obtain ⟨i, hown⟩ := (Inv.reach hL h0 hl he hS hw.good hr).own ho
  obtain ⟨a, b, c, e⟩ := @lost_calls (inDir T d) S (chdir T d h.w) h.o hd
  refine ⟨fun hx => (by rw [leads, hown.tmp] at hx; exact nomatch hx), a, fun x => ?_, fun x => ?_, fun x => ?_⟩
  · exact congrFun b x
  · exact congrFun c x
  · exact congrFun e x

attribute [local instance] plainTree

/-- "f" is opened, then the directory changes to "/d". -/
example := c50_refuted_chdir (T := plainTree) glibc_ok (S := sysOk) (fun n => by simp [sysOk]) (fname := [102]) (by decide) (by decide) (by decide) settled₀
  reach_write (by simp [openObj]) (true, [[100]]) (by decide)

end Bdlib.Af
