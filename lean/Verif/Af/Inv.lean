import Verif.Af.Model
import Verif.Props.C51

/-!
# Invariants of the file system
-/

namespace Bdlib.Af
open Bdlib Bdlib.Str Bdlib.Spec

variable [Tree]

@[simp] theorem setFn_same {α β : Type} [DecidableEq α] (f : α → β) (a : α) (b : β) : setFn f a b a = b := by
  simp [setFn]

theorem setFn_ne {α β : Type} [DecidableEq α] (f : α → β) {a x : α} (b : β) (h : x ≠ a) : setFn f a b x = f x := by
  simp [setFn, h]

/-- In every version of the directory, the entry `e` is a file that is completely on disk and holds the
content before or one of `log`; it exists if it existed before. -/
def Good (old : Option Bytes) (log : List Bytes) (e : Entry) (fs : FS) : Prop :=
  ∀ d ∈ fs.dir :: fs.past,
    (d e = none → old = none) ∧
    ∀ i, d e = some i → i < fs.inos ∧ (fs.ino i).synced = true ∧ (old = some (fs.ino i).data ∨ (fs.ino i).data ∈ log)

/-- So is it now and in all recorded states. -/
def GoodW (old : Option Bytes) (log : List Bytes) (e : Entry) (w : World) : Prop :=
  Good old log e w.fs ∧ ∀ fs ∈ w.trace, Good old log e fs

variable {old : Option Bytes} {log : List Bytes} {e : Entry} {S : Sys} {w : World}

theorem GoodW.tick (h : GoodW old log e w) {n : Nat} : GoodW old log e { w with calls := n } := h

theorem GoodW.push (h : GoodW old log e w) {n : Nat} {fs : FS} (hg : Good old log e fs) :
    GoodW old log e (({ w with calls := n } : World).push fs) :=
  ⟨hg, fun x hx => by
    rcases List.mem_append.1 hx with hx | hx
    · exact h.2 x hx
    · rw [List.mem_singleton.1 hx]; exact hg⟩

/-- No version of the directory has file `i` under `e`. -/
def Unref (e : Entry) (fs : FS) (i : Nat) : Prop := ∀ d ∈ fs.dir :: fs.past, d e ≠ some i

/-- Changing a file so that its data stays and it does not become unsaved. -/
theorem Good.setIno {fs : FS} (h : Good old log e fs) {i : Nat} {x : Inode} (hd : x.data = (fs.ino i).data)
    (hs : (fs.ino i).synced = true → x.synced = true) : Good old log e { fs with ino := setFn fs.ino i x } := by
  intro d hm
  refine ⟨(h d hm).1, fun j hj => ?_⟩
  obtain ⟨h1, h2, h3⟩ := (h d hm).2 j hj
  dsimp only
  by_cases hji : j = i
  · subst hji
    rw [setFn_same, hd]
    exact ⟨h1, hs h2, h3⟩
  · rw [setFn_ne _ _ hji]
    exact ⟨h1, h2, h3⟩

/-- Changing a file `e` never referred to. -/
theorem Good.setUnref {fs : FS} (h : Good old log e fs) {i : Nat} (hu : Unref e fs i) (x : Inode) :
    Good old log e { fs with ino := setFn fs.ino i x } := by
  intro d hm
  refine ⟨(h d hm).1, fun j hj => ?_⟩
  have hji : j ≠ i := by rintro rfl; exact hu d hm hj
  dsimp only
  rw [setFn_ne _ _ hji]
  exact (h d hm).2 j hj

/-- A new version of the directory with the same file under `e`. -/
theorem Good.setDir {fs : FS} (h : Good old log e fs) {d' : Entry → Option Nat} (hd : d' e = fs.dir e) :
    Good old log e { fs with dir := d', past := fs.dir :: fs.past } := by
  intro d hm
  rcases List.mem_cons.1 hm with rfl | hm
  · rw [hd]; exact h fs.dir (List.mem_cons_self ..)
  · exact h d hm

theorem GoodW.fchmod (h : GoodW old log e w) (fd : Option Nat) (m : Nat) : GoodW old log e (fchmod S w fd m).2 := by
  unfold Af.fchmod
  dsimp only
  split
  · exact h.tick
  · split
    · exact h.push (h.1.setIno rfl fun h => h)
    · exact h.tick

theorem GoodW.fsync (h : GoodW old log e w) (fd : Option Nat) : GoodW old log e (fsync S w fd).2 := by
  unfold Af.fsync
  dsimp only
  split
  · exact h.tick
  · split
    · exact h.push (h.1.setIno rfl fun _ => rfl)
    · exact h.tick

theorem GoodW.close (h : GoodW old log e w) (fd : Option Nat) : GoodW old log e (close S w fd).2 := by
  unfold Af.close
  dsimp only
  split
  · exact h.tick
  · exact h.push h.1

theorem GoodW.unlink (h : GoodW old log e w) {a : Bytes} (ha : entryOf a ≠ e) : GoodW old log e (unlink S w a).2 := by
  unfold Af.unlink
  dsimp only
  split
  · exact h.tick
  · split
    · exact h.push (h.1.setDir (setFn_ne _ _ (Ne.symm ha)))
    · exact h.tick

theorem GoodW.write (h : GoodW old log e w) {fd : Option Nat} (g : Bytes → Bytes)
    (hu : ∀ i, fd.bind w.fs.fds = some i → Unref e w.fs i) : GoodW old log e (write w fd g) := by
  unfold Af.write
  dsimp only
  split
  · exact h.tick
  · rename_i i hi
    exact h.push (h.1.setUnref (hu i hi) _)

theorem GoodW.mkstemp (h : GoodW old log e w) {fresh : Nat} {t : Bytes}
    (ht : ∀ n, entryOf (filled t (S.suffix n)) ≠ e) : GoodW old log e (mkstemp S w fresh t).2.2 := by
  unfold Af.mkstemp
  dsimp only
  split
  · refine h.push ?_
    intro d hm
    have key : ∀ d ∈ w.fs.dir :: w.fs.past, (d e = none → old = none) ∧ ∀ i, d e = some i → i < w.fs.inos + 1 ∧
        (setFn w.fs.ino w.fs.inos ⟨[], false, 384⟩ i).synced = true ∧
        (old = some (setFn w.fs.ino w.fs.inos ⟨[], false, 384⟩ i).data ∨ (setFn w.fs.ino w.fs.inos ⟨[], false, 384⟩ i).data ∈ log) := by
      intro d hm
      refine ⟨(h.1 d hm).1, fun i hi => ?_⟩
      obtain ⟨h1, h2⟩ := (h.1 d hm).2 i hi
      rw [setFn_ne _ _ (by omega)]
      exact ⟨by omega, h2⟩
    rcases List.mem_cons.1 hm with rfl | hm
    · have : setFn w.fs.dir (entryOf (t.take (t.length - 6) ++ S.suffix w.calls)) (some w.fs.inos) e = w.fs.dir e :=
        setFn_ne _ _ (Ne.symm (ht _))
      dsimp only
      rw [this]
      exact key _ (List.mem_cons_self ..)
    · exact key d hm
  · exact h.tick

/-- Renaming a saved file with a logged content. -/
theorem GoodW.rename (h : GoodW old log e w) {a b : Bytes} (ha : entryOf a ≠ entryOf b)
    (hi : ∀ i, w.fs.dir (entryOf a) = some i → i < w.fs.inos ∧ (w.fs.ino i).synced = true ∧ (w.fs.ino i).data ∈ log)
    (hae : entryOf a ≠ e) : GoodW old log e (rename S w a b).2 := by
  unfold Af.rename
  dsimp only
  split
  · exact h.tick
  · rename_i i hdi
    split
    · refine h.push ?_
      intro d hm
      rcases List.mem_cons.1 hm with rfl | hm
      · dsimp only
        rw [setFn_ne _ _ (Ne.symm hae)]
        by_cases hb : e = entryOf b
        · rw [hb, setFn_same]
          refine ⟨nofun, fun j hj => ?_⟩
          injection hj with hj
          subst hj
          obtain ⟨h1, h2, h3⟩ := hi i hdi
          exact ⟨h1, h2, .inr h3⟩
        · rw [setFn_ne _ _ hb]
          exact h.1 w.fs.dir (List.mem_cons_self ..)
      · exact h.1 d hm
    · exact h.tick

theorem GoodW.mono {log' : List Bytes} (h : GoodW old log e w) (hl : ∀ x ∈ log, x ∈ log') : GoodW old log' e w := by
  have key : ∀ fs, Good old log e fs → Good old log' e fs := by
    intro fs hg d hm
    refine ⟨(hg d hm).1, fun i hi => ?_⟩
    obtain ⟨h1, h2, h3⟩ := (hg d hm).2 i hi
    exact ⟨h1, h2, h3.imp id (hl _)⟩
  exact ⟨key _ h.1, fun fs hf => key fs (h.2 fs hf)⟩

end Bdlib.Af
