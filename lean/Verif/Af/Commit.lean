import Verif.Af.Hist

/-!
# What `commit` and `abort` change
-/

namespace Bdlib.Af
open Bdlib Bdlib.Str Bdlib.Spec

variable [Tree]

variable {S : Sys} {w w' w'' : World} {o : Obj} {i : Nat}

/-- Nothing but the entry of the temporary file and the file of the descriptor has changed. -/
structure Same (o : Obj) (fd : Option Nat) (w w' : World) : Prop where
  dir : ∀ x, x ≠ entryOf o.tmpname → w'.fs.dir x = w.fs.dir x
  ino : ∀ j, fd ≠ some j → w'.fs.ino j = w.fs.ino j

theorem Same.trans {fd : Option Nat} (h : Same o fd w w') (h' : Same o fd w' w'') : Same o fd w w'' :=
  ⟨fun x hx => (h'.dir x hx).trans (h.dir x hx), fun j hj => (h'.ino j hj).trans (h.ino j hj)⟩

theorem same_fsync (S : Sys) (w : World) (o : Obj) : Same o (o.fd.bind w.fs.fds) w (fsync S w o.fd).2 := by
  obtain ⟨h1, -, -, -, -, -, h7⟩ := fsync_frame S w o.fd
  exact ⟨fun x _ => by rw [h1], h7⟩

theorem same_fchmod (S : Sys) (w : World) (o : Obj) (m : Nat) : Same o (o.fd.bind w.fs.fds) w (fchmod S w o.fd m).2 := by
  obtain ⟨h1, -, -, -, -, h6⟩ := fchmod_frame S w o.fd m
  exact ⟨fun x _ => by rw [h1], h6⟩

theorem same_close (S : Sys) (w : World) (o : Obj) (fd : Option Nat) : Same o fd w (close S w o.fd).2 := by
  obtain ⟨h1, -, h3, -⟩ := close_frame S w o.fd
  exact ⟨fun x _ => by rw [h1], fun j _ => by rw [h3]⟩

theorem same_unlink (S : Sys) (w : World) (o : Obj) (fd : Option Nat) : Same o fd w (unlink S w o.tmpname).2 := by
  obtain ⟨h1, -, -, h4⟩ := unlink_frame S w o.tmpname
  exact ⟨h4, fun j _ => by rw [h1]⟩

theorem rename_false {a b : Bytes} (h : (rename S w a b).1 = false) : (rename S w a b).2.fs = w.fs := by
  unfold rename at h ⊢
  dsimp only at h ⊢
  split at h
  · rfl
  · rename_i i hc
    split at h
    · cases h
    · rename_i hk; rw [if_neg hk]

theorem rename_true {a b : Bytes} (h : (rename S w a b).1 = true) (ha : entryOf a ≠ entryOf b) : ∃ i, w.fs.dir (entryOf a) = some i ∧
    (rename S w a b).2.fs.dir (entryOf b) = some i ∧ (rename S w a b).2.fs.dir (entryOf a) = none ∧
    (rename S w a b).2.fs.ino = w.fs.ino ∧ (rename S w a b).2.fs.fds = w.fs.fds ∧
    (∀ x, x ≠ entryOf a → x ≠ entryOf b → (rename S w a b).2.fs.dir x = w.fs.dir x) := by
  unfold rename at h ⊢
  dsimp only at h ⊢
  split at h
  · cases h
  · rename_i i hc
    split at h
    · rename_i hk
      rw [if_pos hk]
      refine ⟨i, hc, ?_, ?_, rfl, rfl, fun x h1 h2 => ?_⟩
      · simp only [World.push]
        rw [setFn_ne _ _ (Ne.symm ha), setFn_same]
      · simp [World.push]
      · simp only [World.push]
        rw [setFn_ne _ _ h1, setFn_ne _ _ h2]
    · cases h

theorem same_rename {a b : Bytes} (fd : Option Nat) (h : (rename S w a b).1 = false) : Same o fd w (rename S w a b).2 := by
  have := rename_false h
  exact ⟨fun x _ => by rw [this], fun j _ => by rw [this]⟩

/-- The entry is gone, or a call of `unlink` failed. -/
theorem unlink_gone (S : Sys) (w : World) (a : Bytes) :
    (unlink S w a).2.fs.dir (entryOf a) = none ∨ S.ok .unlink w.calls = false := by
  unfold unlink
  dsimp only
  split
  · rename_i hc; exact .inl hc
  · split
    · left; simp [World.push]
    · rename_i hk; right; simpa using hk

theorem calls_fsync (S : Sys) (w : World) (fd : Option Nat) : (fsync S w fd).2.calls = w.calls + 1 := by
  unfold fsync; dsimp only; repeat' split
  all_goals rfl
theorem calls_fchmod (S : Sys) (w : World) (fd : Option Nat) (m : Nat) : (fchmod S w fd m).2.calls = w.calls + 1 := by
  unfold fchmod; dsimp only; repeat' split
  all_goals rfl
theorem calls_close (S : Sys) (w : World) (fd : Option Nat) : (close S w fd).2.calls = w.calls + 1 := by
  unfold close; dsimp only; split <;> rfl
theorem calls_rename (S : Sys) (w : World) (a b : Bytes) : (rename S w a b).2.calls = w.calls + 1 := by
  unfold rename; dsimp only; repeat' split
  all_goals rfl

/-- What has happened when `commit` fails. -/
structure Failed (S : Sys) (o : Obj) (fd : Option Nat) (w w' : World) : Prop where
  same : Same o fd w w'
  gone : w'.fs.dir (entryOf o.tmpname) = none ∨ ∃ n ≥ w.calls, S.ok .unlink n = false

theorem failed_cleanup {fd : Option Nat} (h : Same o fd w w') (hc : w.calls ≤ w'.calls) :
    Failed S o fd w (cleanup S w' o).2.2 :=
  ⟨h.trans (same_unlink ..), (unlink_gone S w' o.tmpname).imp id fun h => ⟨_, hc, h⟩⟩

theorem commitData_false {w₀ : World} {fd : Option Nat} (hfd : fd = o.fd.bind w.fs.fds) (h₀ : Same o fd w₀ w) (hc : w₀.calls ≤ w.calls)
    (h : (commitData S w o).1 = false) : Failed S o fd w₀ (commitData S w o).2.2 := by
  unfold commitData at h ⊢
  dsimp only at h ⊢
  have s1 := h₀.trans (hfd ▸ same_fsync S w o)
  have c1 := calls_fsync S w o.fd
  have c2 := calls_close S (fsync S w o.fd).2 o.fd
  have c3 := calls_rename S (close S (fsync S w o.fd).2 o.fd).2 o.tmpname o.fname
  split
  · exact failed_cleanup s1 (by omega)
  · rename_i h1
    rw [if_neg h1] at h
    have s2 := s1.trans (same_close S _ o fd)
    split
    · exact failed_cleanup s2 (by omega)
    · rename_i h2
      rw [if_neg h2] at h
      split
      · rename_i h3
        exact failed_cleanup (s2.trans (same_rename fd h3)) (by omega)
      · rename_i h3
        rw [if_neg h3] at h
        cases h

theorem commit_false (h : (commit S w o).1 = false) : Failed S o (o.fd.bind w.fs.fds) w (commit S w o).2.2 := by
  unfold commit at h ⊢
  split
  · rename_i hm
    rw [hm] at h
    exact commitData_false rfl ⟨fun _ _ => rfl, fun _ _ => rfl⟩ (Nat.le_refl _) h
  · rename_i m hm
    rw [hm] at h
    dsimp only at h ⊢
    have c1 := calls_fchmod S w o.fd m
    split
    · exact failed_cleanup (same_fchmod ..) (by omega)
    · rename_i h1
      rw [if_neg h1] at h
      exact commitData_false (by rw [(fchmod_frame S w o.fd m).2.2.1]) (same_fchmod ..) (by omega) h

/-- What has happened when `commit` succeeds. -/
structure Done (o : Obj) (i : Nat) (w w' : World) : Prop where
  target : w'.fs.dir (entryOf o.fname) = some i
  gone : w'.fs.dir (entryOf o.tmpname) = none
  dir : ∀ x, x ≠ entryOf o.tmpname → x ≠ entryOf o.fname → w'.fs.dir x = w.fs.dir x
  ino : ∀ j, j ≠ i → w'.fs.ino j = w.fs.ino j
  data : (w'.fs.ino i).data = (w.fs.ino i).data
  synced : (w'.fs.ino i).synced = true
  mode : (w'.fs.ino i).mode = o.mode.getD (w.fs.ino i).mode

theorem commitData_true (hfd : o.fd.bind w.fs.fds = some i) (ht : w.fs.dir (entryOf o.tmpname) = some i)
    (hne : entryOf o.tmpname ≠ entryOf o.fname) (h : (commitData S w o).1 = true) :
    Done { o with mode := none } i w (commitData S w o).2.2 := by
  unfold commitData at h ⊢
  dsimp only at h ⊢
  split at h
  · exact absurd h (by simp [cleanup])
  · rename_i h1
    rw [if_neg h1]
    split at h
    · exact absurd h (by simp [cleanup])
    · rename_i h2
      rw [if_neg h2]
      split at h
      · exact absurd h (by simp [cleanup])
      · rename_i h3
        rw [if_neg h3]
        obtain ⟨f1, f2, f3, f4, f5, f6, f7⟩ := fsync_frame S w o.fd
        obtain ⟨c1, c2, c3, c4⟩ := close_frame S (fsync S w o.fd).2 o.fd
        obtain ⟨k, r1, r2, r3, r4, r5, r6⟩ := rename_true (by simpa using h3) hne
        rw [c1, f1, ht] at r1
        injection r1 with r1
        subst r1
        refine ⟨r2, r3, fun x hx hy => ?_, fun j hj => ?_, ?_, ?_, ?_⟩
        · rw [r6 x hx hy, c1, f1]
        · rw [r4, c3, f7 j (by rw [hfd]; intro hc; injection hc with hc; exact hj hc.symm)]
        · rw [r4, c3, f5]
        · rw [r4, c3]
          exact fsync_ok hfd (by simpa using h1)
        · rw [r4, c3, f6]
          rfl

theorem commit_true (hfd : o.fd.bind w.fs.fds = some i) (ht : w.fs.dir (entryOf o.tmpname) = some i)
    (hne : entryOf o.tmpname ≠ entryOf o.fname) (h : (commit S w o).1 = true) :
    Done o i w (commit S w o).2.2 := by
  unfold commit at h ⊢
  split
  · rename_i hm
    rw [hm] at h
    have := commitData_true hfd ht hne h
    exact ⟨this.target, this.gone, this.dir, this.ino, this.data, this.synced, by rw [hm]; exact this.mode⟩
  · rename_i m hm
    rw [hm] at h
    dsimp only at h ⊢
    split
    · rename_i h1; rw [if_pos h1] at h; exact absurd h (by simp [cleanup])
    · rename_i h1
      rw [if_neg h1] at h
      obtain ⟨f1, f2, f3, f4, f5, f6⟩ := fchmod_frame S w o.fd m
      have := commitData_true (by rw [f3]; exact hfd) (by rw [f1]; exact ht) hne h
      refine ⟨this.target, this.gone, fun x hx hy => by rw [this.dir x hx hy, f1], fun j hj => ?_, ?_, this.synced, ?_⟩
      · rw [this.ino j hj, f6 j (by rw [hfd]; intro hc; injection hc with hc; exact hj hc.symm)]
      · rw [this.data, f5]
      · rw [hm, this.mode]
        exact fchmod_ok hfd (by simpa using h1)

theorem commit_none (hfd : o.fd = none) : (commit S w o).1 = false := by
  unfold commit commitData fchmod fsync cleanup
  simp only [hfd, Option.bind_none]
  split <;> rfl

end Bdlib.Af
