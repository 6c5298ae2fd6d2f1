import Verif.Af.Inv

/-!
# The invariant holds along every history
-/

namespace Bdlib.Af
open Bdlib Bdlib.Str Bdlib.Spec

variable [Tree]

/-- The descriptor of the object is the temporary file, which no version of the target refers to. -/
structure Own (e : Entry) (w : World) (o : Obj) (i : Nat) : Prop where
  fd : o.fd.bind w.fs.fds = some i
  tmp : w.fs.dir (entryOf o.tmpname) = some i
  unref : Unref e w.fs i
  lt : i < w.fs.inos

structure Inv (old : Option Bytes) (fname : Bytes) (h : Hist) : Prop where
  good : GoodW old h.log (entryOf fname) h.w
  tmp : entryOf h.o.tmpname ≠ entryOf fname
  name : h.o.fd ≠ none → h.o.fname = fname
  own : h.o.fd ≠ none → ∃ i, Own (entryOf fname) h.w h.o i

variable {old : Option Bytes} {log : List Bytes} {e : Entry} {S : Sys} {w : World} {o : Obj} {i : Nat}

theorem GoodW.cleanup (h : GoodW old log e w) (ht : entryOf o.tmpname ≠ e) : GoodW old log e (cleanup S w o).2.2 :=
  h.unlink ht

theorem fsync_none (hf : o.fd.bind w.fs.fds = none) : (fsync S w o.fd).1 = false := by
  unfold fsync; simp only [hf]

/-- What `fsync` leaves alone, and that it saves the file. -/
theorem fsync_frame (S : Sys) (w : World) (fd : Option Nat) :
    (fsync S w fd).2.fs.dir = w.fs.dir ∧ (fsync S w fd).2.fs.past = w.fs.past ∧ (fsync S w fd).2.fs.fds = w.fs.fds ∧
      (fsync S w fd).2.fs.inos = w.fs.inos ∧ (∀ j, ((fsync S w fd).2.fs.ino j).data = (w.fs.ino j).data) ∧
      (∀ j, ((fsync S w fd).2.fs.ino j).mode = (w.fs.ino j).mode) ∧
      (∀ j, fd.bind w.fs.fds ≠ some j → (fsync S w fd).2.fs.ino j = w.fs.ino j) := by
  unfold fsync
  dsimp only
  split
  · exact ⟨rfl, rfl, rfl, rfl, fun _ => rfl, fun _ => rfl, fun _ _ => rfl⟩
  · rename_i i hi
    split
    · refine ⟨rfl, rfl, rfl, rfl, fun j => ?_, fun j => ?_, fun j hj => ?_⟩
      · simp only [World.push, setFn]; split <;> simp_all
      · simp only [World.push, setFn]; split <;> simp_all
      · simp only [World.push, setFn]
        rw [if_neg]
        rintro rfl; exact hj hi
    · exact ⟨rfl, rfl, rfl, rfl, fun _ => rfl, fun _ => rfl, fun _ _ => rfl⟩

theorem fsync_ok {fd : Option Nat} (hf : fd.bind w.fs.fds = some i) (h : (fsync S w fd).1 = true) :
    ((fsync S w fd).2.fs.ino i).synced = true := by
  unfold fsync at h ⊢
  dsimp only at h ⊢
  rw [hf] at h ⊢
  dsimp only at h ⊢
  split
  · simp [World.push]
  · rename_i hc; rw [if_neg hc] at h; cases h

theorem fchmod_frame (S : Sys) (w : World) (fd : Option Nat) (m : Nat) :
    (fchmod S w fd m).2.fs.dir = w.fs.dir ∧ (fchmod S w fd m).2.fs.past = w.fs.past ∧
      (fchmod S w fd m).2.fs.fds = w.fs.fds ∧
      (fchmod S w fd m).2.fs.inos = w.fs.inos ∧ (∀ j, ((fchmod S w fd m).2.fs.ino j).data = (w.fs.ino j).data) ∧
      (∀ j, fd.bind w.fs.fds ≠ some j → (fchmod S w fd m).2.fs.ino j = w.fs.ino j) := by
  unfold fchmod
  dsimp only
  split
  · exact ⟨rfl, rfl, rfl, rfl, fun _ => rfl, fun _ _ => rfl⟩
  · rename_i i hi
    split
    · refine ⟨rfl, rfl, rfl, rfl, fun j => ?_, fun j hj => ?_⟩
      · simp only [World.push, setFn]; split <;> simp_all
      · simp only [World.push, setFn]
        rw [if_neg]
        rintro rfl; exact hj hi
    · exact ⟨rfl, rfl, rfl, rfl, fun _ => rfl, fun _ _ => rfl⟩

theorem fchmod_ok {fd : Option Nat} {m : Nat} (hf : fd.bind w.fs.fds = some i) (h : (fchmod S w fd m).1 = true) :
    ((fchmod S w fd m).2.fs.ino i).mode = m := by
  unfold fchmod at h ⊢
  dsimp only at h ⊢
  rw [hf] at h ⊢
  dsimp only at h ⊢
  split
  · simp [World.push]
  · rename_i hc; rw [if_neg hc] at h; cases h

theorem close_frame (S : Sys) (w : World) (fd : Option Nat) :
    (close S w fd).2.fs.dir = w.fs.dir ∧ (close S w fd).2.fs.past = w.fs.past ∧
      (close S w fd).2.fs.ino = w.fs.ino ∧ (close S w fd).2.fs.inos = w.fs.inos := by
  unfold close
  dsimp only
  split <;> exact ⟨rfl, rfl, rfl, rfl⟩

theorem unlink_frame (S : Sys) (w : World) (a : Bytes) :
    (unlink S w a).2.fs.ino = w.fs.ino ∧ (unlink S w a).2.fs.inos = w.fs.inos ∧ (unlink S w a).2.fs.fds = w.fs.fds ∧
      (∀ x, x ≠ entryOf a → (unlink S w a).2.fs.dir x = w.fs.dir x) := by
  unfold unlink
  dsimp only
  split
  · exact ⟨rfl, rfl, rfl, fun _ _ => rfl⟩
  · split
    · exact ⟨rfl, rfl, rfl, fun x hx => setFn_ne _ _ hx⟩
    · exact ⟨rfl, rfl, rfl, fun _ _ => rfl⟩

theorem Own.fchmod {m : Nat} (h : Own e w o i) : Own e (fchmod S w o.fd m).2 o i := by
  obtain ⟨h1, h2, h3, h4, h5, h6⟩ := fchmod_frame S w o.fd m
  exact ⟨by rw [h3]; exact h.fd, by rw [h1]; exact h.tmp, by unfold Unref; rw [h1, h2]; exact h.unref, by rw [h4]; exact h.lt⟩

theorem Own.write {g : Bytes → Bytes} (h : Own e w o i) : Own e (write w o.fd g) o i := by
  unfold Af.write
  dsimp only
  rw [h.fd]
  exact ⟨h.fd, h.tmp, h.unref, h.lt⟩

theorem GoodW.commitData {fname : Bytes} (h : GoodW old log (entryOf fname) w) (ht : entryOf o.tmpname ≠ entryOf fname)
    (hn : o.fd ≠ none → o.fname = fname) (ho : o.fd ≠ none → ∃ i, Own (entryOf fname) w o i ∧ (w.fs.ino i).data ∈ log) :
    GoodW old log (entryOf fname) (commitData S w o).2.2 := by
  unfold Af.commitData
  dsimp only
  have g1 := h.fsync (S := S) o.fd
  by_cases hf : o.fd = none
  · rw [if_pos (fsync_none (by rw [hf]; rfl))]
    exact g1.cleanup ht
  obtain ⟨i, hown, hlog⟩ := ho hf
  obtain ⟨f1, f2, f3, f4, f5, f6, f7⟩ := fsync_frame S w o.fd
  split
  · exact g1.cleanup ht
  · rename_i hr
    have hs := fsync_ok hown.fd (by simpa using hr)
    have g2 := g1.close (S := S) o.fd
    obtain ⟨c1, c2, c3, c4⟩ := close_frame S (Af.fsync S w o.fd).2 o.fd
    split
    · exact g2.cleanup ht
    · have g3 := g2.rename (S := S) (a := o.tmpname) (b := o.fname) (by rw [hn hf]; exact ht) (fun j hj => by
        rw [c1, f1, hown.tmp] at hj
        injection hj with hj
        subst hj
        rw [c3, c4, f4, f5]
        exact ⟨hown.lt, hs, hlog⟩) ht
      split
      · exact g3.cleanup ht
      · exact g3

theorem GoodW.commit {fname : Bytes} (h : GoodW old log (entryOf fname) w) (ht : entryOf o.tmpname ≠ entryOf fname)
    (hn : o.fd ≠ none → o.fname = fname) (ho : o.fd ≠ none → ∃ i, Own (entryOf fname) w o i ∧ (w.fs.ino i).data ∈ log) :
    GoodW old log (entryOf fname) (commit S w o).2.2 := by
  unfold Af.commit
  split
  · exact h.commitData ht hn ho
  · rename_i m _
    dsimp only
    have g := h.fchmod (S := S) o.fd m
    split
    · exact g.cleanup ht
    · refine g.commitData ht hn fun hf => ?_
      obtain ⟨i, h1, h2⟩ := ho hf
      refine ⟨i, h1.fchmod, ?_⟩
      rw [(fchmod_frame S w o.fd m).2.2.2.2.1]
      exact h2

theorem commit_obj (S : Sys) (w : World) (o : Obj) : (commit S w o).2.1 = { o with fd := none } := by
  unfold commit commitData cleanup
  dsimp only
  repeat' split
  all_goals rfl

theorem GoodW.abort (h : GoodW old log e w) (ht : entryOf o.tmpname ≠ e) : GoodW old log e (abort S w o).2.2 := by
  unfold Af.abort
  split
  · exact h
  · exact (h.unlink ht).close _

theorem GoodW.destroy (h : GoodW old log e w) (ht : entryOf o.tmpname ≠ e) : GoodW old log e (destroy S w o) := by
  unfold Af.destroy
  split
  · exact h
  · exact h.abort ht

/-- What `open` does: the object has the descriptor and name of a new temporary file, or nothing was made. -/
theorem open_cases {L : Libc} (hL : L.Ok) {fname : Bytes} (h0 : 0 ∉ fname) (hl : fname.length ≤ 4085)
    {fresh : Nat} {mode : Option Nat} :
    ∃ t, template L fname = .ret t ∧ («open» L S w fresh fname mode = .ret
      ((mkstemp S w fresh t).1.isSome, ⟨fname, (mkstemp S w fresh t).2.1, (mkstemp S w fresh t).1, mode⟩, (mkstemp S w fresh t).2.2)) ∧
      (∀ sfx, 47 ∉ sfx → entryOf (filled t sfx) ≠ entryOf fname) ∧ entryOf t ≠ entryOf fname := by
  obtain ⟨t, h1, h2⟩ := c51_same_directory_partial hL h0 hl
  refine ⟨t, h1, ?_, fun sfx hx => (h2 sfx hx).2.1, ?_⟩
  · unfold «open»
    rw [h1]
    rfl
  · obtain ⟨a, h3, -⟩ := template_cases hL h0 hl
    rw [h1] at h3
    injection h3 with h3
    have := (h2 xs (by decide)).2.1
    rwa [h3, filled_append, ← h3] at this

theorem mkstemp_own {fname t : Bytes} {fresh : Nat} {mode : Option Nat} (hg : Good old log e w.fs) (ht : ∀ n, entryOf (filled t (S.suffix n)) ≠ e)
    (hf : (mkstemp S w fresh t).1 ≠ none) :
    Own e (mkstemp S w fresh t).2.2 ⟨fname, (mkstemp S w fresh t).2.1, (mkstemp S w fresh t).1, mode⟩ w.fs.inos := by
  unfold mkstemp at hf ⊢
  dsimp only at hf ⊢
  split at hf
  · rename_i hc
    rw [if_pos hc]
    refine ⟨by simp [World.push], by simp [World.push], fun d hd he => ?_, by simp [World.push]⟩
    rcases List.mem_cons.1 hd with rfl | hd
    · simp only [World.push] at he
      have ht' : entryOf (t.take (t.length - 6) ++ S.suffix w.calls) ≠ e := ht w.calls
      rw [setFn_ne _ _ (Ne.symm ht')] at he
      have := ((hg _ (List.mem_cons_self ..)).2 _ he).1
      omega
    · have := ((hg _ hd).2 _ he).1
      omega
  · exact absurd rfl hf

/-- Every step keeps the invariant. -/
theorem Inv.step {L : Libc} (hL : L.Ok) {fname : Bytes} (h0 : 0 ∉ fname) (hl : fname.length ≤ 4085)
    (he : (entryOf fname).name ≠ []) (hS : ∀ n, 47 ∉ S.suffix n) {h h' : Hist} (hi : Inv old fname h) {a : Act}
    (ha : act L S fname h a = .ret h') : Inv old fname h' := by
  cases a with
  | «open» fresh mode =>
    obtain ⟨t, -, h2, h3, h4⟩ := open_cases hL h0 hl (S := S) (w := h.w) (fresh := fresh) (mode := mode)
    simp only [act, h2, Eff.ret_bind] at ha
    injection ha with ha
    subst ha
    have ht := fun n => h3 (S.suffix n) (hS n)
    refine ⟨hi.good.mkstemp ht, ?_, fun _ => rfl, fun hf => ⟨_, mkstemp_own hi.good.1 ht hf⟩⟩
    dsimp only
    unfold mkstemp
    dsimp only
    split
    · exact ht h.w.calls
    · exact h4
  | write g =>
    simp only [act] at ha
    injection ha with ha
    subst ha
    refine ⟨hi.good.write g fun i hfi => ?_, hi.tmp, hi.name, fun hf => ?_⟩
    · cases hfd : h.o.fd with
      | none => rw [hfd] at hfi; cases hfi
      | some f =>
        obtain ⟨j, hj⟩ := hi.own (by rw [hfd]; nofun)
        rw [hj.fd] at hfi
        injection hfi with hfi
        subst hfi
        exact hj.unref
    · obtain ⟨i, hx⟩ := hi.own hf
      exact ⟨i, hx.write⟩
  | commit =>
    simp only [act] at ha
    injection ha with ha
    subst ha
    have ho := commit_obj S h.w h.o
    refine ⟨?_, by dsimp only; rw [ho]; exact hi.tmp, fun hf => absurd (by dsimp only; rw [ho]) hf, fun hf => absurd (by dsimp only; rw [ho]) hf⟩
    refine GoodW.commit (hi.good.mono fun x hx => List.mem_append_left _ hx) hi.tmp hi.name fun hf => ?_
    obtain ⟨i, hx⟩ := hi.own hf
    refine ⟨i, hx, List.mem_append_right _ ?_⟩
    rw [hx.fd]
    simp
  | abort =>
    simp only [act] at ha
    injection ha with ha
    subst ha
    refine ⟨hi.good.abort hi.tmp, ?_, ?_, ?_⟩
    all_goals
      dsimp only
      unfold abort
      split
    · exact hi.tmp
    · exact hi.tmp
    · exact hi.name
    · exact hi.name ∘ fun h => absurd rfl h
    · rename_i hc; exact fun h => absurd hc h
    · exact fun h => absurd rfl h
  | destroy =>
    simp only [act] at ha
    injection ha with ha
    subst ha
    refine ⟨hi.good.destroy hi.tmp, fun hx => he ?_, fun hf => absurd rfl hf, fun hf => absurd rfl hf⟩
    rw [← hx]
    rfl

theorem Inv.reach {L : Libc} (hL : L.Ok) {fname : Bytes} (h0 : 0 ∉ fname) (hl : fname.length ≤ 4085)
    (he : (entryOf fname).name ≠ []) (hS : ∀ n, 47 ∉ S.suffix n) {w₀ : World}
    (hw : GoodW old [] (entryOf fname) w₀) {h : Hist} (hr : Reach L S fname w₀ h) : Inv old fname h := by
  induction hr with
  | init => exact ⟨hw, fun hx => he (by rw [← hx]; rfl), fun hf => absurd rfl hf, fun hf => absurd rfl hf⟩
  | step a _ ha ih => exact ih.step hL h0 hl he hS ha

end Bdlib.Af
