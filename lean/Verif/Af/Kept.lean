import Verif.Af.Hist

/-!
# A file that was once the target never changes again
-/

namespace Bdlib.Af
open Bdlib Bdlib.Str Bdlib.Spec

variable [Tree]

/-- `fs'` is later than `fs`: files that `e` ever denoted are still remembered and hold the same data. -/
structure Kept (e : Entry) (fs fs' : FS) : Prop where
  refs : ∀ d ∈ fs.dir :: fs.past, ∃ d' ∈ fs'.dir :: fs'.past, d' e = d e
  data : ∀ d ∈ fs.dir :: fs.past, ∀ i, d e = some i → (fs'.ino i).data = (fs.ino i).data

variable {e : Entry} {fs fs' fs'' : FS} {S : Sys} {w w' : World} {w0 : FS} {old : Option Bytes} {log : List Bytes}

theorem Kept.refl : Kept e fs fs := ⟨fun d hd => ⟨d, hd, rfl⟩, fun _ _ _ _ => rfl⟩

theorem Kept.trans (h : Kept e fs fs') (h' : Kept e fs' fs'') : Kept e fs fs'' := by
  constructor
  · intro d hd
    obtain ⟨d1, h1, e1⟩ := h.refs d hd
    obtain ⟨d2, h2, e2⟩ := h'.refs d1 h1
    exact ⟨d2, h2, e2.trans e1⟩
  · intro d hd i hi
    obtain ⟨d1, h1, e1⟩ := h.refs d hd
    rw [h'.data d1 h1 i (e1.trans hi), h.data d hd i hi]

/-- Each recorded state is later than those before it. -/
def Calm (e : Entry) (w0 : FS) (w : World) : Prop :=
  (∀ fs ∈ w0 :: w.trace, Kept e fs w.fs) ∧ (w0 :: w.trace).Pairwise (Kept e)

theorem Calm.tick (h : Calm e w0 w) {n : Nat} : Calm e w0 { w with calls := n } := h

theorem Calm.push (h : Calm e w0 w) {n : Nat} (hk : Kept e w.fs fs) : Calm e w0 (({ w with calls := n } : World).push fs) := by
  constructor
  · intro x hx
    show Kept e x fs
    rw [show (({ w with calls := n } : World).push fs).trace = w.trace ++ [fs] from rfl, ← List.cons_append] at hx
    rcases List.mem_append.1 hx with hx | hx
    · exact (h.1 x hx).trans hk
    · rw [List.mem_singleton.1 hx]; exact .refl
  · rw [show (({ w with calls := n } : World).push fs).trace = w.trace ++ [fs] from rfl, ← List.cons_append, List.pairwise_append]
    refine ⟨h.2, by simp, fun x hx y hy => ?_⟩
    rw [List.mem_singleton.1 hy]
    exact (h.1 x hx).trans hk

theorem kept_ino {i : Nat} {x : Inode} (hd : x.data = (fs.ino i).data) : Kept e fs { fs with ino := setFn fs.ino i x } := by
  refine ⟨fun d hm => ⟨d, hm, rfl⟩, fun d _ j _ => ?_⟩
  dsimp only
  by_cases hj : j = i
  · subst hj; rw [setFn_same, hd]
  · rw [setFn_ne _ _ hj]

theorem kept_unref {i : Nat} (hu : Unref e fs i) (x : Inode) : Kept e fs { fs with ino := setFn fs.ino i x } := by
  refine ⟨fun d hm => ⟨d, hm, rfl⟩, fun d hm j hj => ?_⟩
  have : j ≠ i := by rintro rfl; exact hu d hm hj
  dsimp only
  rw [setFn_ne _ _ this]

theorem kept_dir (d' : Entry → Option Nat) : Kept e fs { fs with dir := d', past := fs.dir :: fs.past } :=
  ⟨fun d hm => ⟨d, List.mem_cons_of_mem _ hm, rfl⟩, fun _ _ _ _ => rfl⟩

theorem Calm.fchmod (h : Calm e w0 w) (fd : Option Nat) (m : Nat) : Calm e w0 (fchmod S w fd m).2 := by
  unfold Af.fchmod
  dsimp only
  split
  · exact h.tick
  · split
    · exact h.push (kept_ino rfl)
    · exact h.tick

theorem Calm.fsync (h : Calm e w0 w) (fd : Option Nat) : Calm e w0 (fsync S w fd).2 := by
  unfold Af.fsync
  dsimp only
  split
  · exact h.tick
  · split
    · exact h.push (kept_ino rfl)
    · exact h.tick

theorem Calm.close (h : Calm e w0 w) (fd : Option Nat) : Calm e w0 (close S w fd).2 := by
  unfold Af.close
  dsimp only
  split
  · exact h.tick
  · exact h.push ⟨fun d hm => ⟨d, hm, rfl⟩, fun _ _ _ _ => rfl⟩

theorem Calm.unlink (h : Calm e w0 w) (a : Bytes) : Calm e w0 (unlink S w a).2 := by
  unfold Af.unlink
  dsimp only
  split
  · exact h.tick
  · split
    · exact h.push (kept_dir _)
    · exact h.tick

theorem Calm.rename (h : Calm e w0 w) (a b : Bytes) : Calm e w0 (rename S w a b).2 := by
  unfold Af.rename
  dsimp only
  split
  · exact h.tick
  · split
    · exact h.push (kept_dir _)
    · exact h.tick

theorem Calm.write (h : Calm e w0 w) {fd : Option Nat} (g : Bytes → Bytes)
    (hu : ∀ i, fd.bind w.fs.fds = some i → Unref e w.fs i) : Calm e w0 (write w fd g) := by
  unfold Af.write
  dsimp only
  split
  · exact h.tick
  · rename_i i hi
    exact h.push (kept_unref (hu i hi) _)

theorem Calm.mkstemp (h : Calm e w0 w) (hg : Good old log e w.fs) {fresh : Nat} {t : Bytes} : Calm e w0 (mkstemp S w fresh t).2.2 := by
  unfold Af.mkstemp
  dsimp only
  split
  · refine h.push ⟨fun d hm => ⟨d, List.mem_cons_of_mem _ hm, rfl⟩, fun d hm i hi => ?_⟩
    have := ((hg d hm).2 i hi).1
    dsimp only
    rw [setFn_ne _ _ (by omega)]
  · exact h.tick

theorem Calm.cleanup {o : Obj} (h : Calm e w0 w) : Calm e w0 (cleanup S w o).2.2 := h.unlink _

theorem Calm.commit {o : Obj} (h : Calm e w0 w) : Calm e w0 (commit S w o).2.2 := by
  have key : ∀ w : World, Calm e w0 w → Calm e w0 (commitData S w o).2.2 := by
    intro w h
    unfold Af.commitData
    dsimp only
    repeat' split
    · exact (h.fsync _).cleanup
    · exact ((h.fsync _).close _).cleanup
    · exact (((h.fsync _).close _).rename _ _).cleanup
    · exact ((h.fsync _).close _).rename _ _
  unfold Af.commit
  split
  · exact key _ h
  · dsimp only
    split
    · exact (h.fchmod _ _).cleanup
    · exact key _ (h.fchmod _ _)

theorem Calm.abort {o : Obj} (h : Calm e w0 w) : Calm e w0 (abort S w o).2.2 := by
  unfold Af.abort
  split
  · exact h
  · exact (h.unlink _).close _

theorem Calm.destroy {o : Obj} (h : Calm e w0 w) : Calm e w0 (destroy S w o) := by
  unfold Af.destroy
  split
  · exact h
  · exact h.abort

theorem Calm.step {L : Libc} (hL : L.Ok) {fname : Bytes} (h0 : 0 ∉ fname) (hl : fname.length ≤ 4085) {h h' : Hist}
    (hi : Inv old fname h) (hc : Calm (entryOf fname) w0 h.w) {a : Act} (ha : act L S fname h a = .ret h') :
    Calm (entryOf fname) w0 h'.w := by
  cases a with
  | «open» fresh mode =>
    obtain ⟨t, -, h2, -, -⟩ := open_cases hL h0 hl (S := S) (w := h.w) (fresh := fresh) (mode := mode)
    simp only [act, h2, Eff.ret_bind] at ha
    injection ha with ha
    subst ha
    exact hc.mkstemp hi.good.1
  | write g =>
    simp only [act] at ha
    injection ha with ha
    subst ha
    refine hc.write g fun i hfi => ?_
    have hfd : h.o.fd ≠ none := by intro hn; rw [hn] at hfi; cases hfi
    obtain ⟨j, hj⟩ := hi.own hfd
    rw [hj.fd] at hfi
    injection hfi with hfi
    subst hfi
    exact hj.unref
  | commit =>
    simp only [act] at ha
    injection ha with ha
    subst ha
    exact hc.commit
  | abort =>
    simp only [act] at ha
    injection ha with ha
    subst ha
    exact hc.abort
  | destroy =>
    simp only [act] at ha
    injection ha with ha
    subst ha
    exact hc.destroy

theorem Calm.reach {L : Libc} (hL : L.Ok) {fname : Bytes} (h0 : 0 ∉ fname) (hl : fname.length ≤ 4085)
    (he : (entryOf fname).name ≠ []) (hS : ∀ n, 47 ∉ S.suffix n) {w₀ : World} (hw : GoodW old [] (entryOf fname) w₀)
    (hn : w₀.trace = []) {h : Hist} (hr : Reach L S fname w₀ h) : Calm (entryOf fname) w₀.fs h.w := by
  induction hr with
  | init => exact ⟨by rw [hn]; intro fs hf; rw [List.mem_singleton.1 hf]; exact .refl, by rw [hn]; simp⟩
  | step a hr' ha ih => exact ih.step hL h0 hl (Inv.reach hL h0 hl he hS hw hr') ha

end Bdlib.Af
