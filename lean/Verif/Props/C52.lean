import Verif.Props.C50

/-!
# C52: AtomicFile: leaks

Partial (`c52_no_leak_partial`): no leak if `open()` is called only when no file is open, `commit()` only when
one is, and `fchmod`, `fsync` and `unlink` do not fail; `mkstemp`, `close` and `rename` may fail.  Refutations: a
second `open()` leaks the first descriptor and temporary file; when `fsync` fails `commit()` forgets the
descriptor without closing it; `commit()` without an open file removes a file that is not its own.
-/

namespace Bdlib.Af
open Bdlib Bdlib.Str Bdlib.Spec

section
variable [Tree]

/-- `open()` only when no file is open, `commit()` only when one is. -/
def Act.Proper (h : Hist) : Act → Prop
  | .open _ _ => h.o.fd = none
  | .commit => h.o.fd ≠ none
  | _ => True

/-- The states proper sequences of calls lead to. -/
inductive Proper (L : Libc) (S : Sys) (fname : Bytes) (w₀ : World) : Hist → Prop
  | init : Proper L S fname w₀ ⟨w₀, {}, []⟩
  | step {h h' : Hist} (a : Act) : Proper L S fname w₀ h → a.Proper h → act L S fname h a = .ret h' → Proper L S fname w₀ h'

variable {L : Libc} {S : Sys} {fname : Bytes} {old : Option Bytes} {w₀ : World} {h : Hist}

theorem Proper.reach (hp : Proper L S fname w₀ h) : Reach L S fname w₀ h := by
  induction hp with
  | init => exact .init
  | step a _ _ ha ih => exact .step a ih ha

/-- Only the descriptor and the temporary file of an open object are new. -/
structure Tidy (fname : Bytes) (w₀ : World) (h : Hist) : Prop where
  fds : ∀ f, h.o.fd ≠ some f → h.w.fs.fds f = w₀.fs.fds f
  dir : ∀ x, x ≠ entryOf fname → (h.o.fd = none ∨ x ≠ entryOf h.o.tmpname) → h.w.fs.dir x = w₀.fs.dir x
  fd0 : ∀ f, h.o.fd = some f → w₀.fs.fds f = none
  tmp0 : h.o.fd ≠ none → w₀.fs.dir (entryOf h.o.tmpname) = none

theorem fds_close (S : Sys) (w : World) (f : Nat) : (close S w (some f)).2.fs.fds = setFn w.fs.fds f none := rfl

theorem fds_rename (S : Sys) (w : World) (a b : Bytes) : (rename S w a b).2.fs.fds = w.fs.fds := by
  unfold rename; dsimp only; repeat' split
  all_goals rfl

/-- Once `fsync` (and `fchmod`) have worked, `commit` closes the descriptor. -/
theorem commit_fds {o : Obj} {w : World} {f i : Nat} (ho : o.fd = some f) (hf : w.fs.fds f = some i)
    (h1 : ∀ n, S.ok .fsync n = true) (h2 : ∀ n, S.ok .fchmod n = true) :
    (commit S w o).2.2.fs.fds = setFn w.fs.fds f none := by
  have key : ∀ w : World, w.fs.fds f = some i → (commitData S w o).2.2.fs.fds = setFn w.fs.fds f none := by
    intro w hf
    have s1 : (fsync S w o.fd).1 = true := by
      unfold fsync; simp [ho, hf, h1]
    have s2 : (close S (fsync S w o.fd).2 o.fd).2.fs.fds = setFn w.fs.fds f none := by
      rw [ho, fds_close, (fsync_frame ..).2.2.1]
    unfold commitData cleanup
    dsimp only
    rw [if_neg (by rw [s1]; nofun)]
    split
    · rw [(unlink_frame ..).2.2.1, s2]
    · split
      · rw [(unlink_frame ..).2.2.1, fds_rename, s2]
      · rw [fds_rename, s2]
  unfold commit
  split
  · exact key w hf
  · rename_i m _
    have s1 : (fchmod S w o.fd m).1 = true := by
      unfold fchmod; simp [ho, hf, h2]
    dsimp only
    rw [if_neg (by rw [s1]; nofun)]
    obtain ⟨f1, -, f3, -⟩ := fchmod_frame S w o.fd m
    rw [key _ (by rw [f3]; exact hf), f3]

theorem Tidy.step (hL : L.Ok) (hS : ∀ n, 47 ∉ S.suffix n)
    (h0 : 0 ∉ fname) (hl : fname.length ≤ 4085) (he : (entryOf fname).name ≠ [])
    (h1 : ∀ n, S.ok .fsync n = true) (h2 : ∀ n, S.ok .fchmod n = true) (h3 : ∀ n, S.ok .unlink n = true)
    (hw : Settled old (entryOf fname) w₀) {h h' : Hist} (hr : Reach L S fname w₀ h) (ht : Tidy fname w₀ h) {a : Act} (hp : a.Proper h)
    (ha : act L S fname h a = .ret h') : Tidy fname w₀ h' := by
  have hi := Inv.reach hL h0 hl he hS hw.good hr
  have abort_tidy : ∀ f, h.o.fd = some f → ∀ o', o'.fd = none → Tidy fname w₀ ⟨(abort S h.w h.o).2.2, o', h.log⟩ := by
    intro f hf o' ho'
    obtain ⟨w', e1, -, e3, e4, e5⟩ := c50_abort_partial hL hS h0 hl he hw hr hf
    rw [e1]
    refine ⟨fun g _ => ?_, fun x hx _ => ?_, fun g hg => ?_, fun hn => absurd ho' hn⟩
    · dsimp only
      rw [e4]
      by_cases hgf : g = f
      · subst hgf
        rw [setFn_same, ht.fd0 g hf]
      · rw [setFn_ne _ _ hgf]
        exact ht.fds g (by rw [hf]; intro hc; injection hc with hc; exact hgf hc.symm)
    · dsimp only
      by_cases hxt : x = entryOf h.o.tmpname
      · subst hxt
        rw [ht.tmp0 (by rw [hf]; nofun)]
        exact e5.resolve_right (by rw [h3]; nofun)
      · rw [e3 x hxt]
        exact ht.dir x hx (.inr hxt)
    · dsimp only at hg; rw [ho'] at hg; cases hg
  cases a with
  | «open» fresh mode =>
    have hp : h.o.fd = none := hp
    obtain ⟨t, -, e2, -, -⟩ := open_cases hL h0 hl (S := S) (w := h.w) (fresh := fresh) (mode := mode)
    simp only [act, e2, Eff.ret_bind] at ha
    injection ha with ha
    subst ha
    unfold mkstemp
    dsimp only
    split
    · rename_i hc
      refine ⟨fun f hf => ?_, fun x hx hx' => ?_, fun f hf => ?_, fun _ => ?_⟩
      · have hff : f ≠ fresh := by rintro rfl; exact hf rfl
        simp only [World.push]
        rw [setFn_ne _ _ hff]
        exact ht.fds f (by rw [hp]; nofun)
      · have hxt := hx'.resolve_left nofun
        simp only [World.push]
        rw [setFn_ne _ _ hxt]
        exact ht.dir x hx (.inl hp)
      · injection hf with hf
        subst hf
        rw [← ht.fds _ (by rw [hp]; nofun)]
        exact hc.2.2
      · dsimp only
        rw [← ht.dir _ ?_ (.inl hp)]
        · exact hc.2.1
        · have := (open_cases hL h0 hl (S := S) (w := h.w) (fresh := fresh) (mode := mode))
          obtain ⟨t', e1', e2', e3', -⟩ := this
          rw [e2] at e2'
          have : (mkstemp S h.w fresh t).2.1 = (mkstemp S h.w fresh t').2.1 := by
            injection e2' with e2'
            exact congrArg (fun p => p.2.1.tmpname) e2'
          have k1 : (mkstemp S h.w fresh t).2.1 = t.take (t.length - 6) ++ S.suffix h.w.calls := by
            unfold mkstemp; dsimp only; rw [if_pos hc]
          have k2 : (mkstemp S h.w fresh t).1 = some fresh := by
            unfold mkstemp; dsimp only; rw [if_pos hc]
          have k3 : (mkstemp S h.w fresh t').1 = some fresh := by
            rw [← k2]
            injection e2' with e2'
            exact (congrArg (fun p => p.2.1.fd) e2').symm
          have k4 : (mkstemp S h.w fresh t').2.1 = filled t' (S.suffix h.w.calls) := by
            unfold mkstemp at k3 ⊢
            dsimp only at k3 ⊢
            split at k3
            · rename_i hc'; rw [if_pos hc']; rfl
            · cases k3
          rw [← k1, this, k4]
          exact e3' _ (hS _)
    · exact ⟨fun f _ => ht.fds f (by rw [hp]; nofun), fun x hx _ => ht.dir x hx (.inl hp), nofun, fun hn => absurd rfl hn⟩
  | write g =>
    simp only [act] at ha
    injection ha with ha
    subst ha
    have e1 : (write h.w h.o.fd g).fs.fds = h.w.fs.fds := by
      unfold write; dsimp only; split <;> rfl
    have e2 : (write h.w h.o.fd g).fs.dir = h.w.fs.dir := by
      unfold write; dsimp only; split <;> rfl
    exact ⟨fun f hf => by dsimp only; rw [e1]; exact ht.fds f hf, fun x hx hx' => by dsimp only; rw [e2]; exact ht.dir x hx hx', ht.fd0, ht.tmp0⟩
  | commit =>
    have hp : h.o.fd ≠ none := hp
    simp only [act] at ha
    injection ha with ha
    subst ha
    have ho := commit_obj S h.w h.o
    obtain ⟨i, hown⟩ := hi.own hp
    cases hf : h.o.fd with
    | none => exact absurd hf hp
    | some f =>
      have hfd := hown.fd
      rw [hf] at hfd
      have e1 := commit_fds hf hfd h1 h2
      refine ⟨fun g _ => ?_, fun x hx _ => ?_, fun g hg => ?_, fun hn => ?_⟩
      · dsimp only
        rw [e1]
        by_cases hgf : g = f
        · subst hgf
          rw [setFn_same, ht.fd0 g hf]
        · rw [setFn_ne _ _ hgf]
          exact ht.fds g (by rw [hf]; intro hc; injection hc with hc; exact hgf hc.symm)
      · dsimp only
        cases hc : (commit S h.w h.o).1 with
        | false =>
          obtain ⟨-, k2, k3⟩ := c50_commit_false_partial hL hS h0 hl he hw hr hc
          by_cases hxt : x = entryOf h.o.tmpname
          · subst hxt
            rw [ht.tmp0 hp]
            exact k3.resolve_right (by rintro ⟨n, -, hn⟩; rw [h3] at hn; cases hn)
          · rw [k2 x hxt]
            exact ht.dir x hx (.inr hxt)
        | true =>
          obtain ⟨j, -, -, -, -, -, k6, k7, -⟩ := c50_commit_true_partial hL hS h0 hl he hw hr hc
          by_cases hxt : x = entryOf h.o.tmpname
          · subst hxt
            rw [ht.tmp0 hp, k6]
          · rw [k7 x hxt hx]
            exact ht.dir x hx (.inr hxt)
      · dsimp only at hg; rw [ho] at hg; cases hg
      · dsimp only at hn; rw [ho] at hn; exact absurd rfl hn
  | abort =>
    simp only [act] at ha
    injection ha with ha
    subst ha
    cases hf : h.o.fd with
    | none => rw [c50_abort_closed S h.w hf]; exact ht
    | some f =>
      have := abort_tidy f hf { h.o with fd := none } rfl
      have e1 : (abort S h.w h.o).2.1 = { h.o with fd := none } := by
        unfold abort; rw [if_neg (by rw [hf]; nofun)]
      rw [e1]
      exact this
  | destroy =>
    simp only [act] at ha
    injection ha with ha
    subst ha
    rw [c50_destroy]
    cases hf : h.o.fd with
    | none =>
      rw [c50_abort_closed S h.w hf]
      exact ⟨fun f _ => ht.fds f (by rw [hf]; nofun), fun x hx _ => ht.dir x hx (.inl hf), nofun, fun hn => absurd rfl hn⟩
    | some f => exact abort_tidy f hf {} rfl

/-- Whenever the object is not open (after `commit()`, `abort()` or destruction) the open descriptors are
those from before, and so are all directory entries except the target's. -/
theorem c52_no_leak_partial (hL : L.Ok) (hS : ∀ n, 47 ∉ S.suffix n)
    (h0 : 0 ∉ fname) (hl : fname.length ≤ 4085) (he : (entryOf fname).name ≠ [])
    (h1 : ∀ n, S.ok .fsync n = true) (h2 : ∀ n, S.ok .fchmod n = true) (h3 : ∀ n, S.ok .unlink n = true)
    (hw : Settled old (entryOf fname) w₀) (hp : Proper L S fname w₀ h) (ho : h.o.fd = none) :
    (∀ f, h.w.fs.fds f = w₀.fs.fds f) ∧ ∀ x, x ≠ entryOf fname → h.w.fs.dir x = w₀.fs.dir x := by
  have ht : Tidy fname w₀ h := by
    clear ho
    induction hp with
    | init => exact ⟨fun _ _ => rfl, fun _ _ _ => rfl, nofun, fun hn => absurd rfl hn⟩
    | step a hp hpa ha ih => exact ih.step hL hS h0 hl he h1 h2 h3 hw hp.reach hpa ha
  exact ⟨fun f => ht.fds f (by rw [ho]; nofun), fun x hx => ht.dir x hx (.inl ho)⟩

/-- After destruction the object is not open. -/
theorem c52_destroyed {h h' : Hist} (ha : act L S fname h .destroy = .ret h') : h'.o.fd = none := by
  simp only [act] at ha
  injection ha with ha
  subst ha
  rfl

end

attribute [local instance] plainTree

/-- `open("f")`. -/
def opened (S : Sys) (h : Hist) (fresh : Nat) (mode : Option Nat) : Hist :=
  let r := mkstemp S h.w fresh [46, 47, 46, 102, 46, 88, 88, 88, 88, 88, 88]
  ⟨r.2.2, ⟨[102], r.2.1, r.1, mode⟩, h.log⟩

theorem act_open (S : Sys) (h : Hist) (fresh : Nat) (mode : Option Nat) :
    act glibc S [102] h (.open fresh mode) = .ret (opened S h fresh mode) := by
  unfold act «open»
  rw [template_noslash glibc_ok (by decide) (by decide) (by decide)]
  rfl

theorem proper_commit : Proper glibc sysOk [102] ⟨fs₀, [], 0⟩ afterCommit :=
  .step (h := ⟨afterWrite, openObj, []⟩) .commit
    (.step (h := ⟨afterOpen, openObj, []⟩) (.write fun _ => [110, 101, 119]) (.step (.open 3 (some 416)) .init rfl (act_open ..)) trivial rfl)
    (show some 3 ≠ none by nofun) rfl

example := c52_no_leak_partial glibc_ok (S := sysOk) (fun n => by simp [sysOk]) (fname := [102]) (by decide) (by decide)
  (by decide) (fun _ => rfl) (fun _ => rfl) (fun _ => rfl) settled₀ proper_commit (by decide)

/-! ## Refutations -/

/-- Suffixes differ from call to call. -/
def sysTwo : Sys := ⟨fun _ _ => true, fun n => if n = 0 then [97, 98, 99, 100, 101, 102] else [103, 104, 105, 106, 107, 108]⟩

/-- `open()` twice, then destruction: descriptor 3 is still open and the first temporary file still exists. -/
theorem c52_refuted_open_twice : ∃ h, Reach glibc sysTwo [102] ⟨fs₀, [], 0⟩ h ∧ h.o.fd = none ∧
    h.w.fs.fds 3 ≠ none ∧ h.w.fs.dir (entryOf [46, 102, 46, 97, 98, 99, 100, 101, 102]) ≠ none ∧
    fs₀.fds 3 = none ∧ fs₀.dir (entryOf [46, 102, 46, 97, 98, 99, 100, 101, 102]) = none := by
  refine ⟨⟨destroy sysTwo (opened sysTwo (opened sysTwo ⟨⟨fs₀, [], 0⟩, {}, []⟩ 3 none) 4 none).w
      (opened sysTwo (opened sysTwo ⟨⟨fs₀, [], 0⟩, {}, []⟩ 3 none) 4 none).o, {}, []⟩,
    .step .destroy (.step (.open 4 none) (.step (.open 3 none) .init (act_open ..)) (act_open ..)) rfl, rfl,
    by decide, by decide, rfl, by decide⟩

/-- `fsync` fails. -/
def sysNoFsync : Sys := ⟨fun c _ => match c with | .fsync => false | _ => true, fun _ => [97, 98, 99, 100, 101, 102]⟩

/-- `commit()` with a failing `fsync`, then destruction: descriptor 3 is still open. -/
theorem c52_refuted_fsync : ∃ h, Proper glibc sysNoFsync [102] ⟨fs₀, [], 0⟩ h ∧ h.o.fd = none ∧
    h.w.fs.fds 3 ≠ none ∧ fs₀.fds 3 = none := by
  refine ⟨⟨(commit sysNoFsync (opened sysNoFsync ⟨⟨fs₀, [], 0⟩, {}, []⟩ 3 none).w (opened sysNoFsync ⟨⟨fs₀, [], 0⟩, {}, []⟩ 3 none).o).2.2, {}, [[]]⟩,
    .step .destroy (.step (h := opened sysNoFsync ⟨⟨fs₀, [], 0⟩, {}, []⟩ 3 none) .commit
      (.step (.open 3 none) .init rfl (act_open ..)) (show some 3 ≠ none by nofun) rfl) trivial rfl, rfl, by decide, rfl⟩

/-- `mkstemp` fails. -/
def sysNoTemp : Sys := ⟨fun c _ => match c with | .mkstemp => false | _ => true, fun _ => [97, 98, 99, 100, 101, 102]⟩

/-- A file ".f.XXXXXX" of somebody else. -/
def fsOther : FS := { fs₀ with dir := setFn fs₀.dir (entryOf [46, 102, 46, 88, 88, 88, 88, 88, 88]) (some 0) }

/-- `commit()` after a failed `open()` removes a file the object never made. -/
theorem c52_refuted_not_open : ∃ h, Reach glibc sysNoTemp [102] ⟨fsOther, [], 0⟩ h ∧
    h.w.fs.dir (entryOf [46, 102, 46, 88, 88, 88, 88, 88, 88]) = none ∧
    fsOther.dir (entryOf [46, 102, 46, 88, 88, 88, 88, 88, 88]) ≠ none := by
  refine ⟨⟨(commit sysNoTemp (opened sysNoTemp ⟨⟨fsOther, [], 0⟩, {}, []⟩ 3 none).w (opened sysNoTemp ⟨⟨fsOther, [], 0⟩, {}, []⟩ 3 none).o).2.2, _, []⟩,
    .step (h := opened sysNoTemp ⟨⟨fsOther, [], 0⟩, {}, []⟩ 3 none) .commit (.step (.open 3 none) .init (act_open ..)) rfl, by decide, by decide⟩

end Bdlib.Af
