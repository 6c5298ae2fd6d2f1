import Verif.Props.C50

/-!
# C95: AtomicFile when the name is a symbolic link

`links i = some e`: the file number `i` is a symbolic link that leads to the entry `e`.  None of the system calls `AtomicFile` makes follows
a link in the last component (`mkstemp` creates with `O_EXCL`, `rename` and `unlink` act on the link itself), so the model of
`Af/Model.lean` applies as it is; what a link changes is what a reader finds.
-/

namespace Bdlib.Af
open Bdlib Bdlib.Str Bdlib.Spec

section
variable [Tree]

/-- Specification: in the directory version `d`, opening `e` for reading goes through the entries `xs` and reaches the file `i`. -/
inductive Leads (links : Nat → Option Entry) (d : Entry → Option Nat) : Entry → List Entry → Nat → Prop
  | file {e : Entry} {i : Nat} : d e = some i → links i = none → Leads links d e [] i
  | link {e e' : Entry} {xs : List Entry} {i j : Nat} : d e = some j → links j = some e' → Leads links d e' xs i → Leads links d e (e' :: xs) i

/-- Specification: what a reader of `e` finds now. -/
def ReadsNow (links : Nat → Option Entry) (fs : FS) (e : Entry) (c : Bytes) : Prop :=
  ∃ xs i, Leads links fs.dir e xs i ∧ c = (fs.ino i).data

/-- Specification: what a reader of `e` may find after a crash. -/
def MayRead (links : Nat → Option Entry) (fs : FS) (e : Entry) (c : Bytes) : Prop :=
  ∃ d ∈ fs.dir :: fs.past, ∃ xs i, Leads links d e xs i ∧ ((fs.ino i).synced = true → c = (fs.ino i).data)

variable {links : Nat → Option Entry} {d d' : Entry → Option Nat} {e x : Entry} {xs ys : List Entry} {i j : Nat}

theorem Leads.det (h : Leads links d e xs i) (h' : Leads links d e ys j) : xs = ys ∧ i = j := by
  induction h generalizing ys j with
  | file h1 h2 =>
    cases h' with
    | file h3 h4 => rw [h1] at h3; injection h3 with h3; exact ⟨rfl, h3⟩
    | link h3 h4 _ => rw [h1] at h3; injection h3 with h3; subst h3; rw [h2] at h4; cases h4
  | link h1 h2 _ ih =>
    cases h' with
    | file h3 h4 => rw [h1] at h3; injection h3 with h3; subst h3; rw [h2] at h4; cases h4
    | link h3 h4 h5 =>
      rw [h1] at h3; injection h3 with h3; subst h3
      rw [h2] at h4; injection h4 with h4; subst h4
      obtain ⟨rfl, rfl⟩ := ih h5
      exact ⟨rfl, rfl⟩

/-- From each entry on the way, the rest of the way. -/
theorem Leads.rest (h : Leads links d e xs i) (hx : x ∈ xs) : ∃ ys, Leads links d x ys i ∧ ys.length < xs.length ∧ ∀ y ∈ ys, y ∈ xs := by
  induction h with
  | file _ _ => cases hx
  | @link _ e' zs i _ h1 h2 h3 ih =>
    rcases List.mem_cons.1 hx with rfl | hx
    · exact ⟨_, h3, by simp, fun y hy => List.mem_cons_of_mem _ hy⟩
    · obtain ⟨ys, a, b, c⟩ := ih hx
      exact ⟨ys, a, by simp; omega, fun y hy => List.mem_cons_of_mem _ (c y hy)⟩

/-- The way never comes back to its start. -/
theorem Leads.fresh (h : Leads links d e xs i) : e ∉ xs := by
  intro hx
  obtain ⟨ys, a, b, -⟩ := h.rest hx
  obtain ⟨rfl, -⟩ := h.det a
  omega

theorem Leads.exists (h : Leads links d e xs i) : d e ≠ none := by
  cases h with
  | file h _ => rw [h]; nofun
  | link h _ _ => rw [h]; nofun

theorem Leads.congr (h : Leads links d e xs i) (he : d' e = d e) (hx : ∀ x ∈ xs, d' x = d x) : Leads links d' e xs i := by
  induction h with
  | file h1 h2 => exact .file (he.trans h1) h2
  | link h1 h2 _ ih => exact .link (he.trans h1) h2 (ih (hx _ (List.mem_cons_self ..)) fun x h => hx x (List.mem_cons_of_mem _ h))

/-- Before anything happens: in the directory and all its versions a crash may bring back, the name leads through the entries `xs` to the
file `i`, whose content `c` is on disk. -/
structure LinkSettled (links : Nat → Option Entry) (e : Entry) (xs : List Entry) (i : Nat) (c : Bytes) (w : World) : Prop where
  leads : ∀ d ∈ w.fs.dir :: w.fs.past, Leads links d e xs i
  used : i < w.fs.inos
  synced : (w.fs.ino i).synced = true
  data : (w.fs.ino i).data = c
  /-- files made later are no links -/
  files : ∀ j, w.fs.inos ≤ j → links j = none
  /-- no path on the way ends in a slash -/
  names : ∀ x ∈ xs, x.name ≠ []

/-! ## Nothing that existed is changed -/

/-- The files that existed are as before; every version of the directory has the entries `xs` as one from before, and the entry `e` too
unless it is a new file, completely on disk, with a logged content. -/
structure Rests (w₀ : World) (xs : List Entry) (e : Entry) (log : List Bytes) (fs : FS) : Prop where
  inos : w₀.fs.inos ≤ fs.inos
  ino : ∀ j, j < w₀.fs.inos → fs.ino j = w₀.fs.ino j
  ent : ∀ d ∈ fs.dir :: fs.past, ∃ d₀ ∈ w₀.fs.dir :: w₀.fs.past, (∀ x ∈ xs, d x = d₀ x) ∧
    (d e = d₀ e ∨ ∃ i, w₀.fs.inos ≤ i ∧ i < fs.inos ∧ d e = some i ∧ (fs.ino i).synced = true ∧ (fs.ino i).data ∈ log)

def RestsW (w₀ : World) (xs : List Entry) (e : Entry) (log : List Bytes) (w : World) : Prop :=
  Rests w₀ xs e log w.fs ∧ ∀ fs ∈ w.trace, Rests w₀ xs e log fs

variable {w₀ w : World} {log : List Bytes} {S : Sys}

theorem RestsW.tick (h : RestsW w₀ xs e log w) {n : Nat} : RestsW w₀ xs e log { w with calls := n } := h

theorem RestsW.push (h : RestsW w₀ xs e log w) {n : Nat} {fs : FS} (hg : Rests w₀ xs e log fs) :
    RestsW w₀ xs e log (({ w with calls := n } : World).push fs) :=
  ⟨hg, fun x hx => by
    rcases List.mem_append.1 hx with hx | hx
    · exact h.2 x hx
    · rw [List.mem_singleton.1 hx]; exact hg⟩

theorem RestsW.mono {log' : List Bytes} (h : RestsW w₀ xs e log w) (hl : ∀ x ∈ log, x ∈ log') : RestsW w₀ xs e log' w := by
  have key : ∀ fs, Rests w₀ xs e log fs → Rests w₀ xs e log' fs := fun fs hg => ⟨hg.inos, hg.ino, fun d hd => by
    obtain ⟨d₀, a, b, c⟩ := hg.ent d hd
    refine ⟨d₀, a, b, c.imp id ?_⟩
    rintro ⟨i, h1, h2, h3, h4, h5⟩
    exact ⟨i, h1, h2, h3, h4, hl _ h5⟩⟩
  exact ⟨key _ h.1, fun fs hf => key fs (h.2 fs hf)⟩

/-- A new file changes: its data stays, or no version has it under `e`. -/
theorem Rests.setIno {fs : FS} (h : Rests w₀ xs e log fs) (hn : w₀.fs.inos ≤ i) {y : Inode}
    (hy : (y.data = (fs.ino i).data ∧ ((fs.ino i).synced = true → y.synced = true)) ∨ Unref e fs i) :
    Rests w₀ xs e log { fs with ino := setFn fs.ino i y } := by
  refine ⟨h.inos, fun j hj => ?_, fun d hd => ?_⟩
  · dsimp only; rw [setFn_ne _ _ (by omega)]; exact h.ino j hj
  · obtain ⟨d₀, a, b, c⟩ := h.ent d hd
    refine ⟨d₀, a, b, c.imp id ?_⟩
    rintro ⟨k, h1, h2, h3, h4, h5⟩
    refine ⟨k, h1, h2, h3, ?_⟩
    dsimp only
    by_cases hk : k = i
    · subst hk
      rw [setFn_same]
      rcases hy with ⟨p, q⟩ | hu
      · exact ⟨q h4, by rw [p]; exact h5⟩
      · exact absurd h3 (hu d hd)
    · rw [setFn_ne _ _ hk]
      exact ⟨h4, h5⟩

theorem Rests.setDir {fs : FS} (h : Rests w₀ xs e log fs) (hx : ∀ x ∈ e :: xs, d' x = fs.dir x) :
    Rests w₀ xs e log { fs with dir := d', past := fs.dir :: fs.past } := by
  refine ⟨h.inos, h.ino, fun d hd => ?_⟩
  rcases List.mem_cons.1 hd with rfl | hd
  · obtain ⟨d₀, a, b, c⟩ := h.ent fs.dir (List.mem_cons_self ..)
    dsimp only
    rw [hx e (List.mem_cons_self ..)]
    exact ⟨d₀, a, fun x h' => by rw [hx x (List.mem_cons_of_mem _ h')]; exact b x h', c⟩
  · exact h.ent d hd

theorem RestsW.fchmod (h : RestsW w₀ xs e log w) {fd : Option Nat} {m : Nat} (hn : ∀ i, fd.bind w.fs.fds = some i → w₀.fs.inos ≤ i) :
    RestsW w₀ xs e log (fchmod S w fd m).2 := by
  unfold Af.fchmod
  dsimp only
  split
  · exact h.tick
  · rename_i i hi
    split
    · exact h.push (h.1.setIno (hn i hi) (.inl ⟨rfl, fun h => h⟩))
    · exact h.tick

theorem RestsW.fsync (h : RestsW w₀ xs e log w) {fd : Option Nat} (hn : ∀ i, fd.bind w.fs.fds = some i → w₀.fs.inos ≤ i) :
    RestsW w₀ xs e log (fsync S w fd).2 := by
  unfold Af.fsync
  dsimp only
  split
  · exact h.tick
  · rename_i i hi
    split
    · exact h.push (h.1.setIno (hn i hi) (.inl ⟨rfl, fun _ => rfl⟩))
    · exact h.tick

theorem RestsW.close (h : RestsW w₀ xs e log w) (fd : Option Nat) : RestsW w₀ xs e log (close S w fd).2 := by
  unfold Af.close
  dsimp only
  split
  · exact h.tick
  · exact h.push ⟨h.1.inos, h.1.ino, h.1.ent⟩

theorem RestsW.unlink (h : RestsW w₀ xs e log w) {a : Bytes} (ha : entryOf a ∉ e :: xs) : RestsW w₀ xs e log (unlink S w a).2 := by
  unfold Af.unlink
  dsimp only
  split
  · exact h.tick
  · split
    · exact h.push (h.1.setDir fun x hx => setFn_ne _ _ (by rintro rfl; exact ha hx))
    · exact h.tick

theorem RestsW.write (h : RestsW w₀ xs e log w) {fd : Option Nat} (g : Bytes → Bytes)
    (hn : ∀ i, fd.bind w.fs.fds = some i → w₀.fs.inos ≤ i ∧ Unref e w.fs i) : RestsW w₀ xs e log (write w fd g) := by
  unfold Af.write
  dsimp only
  split
  · exact h.tick
  · rename_i i hi
    exact h.push (h.1.setIno (hn i hi).1 (.inr (hn i hi).2))

theorem RestsW.rename (h : RestsW w₀ xs e log w) {a b : Bytes} (ha : entryOf a ∉ e :: xs) (hb : entryOf b = e) (hex : e ∉ xs)
    (hi : ∀ i, w.fs.dir (entryOf a) = some i → w₀.fs.inos ≤ i ∧ i < w.fs.inos ∧ (w.fs.ino i).synced = true ∧ (w.fs.ino i).data ∈ log) :
    RestsW w₀ xs e log (rename S w a b).2 := by
  unfold Af.rename
  dsimp only
  split
  · exact h.tick
  · rename_i i hdi
    split
    · refine h.push ⟨h.1.inos, h.1.ino, fun d hd => ?_⟩
      rcases List.mem_cons.1 hd with rfl | hd
      · obtain ⟨d₀, p, q, -⟩ := h.1.ent w.fs.dir (List.mem_cons_self ..)
        refine ⟨d₀, p, fun x hx => ?_, .inr ⟨i, (hi i hdi).1, (hi i hdi).2.1, ?_, (hi i hdi).2.2⟩⟩
        · dsimp only
          rw [setFn_ne _ _ (by rintro rfl; exact ha (List.mem_cons_of_mem _ hx)), hb, setFn_ne _ _ (by rintro rfl; exact hex hx)]
          exact q x hx
        · dsimp only
          rw [setFn_ne _ _ (by rintro rfl; exact ha (List.mem_cons_self ..)), hb, setFn_same]
      · exact h.1.ent d hd
    · exact h.tick

theorem RestsW.mkstemp (h : RestsW w₀ xs e log w) {fresh : Nat} {t : Bytes} (ht : ∀ n, entryOf (filled t (S.suffix n)) ≠ e)
    (hx : ∀ d₀ ∈ w₀.fs.dir :: w₀.fs.past, ∀ x ∈ xs, d₀ x ≠ none) : RestsW w₀ xs e log (mkstemp S w fresh t).2.2 := by
  unfold Af.mkstemp
  dsimp only
  split
  · rename_i hc
    refine h.push ⟨by dsimp only; have := h.1.inos; omega, fun j hj => ?_, ?_⟩
    · dsimp only
      rw [setFn_ne _ _ (by have := h.1.inos; omega)]
      exact h.1.ino j hj
    · have key : ∀ d ∈ w.fs.dir :: w.fs.past, ∃ d₀ ∈ w₀.fs.dir :: w₀.fs.past, (∀ x ∈ xs, d x = d₀ x) ∧
          (d e = d₀ e ∨ ∃ i, w₀.fs.inos ≤ i ∧ i < w.fs.inos + 1 ∧ d e = some i ∧
            (setFn w.fs.ino w.fs.inos ⟨[], false, 384⟩ i).synced = true ∧ (setFn w.fs.ino w.fs.inos ⟨[], false, 384⟩ i).data ∈ log) := by
        intro d hd
        obtain ⟨d₀, a, b, c⟩ := h.1.ent d hd
        refine ⟨d₀, a, b, c.imp id ?_⟩
        rintro ⟨i, h1, h2, h3, h4⟩
        exact ⟨i, h1, by omega, h3, by rw [setFn_ne _ _ (by omega)]; exact h4⟩
      intro d hd
      rcases List.mem_cons.1 hd with rfl | hd
      · obtain ⟨d₀, a, b, c⟩ := key w.fs.dir (List.mem_cons_self ..)
        have hne : ∀ x ∈ xs, x ≠ entryOf (t.take (t.length - 6) ++ S.suffix w.calls) := by
          rintro x hm rfl
          exact hx d₀ a _ hm (by rw [← b _ hm]; exact hc.2.1)
        refine ⟨d₀, a, fun x hm => ?_, ?_⟩
        · dsimp only; rw [setFn_ne _ _ (hne x hm)]; exact b x hm
        · dsimp only
          have ht' : entryOf (t.take (t.length - 6) ++ S.suffix w.calls) ≠ e := ht w.calls
          rw [setFn_ne _ _ (Ne.symm ht')]
          exact c
      · exact key d hd
  · exact h.tick

/-! ## The calls -/

variable {o : Obj} {fname : Bytes}

/-- The object's temporary file is new and its name is not on the way. -/
structure Apart (w₀ : World) (xs : List Entry) (h : Hist) : Prop where
  tmp : entryOf h.o.tmpname ∉ xs
  new : ∀ i, h.o.fd.bind h.w.fs.fds = some i → w₀.fs.inos ≤ i

theorem RestsW.commitData (h : RestsW w₀ xs e log w) (ht : entryOf o.tmpname ∉ e :: xs) (hn : o.fd ≠ none → entryOf o.fname = e)
    (hex : e ∉ xs) (ho : o.fd ≠ none → ∃ i, Own e w o i ∧ (w.fs.ino i).data ∈ log) (hnew : ∀ i, o.fd.bind w.fs.fds = some i → w₀.fs.inos ≤ i) :
    RestsW w₀ xs e log (commitData S w o).2.2 := by
  unfold Af.commitData
  dsimp only
  have g1 := h.fsync (S := S) (fd := o.fd) hnew
  by_cases hf : o.fd = none
  · rw [if_pos (fsync_none (by rw [hf]; rfl))]
    exact g1.unlink ht
  obtain ⟨i, hown, hlog⟩ := ho hf
  obtain ⟨f1, f2, f3, f4, f5, f6, f7⟩ := fsync_frame S w o.fd
  split
  · exact g1.unlink ht
  · rename_i hr
    have hs := fsync_ok hown.fd (by simpa using hr)
    have g2 := g1.close (S := S) o.fd
    obtain ⟨c1, c2, c3, c4⟩ := close_frame S (Af.fsync S w o.fd).2 o.fd
    split
    · exact g2.unlink ht
    · have g3 := g2.rename (S := S) (a := o.tmpname) (b := o.fname) ht (hn hf) hex (fun j hj => by
        rw [c1, f1, hown.tmp] at hj
        injection hj with hj
        subst hj
        rw [c3, c4, f4, f5]
        exact ⟨hnew _ hown.fd, hown.lt, hs, hlog⟩)
      split
      · exact g3.unlink ht
      · exact g3

theorem RestsW.commit (h : RestsW w₀ xs e log w) (ht : entryOf o.tmpname ∉ e :: xs) (hn : o.fd ≠ none → entryOf o.fname = e)
    (hex : e ∉ xs) (ho : o.fd ≠ none → ∃ i, Own e w o i ∧ (w.fs.ino i).data ∈ log) (hnew : ∀ i, o.fd.bind w.fs.fds = some i → w₀.fs.inos ≤ i) :
    RestsW w₀ xs e log (commit S w o).2.2 := by
  unfold Af.commit
  split
  · exact h.commitData ht hn hex ho hnew
  · rename_i m _
    dsimp only
    have g := h.fchmod (S := S) (m := m) hnew
    obtain ⟨f1, f2, f3, f4, f5, f6⟩ := fchmod_frame S w o.fd m
    split
    · exact g.unlink ht
    · refine g.commitData ht hn hex (fun hf => ?_) (by rw [f3]; exact hnew)
      obtain ⟨i, h1, h2⟩ := ho hf
      exact ⟨i, h1.fchmod, by rw [f5]; exact h2⟩

theorem RestsW.abort (h : RestsW w₀ xs e log w) (ht : entryOf o.tmpname ∉ e :: xs) : RestsW w₀ xs e log (abort S w o).2.2 := by
  unfold Af.abort
  split
  · exact h
  · exact (h.unlink ht).close _

theorem rests_reach {L : Libc} (hL : L.Ok) (hS : ∀ n, 47 ∉ S.suffix n) (h0 : 0 ∉ fname) (hl : fname.length ≤ 4085)
    (he : (entryOf fname).name ≠ []) {old : Option Bytes} (hw : Settled old (entryOf fname) w₀) (hex : entryOf fname ∉ xs)
    (hx : ∀ d₀ ∈ w₀.fs.dir :: w₀.fs.past, ∀ x ∈ xs, d₀ x ≠ none) (hnm : ∀ x ∈ xs, x.name ≠ [])
    (ht : ∀ t, template L fname = .ret t → entryOf t ∉ xs) {h : Hist} (hr : Reach L S fname w₀ h) :
    RestsW w₀ xs (entryOf fname) h.log h.w ∧ Apart w₀ xs h := by
  have hempty : entryOf ([] : Bytes) ∉ xs := fun hm => hnm _ hm rfl
  induction hr with
  | init =>
    refine ⟨⟨⟨Nat.le_refl _, fun _ _ => rfl, fun d hd => ⟨d, hd, fun _ _ => rfl, .inl rfl⟩⟩, by rw [hw.new]; nofun⟩, hempty, nofun⟩
  | @step h h' a hr ha ih =>
    have hi := Inv.reach hL h0 hl he hS hw.good hr
    obtain ⟨ih1, ih2⟩ := ih
    have htmp : entryOf h.o.tmpname ∉ entryOf fname :: xs := by
      rintro hm
      rcases List.mem_cons.1 hm with hm | hm
      · exact hi.tmp hm
      · exact ih2.tmp hm
    cases a with
    | «open» fresh mode =>
      obtain ⟨t, h1, h2, h3, h4⟩ := open_cases hL h0 hl (S := S) (w := h.w) (fresh := fresh) (mode := mode)
      simp only [act, h2, Eff.ret_bind] at ha
      injection ha with ha
      subst ha
      have hsf := fun n => h3 (S.suffix n) (hS n)
      refine ⟨ih1.mkstemp hsf hx, ?_, ?_⟩
      · dsimp only
        unfold mkstemp
        dsimp only
        split
        · rename_i hc
          intro hm
          obtain ⟨d₀, p, q, -⟩ := ih1.1.ent h.w.fs.dir (List.mem_cons_self ..)
          exact hx d₀ p _ hm (by rw [← q _ hm]; exact hc.2.1)
        · exact ht t h1
      · dsimp only
        unfold mkstemp
        dsimp only
        split
        · intro i hfi
          simp only [World.push, Option.bind_some, setFn_same, Option.some.injEq] at hfi
          rw [← hfi]
          exact ih1.1.inos
        · nofun
    | write g =>
      simp only [act] at ha
      injection ha with ha
      subst ha
      refine ⟨ih1.write g fun i hfi => ⟨ih2.new i hfi, ?_⟩, ih2.tmp, ?_⟩
      · cases hfd : h.o.fd with
        | none => rw [hfd] at hfi; cases hfi
        | some f =>
          obtain ⟨j, hj⟩ := hi.own (by rw [hfd]; nofun)
          rw [hj.fd] at hfi
          injection hfi with hfi
          subst hfi
          exact hj.unref
      · have : (write h.w h.o.fd g).fs.fds = h.w.fs.fds := by
          unfold write
          dsimp only
          split <;> rfl
        dsimp only
        rw [this]
        exact ih2.new
    | commit =>
      simp only [act] at ha
      injection ha with ha
      subst ha
      have ho := commit_obj S h.w h.o
      refine ⟨?_, by dsimp only; rw [ho]; exact ih2.tmp, by dsimp only; rw [ho]; nofun⟩
      refine RestsW.commit (ih1.mono fun x hx => List.mem_append_left _ hx) htmp (fun hf => by rw [hi.name hf]) hex (fun hf => ?_) ih2.new
      obtain ⟨i, hx⟩ := hi.own hf
      refine ⟨i, hx, List.mem_append_right _ ?_⟩
      rw [hx.fd]
      simp
    | abort =>
      simp only [act] at ha
      injection ha with ha
      subst ha
      refine ⟨ih1.abort htmp, ?_, ?_⟩
      · dsimp only
        unfold abort
        split <;> exact ih2.tmp
      · dsimp only
        unfold abort
        split
        · exact ih2.new
        · nofun
    | destroy =>
      simp only [act] at ha
      injection ha with ha
      subst ha
      refine ⟨?_, hempty, nofun⟩
      dsimp only
      unfold destroy
      split
      · exact ih1
      · exact ih1.abort htmp

/-! ## The property -/

section
variable {L : Libc} {old : Option Bytes} {c : Bytes} {h : Hist}

/-- **C95** The name is a symbolic link (or a chain of them, or none).  Whatever calls are made, whatever is written, and whichever system
calls fail: in every state the file system goes through a reader of the name finds a file, and now and after a crash that is the complete
content from before or a complete content given to `commit()`. -/
theorem c95_read_partial (hL : L.Ok) (hS : ∀ n, 47 ∉ S.suffix n) (h0 : 0 ∉ fname) (hl : fname.length ≤ 4085)
    (he : (entryOf fname).name ≠ []) (hw : Settled old (entryOf fname) w₀) (hk : LinkSettled links (entryOf fname) xs i c w₀)
    (ht : ∀ t, template L fname = .ret t → entryOf t ∉ xs) (hr : Reach L S fname w₀ h) :
    ∀ fs ∈ h.w.fs :: h.w.trace, (∃ b, ReadsNow links fs (entryOf fname) b) ∧
      (∀ b, ReadsNow links fs (entryOf fname) b → b = c ∨ b ∈ h.log) ∧ ∀ b, MayRead links fs (entryOf fname) b → b = c ∨ b ∈ h.log := by
  have hfr : entryOf fname ∉ xs := (hk.leads w₀.fs.dir (List.mem_cons_self ..)).fresh
  have hx : ∀ d₀ ∈ w₀.fs.dir :: w₀.fs.past, ∀ x ∈ xs, d₀ x ≠ none := fun d₀ hd x hx => by
    obtain ⟨ys, a, -⟩ := (hk.leads d₀ hd).rest hx
    exact a.exists
  have hrs := (rests_reach hL hS h0 hl he hw hfr hx hk.names ht hr).1
  intro fs hf
  have hg : Rests w₀ xs (entryOf fname) h.log fs := by
    rcases List.mem_cons.1 hf with rfl | hf
    · exact hrs.1
    · exact hrs.2 fs hf
  have key : ∀ d ∈ fs.dir :: fs.past, ∃ ys k, Leads links d (entryOf fname) ys k ∧ (fs.ino k).synced = true ∧
      ((fs.ino k).data = c ∨ (fs.ino k).data ∈ h.log) := by
    intro d hd
    obtain ⟨d₀, a, b, e1 | ⟨k, k1, k2, k3, k4, k5⟩⟩ := hg.ent d hd
    · exact ⟨xs, i, (hk.leads d₀ a).congr e1 b, by rw [hg.ino i hk.used]; exact hk.synced, .inl (by rw [hg.ino i hk.used]; exact hk.data)⟩
    · exact ⟨[], k, .file k3 (hk.files k k1), k4, .inr k5⟩
  have key2 : ∀ b, MayRead links fs (entryOf fname) b → b = c ∨ b ∈ h.log := by
    rintro b ⟨d, hd, ys, k, hlead, hb⟩
    obtain ⟨ys', k', hlead', h1, h2⟩ := key d hd
    obtain ⟨-, rfl⟩ := hlead.det hlead'
    rw [hb h1]
    exact h2
  refine ⟨?_, ?_, key2⟩
  · obtain ⟨ys, k, hlead, -⟩ := key fs.dir (List.mem_cons_self ..)
    exact ⟨_, ys, k, hlead, rfl⟩
  · rintro b ⟨ys, k, hlead, rfl⟩
    exact key2 _ ⟨fs.dir, List.mem_cons_self .., ys, k, hlead, fun _ => rfl⟩

/-- **C95** The entries the link leads through, and the file behind it, are never changed: a reader of any of them by its own name finds
the content from before, now and after a crash. -/
theorem c95_behind_partial (hL : L.Ok) (hS : ∀ n, 47 ∉ S.suffix n) (h0 : 0 ∉ fname) (hl : fname.length ≤ 4085)
    (he : (entryOf fname).name ≠ []) (hw : Settled old (entryOf fname) w₀) (hk : LinkSettled links (entryOf fname) xs i c w₀)
    (ht : ∀ t, template L fname = .ret t → entryOf t ∉ xs) (hr : Reach L S fname w₀ h) (hx : x ∈ xs) :
    ∀ fs ∈ h.w.fs :: h.w.trace, ReadsNow links fs x c ∧ ∀ b, MayRead links fs x b → b = c := by
  have hfr : entryOf fname ∉ xs := (hk.leads w₀.fs.dir (List.mem_cons_self ..)).fresh
  have hex : ∀ d₀ ∈ w₀.fs.dir :: w₀.fs.past, ∀ x ∈ xs, d₀ x ≠ none := fun d₀ hd x hx => by
    obtain ⟨ys, a, -⟩ := (hk.leads d₀ hd).rest hx
    exact a.exists
  have hrs := (rests_reach hL hS h0 hl he hw hfr hex hk.names ht hr).1
  intro fs hf
  have hg : Rests w₀ xs (entryOf fname) h.log fs := by
    rcases List.mem_cons.1 hf with rfl | hf
    · exact hrs.1
    · exact hrs.2 fs hf
  have key : ∀ d ∈ fs.dir :: fs.past, ∃ ys, Leads links d x ys i := by
    intro d hd
    obtain ⟨d₀, a, b, -⟩ := hg.ent d hd
    obtain ⟨ys, p, -, q⟩ := (hk.leads d₀ a).rest hx
    exact ⟨ys, p.congr (b x hx) fun y hy => b y (q y hy)⟩
  have hino := hg.ino i hk.used
  refine ⟨?_, ?_⟩
  · obtain ⟨ys, p⟩ := key fs.dir (List.mem_cons_self ..)
    exact ⟨ys, i, p, by rw [hino, hk.data]⟩
  · rintro b ⟨d, hd, ys, k, hlead, hb⟩
    obtain ⟨ys', p⟩ := key d hd
    obtain ⟨-, rfl⟩ := hlead.det p
    rw [hb (by rw [hino]; exact hk.synced), hino, hk.data]

/-- **C95** After `commit()` said true the name is no link any more: it is the new file itself, and has the written content. -/
theorem c95_replaced_partial (hL : L.Ok) (hS : ∀ n, 47 ∉ S.suffix n) (h0 : 0 ∉ fname) (hl : fname.length ≤ 4085)
    (he : (entryOf fname).name ≠ []) (hw : Settled old (entryOf fname) w₀) (hk : LinkSettled links (entryOf fname) xs i c w₀)
    (ht : ∀ t, template L fname = .ret t → entryOf t ∉ xs) (hr : Reach L S fname w₀ h) (hc : (commit S h.w h.o).1 = true) :
    ∃ k, h.o.fd.bind h.w.fs.fds = some k ∧ Leads links (commit S h.w h.o).2.2.fs.dir (entryOf fname) [] k ∧
      ∀ b, ReadsNow links (commit S h.w h.o).2.2.fs (entryOf fname) b ↔ b = (h.w.fs.ino k).data := by
  have hfr : entryOf fname ∉ xs := (hk.leads w₀.fs.dir (List.mem_cons_self ..)).fresh
  have hex : ∀ d₀ ∈ w₀.fs.dir :: w₀.fs.past, ∀ x ∈ xs, d₀ x ≠ none := fun d₀ hd x hx => by
    obtain ⟨ys, a, -⟩ := (hk.leads d₀ hd).rest hx
    exact a.exists
  have hap := (rests_reach hL hS h0 hl he hw hfr hex hk.names ht hr).2
  obtain ⟨k, k1, k2, k3, -⟩ := c50_commit_true_partial hL hS h0 hl he hw hr hc
  have hlead : Leads links (commit S h.w h.o).2.2.fs.dir (entryOf fname) [] k := .file k2 (hk.files k (hap.new k k1))
  unfold sees at k3
  rw [k2] at k3
  simp only [Option.map_some, Option.some.injEq] at k3
  refine ⟨k, k1, hlead, fun b => ⟨?_, fun hb => ⟨[], k, hlead, by rw [hb, k3]⟩⟩⟩
  rintro ⟨ys, j, hj, rfl⟩
  obtain ⟨-, rfl⟩ := hj.det hlead
  exact k3

/-- **C95** (refuted: writing through the link) If what was written differs from the content from before, then after a successful `commit()`
the name and the file it led to have different contents. -/
theorem c95_refuted_through (hL : L.Ok) (hS : ∀ n, 47 ∉ S.suffix n) (h0 : 0 ∉ fname) (hl : fname.length ≤ 4085)
    (he : (entryOf fname).name ≠ []) (hw : Settled old (entryOf fname) w₀) (hk : LinkSettled links (entryOf fname) xs i c w₀)
    (ht : ∀ t, template L fname = .ret t → entryOf t ∉ xs) (hr : Reach L S fname w₀ h) (hc : (commit S h.w h.o).1 = true)
    {k : Nat} (hfd : h.o.fd.bind h.w.fs.fds = some k) (hne : (h.w.fs.ino k).data ≠ c) (hx : x ∈ xs) :
    ReadsNow links (commit S h.w h.o).2.2.fs (entryOf fname) (h.w.fs.ino k).data ∧ ReadsNow links (commit S h.w h.o).2.2.fs x c ∧
      ¬ ReadsNow links (commit S h.w h.o).2.2.fs x (h.w.fs.ino k).data := by
  obtain ⟨k', k1, -, k2⟩ := c95_replaced_partial hL hS h0 hl he hw hk ht hr hc
  rw [hfd] at k1
  injection k1 with k1
  subst k1
  have hr' : Reach L S fname w₀ ⟨(commit S h.w h.o).2.2, (commit S h.w h.o).2.1, h.log ++ ((h.o.fd.bind h.w.fs.fds).map fun i => (h.w.fs.ino i).data).toList⟩ :=
    .step .commit hr rfl
  obtain ⟨b1, b2⟩ := c95_behind_partial hL hS h0 hl he hw hk ht hr' hx _ (List.mem_cons_self ..)
  refine ⟨(k2 _).2 rfl, b1, fun hh => hne (b2 _ ?_)⟩
  obtain ⟨ys, j, p, q⟩ := hh
  exact ⟨_, List.mem_cons_self .., ys, j, p, fun _ => q⟩

end
end

/-! ## A case: "f" is a link to "g" -/

attribute [local instance] plainTree

/-- "f" is the link 0, "g" the file 1 with content "old". -/
def fsLink : FS where
  dir := setFn (setFn (fun _ => none) (entryOf [102]) (some 0)) (entryOf [103]) (some 1)
  past := []
  ino := fun i => if i = 0 then ⟨[103], true, 511⟩ else ⟨[111, 108, 100], true, 420⟩
  inos := 2
  fds := fun _ => none

def theLink : Nat → Option Entry := fun i => if i = 0 then some (entryOf [103]) else none

theorem settledLink : Settled (some [103]) (entryOf [102]) ⟨fsLink, [], 0⟩ where
  only := by
    rintro c ⟨d, hd, hm⟩
    simp only [fsLink, List.mem_singleton] at hd
    subst hd
    rw [show setFn (setFn (fun _ => none) (entryOf [102]) (some 0)) (entryOf [103]) (some 1) (entryOf [102]) = some 0 by decide] at hm
    obtain ⟨x, rfl, hx⟩ := hm
    rw [hx rfl]
    rfl
  used := by
    intro d hd i hi
    simp only [fsLink, List.mem_singleton] at hd
    subst hd
    rw [show setFn (setFn (fun _ => none) (entryOf [102]) (some 0)) (entryOf [103]) (some 1) (entryOf [102]) = some 0 by decide] at hi
    injection hi with hi
    subst hi
    simp [fsLink]
  new := rfl

theorem linkSettled : LinkSettled theLink (entryOf [102]) [entryOf [103]] 1 [111, 108, 100] ⟨fsLink, [], 0⟩ where
  leads := by
    intro d hd
    simp only [fsLink, List.mem_singleton] at hd
    subst hd
    exact .link (j := 0) (by decide) rfl (.file (by decide) rfl)
  used := by decide
  synced := rfl
  data := rfl
  files := by
    intro j hj
    simp only [fsLink] at hj
    unfold theLink
    rw [if_neg (by omega)]
  names := by decide

def linkOpen : World := (mkstemp sysOk ⟨fsLink, [], 0⟩ 3 [46, 47, 46, 102, 46, 88, 88, 88, 88, 88, 88]).2.2
def linkWrite : World := write linkOpen openObj.fd fun _ => [110, 101, 119]

theorem reach_link : Reach glibc sysOk [102] ⟨fsLink, [], 0⟩ ⟨linkWrite, openObj, []⟩ := by
  refine .step (.write fun _ => [110, 101, 119]) (.step (.open 3 (some 416)) .init (h' := ⟨linkOpen, openObj, []⟩) ?_) rfl
  unfold act «open»
  rw [template_noslash glibc_ok (by decide) (by decide) (by decide)]
  rfl

theorem link_template (t : Bytes) (h : template glibc [102] = .ret t) : entryOf t ∉ [entryOf [103]] := by
  rw [template_noslash glibc_ok (by decide) (by decide) (by decide)] at h
  injection h with h
  subst h
  decide

example := c95_read_partial glibc_ok (S := sysOk) (fun n => by simp [sysOk]) (fname := [102]) (by decide) (by decide) (by decide) settledLink
  linkSettled link_template reach_link
example := c95_replaced_partial glibc_ok (S := sysOk) (fun n => by simp [sysOk]) (fname := [102]) (by decide) (by decide) (by decide) settledLink
  linkSettled link_template reach_link (by decide)
/-- "new" is written: "f" has it, "g" does not. -/
example := c95_refuted_through glibc_ok (S := sysOk) (fun n => by simp [sysOk]) (fname := [102]) (by decide) (by decide) (by decide) settledLink
  linkSettled link_template reach_link (by decide) (k := 2) (by decide) (by decide) (List.mem_cons_self ..)

end Bdlib.Af
