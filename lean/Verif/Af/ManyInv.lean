import Verif.Af.Many

/-!
# The invariant of many objects
-/

namespace Bdlib.Af
open Bdlib Bdlib.Str Bdlib.Spec

variable [Tree]

/-- The logged contents for one target. -/
def forEntry (log : List (Entry × Bytes)) (e : Entry) : List Bytes := (log.filter (·.1 = e)).map (·.2)

theorem mem_forEntry {log : List (Entry × Bytes)} {e : Entry} {x : Bytes} : x ∈ forEntry log e ↔ (e, x) ∈ log := by
  unfold forEntry
  simp only [List.mem_map, List.mem_filter, decide_eq_true_eq]
  constructor
  · rintro ⟨⟨a, b⟩, ⟨h1, h2⟩, h3⟩
    dsimp only at h2 h3
    subst h2 h3
    exact h1
  · intro h
    exact ⟨_, ⟨h, rfl⟩, rfl⟩

/-- The user is in `commit()` and it has not failed. -/
def Pc.InCommit : Pc → Prop
  | .fchmod _ | .fsync | .close | .rename => True
  | _ => False

/-- `fsync` was successful. -/
def Pc.Synced : Pc → Prop
  | .close | .rename => True
  | _ => False

/-- The temporary file of an object is file `i`. -/
structure Temp (T : Bytes → Prop) (log : List (Entry × Bytes)) (w : World) (s : Slot) (i : Nat) : Prop where
  name : T s.o.fname
  tmp : w.fs.dir (entryOf s.o.tmpname) = some i
  apart : ∀ f, T f → entryOf s.o.tmpname ≠ entryOf f
  unref : ∀ f, T f → Unref (entryOf f) w.fs i
  lt : i < w.fs.inos
  data : s.pc.InCommit → (w.fs.ino i).data = s.data ∧ (entryOf s.o.fname, s.data) ∈ log
  synced : s.pc.Synced → (w.fs.ino i).synced = true
  fd : s.pc.UsesFd → s.o.fd.bind w.fs.fds = some i

structure MInv (T : Bytes → Prop) (old : Entry → Option Bytes) (m : Many) (ι : Nat → Nat) : Prop where
  good : ∀ f, T f → GoodW (old (entryOf f)) (forEntry m.log (entryOf f)) (entryOf f) m.w
  temp : ∀ k, (m.slot k).Live → Temp T m.log m.w (m.slot k) (ι k)
  busy : ∀ k, (m.slot k).pc ≠ .idle → (m.slot k).o.fd ≠ none
  used : ∀ k, (m.slot k).o.fd ≠ none → (m.slot k).pc.UsesFd → (m.slot k).o.fd.bind m.w.fs.fds ≠ none
  tmps : ∀ j k, j ≠ k → (m.slot j).Live → (m.slot k).Live → entryOf (m.slot j).o.tmpname ≠ entryOf (m.slot k).o.tmpname
  inos : ∀ j k, j ≠ k → (m.slot j).Live → (m.slot k).Live → ι j ≠ ι k
  fds : ∀ j k, j ≠ k → (m.slot j).o.fd ≠ none → (m.slot j).pc.UsesFd → (m.slot k).o.fd ≠ none → (m.slot k).pc.UsesFd →
    (m.slot j).o.fd ≠ (m.slot k).o.fd
  /-- The target holds what the last successful `commit()` gave. -/
  last : ∀ f, T f → sees m.w.fs (entryOf f) = ((forEntry m.done (entryOf f)).head?).or (old (entryOf f))

variable {T : Bytes → Prop} {log : List (Entry × Bytes)} {w w' : World} {s : Slot} {i k : Nat}
  {old : Entry → Option Bytes} {m : Many} {ι : Nat → Nat} {S : Sys}

/-- What leaves the temporary file alone. -/
theorem Temp.frame (h : Temp T log w s i) (hd : w'.fs.dir (entryOf s.o.tmpname) = w.fs.dir (entryOf s.o.tmpname))
    (hu : ∀ f, T f → Unref (entryOf f) w'.fs i) (hn : w.fs.inos ≤ w'.fs.inos) (hi : w'.fs.ino i = w.fs.ino i)
    (hf : s.pc.UsesFd → ∀ f, s.o.fd = some f → w'.fs.fds f = w.fs.fds f) : Temp T log w' s i where
  name := h.name
  tmp := by rw [hd]; exact h.tmp
  apart := h.apart
  unref := hu
  lt := Nat.lt_of_lt_of_le h.lt hn
  data := by rw [hi]; exact h.data
  synced := by rw [hi]; exact h.synced
  fd := fun hu => by
    cases hs : s.o.fd with
    | none => have := h.fd hu; rw [hs] at this; cases this
    | some f =>
      have := h.fd hu
      rw [hs] at this
      rw [← this]
      exact hf hu f hs


theorem Temp.mono {log' : List (Entry × Bytes)} (h : Temp T log w s i) (hl : ∀ x ∈ log, x ∈ log') : Temp T log' w s i :=
  ⟨h.name, h.tmp, h.apart, h.unref, h.lt, fun hc => ⟨(h.data hc).1, hl _ (h.data hc).2⟩, h.synced, h.fd⟩

/-- A step of the user of object `k`. -/
theorem MInv.update (h : MInv T old m ι) {s' : Slot} {i' : Nat} {log' done' : List (Entry × Bytes)}
    (hlog : ∀ x ∈ m.log, x ∈ log')
    (hg : ∀ f, T f → GoodW (old (entryOf f)) (forEntry log' (entryOf f)) (entryOf f) w')
    (hj : ∀ j, j ≠ k → (m.slot j).Live → Temp T m.log w' (m.slot j) (ι j))
    (hfd : ∀ j, j ≠ k → (m.slot j).o.fd ≠ none → (m.slot j).pc.UsesFd → (m.slot j).o.fd.bind w'.fs.fds ≠ none)
    (hb : s'.pc ≠ .idle → s'.o.fd ≠ none)
    (hk : s'.Live → Temp T log' w' s' i' ∧ ∀ j, j ≠ k → (m.slot j).Live →
      entryOf (m.slot j).o.tmpname ≠ entryOf s'.o.tmpname ∧ ι j ≠ i')
    (hku : s'.o.fd ≠ none → s'.pc.UsesFd → s'.o.fd.bind w'.fs.fds ≠ none ∧ ∀ j, j ≠ k → (m.slot j).o.fd ≠ none →
      (m.slot j).pc.UsesFd → (m.slot j).o.fd ≠ s'.o.fd)
    (hlast : ∀ f, T f → sees w'.fs (entryOf f) = ((forEntry done' (entryOf f)).head?).or (old (entryOf f))) :
    MInv T old ⟨w', setFn m.slot k s', log', done'⟩ (setFn ι k i') := by
  refine ⟨hg, fun j => ?_, fun j => ?_, fun j => ?_, fun a b hab => ?_, fun a b hab => ?_, fun a b hab => ?_, hlast⟩
  · dsimp only
    by_cases hjk : j = k
    · subst hjk; rw [setFn_same, setFn_same]; exact fun hl => (hk hl).1
    · rw [setFn_ne _ _ hjk, setFn_ne _ _ hjk]; exact fun hl => (hj j hjk hl).mono hlog
  · dsimp only
    by_cases hjk : j = k
    · subst hjk; rw [setFn_same]; exact hb
    · rw [setFn_ne _ _ hjk]; exact h.busy j
  · dsimp only
    by_cases hjk : j = k
    · subst hjk; rw [setFn_same]; exact fun h1 h2 => (hku h1 h2).1
    · rw [setFn_ne _ _ hjk]; exact hfd j hjk
  · dsimp only
    by_cases hak : a = k
    · subst hak
      rw [setFn_same, setFn_ne _ _ (Ne.symm hab)]
      exact fun ha hb => Ne.symm ((hk ha).2 b (Ne.symm hab) hb).1
    · rw [setFn_ne _ _ hak]
      by_cases hbk : b = k
      · subst hbk
        rw [setFn_same]
        exact fun ha hb => ((hk hb).2 a hab ha).1
      · rw [setFn_ne _ _ hbk]
        exact h.tmps _ _ hab
  · dsimp only
    by_cases hak : a = k
    · subst hak
      rw [setFn_same, setFn_same, setFn_ne _ _ (Ne.symm hab), setFn_ne _ _ (Ne.symm hab)]
      exact fun ha hb => Ne.symm ((hk ha).2 b (Ne.symm hab) hb).2
    · rw [setFn_ne _ _ hak, setFn_ne _ _ hak]
      by_cases hbk : b = k
      · subst hbk
        rw [setFn_same, setFn_same]
        exact fun ha hb => ((hk hb).2 a hab ha).2
      · rw [setFn_ne _ _ hbk, setFn_ne _ _ hbk]
        exact h.inos _ _ hab
  · dsimp only
    by_cases hak : a = k
    · subst hak
      rw [setFn_same, setFn_ne _ _ (Ne.symm hab)]
      exact fun h1 h2 h3 h4 => Ne.symm ((hku h1 h2).2 b (Ne.symm hab) h3 h4)
    · rw [setFn_ne _ _ hak]
      by_cases hbk : b = k
      · subst hbk
        rw [setFn_same]
        exact fun h1 h2 h3 h4 => (hku h3 h4).2 a hab h1 h2
      · rw [setFn_ne _ _ hbk]
        exact h.fds _ _ hab

/-- A step that changes no directory, only file `ι k` (in a way that shows under no target) and at most the
descriptor of `k`. -/
theorem MInv.quiet (h : MInv T old m ι) {s' : Slot} {log' : List (Entry × Bytes)} (hlog : ∀ x ∈ m.log, x ∈ log')
    (hg : ∀ f, T f → GoodW (old (entryOf f)) (forEntry log' (entryOf f)) (entryOf f) w')
    (hdir : w'.fs.dir = m.w.fs.dir) (hpast : w'.fs.past = m.w.fs.past) (hinos : w'.fs.inos = m.w.fs.inos)
    (hino : ∀ i, ((m.slot k).Live → i ≠ ι k) → w'.fs.ino i = m.w.fs.ino i)
    (hfds : ∀ f, w'.fs.fds f = m.w.fs.fds f ∨ ((m.slot k).o.fd = some f ∧ (m.slot k).pc.UsesFd))
    (hb : s'.pc ≠ .idle → s'.o.fd ≠ none)
    (hlive : s'.Live → (m.slot k).Live) (htmp : s'.o.tmpname = (m.slot k).o.tmpname)
    (hfd : s'.o.fd ≠ none → s'.pc.UsesFd →
      s'.o.fd = (m.slot k).o.fd ∧ (m.slot k).pc.UsesFd ∧ w'.fs.fds = m.w.fs.fds)
    (htemp : s'.Live → Temp T log' w' s' (ι k)) :
    MInv T old { m with w := w', slot := setFn m.slot k s', log := log' } ι := by
  have hother : ∀ j, j ≠ k → (m.slot j).o.fd ≠ none → (m.slot j).pc.UsesFd → ∀ f, (m.slot j).o.fd = some f →
      w'.fs.fds f = m.w.fs.fds f := by
    intro j hj hn hu f hf
    rcases hfds f with hx | ⟨hx, hy⟩
    · exact hx
    · exact absurd (hf.trans hx.symm) (h.fds j k hj hn hu (by rw [hx]; nofun) hy)
  have hι : setFn ι k (ι k) = ι := by
    funext x; unfold setFn; split <;> simp_all
  rw [← hι]
  refine h.update hlog hg (fun j hjk hj => ?_) (fun j hjk hn hu => ?_) hb (fun hl => ⟨htemp hl, fun j hjk hj => ⟨?_, h.inos _ _ hjk hj (hlive hl)⟩⟩)
    (fun hn hu => ?_) fun f hf => ?_
  · have ht := h.temp j hj
    exact ht.frame (by rw [hdir]) (fun f hf => by unfold Unref; rw [hdir, hpast]; exact ht.unref f hf) (Nat.le_of_eq hinos.symm)
      (hino _ fun hk => h.inos j k hjk hj hk) fun hu f hf => hother j hjk hj.1 hu f hf
  · have := h.used j hn hu
    cases hs : (m.slot j).o.fd with
    | none => exact absurd hs hn
    | some f =>
      rw [hs] at this
      show w'.fs.fds f ≠ none
      rw [hother j hjk hn hu f hs]
      exact this
  · rw [htmp]; exact h.tmps _ _ hjk hj (hlive hl)
  · obtain ⟨e1, e2, e3⟩ := hfd hn hu
    rw [e3, e1]
    rw [e1] at hn
    exact ⟨h.used k hn e2, fun j hjk h1 h2 => h.fds j k hjk h1 h2 hn e2⟩
  · rw [← h.last f hf]
    unfold sees
    rw [hdir]
    cases hd : m.w.fs.dir (entryOf f) with
    | none => rfl
    | some i =>
      simp only [Option.map_some, Option.some.injEq]
      rw [hino i fun hl hik => (h.temp k hl).unref f hf _ (List.mem_cons_self ..) (hik ▸ hd)]

theorem fchmod_inos (S : Sys) (w : World) (fd : Option Nat) (md : Nat) : (fchmod S w fd md).2.fs.inos = w.fs.inos :=
  (fchmod_frame S w fd md).2.2.2.1

theorem fchmod_synced (S : Sys) (w : World) (fd : Option Nat) (md j : Nat) :
    ((fchmod S w fd md).2.fs.ino j).synced = (w.fs.ino j).synced := by
  unfold fchmod
  dsimp only
  split
  · rfl
  · split
    · simp only [World.push, setFn]; split <;> simp_all
    · rfl

theorem close_fds (S : Sys) (w : World) (fd : Option Nat) (f : Nat) :
    (close S w fd).2.fs.fds f = w.fs.fds f ∨ fd = some f := by
  unfold close
  dsimp only
  split
  · exact .inl rfl
  · rename_i g
    by_cases hf : f = g
    · exact .inr (by rw [hf])
    · exact .inl (by simp only [World.push]; rw [setFn_ne _ _ hf])

/-- `fchmod`. -/
theorem MInv.fchmod (h : MInv T old m ι) {md : Nat} (hp : (m.slot k).pc = .fchmod md) : MInv T old (m.tick S k) ι := by
  have hfd := h.busy k (by rw [hp]; nofun)
  have hl : (m.slot k).Live := ⟨hfd, by rw [hp]; nofun⟩
  have ht := h.temp k hl
  have hi := ht.fd (by rw [hp]; trivial)
  obtain ⟨f1, f2, f3, f4, f5, f6⟩ := fchmod_frame S m.w (m.slot k).o.fd md
  have hpc : ∀ r : Bool, (if r = false then Pc.cleanup else Pc.fsync) ≠ .idle ∧ (if r = false then Pc.cleanup else Pc.fsync) ≠ .shut ∧
      ¬(if r = false then Pc.cleanup else Pc.fsync).Synced := by intro r; cases r <;> simp [Pc.Synced]
  have hm : m.tick S k = ⟨(Af.fchmod S m.w (m.slot k).o.fd md).2,
      setFn m.slot k { m.slot k with pc := if (Af.fchmod S m.w (m.slot k).o.fd md).1 = false then .cleanup else .fsync }, m.log, m.done⟩ := by
    unfold Many.tick Af.tick
    simp only [hp]
  rw [hm]
  refine h.quiet (fun x hx => hx) (fun f hf => (h.good f hf).fchmod _ _) f1 f2 f4 (fun i hx => f6 i ?_) (fun f => .inl (by rw [f3]))
    (fun _ => hfd) (fun _ => hl) rfl (fun _ _ => ⟨rfl, by rw [hp]; trivial, f3⟩) fun _ => ?_
  · rw [hi]; intro he; injection he with he; exact hx hl he.symm
  · refine ⟨ht.name, by rw [f1]; exact ht.tmp, ht.apart, fun f hf => by unfold Unref; rw [f1, f2]; exact ht.unref f hf,
      by rw [f4]; exact ht.lt, fun _ => by rw [f5]; exact ht.data (by rw [hp]; trivial), fun hs => absurd hs (hpc _).2.2, fun _ => by rw [f3]; exact hi⟩

/-- `fsync`. -/
theorem MInv.fsync (h : MInv T old m ι) (hp : (m.slot k).pc = .fsync) : MInv T old (m.tick S k) ι := by
  have hfd := h.busy k (by rw [hp]; nofun)
  have hl : (m.slot k).Live := ⟨hfd, by rw [hp]; nofun⟩
  have ht := h.temp k hl
  have hi := ht.fd (by rw [hp]; trivial)
  obtain ⟨f1, f2, f3, f4, f5, f6, f7⟩ := fsync_frame S m.w (m.slot k).o.fd
  have hm : m.tick S k = ⟨(Af.fsync S m.w (m.slot k).o.fd).2,
      setFn m.slot k { m.slot k with pc := if (Af.fsync S m.w (m.slot k).o.fd).1 = false then .cleanup else .close }, m.log, m.done⟩ := by
    unfold Many.tick Af.tick
    simp only [hp]
  rw [hm]
  refine h.quiet (fun x hx => hx) (fun f hf => (h.good f hf).fsync _) f1 f2 f4 (fun i hx => f7 i ?_) (fun f => .inl (by rw [f3]))
    (fun _ => hfd) (fun _ => hl) rfl (fun _ _ => ⟨rfl, by rw [hp]; trivial, f3⟩) fun _ => ?_
  · rw [hi]; intro he; injection he with he; exact hx hl he.symm
  · refine ⟨ht.name, by rw [f1]; exact ht.tmp, ht.apart, fun f hf => by unfold Unref; rw [f1, f2]; exact ht.unref f hf,
      by rw [f4]; exact ht.lt, fun _ => by rw [f5]; exact ht.data (by rw [hp]; trivial), fun hs => ?_, fun _ => by rw [f3]; exact hi⟩
    refine fsync_ok hi ?_
    dsimp only at hs
    split at hs
    · cases hs
    · rename_i hr; simpa using hr

/-- `close` in `commit()`. -/
theorem MInv.close (h : MInv T old m ι) (hp : (m.slot k).pc = .close) : MInv T old (m.tick S k) ι := by
  have hfd := h.busy k (by rw [hp]; nofun)
  have hl : (m.slot k).Live := ⟨hfd, by rw [hp]; nofun⟩
  have ht := h.temp k hl
  obtain ⟨f1, f2, f3, f4⟩ := close_frame S m.w (m.slot k).o.fd
  have hm : m.tick S k = ⟨(Af.close S m.w (m.slot k).o.fd).2,
      setFn m.slot k { m.slot k with pc := if (Af.close S m.w (m.slot k).o.fd).1 = false then .cleanup else .rename }, m.log, m.done⟩ := by
    unfold Many.tick Af.tick
    simp only [hp]
  have hpc : ∀ r : Bool, ¬(if r = false then Pc.cleanup else Pc.rename).UsesFd := by intro r; cases r <;> simp [Pc.UsesFd]
  rw [hm]
  refine h.quiet (fun x hx => hx) (fun f hf => (h.good f hf).close _) f1 f2 f4 (fun i hx => by rw [f3])
    (fun f => (close_fds S m.w (m.slot k).o.fd f).imp id fun hx => ⟨hx, by rw [hp]; trivial⟩)
    (fun _ => hfd) (fun _ => hl) rfl (fun _ hu => absurd hu (hpc _)) fun _ => ?_
  exact ⟨ht.name, by rw [f1]; exact ht.tmp, ht.apart, fun f hf => by unfold Unref; rw [f1, f2]; exact ht.unref f hf,
      by rw [f4]; exact ht.lt, fun _ => by rw [f3]; exact ht.data (by rw [hp]; trivial),
      fun _ => by rw [f3]; exact ht.synced (by rw [hp]; trivial), fun hu => absurd hu (hpc _)⟩

/-- `close` in `abort()`. -/
theorem MInv.shut (h : MInv T old m ι) (hp : (m.slot k).pc = .shut) : MInv T old (m.tick S k) ι := by
  obtain ⟨f1, f2, f3, f4⟩ := close_frame S m.w (m.slot k).o.fd
  have hm : m.tick S k = ⟨(Af.close S m.w (m.slot k).o.fd).2,
      setFn m.slot k { m.slot k with o := { (m.slot k).o with fd := none }, pc := .idle, ret := some true }, m.log, m.done⟩ := by
    unfold Many.tick Af.tick
    simp only [hp]
  rw [hm]
  exact h.quiet (fun x hx => hx) (fun f hf => (h.good f hf).close _) f1 f2 f4 (fun i hx => by rw [f3])
    (fun f => (close_fds S m.w (m.slot k).o.fd f).imp id fun hx => ⟨hx, by rw [hp]; trivial⟩)
    (fun hx => absurd rfl hx) (fun hx => absurd rfl hx.1) rfl (fun hx => absurd rfl hx) fun hx => absurd rfl hx.1

/-- The directory after `unlink`. -/
theorem unlink_dir (S : Sys) (w : World) (a : Bytes) :
    ((unlink S w a).2.fs.dir = w.fs.dir ∧ (unlink S w a).2.fs.past = w.fs.past) ∨
      ((unlink S w a).2.fs.dir = setFn w.fs.dir (entryOf a) none ∧ (unlink S w a).2.fs.past = w.fs.dir :: w.fs.past) := by
  unfold unlink
  dsimp only
  split
  · exact .inl ⟨rfl, rfl⟩
  · split
    · exact .inr ⟨rfl, rfl⟩
    · exact .inl ⟨rfl, rfl⟩

theorem unlink_unref {e : Entry} {a : Bytes} (h : Unref e w.fs i) : Unref e (unlink S w a).2.fs i := by
  unfold Unref
  rcases unlink_dir S w a with ⟨h1, h2⟩ | ⟨h1, h2⟩
  · rw [h1, h2]; exact h
  · rw [h1, h2]
    intro d hd
    rcases List.mem_cons.1 hd with rfl | hd
    · by_cases he : e = entryOf a
      · rw [he, setFn_same]; nofun
      · rw [setFn_ne _ _ he]; exact h _ (List.mem_cons_self ..)
    · exact h d hd

/-- A step of `k` that removes its temporary file. -/
theorem MInv.unlinked (h : MInv T old m ι) {s' : Slot} (hl : (m.slot k).Live)
    (hs : ¬s'.Live) (hb : s'.pc ≠ .idle → s'.o.fd ≠ none)
    (hfd : s'.o.fd ≠ none → s'.pc.UsesFd → s'.o.fd = (m.slot k).o.fd ∧ (m.slot k).pc.UsesFd) :
    MInv T old ⟨(unlink S m.w (m.slot k).o.tmpname).2, setFn m.slot k s', m.log, m.done⟩ (setFn ι k (ι k)) := by
  have ht := h.temp k hl
  obtain ⟨u1, u2, u3, u4⟩ := unlink_frame S m.w (m.slot k).o.tmpname
  refine h.update (fun x hx => hx) (fun f hf => (h.good f hf).unlink (ht.apart f hf)) (fun j hjk hj => ?_) (fun j hjk hn hu => ?_) hb
    (fun hx => absurd hx hs) (fun hn hu => ?_) fun f hf => ?_
  · have htj := h.temp j hj
    exact htj.frame (u4 _ (h.tmps j k hjk hj hl)) (fun f hf => unlink_unref (htj.unref f hf)) (Nat.le_of_eq u2.symm) (by rw [u1])
      fun _ _ _ => by rw [u3]
  · rw [u3]; exact h.used j hn hu
  · obtain ⟨e1, e2⟩ := hfd hn hu
    rw [e1] at hn ⊢
    rw [u3]
    exact ⟨h.used k hn e2, fun j hjk h1 h2 => h.fds j k hjk h1 h2 hn e2⟩
  · rw [← h.last f hf]
    unfold sees
    rw [u1, u4 _ (Ne.symm (ht.apart f hf))]

theorem setFn_self (ι : Nat → Nat) (k : Nat) : setFn ι k (ι k) = ι := by
  funext x; unfold setFn; split <;> simp_all

/-- `unlink` after a failure in `commit()`. -/
theorem MInv.cleanup (h : MInv T old m ι) (hp : (m.slot k).pc = .cleanup) : MInv T old (m.tick S k) ι := by
  have hl : (m.slot k).Live := ⟨h.busy k (by rw [hp]; nofun), by rw [hp]; nofun⟩
  have hm : m.tick S k = ⟨(unlink S m.w (m.slot k).o.tmpname).2, setFn m.slot k
      { m.slot k with o := { (m.slot k).o with fd := none }, pc := .idle, ret := some false }, m.log, m.done⟩ := by
    unfold Many.tick Af.tick
    simp only [hp]
  rw [hm, ← setFn_self ι k]
  exact h.unlinked hl (fun hx => hx.1 rfl) (fun hx => absurd rfl hx) (fun hx => absurd rfl hx)

/-- `unlink` in `abort()`. -/
theorem MInv.drop (h : MInv T old m ι) (hp : (m.slot k).pc = .drop) : MInv T old (m.tick S k) ι := by
  have hfd := h.busy k (by rw [hp]; nofun)
  have hl : (m.slot k).Live := ⟨hfd, by rw [hp]; nofun⟩
  have hm : m.tick S k = ⟨(unlink S m.w (m.slot k).o.tmpname).2, setFn m.slot k
      { m.slot k with pc := .shut }, m.log, m.done⟩ := by
    unfold Many.tick Af.tick
    simp only [hp]
  rw [hm, ← setFn_self ι k]
  exact h.unlinked hl (fun hx => hx.2 rfl) (fun _ => hfd) (fun _ _ => ⟨rfl, by rw [hp]; trivial⟩)

/-- What `rename` does: nothing, or the target is the file from then on. -/
theorem rename_cases (S : Sys) (w : World) (a b : Bytes) :
    ((rename S w a b).1 = false ∧ (rename S w a b).2.fs = w.fs ∧ (rename S w a b).2.trace = w.trace) ∨
      ∃ i, w.fs.dir (entryOf a) = some i ∧ (rename S w a b).1 = true ∧ (rename S w a b).2 =
        ({ w with calls := w.calls + 1 } : World).push { w.fs with
          dir := setFn (setFn w.fs.dir (entryOf b) (some i)) (entryOf a) none, past := w.fs.dir :: w.fs.past } := by
  unfold rename
  dsimp only
  split
  · exact .inl ⟨rfl, rfl, rfl⟩
  · rename_i i hi
    split
    · exact .inr ⟨i, hi, rfl, rfl⟩
    · exact .inl ⟨rfl, rfl, rfl⟩

/-- `rename`. -/
theorem MInv.rename (h : MInv T old m ι) (hp : (m.slot k).pc = .rename) : MInv T old (m.tick S k) ι := by
  have hfd := h.busy k (by rw [hp]; nofun)
  have hl : (m.slot k).Live := ⟨hfd, by rw [hp]; nofun⟩
  have ht := h.temp k hl
  have hdat := ht.data (by rw [hp]; trivial)
  have hsyn := ht.synced (by rw [hp]; trivial)
  rcases rename_cases S m.w (m.slot k).o.tmpname (m.slot k).o.fname with ⟨r1, r2, r3⟩ | ⟨i, ri, r1, r2⟩
  · have hm : m.tick S k = ⟨(Af.rename S m.w (m.slot k).o.tmpname (m.slot k).o.fname).2, setFn m.slot k
        { m.slot k with pc := .cleanup }, m.log, m.done⟩ := by
      unfold Many.tick Af.tick
      simp only [hp, r1]
      simp
    rw [hm]
    refine h.quiet (fun x hx => hx) (fun f hf => ?_) (by rw [r2]) (by rw [r2]) (by rw [r2]) (fun _ _ => by rw [r2])
      (fun _ => .inl (by rw [r2])) (fun _ => hfd) (fun _ => hl) rfl (fun _ hu => nomatch hu) fun _ => ?_
    · have := h.good f hf
      unfold GoodW
      rw [r2, r3]
      exact this
    · exact ⟨ht.name, by rw [r2]; exact ht.tmp, ht.apart, by rw [r2]; exact ht.unref, by rw [r2]; exact ht.lt, nofun, nofun, nofun⟩
  · rw [ht.tmp] at ri
    injection ri with ri
    subst ri
    have hm : m.tick S k = ⟨(Af.rename S m.w (m.slot k).o.tmpname (m.slot k).o.fname).2, setFn m.slot k
        { m.slot k with o := { (m.slot k).o with fd := none }, pc := .idle, ret := some true }, m.log,
        (entryOf (m.slot k).o.fname, (m.slot k).data) :: m.done⟩ := by
      unfold Many.tick Af.tick
      simp only [hp, r1]
      simp
    rw [hm, r2]
    have hne : ∀ f, T f → entryOf f ≠ entryOf (m.slot k).o.tmpname := fun f hf => Ne.symm (ht.apart f hf)
    have hcast : ∀ {M : Many}, MInv T old M (setFn ι k (ι k)) → MInv T old M ι := fun hx => by rwa [setFn_self] at hx
    refine hcast ?_
    refine h.update (fun x hx => hx) (fun f hf => ?_) (fun j hjk hj => ?_) (fun j hjk hn hu => h.used j hn hu)
      (fun hx => absurd rfl hx) (fun hx => absurd rfl hx.1) (fun hx => absurd rfl hx) fun f hf => ?_
    · refine (h.good f hf).push ?_
      intro d hd
      rcases List.mem_cons.1 hd with rfl | hd
      · dsimp only
        rw [setFn_ne _ _ (hne f hf)]
        by_cases hb : entryOf f = entryOf (m.slot k).o.fname
        · rw [hb, setFn_same]
          refine ⟨nofun, fun j hj => ?_⟩
          injection hj with hj
          subst hj
          exact ⟨ht.lt, hsyn, .inr (mem_forEntry.2 (by rw [hdat.1]; exact hdat.2))⟩
        · rw [setFn_ne _ _ hb]
          exact (h.good f hf).1 _ (List.mem_cons_self ..)
      · exact (h.good f hf).1 d hd
    · have htj := h.temp j hj
      refine htj.frame ?_ (fun f hf => ?_) (Nat.le_refl _) rfl fun _ _ _ => rfl
      · simp only [World.push]
        rw [setFn_ne _ _ (h.tmps j k hjk hj hl), setFn_ne _ _ (htj.apart _ ht.name)]
      · intro d hd
        simp only [World.push] at hd
        rcases List.mem_cons.1 hd with rfl | hd
        · rw [setFn_ne _ _ (hne f hf)]
          by_cases hb : entryOf f = entryOf (m.slot k).o.fname
          · rw [hb, setFn_same]
            intro he; injection he with he
            exact h.inos j k hjk hj hl he.symm
          · rw [setFn_ne _ _ hb]
            exact htj.unref f hf _ (List.mem_cons_self ..)
        · exact htj.unref f hf d hd
    · unfold sees
      simp only [World.push]
      rw [setFn_ne _ _ (hne f hf)]
      by_cases hb : entryOf f = entryOf (m.slot k).o.fname
      · rw [hb, setFn_same]
        simp [forEntry, hdat.1]
      · rw [setFn_ne _ _ hb]
        have := h.last f hf
        unfold sees at this
        rw [this]
        simp [forEntry, Ne.symm hb]

theorem MInv.tick (h : MInv T old m ι) (k : Nat) : MInv T old (m.tick S k) ι := by
  cases hp : (m.slot k).pc with
  | idle =>
    have hm : m.tick S k = m := by
      unfold Many.tick Af.tick
      simp only [hp]
      have : setFn m.slot k (m.slot k) = m.slot := by
        funext x; unfold setFn; split <;> simp_all
      rw [this]
    rw [hm]; exact h
  | fchmod md => exact h.fchmod hp
  | fsync => exact h.fsync hp
  | close => exact h.close hp
  | rename => exact h.rename hp
  | cleanup => exact h.cleanup hp
  | drop => exact h.drop hp
  | shut => exact h.shut hp

/-- `write`. -/
theorem MInv.write (h : MInv T old m ι) (hp : (m.slot k).pc = .idle) (g : Bytes → Bytes) :
    MInv T old { m with w := Af.write m.w (m.slot k).o.fd g } ι := by
  by_cases hfd : (m.slot k).o.fd = none
  · have : Af.write m.w (m.slot k).o.fd g = { m.w with calls := m.w.calls + 1 } := by
      unfold Af.write; rw [hfd]; rfl
    rw [this]
    exact ⟨h.good, fun k hl => (h.temp k hl).frame rfl (h.temp k hl).unref (Nat.le_refl _) rfl fun _ _ _ => rfl, h.busy, h.used, h.tmps, h.inos, h.fds, h.last⟩
  · have hl : (m.slot k).Live := ⟨hfd, by rw [hp]; nofun⟩
    have ht := h.temp k hl
    have hi := ht.fd (by rw [hp]; trivial)
    have hw : Af.write m.w (m.slot k).o.fd g = ({ m.w with calls := m.w.calls + 1 } : World).push { m.w.fs with
        ino := setFn m.w.fs.ino (ι k) { m.w.fs.ino (ι k) with data := g (m.w.fs.ino (ι k)).data, synced := false } } := by
      unfold Af.write; rw [hi]
    have hs : setFn m.slot k (m.slot k) = m.slot := by
      funext x; unfold setFn; split <;> simp_all
    have := h.quiet (k := k) (s' := m.slot k) (w' := Af.write m.w (m.slot k).o.fd g) (fun x hx => hx)
      (fun f hf => (h.good f hf).write g fun i hx => by
        rw [hi] at hx; injection hx with hx; subst hx; exact ht.unref f hf)
      (by rw [hw]; rfl) (by rw [hw]; rfl) (by rw [hw]; rfl)
      (fun i hx => by rw [hw]; simp only [World.push]; rw [setFn_ne _ _ (hx hl)])
      (fun f => .inl (by rw [hw]; rfl)) (h.busy k) (fun hx => hx) rfl
      (fun _ hu => ⟨rfl, hu, by rw [hw]; rfl⟩)
      (fun _ => by
        rw [hw]
        exact ⟨ht.name, ht.tmp, ht.apart, ht.unref, ht.lt, (fun hx => by rw [hp] at hx; cases hx), (fun hx => by rw [hp] at hx; cases hx), ht.fd⟩)
    rw [hs] at this
    exact this

/-- The call of `commit()`. -/
theorem MInv.commit (h : MInv T old m ι) (hp : (m.slot k).pc = .idle) (hfd : (m.slot k).o.fd ≠ none) :
    MInv T old (m.commit k) ι := by
  have hl : (m.slot k).Live := ⟨hfd, by rw [hp]; nofun⟩
  have ht := h.temp k hl
  have hi := ht.fd (by rw [hp]; trivial)
  have hpc : (commitPc (m.slot k).o).UsesFd ∧ ¬(commitPc (m.slot k).o).Synced := by
    unfold commitPc; split <;> simp [Pc.UsesFd, Pc.Synced]
  refine h.quiet (fun x hx => List.mem_cons_of_mem _ hx) (fun f hf => ?_) rfl rfl rfl (fun _ _ => rfl) (fun _ => .inl rfl)
    (fun _ => hfd) (fun _ => hl) rfl (fun _ _ => ⟨rfl, by rw [hp]; trivial, rfl⟩) fun _ => ?_
  · exact (h.good f hf).mono fun x hx => mem_forEntry.2 (List.mem_cons_of_mem _ (mem_forEntry.1 hx))
  · refine ⟨ht.name, ht.tmp, ht.apart, ht.unref, ht.lt, fun _ => ⟨?_, List.mem_cons_self ..⟩, fun hx => absurd hx hpc.2, fun _ => hi⟩
    simp [held, hi]

/-- The call of `abort()`. -/
theorem MInv.abort (h : MInv T old m ι) (hp : (m.slot k).pc = .idle) : MInv T old (m.abort k) ι := by
  unfold Many.abort
  dsimp only
  by_cases hfd : (m.slot k).o.fd = none
  · rw [if_pos hfd]
    exact h.quiet (log' := m.log) (fun x hx => hx) h.good rfl rfl rfl (fun _ _ => rfl) (fun _ => .inl rfl)
      (fun hx => absurd hp hx) (fun hx => absurd hfd hx.1) rfl (fun hx => absurd hfd hx) fun hx => absurd hfd hx.1
  · rw [if_neg hfd]
    have hl : (m.slot k).Live := ⟨hfd, by rw [hp]; nofun⟩
    have ht := h.temp k hl
    exact h.quiet (log' := m.log) (fun x hx => hx) h.good rfl rfl rfl (fun _ _ => rfl) (fun _ => .inl rfl)
      (fun _ => hfd) (fun _ => hl) rfl (fun _ _ => ⟨rfl, by rw [hp]; trivial, rfl⟩) fun _ =>
        ⟨ht.name, ht.tmp, ht.apart, ht.unref, ht.lt, nofun, nofun, fun _ => ht.fd (by rw [hp]; trivial)⟩

/-- Other programs. -/
theorem MInv.other (h : MInv T old m ι) {fs : FS} (he : Elsewhere T m fs) : MInv T old { m with w := m.w.push fs } ι := by
  have hun : ∀ f, T f → ∀ i, Unref (entryOf f) m.w.fs i → Unref (entryOf f) fs i := by
    intro f hf i hu d hd
    rcases List.mem_cons.1 hd with rfl | hd
    · rw [he.target f hf]; exact hu _ (List.mem_cons_self ..)
    · exact hu d (he.past d hd)
  refine ⟨fun f hf => (h.good f hf).push (n := m.w.calls) ?_, fun k hl => ?_, h.busy, fun k hn hu => ?_, h.tmps, h.inos, h.fds, fun f hf => ?_⟩
  · have key : ∀ d ∈ m.w.fs.dir :: m.w.fs.past, (d (entryOf f) = none → old (entryOf f) = none) ∧ ∀ i, d (entryOf f) = some i →
        i < fs.inos ∧ (fs.ino i).synced = true ∧ (old (entryOf f) = some (fs.ino i).data ∨ (fs.ino i).data ∈ forEntry m.log (entryOf f)) := by
      intro d hd
      refine ⟨((h.good f hf).1 d hd).1, fun i hi => ?_⟩
      obtain ⟨h1, h2, h3⟩ := ((h.good f hf).1 d hd).2 i hi
      rw [he.targetFile f hf d hd i hi]
      exact ⟨Nat.lt_of_lt_of_le h1 he.inos, h2, h3⟩
    intro d hd
    rcases List.mem_cons.1 hd with rfl | hd
    · rw [he.target f hf]; exact key _ (List.mem_cons_self ..)
    · exact key d (he.past d hd)
  · have ht := h.temp k hl
    exact ht.frame (he.temp k hl) (fun f hf => hun f hf _ (ht.unref f hf)) he.inos (he.tempFile k hl _ ht.tmp)
      fun hu f hf => he.fds k hl.1 hu f hf
  · have := h.used k hn hu
    cases hs : (m.slot k).o.fd with
    | none => exact absurd hs hn
    | some f =>
      dsimp only
      rw [hs] at this
      show fs.fds f ≠ none
      rw [he.fds k hn hu f hs]
      exact this
  · rw [← h.last f hf]
    show sees fs _ = _
    unfold sees
    rw [he.target f hf]
    cases hd : m.w.fs.dir (entryOf f) with
    | none => rfl
    | some i => rw [Option.map_some, Option.map_some, he.targetFile f hf _ (List.mem_cons_self ..) i hd]

/-- `open()`. -/
theorem MInv.open {L : Libc} (hL : L.Ok) (h : MInv T old m ι) {fname : Bytes} (hT : T fname) (h0 : 0 ∉ fname)
    (hl : fname.length ≤ 4085)
    (ha : ∀ t, template L fname = .ret t → ∀ n g, T g → entryOf (filled t (S.suffix n)) ≠ entryOf g)
    {fresh : Nat} {mode : Option Nat} {r : Bool} {o : Obj} {w : World}
    (ho : «open» L S m.w fresh fname mode = .ret (r, o, w)) :
    ∃ ι', MInv T old { m with w, slot := setFn m.slot k { o, ret := some r } } ι' := by
  obtain ⟨t, h1, h2, -, -⟩ := open_cases hL h0 hl (S := S) (w := m.w) (fresh := fresh) (mode := mode)
  rw [h2] at ho
  injection ho with ho
  injection ho with ho1 ho
  injection ho with ho2 ho3
  subst ho2 ho3
  have hne := fun n g hg => ha t h1 n g hg
  refine ⟨setFn ι k m.w.fs.inos, ?_⟩
  by_cases hc : (S.ok .mkstemp m.w.calls ∧ endsX t) ∧ m.w.fs.dir (entryOf (t.take (t.length - 6) ++ S.suffix m.w.calls)) = none ∧ m.w.fs.fds fresh = none
  · have hm : mkstemp S m.w fresh t = (some fresh, t.take (t.length - 6) ++ S.suffix m.w.calls,
        ({ m.w with calls := m.w.calls + 1 } : World).push { m.w.fs with
          dir := setFn m.w.fs.dir (entryOf (t.take (t.length - 6) ++ S.suffix m.w.calls)) (some m.w.fs.inos), past := m.w.fs.dir :: m.w.fs.past,
          ino := setFn m.w.fs.ino m.w.fs.inos ⟨[], false, 384⟩, inos := m.w.fs.inos + 1,
          fds := setFn m.w.fs.fds fresh (some m.w.fs.inos) }) := by
      unfold mkstemp
      dsimp only
      rw [if_pos hc]
    have hfdj : ∀ j, (m.slot j).o.fd ≠ none → (m.slot j).pc.UsesFd → (m.slot j).o.fd ≠ some fresh := by
      intro j hn hu he
      have := h.used j hn hu
      rw [he] at this
      exact this hc.2.2
    have hnew : ∀ f, T f → entryOf f ≠ entryOf (t.take (t.length - 6) ++ S.suffix m.w.calls) := fun f hf => Ne.symm (hne m.w.calls f hf)
    have hlt : ∀ f, T f → ∀ d ∈ m.w.fs.dir :: m.w.fs.past, ∀ i, d (entryOf f) = some i → i < m.w.fs.inos := fun f hf d hd i hi =>
      (((h.good f hf).1 d hd).2 i hi).1
    refine h.update (fun x hx => hx) (fun f hf => (h.good f hf).mkstemp fun n => hne n f hf) (fun j hjk hj => ?_) (fun j hjk hn hu => ?_)
      (fun hx => absurd rfl hx) (fun _ => ⟨?_, fun j hjk hj => ⟨?_, ?_⟩⟩) (fun _ _ => ?_) fun f hf => ?_
    · have htj := h.temp j hj
      rw [hm]
      have hj0 := htj.lt
      refine htj.frame ?_ (fun f hf d hd => ?_) (Nat.le_succ _) ?_ fun hu f hf => ?_
      · simp only [World.push]
        refine setFn_ne _ _ fun he => ?_
        have := htj.tmp
        rw [he, hc.2.1] at this
        cases this
      · simp only [World.push] at hd
        rcases List.mem_cons.1 hd with rfl | hd
        · rw [setFn_ne _ _ (hnew f hf)]; exact htj.unref f hf _ (List.mem_cons_self ..)
        · exact htj.unref f hf d hd
      · simp only [World.push]
        exact setFn_ne _ _ (by omega)
      · simp only [World.push]
        refine setFn_ne _ _ fun he => ?_
        exact hfdj j hj.1 hu (by rw [hf, he])
    · have := h.used j hn hu
      rw [hm]
      cases hs : (m.slot j).o.fd with
      | none => exact absurd hs hn
      | some f =>
        rw [hs] at this
        show setFn m.w.fs.fds fresh (some m.w.fs.inos) f ≠ none
        rw [setFn_ne _ _ fun he => hfdj j hn hu (by rw [hs, he])]
        exact this
    · rw [hm]
      refine ⟨hT, ?_, fun f hf => hne m.w.calls f hf, fun f hf d hd => ?_, Nat.lt_succ_self _, nofun, nofun, fun _ => ?_⟩
      · simp [World.push]
      · simp only [World.push] at hd
        intro he
        rcases List.mem_cons.1 hd with rfl | hd
        · rw [setFn_ne _ _ (hnew f hf)] at he
          exact absurd (hlt f hf _ (List.mem_cons_self ..) _ he) (Nat.lt_irrefl _)
        · exact absurd (hlt f hf d hd _ he) (Nat.lt_irrefl _)
      · simp [World.push]
    · rw [hm]
      intro he
      have := (h.temp j hj).tmp
      rw [he, hc.2.1] at this
      cases this
    · have := (h.temp j hj).lt
      omega
    · rw [hm]
      refine ⟨by simp [World.push], fun j hjk h1 h2 => hfdj j h1 h2⟩
    · rw [← h.last f hf, hm]
      unfold sees
      simp only [World.push]
      rw [setFn_ne _ _ (hnew f hf)]
      cases hd : m.w.fs.dir (entryOf f) with
      | none => rfl
      | some i =>
        have := hlt f hf _ (List.mem_cons_self ..) i hd
        rw [Option.map_some, Option.map_some, setFn_ne _ _ (by omega)]
  · have hm : mkstemp S m.w fresh t = (none, t, { m.w with calls := m.w.calls + 1 }) := by
      unfold mkstemp
      dsimp only
      rw [if_neg hc]
    rw [hm]
    exact h.update (fun x hx => hx) (fun f hf => (h.good f hf).tick)
      (fun j hjk hj => (h.temp j hj).frame rfl (h.temp j hj).unref (Nat.le_refl _) rfl fun _ _ _ => rfl) (fun j hjk hn hu => h.used j hn hu)
      (fun hx => absurd rfl hx) (fun hx => absurd rfl hx.1) (fun hx => absurd rfl hx) h.last

end Bdlib.Af
