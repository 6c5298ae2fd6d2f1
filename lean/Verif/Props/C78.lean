import Verif.Af.ManyInv
import Verif.Props.C52

/-!
# C78: many writers

Any number of `AtomicFile` objects, in any number of threads and processes, for the same and for different
targets, interrupted by each other and by other programs between any two system calls (`Af/Many.lean`).

Partial: target names up to 4085 bytes (as C49), none of which looks like the temporary name of another one
(`c78_refuted_names`); objects are not copied (`c78_refuted_copy`) and `commit()` is called only on open ones
(`c78_refuted_commit_closed`).
-/

namespace Bdlib.Af
open Bdlib Bdlib.Str Bdlib.Spec

section
variable [Tree]

/-- The target names are ordinary ones, and none is another one with a dot and the suffix of a temporary file
(and possibly a dot in front). -/
structure Targets (S : Sys) (T : Bytes → Prop) : Prop where
  noNul : ∀ f, T f → 0 ∉ f
  short : ∀ f, T f → f.length ≤ 4085
  apart : ∀ f g, T f → T g → ∀ n p, (p = [] ∨ p = [46]) → (entryOf g).dir = (entryOf f).dir →
    (entryOf g).name ≠ p ++ (entryOf f).name ++ [46] ++ S.suffix n

variable {L : Libc} {S : Sys} {T : Bytes → Prop} {old : Entry → Option Bytes} {w₀ : World} {m : Many} {f : Bytes} {k : Nat}

theorem Targets.temp (hL : L.Ok) (hS : ∀ n, 47 ∉ S.suffix n) (hT : Targets S T) (hf : T f) :
    ∀ t, template L f = .ret t → ∀ n g, T g → entryOf (filled t (S.suffix n)) ≠ entryOf g := by
  intro t ht n g hg he
  obtain ⟨t', h1, h2⟩ := c51_same_directory_partial hL (hT.noNul f hf) (hT.short f hf)
  rw [ht] at h1
  injection h1 with h1
  subst h1
  obtain ⟨h3, -, p, h5, h6⟩ := h2 _ (hS n)
  rw [he] at h3 h6
  exact hT.apart f g hf hg n p h5 h3 h6

theorem Reaches.inv (hL : L.Ok) (hS : ∀ n, 47 ∉ S.suffix n) (hT : Targets S T)
    (hw : ∀ f, T f → Settled (old (entryOf f)) (entryOf f) w₀) (hr : Reaches L S T true w₀ m) : ∃ ι, MInv T old m ι := by
  induction hr with
  | init =>
    refine ⟨fun _ => 0, ⟨fun f hf => (hw f hf).good, fun k hl => absurd rfl hl.1, fun k hx => absurd rfl hx, fun k hx => absurd rfl hx,
      fun j k _ hl => absurd rfl hl.1, fun j k _ hl => absurd rfl hl.1, fun j k _ hx => absurd rfl hx, fun f hf => ?_⟩⟩
    show sees w₀.fs _ = _
    have := (hw f hf).only (sees w₀.fs (entryOf f)) ⟨w₀.fs.dir, List.mem_cons_self .., by
      unfold sees
      cases w₀.fs.dir (entryOf f) with
      | none => rfl
      | some i => exact ⟨_, rfl, fun _ => rfl⟩⟩
    rw [this]
    rfl
  | next _ hn ih =>
    obtain ⟨ι, ih⟩ := ih
    cases hn with
    | «open» k fresh fname mode ht hi h => exact ih.open hL ht (hT.noNul _ ht) (hT.short _ ht) (hT.temp hL hS ht) h
    | write k g hi => exact ⟨ι, ih.write hi g⟩
    | commit k hi hp => exact ⟨ι, ih.commit hi (hp rfl)⟩
    | abort k hi => exact ⟨ι, ih.abort hi⟩
    | tick k => exact ⟨ι, ih.tick k⟩
    | copy j k hp => cases hp
    | other fs h => exact ⟨ι, ih.other h⟩

/-- In every state the file system goes through, each target is, and after a crash will be, the file from before
or one whose complete content was given to a `commit()` for this target. -/
theorem c78_crash_partial (hL : L.Ok) (hS : ∀ n, 47 ∉ S.suffix n) (hT : Targets S T)
    (hw : ∀ f, T f → Settled (old (entryOf f)) (entryOf f) w₀) (hr : Reaches L S T true w₀ m) (hf : T f) :
    ∀ fs ∈ m.w.fs :: m.w.trace,
      (sees fs (entryOf f) = old (entryOf f) ∨ ∃ x, (entryOf f, x) ∈ m.log ∧ sees fs (entryOf f) = some x) ∧
      ∀ c, MaySee fs (entryOf f) c → c = old (entryOf f) ∨ ∃ x, (entryOf f, x) ∈ m.log ∧ c = some x := by
  obtain ⟨ι, hi⟩ := hr.inv hL hS hT hw
  intro fs hfs
  have hg : Good (old (entryOf f)) (forEntry m.log (entryOf f)) (entryOf f) fs := by
    rcases List.mem_cons.1 hfs with rfl | hfs
    · exact (hi.good f hf).1
    · exact (hi.good f hf).2 fs hfs
  have key : ∀ c, MaySee fs (entryOf f) c → c = old (entryOf f) ∨ ∃ x, (entryOf f, x) ∈ m.log ∧ c = some x := by
    rintro c ⟨d, hd, hc⟩
    obtain ⟨g1, g2⟩ := hg d hd
    cases hx : d (entryOf f) with
    | none => rw [hx] at hc; exact .inl (by rw [hc, g1 hx])
    | some i =>
      rw [hx] at hc
      obtain ⟨x, rfl, hs⟩ := hc
      obtain ⟨-, g3, g4⟩ := g2 i hx
      rw [hs g3]
      rcases g4 with g4 | g4
      · exact .inl g4.symm
      · exact .inr ⟨_, mem_forEntry.1 g4, rfl⟩
  refine ⟨key _ ⟨fs.dir, List.mem_cons_self .., ?_⟩, key⟩
  unfold sees
  cases fs.dir (entryOf f) with
  | none => rfl
  | some i => exact ⟨_, rfl, fun _ => rfl⟩

/-- Each target holds exactly what the last `commit()` that returned true for it was given, or its old content if
there is none: what others do with other targets, and calls of `abort()` and failing calls of `commit()`, never
show. -/
theorem c78_last_commit_partial (hL : L.Ok) (hS : ∀ n, 47 ∉ S.suffix n) (hT : Targets S T)
    (hw : ∀ f, T f → Settled (old (entryOf f)) (entryOf f) w₀) (hr : Reaches L S T true w₀ m) (hf : T f) :
    sees m.w.fs (entryOf f) = match m.done.find? (·.1 = entryOf f) with
      | some p => some p.2
      | none => old (entryOf f) := by
  obtain ⟨ι, hi⟩ := hr.inv hL hS hT hw
  rw [hi.last f hf]
  unfold forEntry
  induction m.done with
  | nil => rfl
  | cons a l ih =>
    by_cases ha : a.1 = entryOf f
    · simp [ha]
    · simp only [List.filter_cons, List.find?_cons, ha, decide_false]
      exact ih

/-- The moment `commit()` succeeds: it will return true, and the target now holds what the temporary file held
when it was called, all of it on disk. -/
theorem c78_commit_true_partial (hL : L.Ok) (hS : ∀ n, 47 ∉ S.suffix n) (hT : Targets S T)
    (hw : ∀ f, T f → Settled (old (entryOf f)) (entryOf f) w₀) (hr : Reaches L S T true w₀ m)
    (hp : (m.slot k).pc = .rename) (hi : ((m.tick S k).slot k).pc = .idle) :
    ((m.tick S k).slot k).ret = some true ∧
      sees (m.tick S k).w.fs (entryOf (m.slot k).o.fname) = some (m.slot k).data ∧
      (entryOf (m.slot k).o.fname, (m.slot k).data) ∈ m.log ∧
      (m.tick S k).done = (entryOf (m.slot k).o.fname, (m.slot k).data) :: m.done := by
  obtain ⟨ι, hv⟩ := hr.inv hL hS hT hw
  have hfd := hv.busy k (by rw [hp]; nofun)
  have hk := hv.temp k ⟨hfd, by rw [hp]; nofun⟩
  have hd := hk.data (by rw [hp]; trivial)
  have hdone : (m.tick S k).done = (entryOf (m.slot k).o.fname, (m.slot k).data) :: m.done := by
    have hx : (tick S (m.slot k) m.w).1.pc = .idle := by
      have : (m.tick S k).slot k = (tick S (m.slot k) m.w).1 := by simp [Many.tick]
      rw [← this]; exact hi
    simp only [Many.tick, hp, hx]
  refine ⟨?_, ?_, hd.2, hdone⟩
  · have hx : (m.tick S k).slot k = (tick S (m.slot k) m.w).1 := by simp [Many.tick]
    rw [hx] at hi ⊢
    unfold tick at hi ⊢
    rw [hp] at hi ⊢
    dsimp only at hi ⊢
    split at hi
    · cases hi
    · rename_i hr; rw [if_neg hr]
  have := c78_last_commit_partial hL hS hT hw (hr.next (.tick k)) hk.name
  rw [this, hdone]
  simp

theorem Reaches.noCleanup (hL : L.Ok) (hS : ∀ n, 47 ∉ S.suffix n) (hT : Targets S T)
    (hw : ∀ f, T f → Settled (old (entryOf f)) (entryOf f) w₀) (hok : ∀ c n, S.ok c n = true)
    (hr : Reaches L S T true w₀ m) : ∀ k, (m.slot k).pc ≠ .cleanup := by
  induction hr with
  | init => intro k; nofun
  | @next m m' hr hn ih =>
    intro j
    obtain ⟨ι, hv⟩ := hr.inv hL hS hT hw
    have key : ∀ (k : Nat) (s : Slot), s.pc ≠ .cleanup → (setFn m.slot k s j).pc ≠ .cleanup := by
      intro k s hs
      by_cases hj : j = k
      · rw [hj, setFn_same]; exact hs
      · rw [setFn_ne _ _ hj]; exact ih j
    cases hn with
    | «open» k fresh fname mode ht hi h => exact key _ _ nofun
    | write k g hi => exact ih j
    | commit k hi hp => exact key _ _ (by dsimp only; unfold commitPc; split <;> nofun)
    | abort k hi => exact key _ _ (by split; · dsimp only; rw [hi]; nofun
                                      · nofun)
    | tick k =>
      refine key _ _ ?_
      unfold tick
      cases hp : (m.slot k).pc with
      | idle => dsimp only; rw [hp]; nofun
      | cleanup => exact absurd hp (ih k)
      | drop => nofun
      | shut => nofun
      | fchmod md =>
        have ht := hv.temp k ⟨hv.busy k (by rw [hp]; nofun), by rw [hp]; nofun⟩
        have hi := ht.fd (by rw [hp]; trivial)
        simp [fchmod, hi, hok]
      | fsync =>
        have ht := hv.temp k ⟨hv.busy k (by rw [hp]; nofun), by rw [hp]; nofun⟩
        have hi := ht.fd (by rw [hp]; trivial)
        simp [fsync, hi, hok]
      | close =>
        have hb := hv.busy k (by rw [hp]; nofun)
        cases hx : (m.slot k).o.fd with
        | none => exact absurd hx hb
        | some f => simp [close, hok]
      | rename =>
        have ht := hv.temp k ⟨hv.busy k (by rw [hp]; nofun), by rw [hp]; nofun⟩
        simp [rename, ht.tmp, hok]
    | copy j k hp => cases hp
    | other fs h => exact ih j

/-- If no system call fails, every call of `commit()` and `abort()` of an open object returns true, however the
others interrupt it. -/
theorem c78_succeeds_partial (hL : L.Ok) (hS : ∀ n, 47 ∉ S.suffix n) (hT : Targets S T)
    (hw : ∀ f, T f → Settled (old (entryOf f)) (entryOf f) w₀) (hok : ∀ c n, S.ok c n = true)
    (hr : Reaches L S T true w₀ m) (hb : (m.slot k).pc ≠ .idle) (hi : ((m.tick S k).slot k).pc = .idle) :
    ((m.tick S k).slot k).ret = some true := by
  have hc := hr.noCleanup hL hS hT hw hok
  have hx : (m.tick S k).slot k = (tick S (m.slot k) m.w).1 := by simp [Many.tick]
  rw [hx] at hi ⊢
  unfold tick at hi ⊢
  cases hp : (m.slot k).pc with
  | idle => exact absurd hp hb
  | cleanup => exact absurd hp (hc k)
  | drop => rw [hp] at hi; cases hi
  | shut => rfl
  | fchmod md => rw [hp] at hi; dsimp only at hi; split at hi <;> cases hi
  | fsync => rw [hp] at hi; dsimp only at hi; split at hi <;> cases hi
  | close => rw [hp] at hi; dsimp only at hi; split at hi <;> cases hi
  | rename =>
    rw [hp] at hi
    dsimp only at hi ⊢
    split at hi
    · cases hi
    · rename_i hr; rw [if_neg hr]

end

/-! ## Cases -/

attribute [local instance] plainTree

inductive Cmd
  | «open» (k fresh : Nat) (fname : Bytes)
  | write (k : Nat) (x : Bytes)
  | commit (k : Nat)
  | abort (k : Nat)
  | tick (k : Nat)
  | copy (j k : Nat)

def Pc.isIdle : Pc → Bool
  | .idle => true
  | _ => false

theorem Pc.idle_of {p : Pc} (h : p.isIdle = true) : p = .idle := by cases p <;> first | rfl | cases h

/-- Runs a command with names without slashes. -/
def exec (S : Sys) (names : List Bytes) (polite : Bool) (m : Many) : Cmd → Option Many
  | .open k fresh fname =>
    if fname ∈ names ∧ 47 ∉ fname ∧ 0 ∉ fname ∧ fname.length ≤ 4085 ∧ (m.slot k).pc.isIdle = true then
      let r := mkstemp S m.w fresh ([46, 47, 46] ++ fname ++ [46] ++ xs)
      some { m with w := r.2.2, slot := setFn m.slot k { o := ⟨fname, r.2.1, r.1, none⟩, ret := some r.1.isSome } }
    else none
  | .write k x => if (m.slot k).pc.isIdle = true then some { m with w := write m.w (m.slot k).o.fd (· ++ x) } else none
  | .commit k => if (m.slot k).pc.isIdle = true ∧ (polite = true → (m.slot k).o.fd ≠ none) then some (m.commit k) else none
  | .abort k => if (m.slot k).pc.isIdle = true then some (m.abort k) else none
  | .tick k => some (m.tick S k)
  | .copy j k =>
    if polite = false ∧ (m.slot j).pc.isIdle = true ∧ (m.slot k).pc.isIdle = true then some { m with slot := setFn m.slot k (m.slot j) }
    else none

def execs (S : Sys) (names : List Bytes) (polite : Bool) (m : Many) : List Cmd → Option Many
  | [] => some m
  | c :: r => (exec S names polite m c).bind fun m => execs S names polite m r

theorem exec_next {names : List Bytes} {polite : Bool} {m m' : Many} {c : Cmd} (h : exec S names polite m c = some m') :
    Next glibc S (· ∈ names) polite m m' := by
  cases c with
  | «open» k fresh fname =>
    simp only [exec] at h
    split at h
    · rename_i hc
      injection h with h
      subst h
      refine .open k fresh fname none hc.1 (Pc.idle_of hc.2.2.2.2) ?_
      unfold «open»
      rw [template_noslash glibc_ok hc.2.1 hc.2.2.1 hc.2.2.2.1]
      rfl
    · cases h
  | write k x => simp only [exec] at h; split at h <;> simp_all; subst h; exact .write k _ (Pc.idle_of (by assumption))
  | commit k => simp only [exec] at h; split at h <;> simp_all; subst h; rename_i hc; exact .commit k (Pc.idle_of hc.1) hc.2
  | abort k => simp only [exec] at h; split at h <;> simp_all; subst h; exact .abort k (Pc.idle_of (by assumption))
  | tick k => simp only [exec] at h; injection h with h; subst h; exact .tick k
  | copy j k => simp only [exec] at h; split at h <;> simp_all; subst h; rename_i hc; exact .copy j k rfl (Pc.idle_of hc.2.1) (Pc.idle_of hc.2.2)

theorem execs_reaches {names : List Bytes} {polite : Bool} {m m' : Many} {cs : List Cmd} (hr : Reaches glibc S (· ∈ names) polite w₀ m)
    (h : execs S names polite m cs = some m') : Reaches glibc S (· ∈ names) polite w₀ m' := by
  induction cs generalizing m with
  | nil => injection h with h; subst h; exact hr
  | cons c r ih =>
    simp only [execs] at h
    cases hc : exec S names polite m c with
    | none => rw [hc] at h; cases h
    | some m₁ => rw [hc] at h; exact ih (hr.next (exec_next hc)) h

theorem run_reaches {names : List Bytes} {polite : Bool} {cs : List Cmd} {m' : Many}
    (h : execs S names polite ⟨w₀, fun _ => {}, [], []⟩ cs = some m') : Reaches glibc S (· ∈ names) polite w₀ m' :=
  execs_reaches .init h

/-- What can be observed of a run: the content of a target, what was given to `commit()` for it, and the results. -/
def seen (r : Option Many) (f : Bytes) : Option (Option Bytes × List Bytes × List (Option Bool)) :=
  r.map fun m => (sees m.w.fs (entryOf f), forEntry m.log (entryOf f), [(m.slot 0).ret, (m.slot 1).ret, (m.slot 2).ret])

theorem of_seen {r : Option Many} {x : Option Bytes × List Bytes × List (Option Bool)} (h : seen r f = some x) :
    ∃ m, r = some m ∧ (sees m.w.fs (entryOf f), forEntry m.log (entryOf f), [(m.slot 0).ret, (m.slot 1).ret, (m.slot 2).ret]) = x := by
  cases r with
  | none => cases h
  | some m => exact ⟨m, rfl, by injection h⟩

/-- Three writers, two of them for the same file, all in the middle of `commit()` at the same time; the third one
aborts.  "f" is first "A", then "B". -/
def threeWriters : List Cmd :=
  [.open 0 3 [102], .open 1 4 [102], .open 2 5 [103], .write 0 [65], .write 2 [67], .write 1 [66],
   .commit 0, .commit 1, .tick 1, .tick 0, .tick 0, .tick 1, .tick 0, .tick 1, .abort 2, .tick 2, .tick 2]

example : seen (execs sysTwo [[102], [103]] true ⟨⟨fs₀, [], 0⟩, fun _ => {}, [], []⟩ threeWriters) [102] =
    some (some [66], [[66], [65]], [some true, some true, some true]) := by decide +kernel
example : seen (execs sysTwo [[102], [103]] true ⟨⟨fs₀, [], 0⟩, fun _ => {}, [], []⟩ threeWriters) [103] =
    some (none, [], [some true, some true, some true]) := by decide +kernel

theorem targetsMany : Targets sysTwo (· ∈ [[102], [103]]) where
  noNul := by decide
  short := by decide
  apart := by
    intro f g hf hg n p _ _ he
    have : (entryOf g).name.length = 1 ∧ (entryOf f).name.length = 1 := by
      simp only [List.mem_cons, List.not_mem_nil, or_false] at hf hg
      constructor
      · rcases hg with rfl | rfl <;> decide
      · rcases hf with rfl | rfl <;> decide
    have h2 := congrArg List.length he
    have h3 : (sysTwo.suffix n).length = 6 := by unfold sysTwo; dsimp only; split <;> rfl
    simp only [List.length_append, this.1, this.2, h3] at h2
    simp at h2

def oldMany (e : Entry) : Option Bytes := if e = entryOf [102] then some [111, 108, 100] else none

theorem settledMany : ∀ f, f ∈ [[102], [103]] → Settled (oldMany (entryOf f)) (entryOf f) ⟨fs₀, [], 0⟩ := by
  intro f hf
  simp only [List.mem_cons, List.not_mem_nil, or_false] at hf
  rcases hf with rfl | rfl
  · exact settled₀
  · have hd : fs₀.dir (entryOf [103]) = none := by decide
    refine ⟨?_, ?_, rfl⟩
    · rintro c ⟨d, hd', hm⟩
      have : d = fs₀.dir := by simpa [fs₀] using hd'
      subst this
      rw [hd] at hm
      rw [hm]
      decide
    · intro d hd' i hi
      have : d = fs₀.dir := by simpa [fs₀] using hd'
      subst this
      rw [hd] at hi
      cases hi

example : ∃ m, Reaches glibc sysTwo (· ∈ [[102], [103]]) true ⟨fs₀, [], 0⟩ m ∧ sees m.w.fs (entryOf [102]) = some [66] ∧
    sees m.w.fs (entryOf [102]) = (match m.done.find? (·.1 = entryOf [102]) with
      | some p => some p.2
      | none => oldMany (entryOf [102])) := by
  obtain ⟨m, h1, h2⟩ := of_seen (f := [102]) (r := execs sysTwo [[102], [103]] true ⟨⟨fs₀, [], 0⟩, fun _ => {}, [], []⟩ threeWriters)
    (x := (some [66], [[66], [65]], [some true, some true, some true])) (by decide +kernel)
  have h3 := c78_last_commit_partial (f := [102]) glibc_ok (fun n => by unfold sysTwo; dsimp only; split <;> decide) targetsMany settledMany (run_reaches h1)
    (by decide)
  refine ⟨m, run_reaches h1, congrArg (·.1) h2, h3.trans ?_⟩
  cases m.done.find? (·.1 = entryOf [102]) <;> rfl

/-- Another program makes a file "h" while object 0 is open. -/
example : ∃ m fs, Reaches glibc sysTwo (· ∈ [[102], [103]]) true ⟨fs₀, [], 0⟩ m ∧ (m.slot 0).Live ∧
    sees m.w.fs (entryOf [104]) = none ∧ sees fs (entryOf [104]) = some [72] ∧ Elsewhere (· ∈ [[102], [103]]) m fs := by
  obtain ⟨m, h1, h2⟩ : ∃ m, execs sysTwo [[102], [103]] true ⟨⟨fs₀, [], 0⟩, fun _ => {}, [], []⟩ [.open 0 3 [102]] = some m ∧
      m = (execs sysTwo [[102], [103]] true ⟨⟨fs₀, [], 0⟩, fun _ => {}, [], []⟩ [.open 0 3 [102]]).get (by decide +kernel) := ⟨_, rfl, rfl⟩
  have hi : m.w.fs.inos = 2 := by rw [h2]; decide +kernel
  have ht : entryOf (m.slot 0).o.tmpname = entryOf [46, 102, 46, 97, 98, 99, 100, 101, 102] := by rw [h2]; decide +kernel
  have hd : m.w.fs.dir (entryOf [46, 102, 46, 97, 98, 99, 100, 101, 102]) = some 1 := by rw [h2]; decide +kernel
  have hr := run_reaches h1
  obtain ⟨ι, hv⟩ := hr.inv glibc_ok (fun n => by unfold sysTwo; dsimp only; split <;> decide) targetsMany settledMany
  have hlive : ∀ k, (m.slot k).Live → k = 0 := by
    intro k hl
    cases k with
    | zero => rfl
    | succ k =>
      rw [h2] at hl
      exact absurd rfl hl.1
  have h0 : (m.slot 0).Live := by rw [h2]; exact ⟨by decide +kernel, nofun⟩
  refine ⟨m, ⟨setFn m.w.fs.dir (entryOf [104]) (some 2), m.w.fs.dir :: m.w.fs.past,
    setFn m.w.fs.ino 2 ⟨[72], false, 420⟩, 3, m.w.fs.fds⟩, hr, h0, by rw [h2]; decide +kernel, by simp [sees], ?_⟩
  refine ⟨fun f hf => setFn_ne _ _ ?_, fun k hl => setFn_ne _ _ ?_, fun d hd => hd, by rw [hi]; exact (by decide : 2 ≤ 3), fun f hf d hd i hx => setFn_ne _ _ ?_,
    fun k hl i hx => setFn_ne _ _ ?_, fun _ _ _ _ _ => rfl⟩
  · simp only [List.mem_cons, List.not_mem_nil, or_false] at hf
    rcases hf with rfl | rfl <;> decide
  · rw [hlive k hl, ht]; decide
  · have := (((hv.good f hf).1 d hd).2 i hx).1
    omega
  · rw [hlive k hl, ht, hd] at hx
    injection hx with hx
    omega

/-! ## Refutations -/

/-- One writer's target ".f.abcdef" is the temporary name another one got for "f": the content meant for the first
ends up in "f". -/
theorem c78_refuted_names : ∃ m, Reaches glibc sysTwo (· ∈ [[102], [46, 102, 46, 97, 98, 99, 100, 101, 102]]) true ⟨fs₀, [], 0⟩ m ∧
    sees m.w.fs (entryOf [102]) = some [66] ∧ ∀ x, (entryOf [102], x) ∈ m.log → x = [65] := by
  obtain ⟨m, h1, h2⟩ := of_seen (f := [102])
    (r := execs sysTwo [[102], [46, 102, 46, 97, 98, 99, 100, 101, 102]] true ⟨⟨fs₀, [], 0⟩, fun _ => {}, [], []⟩
      [.open 0 3 [102], .write 0 [65], .open 1 4 [46, 102, 46, 97, 98, 99, 100, 101, 102], .write 1 [66],
       .commit 1, .tick 1, .tick 1, .tick 1, .commit 0, .tick 0, .tick 0, .tick 0])
    (x := (some [66], [[65]], [some true, some true, none])) (by decide +kernel)
  injection h2 with h3 h4
  injection h4 with h4 h5
  refine ⟨m, run_reaches h1, h3, fun x hx => ?_⟩
  have := mem_forEntry.2 hx
  rw [h4] at this
  simpa using this

/-- `commit()` called again after it succeeded: it removes the temporary file of another object, which then puts
the unfinished file of a third one under the target and says true. -/
theorem c78_refuted_commit_closed : ∃ m, Reaches glibc sysOk (· ∈ [[102]]) false ⟨fs₀, [], 0⟩ m ∧
    sees m.w.fs (entryOf [102]) = some [67] ∧ ∀ x, (entryOf [102], x) ∈ m.log → x ≠ [67] := by
  obtain ⟨m, h1, h2⟩ := of_seen (f := [102])
    (r := execs sysOk [[102]] false ⟨⟨fs₀, [], 0⟩, fun _ => {}, [], []⟩
      [.open 0 3 [102], .write 0 [65], .commit 0, .tick 0, .tick 0, .tick 0, .open 1 3 [102], .write 1 [66],
       .commit 0, .tick 0, .tick 0, .open 2 4 [102], .write 2 [67], .commit 1, .tick 1, .tick 1, .tick 1])
    (x := (some [67], [[66], [], [65]], [some false, some true, some true])) (by decide +kernel)
  injection h2 with h3 h4
  injection h4 with h4 h5
  refine ⟨m, run_reaches h1, h3, fun x hx => ?_⟩
  have := mem_forEntry.2 hx
  rw [h4] at this
  rintro rfl
  revert this
  decide

/-- An object is copied and the copy destroyed: the temporary file is gone and the descriptor closed, so `commit()`
of the first one says false, although no system call was made to fail. -/
theorem c78_refuted_copy : ∃ m, Reaches glibc sysOk (· ∈ [[102]]) false ⟨fs₀, [], 0⟩ m ∧
    (m.slot 0).pc ≠ .idle ∧ ((m.tick sysOk 0).slot 0).pc = .idle ∧ ((m.tick sysOk 0).slot 0).ret = some false := by
  obtain ⟨m, h1, h2⟩ : ∃ m, execs sysOk [[102]] false ⟨⟨fs₀, [], 0⟩, fun _ => {}, [], []⟩
      [.open 0 3 [102], .write 0 [65], .copy 0 1, .abort 1, .tick 1, .tick 1, .commit 0, .tick 0] = some m ∧ (m.slot 0).pc = .cleanup :=
    ⟨_, rfl, rfl⟩
  refine ⟨m, run_reaches h1, by rw [h2]; nofun, ?_⟩
  have hx : (m.tick sysOk 0).slot 0 = (tick sysOk (m.slot 0) m.w).1 := by simp [Many.tick]
  rw [hx]
  unfold tick
  rw [h2]
  exact ⟨rfl, rfl⟩

/-- Worse: when another user gets the same descriptor and temporary name, `commit()` of the first object says true
and puts the unfinished file of that user under the target. -/
theorem c78_refuted_copy_other : ∃ m, execs sysOk [[102]] false ⟨⟨fs₀, [], 0⟩, fun _ => {}, [], []⟩
      [.open 0 3 [102], .write 0 [65], .copy 0 1, .abort 1, .tick 1, .tick 1,
       .open 2 3 [102], .write 2 [67], .commit 0, .tick 0, .tick 0, .tick 0] = some m ∧
    Reaches glibc sysOk (· ∈ [[102]]) false ⟨fs₀, [], 0⟩ m ∧
    sees m.w.fs (entryOf [102]) = some [67] ∧ (m.slot 0).ret = some true := by
  obtain ⟨m, h1, h2⟩ := of_seen (f := [102])
    (r := execs sysOk [[102]] false ⟨⟨fs₀, [], 0⟩, fun _ => {}, [], []⟩
      [.open 0 3 [102], .write 0 [65], .copy 0 1, .abort 1, .tick 1, .tick 1,
       .open 2 3 [102], .write 2 [67], .commit 0, .tick 0, .tick 0, .tick 0])
    (x := (some [67], [[67]], [some true, some true, some true])) (by decide +kernel)
  injection h2 with h3 h4
  injection h4 with h4 h5
  injection h5 with h5
  exact ⟨m, h1, run_reaches h1, h3, h5⟩

end Bdlib.Af
