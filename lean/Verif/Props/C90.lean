import Verif.Conc.Wipe

/-!
# C90 Threads that destroy Strings which share nothing do not interfere

Proved, for any number of threads and any interleaving of their accesses: what a thread hands back to the
allocator depends on addresses, sizes and the schedule, but not on what the Strings contained
(`c90_wiped_partial`); every byte is overwritten, and no thread is held up by the others (`c90_done_partial`);
one destructor at a time gives exactly what one thread alone gives, without a data race
(`c90_locked_partial`).

Refuted: without a lock there is a data race on the static counter, between any two Strings
(`c90_refuted_race`), so the program has undefined behaviour although the threads share no object and no storage.
-/

namespace Bdlib.Wipe
open Bdlib

/-- Same places and sizes; what is stored there may differ. -/
def Alike (a b : List Job) : Prop := a.map (fun j => (j.addr, j.buf.length)) = b.map (fun j => (j.addr, j.buf.length))

/-! ## What is released does not depend on what was stored -/

/-- How many bytes of the current buffer have been overwritten. -/
def Thr.wiped (x : Thr) : Nat :=
  match x.pc with
  | .idle => 0
  | .put i => i
  | .load i => i + 1
  | .save i _ => i + 1
  | _ => x.cur.buf.length

structure Like (x y : Thr) : Prop where
  pc : x.pc = y.pc
  todo : Alike x.todo y.todo
  addr : x.pc ≠ .idle → x.cur.addr = y.cur.addr
  len : x.pc ≠ .idle → x.cur.buf.length = y.cur.buf.length
  bytes : x.cur.buf.take x.wiped = y.cur.buf.take x.wiped

structure LikeSys (s s' : Sys) : Prop where
  ctr : s.ctr = s'.ctr
  thr : ∀ t, Like (s.thr t) (s'.thr t)
  log : s.log = s'.log

theorem next_wiped (j : Job) (todo : List Job) (i : Nat) (h : i ≤ j.buf.length) : Thr.wiped ⟨next j i, j, todo⟩ = i := by
  unfold Thr.wiped next
  by_cases h1 : i < j.buf.length
  · rw [if_pos h1]
  · rw [if_neg h1]; dsimp only; omega

theorem take_set_succ (l l' : List UInt8) (i : Nat) (v : UInt8) (hl : l.length = l'.length) (h : l.take i = l'.take i) :
    (l.set i v).take (i + 1) = (l'.set i v).take (i + 1) := by
  apply List.ext_getElem?
  intro k
  have hk := congrArg (·[k]?) h
  simp only [List.getElem?_take, List.getElem?_set] at hk ⊢
  by_cases h1 : k < i + 1
  · simp only [h1, if_true]
    by_cases h2 : i = k
    · simp only [h2, if_true, hl]
    · rw [if_neg h2, if_neg h2]
      have : k < i := by omega
      simpa [this] using hk
  · simp only [h1, if_false]

theorem LikeSys.set {s s' : Sys} (h : LikeSys s s') {t : Nat} {x y : Thr} (hx : Like x y) :
    LikeSys (s.set t x) (s'.set t y) := by
  refine ⟨h.ctr, fun u => ?_, h.log⟩
  unfold Sys.set
  dsimp only
  by_cases hu : u = t
  · rw [if_pos hu, if_pos hu]; exact hx
  · rw [if_neg hu, if_neg hu]; exact h.thr u

theorem LikeSys.withCtr {s s' : Sys} (h : LikeSys s s') (v : UInt8) : LikeSys { s with ctr := v } { s' with ctr := v } :=
  ⟨rfl, h.thr, h.log⟩

theorem LikeSys.done {s s' : Sys} (h : LikeSys s s') {t : Nat} (hb : (s.thr t).cur = (s'.thr t).cur) :
    LikeSys (done s t) (done s' t) := by
  have hset : LikeSys (s.set t { s.thr t with pc := .idle }) (s'.set t { s'.thr t with pc := .idle }) :=
    h.set ⟨rfl, (h.thr t).todo, fun h => absurd rfl h, fun h => absurd rfl h, rfl⟩
  refine ⟨hset.ctr, hset.thr, ?_⟩
  unfold Wipe.done
  dsimp only
  rw [h.log, hb]

/-- A thread stays inside its buffer. -/
def Inside (x : Thr) : Prop :=
  match x.pc with
  | .put i => i < x.cur.buf.length
  | .load i => i < x.cur.buf.length
  | .save i _ => i < x.cur.buf.length
  | _ => True

theorem next_inside (j : Job) (todo : List Job) (i : Nat) : Inside ⟨next j i, j, todo⟩ := by
  unfold Inside next
  by_cases h : i < j.buf.length
  · rw [if_pos h]; exact h
  · rw [if_neg h]; trivial

theorem step_other (s : Sys) {t u : Nat} (h : u ≠ t) : (step s t).thr u = s.thr u := by
  unfold step
  dsimp only
  cases hpc : (s.thr t).pc with
  | idle =>
    dsimp only
    cases (s.thr t).todo with
    | nil => rfl
    | cons j rest => simp [Sys.set, h]
  | look => dsimp only; split <;> simp [Sys.set, done, h]
  | _ => simp [Sys.set, done, h]

theorem step_inside (s : Sys) (t : Nat) (h : ∀ u, Inside (s.thr u)) : ∀ u, Inside ((step s t).thr u) := by
  intro u
  by_cases hu : u = t
  · subst hu
    have h1 := h u
    unfold step
    unfold Inside at h1
    dsimp only
    cases hpc : (s.thr u).pc with
    | idle =>
      dsimp only
      cases (s.thr u).todo with
      | nil => unfold Inside; rw [hpc]; trivial
      | cons j rest => simpa [Sys.set] using next_inside j rest 0
    | put i => rw [hpc] at h1; simpa [Sys.set, Inside] using h1
    | load i => rw [hpc] at h1; simpa [Sys.set, Inside] using h1
    | save i v => simpa [Sys.set] using next_inside (s.thr u).cur (s.thr u).todo (i + 1)
    | look => dsimp only; split <;> simp [Sys.set, done, Inside]
    | load2 => simp [Sys.set, Inside]
    | save2 v => simp [Sys.set, done, Inside]
  · rw [step_other s hu]; exact h u

theorem LikeSys.step {s s' : Sys} (h : LikeSys s s') (hin : ∀ u, Inside (s.thr u)) (t : Nat) :
    LikeSys (step s t) (step s' t) := by
  have ht := h.thr t
  have hi := hin t
  unfold Inside at hi
  have hw := ht.bytes
  unfold Thr.wiped at hw
  have hcur (hpc : (s.thr t).pc ≠ .idle) (hb : (s.thr t).cur.buf = (s'.thr t).cur.buf) : (s.thr t).cur = (s'.thr t).cur := by
    have ha := ht.addr hpc
    generalize (s.thr t).cur = a at *
    generalize (s'.thr t).cur = b at *
    cases a; cases b; simp_all
  have hfull (hl : (s.thr t).cur.buf.length = (s'.thr t).cur.buf.length)
      (h : (s.thr t).cur.buf.take (s.thr t).cur.buf.length = (s'.thr t).cur.buf.take (s.thr t).cur.buf.length) :
      (s.thr t).cur.buf = (s'.thr t).cur.buf := by
    rw [List.take_length, hl, List.take_length] at h; exact h
  unfold Wipe.step
  dsimp only
  rw [← ht.pc, ← h.ctr]
  cases hpc : (s.thr t).pc with
  | idle =>
    dsimp only
    have htodo := ht.todo
    unfold Alike at htodo
    cases h1 : (s.thr t).todo with
    | nil =>
      cases h2 : (s'.thr t).todo with
      | nil => exact h
      | cons j rest => rw [h1, h2] at htodo; simp at htodo
    | cons j rest =>
      cases h2 : (s'.thr t).todo with
      | nil => rw [h1, h2] at htodo; simp at htodo
      | cons j' rest' =>
        rw [h1, h2] at htodo
        simp only [List.map_cons, List.cons.injEq, Prod.mk.injEq] at htodo
        have hn : next j 0 = next j' 0 := by unfold next; rw [htodo.1.2]
        refine h.set ⟨hn, htodo.2, fun _ => htodo.1.1, fun _ => htodo.1.2, ?_⟩
        rw [next_wiped j rest 0 (Nat.zero_le _)]; rfl
  | put i =>
    rw [hpc] at hw
    have hl := ht.len (by rw [hpc]; nofun)
    exact h.set ⟨rfl, ht.todo, fun _ => ht.addr (by rw [hpc]; nofun), fun _ => by simpa using hl, take_set_succ _ _ i _ hl hw⟩
  | load i =>
    rw [hpc] at hw
    have ha := ht.addr (by rw [hpc]; nofun)
    refine h.set ⟨by dsimp only; rw [ha], ht.todo, fun _ => ha, fun _ => ht.len (by rw [hpc]; nofun), hw⟩
  | save i v =>
    rw [hpc] at hw hi
    have hl := ht.len (by rw [hpc]; nofun)
    have hn : next (s.thr t).cur (i + 1) = next (s'.thr t).cur (i + 1) := by unfold next; rw [hl]
    exact LikeSys.withCtr (h.set (t := t) (x := ⟨next (s.thr t).cur (i + 1), (s.thr t).cur, (s.thr t).todo⟩)
      (y := ⟨next (s'.thr t).cur (i + 1), (s'.thr t).cur, (s'.thr t).todo⟩)
      ⟨hn, ht.todo, fun _ => ht.addr (by rw [hpc]; nofun), fun _ => hl, by rw [next_wiped _ _ (i + 1) hi]; exact hw⟩) v
  | look =>
    rw [hpc] at hw
    have hb := hfull (ht.len (by rw [hpc]; nofun)) hw
    have hc := hcur (by rw [hpc]; nofun) hb
    dsimp only
    rw [← hb]
    split
    · exact h.set ⟨rfl, ht.todo, fun _ => by rw [hc], fun _ => by rw [hc], by rw [hc]⟩
    · exact h.done hc
  | load2 =>
    rw [hpc] at hw
    have hc := hcur (by rw [hpc]; nofun) (hfull (ht.len (by rw [hpc]; nofun)) hw)
    exact h.set ⟨by dsimp only; rw [hc], ht.todo, fun _ => by dsimp only; rw [hc], fun _ => by dsimp only; rw [hc],
      by dsimp only; rw [hc]⟩
  | save2 v =>
    rw [hpc] at hw
    have hc := hcur (by rw [hpc]; nofun) (hfull (ht.len (by rw [hpc]; nofun)) hw)
    exact (h.done hc).withCtr v

theorem run_like : ∀ (sched : List Nat) {s s' : Sys}, LikeSys s s' → (∀ u, Inside (s.thr u)) →
    LikeSys (run s sched) (run s' sched)
  | [], _, _, h, _ => h
  | t :: rest, _, _, h, hin => run_like rest (h.step hin t) (step_inside _ t hin)

/-- **C90** Whatever the Strings contained and however the threads are scheduled, the allocator gets the same
bytes, at the same places, in the same order, from the same threads. -/
theorem c90_wiped_partial (ctr : UInt8) (jobs jobs' : Nat → List Job) (h : ∀ t, Alike (jobs t) (jobs' t)) (sched : List Nat) :
    (run (init ctr jobs) sched).log = (run (init ctr jobs') sched).log := by
  refine (run_like sched (s := init ctr jobs) (s' := init ctr jobs')
    ⟨rfl, fun t => ⟨rfl, h t, fun h => absurd rfl h, fun h => absurd rfl h, rfl⟩, rfl⟩ ?_).log
  intro u; unfold Inside init; trivial

/-! ## Every thread finishes -/

/-- Steps a thread still needs at most. -/
def need : List Job → Nat
  | [] => 0
  | j :: rest => 3 * j.buf.length + 4 + need rest

def Thr.left (x : Thr) : Nat :=
  need x.todo + match x.pc with
  | .idle => 0
  | .put i => 3 * (x.cur.buf.length - i) + 3
  | .load i => 3 * (x.cur.buf.length - i) + 2
  | .save i _ => 3 * (x.cur.buf.length - i) + 1
  | .look => 3
  | .load2 => 2
  | .save2 _ => 1

theorem next_left (j : Job) (todo : List Job) (i : Nat) :
    Thr.left ⟨next j i, j, todo⟩ = need todo + (3 * (j.buf.length - i) + 3) := by
  unfold Thr.left next
  by_cases h : i < j.buf.length
  · rw [if_pos h]
  · rw [if_neg h]; dsimp only; omega

theorem step_left (s : Sys) (t : Nat) (h : ∀ u, Inside (s.thr u)) : ((step s t).thr t).left ≤ (s.thr t).left - 1 := by
  have hi := h t
  unfold Inside at hi
  unfold step
  dsimp only
  cases hpc : (s.thr t).pc with
  | idle =>
    dsimp only
    cases htd : (s.thr t).todo with
    | nil => simp [Thr.left, hpc, htd, need]
    | cons j rest =>
      simp only [Sys.set, if_true]
      rw [next_left]
      simp only [Thr.left, hpc, htd, need]
      omega
  | put i => rw [hpc] at hi; simp only [Sys.set, if_true, Thr.left, hpc, List.length_set]; omega
  | load i => rw [hpc] at hi; simp only [Sys.set, if_true, Thr.left, hpc]; omega
  | save i v =>
    rw [hpc] at hi
    dsimp only at hi
    simp only [Sys.set, if_true]
    rw [next_left]
    simp only [Thr.left, hpc]
    omega
  | look => dsimp only; split <;> simp only [Sys.set, done, if_true, Thr.left, hpc] <;> omega
  | load2 => simp only [Sys.set, if_true, Thr.left, hpc]; omega
  | save2 v => simp only [Sys.set, done, if_true, Thr.left, hpc]; omega

theorem run_left (t : Nat) : ∀ (sched : List Nat) (s : Sys), (∀ u, Inside (s.thr u)) →
    ((run s sched).thr t).left ≤ (s.thr t).left - sched.count t
  | [], s, _ => by simp [run]
  | u :: rest, s, h => by
    have ih := run_left t rest (step s u) (step_inside s u h)
    have hr : run s (u :: rest) = run (step s u) rest := rfl
    rw [hr]
    by_cases hu : u = t
    · subst hu
      have := step_left s u h
      rw [List.count_cons_self]
      omega
    · rw [List.count_cons_of_ne hu]
      rw [step_other s (Ne.symm hu)] at ih
      exact ih

/-- What a thread has handed back, is working on, and will work on: places and sizes. -/
def shape (j : Job) : Nat × Nat := (j.addr, j.buf.length)

def Sys.mine (s : Sys) (t : Nat) : List Job := (s.log.filter fun e => decide (e.1 = t)).map (·.2)

def Sys.plan (s : Sys) (t : Nat) : List (Nat × Nat) :=
  (s.mine t).map shape ++ (if (s.thr t).pc = .idle then [] else [shape (s.thr t).cur]) ++ (s.thr t).todo.map shape

theorem next_ne (j : Job) (i : Nat) : next j i ≠ .idle := by unfold next; split <;> nofun

theorem step_plan (s : Sys) (t u : Nat) : (step s t).plan u = s.plan u := by
  by_cases hu : u = t
  · subst hu
    unfold step
    dsimp only
    cases hpc : (s.thr u).pc with
    | idle =>
      dsimp only
      cases htd : (s.thr u).todo with
      | nil => rfl
      | cons j rest => simp [Sys.plan, Sys.mine, Sys.set, htd, hpc, next_ne]
    | put i => simp [Sys.plan, Sys.mine, Sys.set, hpc, shape]
    | load i => simp [Sys.plan, Sys.mine, Sys.set, hpc]
    | save i v => simp [Sys.plan, Sys.mine, Sys.set, hpc, next_ne]
    | look => dsimp only; split <;> simp [Sys.plan, Sys.mine, Sys.set, done, hpc]
    | load2 => simp [Sys.plan, Sys.mine, Sys.set, hpc]
    | save2 v => simp [Sys.plan, Sys.mine, Sys.set, done, hpc]
  · have hlog : ∀ e ∈ [(t, (s.thr t).cur)], ¬ decide (e.1 = u) = true := by
      intro e he; simp only [List.mem_singleton] at he; subst he; simpa using Ne.symm hu
    have hm : (step s t).mine u = s.mine u := by
      unfold step Sys.mine
      dsimp only
      cases (s.thr t).pc with
      | idle =>
        dsimp only
        cases (s.thr t).todo with
        | nil => rfl
        | cons j rest => rfl
      | look =>
        dsimp only
        split
        · rfl
        · simp only [done]; rw [List.filter_append, List.filter_eq_nil_iff.2 hlog, List.append_nil]
      | save2 v => simp only [done]; rw [List.filter_append, List.filter_eq_nil_iff.2 hlog, List.append_nil]
      | _ => rfl
    unfold Sys.plan
    rw [hm, step_other s hu]

theorem run_plan (u : Nat) : ∀ (sched : List Nat) (s : Sys), (run s sched).plan u = s.plan u
  | [], _ => rfl
  | t :: rest, s => (run_plan u rest (step s t)).trans (step_plan s t u)

/-- **C90** A thread that took enough steps has handed back all its storage, each buffer at its place with its
size, in its order, and nothing else, whatever the other threads do. -/
theorem c90_done_partial (ctr : UInt8) (jobs : Nat → List Job) (sched : List Nat) (t : Nat)
    (h : need (jobs t) ≤ sched.count t) :
    ((run (init ctr jobs) sched).mine t).map shape = (jobs t).map shape := by
  have h1 := run_left t sched (init ctr jobs) (fun u => by unfold Inside init; trivial)
  have h0 : ((init ctr jobs).thr t).left = need (jobs t) := rfl
  have h2 := run_plan t sched (init ctr jobs)
  have h3 : ((run (init ctr jobs) sched).thr t).left = 0 := by omega
  have hp : (init ctr jobs).plan t = (jobs t).map shape := by simp [Sys.plan, Sys.mine, init]
  rw [hp] at h2
  rw [← h2]
  unfold Thr.left at h3
  unfold Sys.plan
  have htodo : ((run (init ctr jobs) sched).thr t).todo = [] := by
    cases hc : ((run (init ctr jobs) sched).thr t).todo with
    | nil => rfl
    | cons j rest => rw [hc] at h3; simp only [need] at h3; omega
  have hpc : ((run (init ctr jobs) sched).thr t).pc = .idle := by
    cases hc : ((run (init ctr jobs) sched).thr t).pc with
    | idle => rfl
    | _ => rw [hc] at h3; dsimp only at h3; omega
  rw [htodo, hpc]
  simp

/-! ## One at a time -/

/-- Executions in which a thread moves only while no other thread is in a destructor, as if each destructor
held a lock. -/
inductive Locked (ctr : UInt8) (jobs : Nat → List Job) : Sys → Prop
  | init : Locked ctr jobs (init ctr jobs)
  | step {s : Sys} {t : Nat} : Locked ctr jobs s → (∀ u, u ≠ t → (s.thr u).pc = .idle) → Locked ctr jobs (step s t)

/-- The counter after these buffers. -/
def ctrAfter (ctr : UInt8) : List Job → UInt8
  | [] => ctr
  | j :: rest => ctrAfter (Cleanse.cleanse j.addr ctr j.buf).2 rest

theorem ctrAfter_append (ctr : UInt8) : ∀ (a b : List Job), ctrAfter ctr (a ++ b) = ctrAfter (ctrAfter ctr a) b
  | [], _ => rfl
  | j :: rest, b => ctrAfter_append (Cleanse.cleanse j.addr ctr j.buf).2 rest b

theorem cleanseAll_append (ctr : UInt8) : ∀ (a b : List Job),
    Cleanse.cleanseAll ctr ((a ++ b).map fun j => (j.addr, j.buf)) =
      Cleanse.cleanseAll ctr (a.map fun j => (j.addr, j.buf)) ++ Cleanse.cleanseAll (ctrAfter ctr a) (b.map fun j => (j.addr, j.buf))
  | [], _ => rfl
  | j :: rest, b => by
    simp only [List.cons_append, List.map_cons, Cleanse.cleanseAll, ctrAfter]
    rw [cleanseAll_append]

/-- One more byte of the loop. -/
theorem loop_append : ∀ (a : List UInt8) (x : UInt8) (p : Nat) (c : UInt8),
    Cleanse.loop p c (a ++ [x]) =
      ((Cleanse.loop p c a).1 ++ [(Cleanse.loop p c a).2.1],
        (Cleanse.loop p c a).2.1 + UInt8.ofNat (17 + (p + a.length + 1) % 16), p + a.length + 1)
  | [], x, p, c => by simp [Cleanse.loop]
  | y :: a, x, p, c => by
    simp only [List.cons_append, Cleanse.loop, loop_append a x (p + 1)]
    simp only [List.length_cons]
    have : p + 1 + a.length + 1 = p + (a.length + 1) + 1 := by omega
    rw [this]

theorem loop_end : ∀ (a : List UInt8) (p : Nat) (c : UInt8), (Cleanse.loop p c a).2.2 = p + a.length
  | [], _, _ => rfl
  | y :: a, p, c => by simp only [Cleanse.loop, List.length_cons]; rw [loop_end a]; omega

/-- The thread in its destructor has done a part of `cleanse()` from counter `c`; the counter is `now`. -/
def Partway (c now : UInt8) (x : Thr) : Prop :=
  let j := x.cur
  let r (n : Nat) := Cleanse.loop j.addr c (j.buf.take n)
  match x.pc with
  | .idle => now = c
  | .put i => i < j.buf.length ∧ j.buf.take i = (r i).1 ∧ now = (r i).2.1
  | .load i => i < j.buf.length ∧ j.buf.take (i + 1) = (r (i + 1)).1 ∧ now = (r i).2.1
  | .save i v => i < j.buf.length ∧ j.buf.take (i + 1) = (r (i + 1)).1 ∧ v = (r (i + 1)).2.1
  | .look => j.buf = (Cleanse.loop j.addr c j.buf).1 ∧ now = (Cleanse.loop j.addr c j.buf).2.1
  | .load2 => j.buf = (Cleanse.loop j.addr c j.buf).1 ∧ now = (Cleanse.loop j.addr c j.buf).2.1 ∧ j.buf.contains now
  | .save2 v => j.buf = (Cleanse.loop j.addr c j.buf).1 ∧ j.buf.contains (Cleanse.loop j.addr c j.buf).2.1 ∧
    v = (Cleanse.loop j.addr c j.buf).2.1 + UInt8.ofNat (63 + (j.addr + j.buf.length))

theorem next_partway (c now : UInt8) (j : Job) (todo : List Job) (i : Nat) (hi : i ≤ j.buf.length)
    (hb : j.buf.take i = (Cleanse.loop j.addr c (j.buf.take i)).1) (hn : now = (Cleanse.loop j.addr c (j.buf.take i)).2.1) :
    Partway c now ⟨next j i, j, todo⟩ := by
  unfold Partway next
  by_cases h : i < j.buf.length
  · rw [if_pos h]; exact ⟨h, hb, hn⟩
  · have : i = j.buf.length := by omega
    subst this
    rw [List.take_length] at hb hn
    rw [if_neg (Nat.lt_irrefl _)]
    exact ⟨hb, hn⟩

/-- Everything released so far is what the wiping loop of one thread alone leaves. -/
structure Serial (c0 : UInt8) (s : Sys) : Prop where
  log : s.log.map (fun e => e.2.buf) = Cleanse.cleanseAll c0 (s.log.map fun e => (e.2.addr, e.2.buf))
  one : ∃ t, (∀ u, u ≠ t → (s.thr u).pc = .idle) ∧ Partway (ctrAfter c0 (s.log.map (·.2))) s.ctr (s.thr t)

theorem serial_done {c0 : UInt8} {s : Sys} (h : s.log.map (fun e => e.2.buf) = Cleanse.cleanseAll c0 (s.log.map fun e => (e.2.addr, e.2.buf)))
    {t : Nat} (hw : (s.thr t).cur.buf = (Cleanse.cleanse (s.thr t).cur.addr (ctrAfter c0 (s.log.map (·.2))) (s.thr t).cur.buf).1) :
    (done s t).log.map (fun e => e.2.buf) = Cleanse.cleanseAll c0 ((done s t).log.map fun e => (e.2.addr, e.2.buf)) := by
  unfold done
  dsimp only
  have hm (l : List (Nat × Job)) : l.map (fun e => (e.2.addr, e.2.buf)) = (l.map (·.2)).map fun j => (j.addr, j.buf) := by
    rw [List.map_map]; rfl
  rw [hm, List.map_append, List.map_append, cleanseAll_append, ← hm, ← h]
  simp only [List.map_cons, List.map_nil, Cleanse.cleanseAll]
  rw [← hw]

theorem Serial.step {c0 : UInt8} {s : Sys} (h : Serial c0 s) {t : Nat} (hl : ∀ u, u ≠ t → (s.thr u).pc = .idle) :
    Serial c0 (step s t) := by
  obtain ⟨hlog, t0, h0, hp⟩ := h
  have hp' : Partway (ctrAfter c0 (s.log.map (·.2))) s.ctr (s.thr t) := by
    by_cases ht : t0 = t
    · rw [← ht]; exact hp
    · have h1 : (s.thr t0).pc = .idle := hl t0 ht
      have h2 : (s.thr t).pc = .idle := h0 t (Ne.symm ht)
      unfold Partway at hp ⊢
      rw [h1] at hp
      rw [h2]
      exact hp
  have hone (s' : Sys) (hs' : ∀ u, u ≠ t → s'.thr u = s.thr u) : ∀ u, u ≠ t → (s'.thr u).pc = .idle :=
    fun u hu => by rw [hs' u hu]; exact hl u hu
  have hall := hone (Wipe.step s t) (fun u hu => step_other s hu)
  generalize hc : ctrAfter c0 (s.log.map (·.2)) = c at hp'
  unfold Partway at hp'
  unfold Wipe.step at hall ⊢
  dsimp only at hp' hall ⊢
  cases hpc : (s.thr t).pc with
  | idle =>
    rw [hpc] at hp' hall
    dsimp only at hp' hall ⊢
    cases htd : (s.thr t).todo with
    | nil =>
      exact ⟨hlog, t, hl, by rw [hc]; unfold Partway; rw [hpc]; exact hp'⟩
    | cons j rest =>
      rw [htd] at hall
      refine ⟨hlog, t, hall, ?_⟩
      simp only [Sys.set, if_true]
      rw [hc]
      exact next_partway c _ j rest 0 (Nat.zero_le _) rfl hp'
  | put i =>
    rw [hpc] at hp' hall
    refine ⟨hlog, t, hall, ?_⟩
    simp only [Sys.set, if_true]
    rw [hc]
    obtain ⟨hi, hb, hn⟩ := hp'
    have e1 : ((s.thr t).cur.buf.set i s.ctr).take (i + 1) = (s.thr t).cur.buf.take i ++ [s.ctr] := by
      rw [List.take_set, List.take_add_one, List.getElem?_eq_getElem hi, List.set_append_right _ _ (by simp [List.length_take]; omega)]
      have : i - ((s.thr t).cur.buf.take i).length = 0 := by simp [List.length_take]; omega
      rw [this]; rfl
    have e2 : ((s.thr t).cur.buf.set i s.ctr).take i = (s.thr t).cur.buf.take i := List.take_set_of_le (Nat.le_refl i)
    unfold Partway
    dsimp only
    refine ⟨by simpa using hi, ?_, ?_⟩
    · rw [e1, loop_append, ← hb, ← hn]
    · rw [e2]; exact hn
  | load i =>
    rw [hpc] at hp' hall
    refine ⟨hlog, t, hall, ?_⟩
    simp only [Sys.set, if_true]
    rw [hc]
    obtain ⟨hi, hb, hn⟩ := hp'
    unfold Partway
    dsimp only
    refine ⟨hi, hb, ?_⟩
    rw [List.take_add_one, List.getElem?_eq_getElem hi]
    simp only [Option.toList_some]
    rw [loop_append, ← hn, List.length_take]
    have : min i (s.thr t).cur.buf.length = i := by omega
    rw [this]
  | save i v =>
    rw [hpc] at hp' hall
    refine ⟨hlog, t, hall, ?_⟩
    simp only [Sys.set, if_true]
    rw [hc]
    exact next_partway c _ _ _ (i + 1) hp'.1 hp'.2.1 hp'.2.2
  | look =>
    rw [hpc] at hp' hall
    dsimp only at hp' hall ⊢
    by_cases hk : (s.thr t).cur.buf.contains s.ctr = true
    · rw [if_pos hk] at hall ⊢
      refine ⟨hlog, t, hall, ?_⟩
      simp only [Sys.set, if_true]
      rw [hc]
      exact ⟨hp'.1, hp'.2, hk⟩
    · rw [if_neg hk] at hall ⊢
      have hcl : Cleanse.cleanse (s.thr t).cur.addr c (s.thr t).cur.buf = ((s.thr t).cur.buf, s.ctr) := by
        unfold Cleanse.cleanse
        dsimp only
        rw [← hp'.1, ← hp'.2, if_neg hk]
      refine ⟨serial_done hlog (by rw [hc, hcl]), t, hall, ?_⟩
      simp only [done, Sys.set, if_true, List.map_append, List.map_cons, List.map_nil]
      rw [ctrAfter_append, hc]
      unfold Partway
      simp only [ctrAfter, hcl]
  | load2 =>
    rw [hpc] at hp' hall
    refine ⟨hlog, t, hall, ?_⟩
    simp only [Sys.set, if_true]
    rw [hc]
    obtain ⟨h1, h2, h3⟩ := hp'
    exact ⟨h1, by rw [← h2]; exact h3, by rw [← h2]⟩
  | save2 v =>
    rw [hpc] at hp' hall
    dsimp only at hp' hall ⊢
    have hcl : Cleanse.cleanse (s.thr t).cur.addr c (s.thr t).cur.buf = ((s.thr t).cur.buf, v) := by
      unfold Cleanse.cleanse
      dsimp only
      rw [← hp'.1, if_pos hp'.2.1, loop_end, hp'.2.2]
    refine ⟨serial_done hlog (by rw [hc, hcl]), t, hall, ?_⟩
    simp only [done, Sys.set, if_true, List.map_append, List.map_cons, List.map_nil]
    rw [ctrAfter_append, hc]
    unfold Partway
    simp only [ctrAfter, hcl]

theorem Locked.serial {c : UInt8} {jobs : Nat → List Job} {s : Sys} (h : Locked c jobs s) : Serial c s := by
  induction h with
  | init => exact ⟨rfl, 0, fun _ _ => rfl, rfl⟩
  | step _ hl ih => exact ih.step hl

/-- **C90** With one destructor at a time there is no data race, and the bytes released are those the sequential
`cleanse()` leaves, one buffer after the other. -/
theorem c90_locked_partial {c : UInt8} {jobs : Nat → List Job} {s : Sys} (h : Locked c jobs s) :
    ¬ Races s ∧ s.log.map (fun e => e.2.buf) = Cleanse.cleanseAll c (s.log.map fun e => (e.2.addr, e.2.buf)) := by
  refine ⟨?_, h.serial.log⟩
  rintro ⟨t, t', hne, h1, h2⟩
  obtain ⟨t0, h0, -⟩ := h.serial.one
  by_cases ht : t = t0
  · have := h0 t' (by rw [← ht]; exact Ne.symm hne)
    rw [this] at h2
    exact h2 rfl
  · rw [h0 t ht] at h1; cases h1

/-- When there is a data race: one thread is about to store the counter, and another is anywhere in `cleanse()`.  Threads that only read it do not race. -/
theorem c90_race_exactly (s : Sys) : Races s ↔ ∃ t t', t ≠ t' ∧ ((∃ i v, (s.thr t).pc = .save i v) ∨ ∃ v, (s.thr t).pc = .save2 v) ∧
    (s.thr t').pc ≠ .idle := by
  refine exists_congr fun t => exists_congr fun t' => and_congr_right fun _ => and_congr ?_ ?_
  · cases (s.thr t).pc <;> simp [Pc.access]
  · cases (s.thr t').pc <;> simp [Pc.access]

/-! ## Without a lock -/

/-- **C90 refuted** Any two threads, each destroying a String of its own: there is a schedule with a data
race. -/
theorem c90_refuted_race (c : UInt8) (jobs : Nat → List Job) {t t' : Nat} (hne : t ≠ t') {j j' : Job} {rest rest' : List Job}
    (hj : jobs t = j :: rest) (hj' : jobs t' = j' :: rest') (hb : j.buf ≠ []) :
    Races (run (init c jobs) [t, t, t, t']) := by
  have hlen : 0 < j.buf.length := List.length_pos_iff.2 hb
  have hn : next j 0 = .put 0 := by unfold next; rw [if_pos hlen]
  have hne' := Ne.symm hne
  have h1 : (step (init c jobs) t) = (init c jobs).set t ⟨.put 0, j, rest⟩ := by
    simp [step, init, hj, hn]
  refine ⟨t, t', hne, ?_, ?_⟩
  · show ((step (step (step (step (init c jobs) t) t) t) t').thr t).pc.access = some true
    rw [step_other _ hne, h1]
    simp [step, Sys.set, Pc.access]
  · show ((step (step (step (step (init c jobs) t) t) t) t').thr t').pc.access ≠ none
    generalize hs : step (step (step (init c jobs) t) t) t = s
    have : s.thr t' = { todo := j' :: rest' } := by
      rw [← hs, step_other _ hne', step_other _ hne', step_other _ hne']
      simp [init, hj']
    unfold step
    rw [this]
    simp only [Sys.set, if_true]
    unfold next
    split <;> nofun

/-! ## Witnesses -/

def jobsA : Nat → List Job
  | 0 => [⟨100, [1, 2, 3]⟩, ⟨200, [9]⟩]
  | 1 => [⟨300, [7, 7]⟩]
  | _ => []

def jobsB : Nat → List Job
  | 0 => [⟨100, [4, 5, 6]⟩, ⟨200, [8]⟩]
  | 1 => [⟨300, [0, 255]⟩]
  | _ => []

/-- A schedule that mixes the two threads. -/
def mixed : List Nat := (List.replicate 21 [0, 1]).flatten

example : ∀ t, Alike (jobsA t) (jobsB t)
  | 0 => rfl
  | 1 => rfl
  | _ + 2 => rfl

example : (run (init 0 jobsA) mixed).log.length = 3 ∧ need (jobsA 0) ≤ mixed.count 0 ∧ need (jobsA 1) ≤ mixed.count 1 ∧
    ((run (init 0 jobsA) mixed).mine 0).map shape = [(100, 3), (200, 1)] := by decide +kernel

/-- The counter loses updates under this schedule: what is released is not what the sequential code leaves. -/
example : (run (init 0 jobsA) mixed).log.map (fun e => e.2.buf) ≠
    Cleanse.cleanseAll 0 ((run (init 0 jobsA) mixed).log.map fun e => (e.2.addr, e.2.buf)) := by decide +kernel

/-- The lock-step execution of one thread after the other is one of `Locked`. -/
theorem locked_solo (c : UInt8) (jobs : Nat → List Job) (t : Nat) : ∀ n, Locked c jobs (run (init c jobs) (List.replicate n t)) ∧
    ∀ u, u ≠ t → ((run (init c jobs) (List.replicate n t)).thr u).pc = .idle
  | 0 => ⟨.init, fun _ _ => rfl⟩
  | n + 1 => by
    obtain ⟨h1, h2⟩ := locked_solo c jobs t n
    have hr : run (init c jobs) (List.replicate (n + 1) t) = step (run (init c jobs) (List.replicate n t)) t := by
      rw [List.replicate_succ']; simp [run]
    rw [hr]
    exact ⟨.step h1 h2, fun u hu => by rw [step_other _ hu]; exact h2 u hu⟩

example : (run (init 0 jobsA) (List.replicate 21 0)).log.map (fun e => e.2.buf) = Cleanse.cleanseAll 0 [(100, [1, 2, 3]), (200, [9])] := by
  decide +kernel

example : Races (run (init 0 jobsA) [0, 0, 0, 1]) :=
  c90_refuted_race 0 jobsA (t := 0) (t' := 1) (by decide) rfl rfl (by decide)

end Bdlib.Wipe
