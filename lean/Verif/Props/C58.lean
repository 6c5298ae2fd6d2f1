import Verif.Conc.Step

/-!
# C58 Reference counting is thread-safe for distinct objects

`Exec` are the states of all executions: any number of threads, any interleaving.  `Plain` are those without
`put` (any call that modifies the value) and `clear`, the calls that leave shared storage, `Private` those in which no object is handed to
another thread, `Passing` those in which objects are handed over by moving them, if they share no storage, and `Calm` those without a clash (`Pc.clash`).

Proved: executions without `put` and `clear`, and executions in which threads share nothing, also if they hand each other objects, are correct
under every interleaving; so is every execution without a clash.  Refuted: with clashes, a freed buffer is
accessed, buffers are leaked, and a thread sees what another one wrote.
-/

namespace Bdlib.Conc
open Bdlib

variable {T : Type}

/-- States of executions, under every interleaving, in which each action satisfies `P` (a predicate on thread
and action); `v` are the values the threads expect. -/
inductive Exec (w : Option (Nat → T)) (P : Nat → Act T → Prop) : Sys T → Vals T → Prop
  | init : Exec w P {} fun _ _ => none
  | step {s s' : Sys T} {v : Vals T} {t : Nat} {act : Act T} {seen : Option (List T)} : Exec w P s v →
      P t act → step w s t act = .ok s' seen → Exec w P s' (effect v t act)

/-- All actions. -/
def anyAct (_ : Nat) (_ : Act T) : Prop := True

/-- All calls that do not leave shared storage: construction, copies, slices, reading, assignment and
destruction. -/
def plainAct (_ : Nat) : Act T → Prop
  | .put .. => False
  | .clear _ => False
  | _ => True

/-- No object is handed to another thread. -/
def privateAct (t : Nat) : Act T → Prop
  | .dup _ t' _ => t' = t
  | .move _ t' _ => t' = t
  | _ => True

/-- Objects are handed to another thread by moving them only, and only if they share their storage with no other
object (`isShared()` is false). -/
def passes (s : Sys T) (t : Nat) : Act T → Prop
  | .dup _ t' _ => t' = t
  | .move o t' _ => t' = t ∨ ∀ r b, s.find t o = some r → s.heap r.blk = some b → b.refs ≤ 1
  | _ => True

/-- States of executions, under every interleaving of all calls, in which threads hand each other only objects
that share nothing. -/
inductive Passing (w : Option (Nat → T)) : Sys T → Vals T → Prop
  | init : Passing w {} fun _ _ => none
  | step {s s' : Sys T} {v : Vals T} {t : Nat} {act : Act T} {seen : Option (List T)} : Passing w s v →
      passes s t act → step w s t act = .ok s' seen → Passing w s' (effect v t act)

theorem Exec.passing {w : Option (Nat → T)} {s : Sys T} {v : Vals T} (h : Exec w privateAct s v) : Passing w s v := by
  induction h with
  | init => exact .init
  | @step s s' v t act seen h hP hs ih =>
    refine .step ih ?_ hs
    cases act with
    | dup o t' o' => exact hP
    | move o t' o' => exact Or.inl hP
    | _ => trivial

/-- The buffer the thread is about to write to, wipe or delete. -/
def Pc.writes : Pc T → Option Nat
  | .write r _ => some r.blk
  | .wipe r true => some r.blk
  | .free a => some a
  | _ => none

/-- Everything that should be true of a state: what a user relies on. -/
structure Sound (w : Option (Nat → T)) (s : Sys T) (v : Vals T) : Prop where
  /-- no thread that moves without a clash accesses released storage -/
  noUb : ∀ t act, (act = .go → ∀ t', t' ≠ t → ¬ (s.pc t).clash (s.pc t')) → step w s t act ≠ .ub
  /-- a thread reading one of its objects sees the value it gave it, whatever the other threads do -/
  reads : ∀ t o s' seen, step w s t (.get o) = .ok s' seen → seen = v t o
  /-- the count is the number of objects using the storage -/
  count : ∀ a b, s.heap a = some b → b.refs = (s.refs.countP (fun r => decide (r.blk = a)) : Int)
  /-- storage in use was not released -/
  live : ∀ r ∈ s.refs, s.heap r.blk ≠ none
  /-- storage not in use is about to be released by exactly one thread -/
  noLeak : ∀ a, s.heap a ≠ none → (∃ r ∈ s.refs, r.blk = a) ∨
    ∃ t, s.pc t = .free a ∧ ∀ t', s.pc t' = .free a → t' = t
  /-- a thread about to write to a buffer or to delete it is the only one with an object using it -/
  noRace : ∀ t a, (s.pc t).writes = some a → ∀ r ∈ s.refs, r.blk = a → r.thr = t

theorem Inv.sound {w : Option (Nat → T)} {s : Sys T} {v : Vals T} (hI : Inv s v) : Sound w s v := by
  refine ⟨?_, ?_, hI.cnt, ?_, ?_, ?_⟩
  · intro t act hc h
    have := good_step (w := w) hI act hc
    rw [h] at this
    exact this
  · intro t o s' seen h
    have := good_step (w := w) (t := t) hI (.get o) nofun
    rw [h] at this
    exact this.2
  · intro r hr h
    obtain ⟨b, hb, _⟩ := hI.live r hr
    rw [h] at hb; cases hb
  · intro a h
    cases hb : s.heap a with
    | none => exact absurd hb h
    | some b =>
      rcases hI.leak a b hb with hl | ⟨t, ht⟩
      · exact Or.inl hl
      · exact Or.inr ⟨t, ht, fun t' ht' => hI.once t' t a ht' ht⟩
  · intro t a h r hr hra
    have hp := hI.pcs t
    cases hpc : s.pc t with
    | write q f =>
      rw [hpc] at h hp
      cases h
      rw [hp.2.2.1 r hr hra]; exact hp.2.1
    | wipe q last =>
      rw [hpc] at h hp
      cases last with
      | false => cases h
      | true =>
        cases h
        rw [hp.2.2.2 rfl r hr hra]; exact hp.2.1
    | free a' =>
      rw [hpc] at h hp
      cases h
      exact absurd hra (hp.2.1 r hr)
    | _ => rw [hpc] at h; cases h

/-- **C58** Executions without a clash are correct, for any number of threads, objects and steps. -/
theorem c58_calm_partial {w : Option (Nat → T)} {s : Sys T} {v : Vals T} (h : Calm w s v) : Sound w s v :=
  h.inv.sound

/-- **C58** … and when all threads are between calls and no object is left, all storage has been released. -/
theorem c58_released_partial {w : Option (Nat → T)} {s : Sys T} {v : Vals T} (h : Calm w s v)
    (hidle : ∀ t, s.pc t = .idle) (hnone : s.refs = []) (a : Nat) : s.heap a = none := by
  cases hb : s.heap a with
  | none => rfl
  | some b =>
    rcases h.inv.leak a b hb with ⟨r, hr, _⟩ | ⟨t, ht⟩
    · rw [hnone] at hr; cases hr
    · rw [hidle t] at ht; cases ht

/-- How many steps of its own a thread has still to make in its call. -/
def Pc.left : Pc T → Nat
  | .idle => 0
  | .write .. => 1
  | .cow r _ => max 1 r.len + 1
  | .copy r _ got => max 1 (r.len - got.length)
  | .detach .. => 1
  | .wipe .. => 3
  | .release .. => 2
  | .free .. => 1

/-- **C58** No thread waits for another: in an execution without a clash, a thread inside a call can always make its next step, if that
is no clash, and each of its steps brings it nearer to the end of the call; those of other threads (`step_pc`) leave it where it is. -/
theorem c58_progress_partial {w : Option (Nat → T)} {s : Sys T} {v : Vals T} (h : Calm w s v) (t : Nat) (hin : s.pc t ≠ .idle)
    (hcalm : ∀ t', t' ≠ t → ¬ (s.pc t).clash (s.pc t')) :
    ∃ s' seen, step w s t .go = .ok s' seen ∧ (s'.pc t).left < (s.pc t).left := by
  have hub := (c58_calm_partial h).noUb t .go fun _ => hcalm
  unfold step Sys.access at hub ⊢
  cases hp : s.pc t with
  | idle => exact absurd hp hin
  | write r f =>
    rw [hp] at hub
    dsimp only at hub ⊢
    split at hub
    · exact absurd rfl hub
    · exact ⟨_, _, rfl, by simp [Sys.setPc, Pc.left]⟩
  | cow r f =>
    rw [hp] at hub
    dsimp only at hub ⊢
    split at hub
    · exact absurd rfl hub
    · refine ⟨_, _, rfl, ?_⟩
      simp only [Sys.setPc, if_true, Pc.left, List.length_nil]
      omega
  | copy r f got =>
    rw [hp] at hub
    dsimp only at hub ⊢
    by_cases h0 : r.len = 0
    · rw [if_pos h0]
      refine ⟨_, _, rfl, ?_⟩
      simp only [Sys.setPc, if_true, Pc.left]
      omega
    · rw [if_neg h0] at hub ⊢
      split at hub
      · exact absurd rfl hub
      · split at hub
        · exact absurd rfl hub
        · split
          · refine ⟨_, _, rfl, ?_⟩
            simp only [Sys.setPc, if_true, Pc.left, List.length_append, List.length_singleton]
            omega
          · refine ⟨_, _, rfl, ?_⟩
            simp only [Sys.setPc, if_true, Pc.left]
            omega
  | detach r =>
    rw [hp] at hub
    dsimp only at hub ⊢
    split at hub
    · exact absurd rfl hub
    · exact ⟨_, _, rfl, by simp [Sys.setPc, Pc.left]⟩
  | wipe r last =>
    rw [hp] at hub
    dsimp only at hub ⊢
    cases last with
    | false => exact ⟨_, _, rfl, by simp [Sys.setPc, Pc.left]⟩
    | true =>
      rw [if_pos rfl] at hub ⊢
      split at hub
      · exact absurd rfl hub
      · exact ⟨_, _, rfl, by simp [Sys.setPc, Pc.left]⟩
  | release r =>
    rw [hp] at hub
    dsimp only at hub ⊢
    split at hub
    · exact absurd rfl hub
    · refine ⟨_, _, rfl, ?_⟩
      simp only [Sys.setPc, if_true]
      split <;> simp [Pc.left]
  | free a =>
    rw [hp] at hub
    dsimp only at hub ⊢
    split at hub
    · exact absurd rfl hub
    · exact ⟨_, _, rfl, by simp [Sys.setPc, Pc.left]⟩

/-! ## Without `put` and `clear` -/

theorem step_pc {w : Option (Nat → T)} {s s' : Sys T} {t : Nat} {act : Act T} {seen : Option (List T)}
    (h : step w s t act = .ok s' seen) (t' : Nat) (ht : t' ≠ t) : s'.pc t' = s.pc t' := by
  unfold step Sys.access at h
  repeat' split at h
  all_goals try
    (have : ∃ r f g, s.pc t = .copy r f g := ⟨_, _, _, by assumption⟩
     clear this; simp only [] at h; split at h)
  all_goals first
    | cases h; done
    | cases h; rfl
    | (cases h; simp [Sys.setPc, Sys.setBlk, Sys.setRef, ht]; done)
    | (cases h; split <;> simp [Sys.setPc, Sys.setBlk, Sys.setRef, ht]; done)

/-- Between finding the storage shared and having left it. -/
def Pc.leaving : Pc T → Bool
  | .cow .. => true
  | .copy .. => true
  | .detach .. => true
  | _ => false

theorem clash_leaving {p q : Pc T} (h : p.clash q) : q.leaving = true := by
  cases q with
  | cow => rfl
  | copy => rfl
  | detach => rfl
  | _ => cases p <;> first | exact h.elim | (rename_i l; cases l <;> exact h.elim)

theorem step_leaving {w : Option (Nat → T)} {s s' : Sys T} {t : Nat} {act : Act T} {seen : Option (List T)}
    (hP : plainAct t act) (hl : (s.pc t).leaving = false) (h : step w s t act = .ok s' seen) : (s'.pc t).leaving = false := by
  unfold step Sys.access at h
  repeat' split at h
  all_goals try
    (have : ∃ r f g, s.pc t = .copy r f g := ⟨_, _, _, by assumption⟩
     clear this; simp only [] at h; split at h)
  all_goals first
    | cases h; done
    | cases h; exact hl
    | exact hP.elim
    | (rename_i e _; rw [e] at hl; cases hl; done)
    | (rename_i e _ _ _; rw [e] at hl; cases hl; done)
    | (rename_i e _ _ _ _ _ _ _; rw [e] at hl; cases hl; done)
    | (rename_i e _ _ _ _ _ _; rw [e] at hl; cases hl; done)
    | (cases h; simp [Sys.setPc, Pc.leaving]; done)
    | (cases h; simp [Sys.setPc, Sys.setBlk]; split <;> rfl)
    | (cases h; simp_all [Pc.leaving]; done)

theorem Exec.leaving {w : Option (Nat → T)} {s : Sys T} {v : Vals T} (h : Exec w plainAct s v) (t : Nat) :
    (s.pc t).leaving = false := by
  induction h with
  | init => rfl
  | @step s s' v t0 act seen h hP hs ih =>
    by_cases e : t = t0
    · subst e; exact step_leaving hP ih hs
    · rw [step_pc hs t e]; exact ih

theorem Exec.calm {w : Option (Nat → T)} {s : Sys T} {v : Vals T} (h : Exec w plainAct s v) : Calm w s v := by
  induction h with
  | init => exact .init
  | @step s s' v t act seen h hP hs ih =>
    refine .step ih (fun _ t' _ hc => ?_) hs
    have := clash_leaving hc
    rw [h.leaving t'] at this
    cases this

/-- **C58** Under every interleaving of calls that construct, copy, slice, read, assign and destroy, by any
number of threads sharing storage: the state is correct and no step accesses released storage. -/
theorem c58_plain {w : Option (Nat → T)} {s : Sys T} {v : Vals T} (h : Exec w plainAct s v) :
    Sound w s v ∧ ∀ t act, step w s t act ≠ .ub := by
  have hs := c58_calm_partial h.calm
  refine ⟨hs, fun t act => hs.noUb t act fun _ t' _ hc => ?_⟩
  have := clash_leaving hc
  rw [h.leaving t'] at this
  cases this

/-! ## Threads that share nothing -/

theorem step_refs {w : Option (Nat → T)} {s s' : Sys T} {v : Vals T} {t : Nat} {act : Act T} {seen : Option (List T)}
    (hI : Inv s v) (hP : privateAct t act) (h : step w s t act = .ok s' seen) :
    (∀ r ∈ s'.refs, r ∈ s.refs ∨ (r.thr = t ∧ (r.blk = s.next ∨ ∃ q ∈ s.refs, q.thr = t ∧ q.blk = r.blk))) ∧
    (∀ q ∈ s.refs, q.thr ≠ t → q ∈ s'.refs) := by
  have hp := hI.pcs t
  have hkeep : ∀ {q r : Ref}, q ∈ s.refs → q.thr ≠ t → r.thr = t → q ∈ s.refs.erase r := by
    intro q r hq hne hr
    exact hI.nodup.mem_erase_iff.mpr ⟨by rintro rfl; exact hne hr, hq⟩
  have hmod : ∀ {r r' : Ref}, r ∈ s.refs → r.thr = t → r'.thr = r.thr → r'.blk = r.blk →
      (∀ q ∈ r' :: s.refs.erase r, q ∈ s.refs ∨ (q.thr = t ∧ (q.blk = s.next ∨ ∃ q' ∈ s.refs, q'.thr = t ∧ q'.blk = q.blk))) ∧
      (∀ q ∈ s.refs, q.thr ≠ t → q ∈ r' :: s.refs.erase r) := by
    intro r r' hr hrt e1 e2
    refine ⟨fun q hq => ?_, fun q hq hne => List.mem_cons_of_mem _ (hkeep hq hne hrt)⟩
    rcases List.mem_cons.mp hq with rfl | hq
    · exact Or.inr ⟨e1.trans hrt, Or.inr ⟨r, hr, hrt, e2.symm⟩⟩
    · exact Or.inl (List.mem_of_mem_erase hq)
  have hset : ∀ {r r' : Ref} {o : Nat}, s.find t o = some r → r'.thr = r.thr → r'.blk = r.blk →
      (∀ q ∈ r' :: s.refs.erase r, q ∈ s.refs ∨ (q.thr = t ∧ (q.blk = s.next ∨ ∃ q' ∈ s.refs, q'.thr = t ∧ q'.blk = q.blk))) ∧
      (∀ q ∈ s.refs, q.thr ≠ t → q ∈ r' :: s.refs.erase r) := by
    intro r r' o hf e1 e2
    obtain ⟨hr, hrt, _⟩ := find_some hf
    exact hmod hr hrt e1 e2
  have herase : ∀ {r : Ref}, r.thr = t →
      (∀ q ∈ s.refs.erase r, q ∈ s.refs ∨ (q.thr = t ∧ (q.blk = s.next ∨ ∃ q' ∈ s.refs, q'.thr = t ∧ q'.blk = q.blk))) ∧
      (∀ q ∈ s.refs, q.thr ≠ t → q ∈ s.refs.erase r) :=
    fun hr => ⟨fun q hq => Or.inl (List.mem_of_mem_erase hq), fun q hq hne => hkeep hq hne hr⟩
  have hcons : ∀ {r : Ref}, r.thr = t → (r.blk = s.next ∨ ∃ q ∈ s.refs, q.thr = t ∧ q.blk = r.blk) →
      (∀ q ∈ r :: s.refs, q ∈ s.refs ∨ (q.thr = t ∧ (q.blk = s.next ∨ ∃ q' ∈ s.refs, q'.thr = t ∧ q'.blk = q.blk))) ∧
      (∀ q ∈ s.refs, q.thr ≠ t → q ∈ r :: s.refs) := by
    intro r hr hb
    refine ⟨fun q hq => ?_, fun q hq _ => List.mem_cons_of_mem _ hq⟩
    rcases List.mem_cons.mp hq with rfl | hq
    · exact Or.inr ⟨hr, hb⟩
    · exact Or.inl hq
  have hid : (∀ r ∈ s.refs, r ∈ s.refs ∨ (r.thr = t ∧ (r.blk = s.next ∨ ∃ q ∈ s.refs, q.thr = t ∧ q.blk = r.blk))) ∧
    (∀ q ∈ s.refs, q.thr ≠ t → q ∈ s.refs) := ⟨fun r hr => Or.inl hr, fun q hq _ => hq⟩
  unfold step Sys.access at h
  repeat' split at h
  all_goals try
    (have : ∃ r f g, s.pc t = .copy r f g := ⟨_, _, _, by assumption⟩
     clear this; simp only [] at h; split at h)
  all_goals first
    | cases h; done
    | cases h; exact hid
    | (cases h; exact hset (by assumption) rfl rfl)
    | (cases h; exact hcons rfl (Or.inl rfl))
    | (rename_i e _ _ _; rw [e] at hp; cases h; exact herase hp.2.1)
    | (rename_i e _ _ _; rw [e] at hp; cases h; exact herase hp.1)
    | (rename_i e _ _ _ _ _ _ _; rw [e] at hp; cases h; exact hcons hp.1 (Or.inl rfl))
    | (rename_i e _ _ _ _ _ _; rw [e] at hp; cases h; exact hcons hp.1 (Or.inl rfl))
    | (rename_i e _ _ _ _ _ _ _ _; rw [e] at hp; cases h; exact hcons hp.1 (Or.inl rfl))
    | (rename_i e _; rw [e] at hp; cases h; exact hcons hp.1 (Or.inl rfl))
    | (rename_i r _ e _ _ _; rw [e] at hp; cases h; exact hmod hp.1 hp.2.1 rfl rfl)
    | skip
  · rename_i r hf _ _ _ _
    cases h
    obtain ⟨hr, hrt, _⟩ := find_some hf
    exact hcons hP (Or.inr ⟨r, hr, hrt, rfl⟩)
  · rename_i r hf _
    cases h
    obtain ⟨hr, hrt, _⟩ := find_some hf
    exact hmod hr hrt (Eq.trans hP hrt.symm) rfl
  · rename_i r hf _ _ _
    cases h
    split
    · exact hid
    · exact hset hf rfl rfl
  · rename_i r q hf hf' _ _ _
    cases h
    obtain ⟨hr, hrt, _⟩ := find_some hf
    obtain ⟨hq, hqt, _⟩ := find_some hf'
    refine ⟨fun q1 hq1 => ?_, fun q1 hq1 hne => ?_⟩
    · rcases List.mem_cons.mp hq1 with rfl | hq1
      · exact Or.inr ⟨hqt, Or.inr ⟨q, hq, hqt, rfl⟩⟩
      · exact (hset (r' := { r with obj := none }) hf rfl rfl).1 q1 hq1
    · exact List.mem_cons_of_mem _ ((hset (r' := { r with obj := none }) hf rfl rfl).2 q1 hq1 hne)

theorem step_copy {w : Option (Nat → T)} {s s' : Sys T} {t : Nat} {act : Act T} {seen : Option (List T)} {r : Ref}
    {f : List T → List T} {g : List T} (h : step w s t act = .ok s' seen) (hpc : s'.pc t = .copy r f g) :
    (∃ g', s.pc t = .copy r f g') ∧ s'.refs = s.refs ∨ s.pc t = .cow r f ∧ s'.refs = s.refs.erase r := by
  unfold step Sys.access at h
  repeat' split at h
  all_goals try
    (have : ∃ r f g, s.pc t = .copy r f g := ⟨_, _, _, by assumption⟩
     clear this; simp only [] at h; split at h)
  all_goals first
    | cases h; done
    | (cases h; simp [Sys.setPc, Sys.setBlk, Sys.setRef] at hpc; done)
    | (cases h; simp_all [Sys.setPc, Sys.setBlk, Sys.setRef]; done)
    | (cases h; split at hpc <;> simp_all [Sys.setPc, Sys.setBlk, Sys.setRef]; done)
    | (cases h; simp only [Sys.setPc, if_true] at hpc; split at hpc <;> cases hpc; done)

/-- The storage of different threads is different. -/
theorem Passing.separate {w : Option (Nat → T)} {s : Sys T} {v : Vals T} (h : Passing w s v) :
    Calm w s v ∧ (∀ r ∈ s.refs, ∀ r' ∈ s.refs, r.blk = r'.blk → r.thr = r'.thr) ∧
    (∀ t r f g, s.pc t = .copy r f g → ∃ q ∈ s.refs, q.blk = r.blk ∧ q.thr = t) ∧
    (∀ t t', t' ≠ t → ¬ (s.pc t).clash (s.pc t')) := by
  have key : ∀ {s : Sys T} {v : Vals T}, Inv s v → (∀ r ∈ s.refs, ∀ r' ∈ s.refs, r.blk = r'.blk → r.thr = r'.thr) →
      (∀ t r f g, s.pc t = .copy r f g → ∃ q ∈ s.refs, q.blk = r.blk ∧ q.thr = t) →
      ∀ t t', t' ≠ t → ¬ (s.pc t).clash (s.pc t') := by
    intro s v hI h1 h2 t t' ht hc
    have hp := hI.pcs t
    have hp' := hI.pcs t'
    have hno : ∀ {r r' : Ref}, r ∈ s.refs → r' ∈ s.refs → r.thr = t → r'.thr = t' → r.blk = r'.blk → False := by
      intro r r' hr hr' e1 e2 hb
      exact ht (e2.symm.trans ((h1 r hr r' hr' hb).symm.trans e1))
    cases hq : s.pc t' with
    | cow r' f =>
      rw [hq] at hp' hc
      cases hpc : s.pc t with
      | cow r f => rw [hpc] at hp hc; exact hno hp.1 hp'.1 hp.2.1 hp'.2.1 hc
      | detach r => rw [hpc] at hp hc; exact hno hp.1 hp'.1 hp.2.1 hp'.2.1 hc
      | release r => rw [hpc] at hp hc; exact hno hp.1 hp'.1 hp.2.1 hp'.2.1 hc
      | wipe r l => rw [hpc] at hc; cases l <;> exact hc.elim
      | _ => rw [hpc] at hc; exact hc.elim
    | detach r' =>
      rw [hq] at hp' hc
      cases hpc : s.pc t with
      | cow r f => rw [hpc] at hp hc; exact hno hp.1 hp'.1 hp.2.1 hp'.2.1 hc
      | detach r => rw [hpc] at hp hc; exact hno hp.1 hp'.1 hp.2.1 hp'.2.1 hc
      | release r => rw [hpc] at hp hc; exact hno hp.1 hp'.1 hp.2.1 hp'.2.1 hc
      | wipe r l => rw [hpc] at hc; cases l <;> exact hc.elim
      | _ => rw [hpc] at hc; exact hc.elim
    | copy r' f g =>
      obtain ⟨q, hq1, hq2, hq3⟩ := h2 t' r' f g hq
      rw [hq] at hc
      cases hpc : s.pc t with
      | write r f => rw [hpc] at hp hc; exact hno hp.1 hq1 hp.2.1 hq3 (hc.trans hq2.symm)
      | wipe r l =>
        rw [hpc] at hp hc
        cases l
        · exact hc.elim
        · exact hno hp.1 hq1 hp.2.1 hq3 (hc.trans hq2.symm)
      | free a => rw [hpc] at hp hc; exact hp.2.1 q hq1 (hq2.trans hc.symm)
      | _ => rw [hpc] at hc; exact hc.elim
    | _ =>
      have := clash_leaving hc
      rw [hq] at this
      cases this
  induction h with
  | init => exact ⟨.init, (fun r hr => by cases hr), nofun, fun _ _ _ h => h⟩
  | @step s s' v t act seen h hP hs ih =>
    obtain ⟨hC, h1, h2, h3⟩ := ih
    have hI := hC.inv
    have hC' : Calm w s' (effect v t act) := .step hC (fun _ t' ht => h3 t t' ht) hs
    by_cases hP' : privateAct t act
    case neg =>
      cases act with
      | move o t' o' =>
        have hsole := hP.resolve_left hP'
        unfold Conc.step at hs
        split at hs
        all_goals first | (cases hs; done) | skip
        all_goals (rename_i hact; cases hact)
        rename_i hpc
        cases hf : s.find t o with
        | none => rw [hf] at hs; cases hs
        | some r =>
          rw [hf] at hs
          dsimp only at hs
          split at hs
          · cases hs
          · cases hs
            obtain ⟨hr, hrt, _⟩ := find_some hf
            obtain ⟨b, hb, _⟩ := hI.live r hr
            have hone := sole_of_count hI.nodup hr (by
              have h1 : b.refs = (count s.refs r.blk : Int) := hI.cnt _ _ hb
              have h2 := hsole r b hf hb
              omega)
            have hmem : ∀ q ∈ (s.setRef r { r with thr := t', obj := some o' }).refs,
                q = { r with thr := t', obj := some o' } ∨ (q ∈ s.refs ∧ q.blk ≠ r.blk) := by
              intro q hq
              rcases List.mem_cons.mp hq with hq | hq
              · exact Or.inl hq
              · have := hI.nodup.mem_erase_iff.mp hq
                exact Or.inr ⟨this.2, fun e => this.1 (hone q this.2 e)⟩
            have h1' : ∀ q ∈ (s.setRef r { r with thr := t', obj := some o' }).refs,
                ∀ q' ∈ (s.setRef r { r with thr := t', obj := some o' }).refs, q.blk = q'.blk → q.thr = q'.thr := by
              intro q hq q' hq' hb
              rcases hmem q hq with rfl | ⟨hq, hqb⟩ <;> rcases hmem q' hq' with rfl | ⟨hq', hqb'⟩
              · rfl
              · exact absurd hb.symm hqb'
              · exact absurd hb hqb
              · exact h1 q hq q' hq' hb
            have h2' : ∀ t1 q f g, (s.setRef r { r with thr := t', obj := some o' }).pc t1 = .copy q f g →
                ∃ q' ∈ (s.setRef r { r with thr := t', obj := some o' }).refs, q'.blk = q.blk ∧ q'.thr = t1 := by
              intro t1 q f g hq
              obtain ⟨q', hq', e1, e2⟩ := h2 t1 q f g hq
              refine ⟨q', List.mem_cons_of_mem _ (hI.nodup.mem_erase_iff.mpr ⟨?_, hq'⟩), e1, e2⟩
              rintro rfl
              have : t1 = t := e2.symm.trans hrt
              rw [this] at hq
              exact absurd (hpc.symm.trans hq) nofun
            exact ⟨hC', h1', h2', key hC'.inv h1' h2'⟩
      | dup o t' o' => exact absurd hP hP'
      | _ => exact absurd trivial hP'
    obtain ⟨hr1, hr2⟩ := step_refs hI hP' hs
    have hne : ∀ r ∈ s.refs, r.blk ≠ s.next := by
      intro r hr e
      obtain ⟨b, hb, _⟩ := hI.live r hr
      rw [e, hI.fresh _ (Nat.le_refl _)] at hb
      cases hb
    have hnew : ∀ r ∈ s.refs, ∀ r' : Ref, r'.thr = t ∧ (r'.blk = s.next ∨ ∃ q ∈ s.refs, q.thr = t ∧ q.blk = r'.blk) →
        r.blk = r'.blk → r.thr = t := by
      intro r hr r' hr' hb
      rcases hr'.2 with e | ⟨q, hq, hqt, hqb⟩
      · exact absurd (hb.trans e) (hne r hr)
      · exact (h1 r hr q hq (hb.trans hqb.symm)).trans hqt
    have h1' : ∀ r ∈ s'.refs, ∀ r' ∈ s'.refs, r.blk = r'.blk → r.thr = r'.thr := by
      intro r hr r' hr' hb
      rcases hr1 r hr with hr | hr <;> rcases hr1 r' hr' with hr' | hr'
      · exact h1 r hr r' hr' hb
      · exact (hnew r hr r' hr' hb).trans hr'.1.symm
      · exact hr.1.trans (hnew r' hr' r hr hb.symm).symm
      · exact hr.1.trans hr'.1.symm
    have h2' : ∀ t r f g, s'.pc t = .copy r f g → ∃ q ∈ s'.refs, q.blk = r.blk ∧ q.thr = t := by
      intro t1 r f g hpc
      by_cases e : t1 = t
      · subst e
        rcases step_copy hs hpc with ⟨⟨g', e1⟩, e2⟩ | ⟨e1, e2⟩
        · rw [e2]; exact h2 t1 r f g' e1
        · have hp := hI.pcs t1
          rw [e1] at hp
          obtain ⟨hr, hrt, ⟨q, hq, hne, hqb⟩, _⟩ := hp
          refine ⟨q, ?_, hqb, (h1 q hq r hr hqb).trans hrt⟩
          rw [e2]
          exact hI.nodup.mem_erase_iff.mpr ⟨hne, hq⟩
      · rw [step_pc hs t1 e] at hpc
        obtain ⟨q, hq, hqb, hqt⟩ := h2 t1 r f g hpc
        exact ⟨q, hr2 q hq (by rw [hqt]; exact e), hqb, hqt⟩
    exact ⟨hC', h1', h2', key hC'.inv h1' h2'⟩

/-- **C58** Threads that hand each other objects by moving them, as long as these share no storage with objects left
behind, do not disturb each other, under every interleaving of all calls. -/
theorem c58_handover {w : Option (Nat → T)} {s : Sys T} {v : Vals T} (h : Passing w s v) :
    Sound w s v ∧ ∀ t act, step w s t act ≠ .ub := by
  obtain ⟨hC, _, _, hc⟩ := h.separate
  exact ⟨c58_calm_partial hC, fun t act => (c58_calm_partial hC).noUb t act fun _ t' ht => hc t t' ht⟩

/-- **C58** Threads that share no storage do not disturb each other, under every interleaving of all calls. -/
theorem c58_private {w : Option (Nat → T)} {s : Sys T} {v : Vals T} (h : Exec w privateAct s v) :
    Sound w s v ∧ ∀ t act, step w s t act ≠ .ub :=
  c58_handover h.passing

/-! ## Running schedules -/

/-- Run a schedule. -/
def run (w : Option (Nat → T)) : List (Nat × Act T) → Sys T → Vals T → Option (Sys T × Vals T)
  | [], s, v => some (s, v)
  | (t, act) :: l, s, v =>
    match step w s t act with
    | .ok s' _ => run w l s' (effect v t act)
    | _ => none

theorem run_exec {w : Option (Nat → T)} {P : Nat → Act T → Prop} : ∀ (l : List (Nat × Act T)) {s s' : Sys T} {v v' : Vals T},
    Exec w P s v → (∀ x ∈ l, P x.1 x.2) → run w l s v = some (s', v') → Exec w P s' v'
  | [], _, _, _, _, h, _, e => by cases e; exact h
  | (t, act) :: l, s, s', v, v', h, hP, e => by
    unfold run at e
    cases hs : step w s t act with
    | stuck => rw [hs] at e; cases e
    | ub => rw [hs] at e; cases e
    | ok s1 seen =>
      rw [hs] at e
      exact run_exec l (.step h (hP _ List.mem_cons_self) hs) (fun x hx => hP x (List.mem_cons_of_mem _ hx)) e

/-- The state a schedule leads to, if all its steps are possible. -/
def Runs (w : Option (Nat → T)) (l : List (Nat × Act T)) (Q : Sys T → Vals T → Prop) : Prop :=
  match run w l {} fun _ _ => none with
  | none => False
  | some (s, v) => Q s v

theorem Runs.exec {w : Option (Nat → T)} {P : Nat → Act T → Prop} {l : List (Nat × Act T)} {Q : Sys T → Vals T → Prop}
    (h : Runs w l Q) (hP : ∀ x ∈ l, P x.1 x.2) : ∃ s v, Exec w P s v ∧ Q s v := by
  unfold Runs at h
  split at h
  · exact h.elim
  · rename_i s v e
    exact ⟨s, v, run_exec l .init hP e, h⟩

/-- Assignment to an element. -/
def set (i x : Nat) (v : List Nat) : List Nat := v.set i x

/-- Two threads with a copy each of the same three elements. -/
def two : List (Nat × Act Nat) := [(0, .make 0 [1, 2, 3]), (0, .dup 0 1 0)]

-- Non-vacuity: two threads copy, slice, read, assign and destroy objects that share storage.
example : ∃ s v, Exec (some fun _ => 0) plainAct s v ∧ s.heap 0 = some ⟨4, [1, 2, 3]⟩ ∧ v 1 5 = some [2] ∧
    s.pc 0 = .release ⟨0, none, 0, 0, 3⟩ := by
  refine Runs.exec (l := two ++ [(1, .dup 0 1 5), (0, .drop 0), (1, .window 5 1 1), (0, .go), (1, .dup 5 1 6)]) ?_ (by simp [two, plainAct])
  show _ ∧ _ ∧ _
  exact ⟨rfl, rfl, rfl⟩

-- Non-vacuity: two threads modify, clear and destroy their own objects at the same time.
example : ∃ s v, Exec none privateAct s v ∧ s.pc 0 = .copy ⟨0, some 0, 0, 0, 2⟩ (set 1 9) [1] ∧ s.pc 1 = .detach ⟨1, some 0, 1, 0, 1⟩ ∧
    v 0 0 = some [1, 9] ∧ v 0 1 = some [1, 2] ∧ v 1 0 = some [] ∧ v 1 1 = some [3] := by
  refine Runs.exec (l := [(0, .make 0 [1, 2]), (0, .dup 0 0 1), (1, .make 0 [3]), (1, .dup 0 1 1), (0, .put 0 (set 1 9)), (1, .clear 0),
    (0, .go), (0, .go)]) ?_ (by simp [privateAct])
  show _ ∧ _ ∧ _ ∧ _ ∧ _ ∧ _
  exact ⟨rfl, rfl, rfl, rfl, rfl, rfl⟩

-- Non-vacuity: a thread modifies an object that shares storage with one of another thread, without a clash.
example : ∃ s v, Calm none s v ∧ s.heap 0 = some ⟨1, [1, 2, 3]⟩ ∧ s.heap 1 = some ⟨1, [1, 9, 3]⟩ ∧
    v 0 0 = some [1, 9, 3] ∧ v 1 0 = some [1, 2, 3] ∧ ∀ t, s.pc t = .idle := by
  have h0 : Calm none ({} : Sys Nat) fun _ _ => none := .init
  have h1 := Calm.step (t := 0) (act := .make 0 [1, 2, 3]) h0 nofun rfl
  have h2 := Calm.step (t := 0) (act := .dup 0 1 0) h1 nofun rfl
  have h3 := Calm.step (t := 0) (act := .put 0 (set 1 9)) h2 nofun rfl
  have h4 := Calm.step (t := 0) (act := .go) h3 (fun _ t' ht hc => by
    have := clash_leaving hc; simp [Sys.setPc, Sys.setBlk, ht, Pc.leaving] at this) rfl
  have h5 := Calm.step (t := 0) (act := .go) h4 (fun _ t' ht hc => by
    have := clash_leaving hc; simp [Sys.setPc, Sys.setBlk, ht, Pc.leaving] at this) rfl
  have h6 := Calm.step (t := 0) (act := .go) h5 (fun _ t' ht hc => by
    have := clash_leaving hc; simp [Sys.setPc, Sys.setBlk, ht, Pc.leaving] at this) rfl
  have h7 := Calm.step (t := 0) (act := .go) h6 (fun _ t' ht hc => by
    have := clash_leaving hc; simp [Sys.setPc, Sys.setBlk, ht, Pc.leaving] at this) rfl
  refine ⟨_, _, h7, rfl, rfl, rfl, rfl, fun t => ?_⟩
  simp only [Sys.setPc, Sys.setBlk]
  split <;> rfl

-- Non-vacuity: appending in place (thread 1), to a copy of shared storage (thread 0) and to an empty object that shares storage (object 1).
example : ∃ s v, Exec none privateAct s v ∧ v 0 0 = some [1, 2, 9, 9] ∧ v 0 1 = some [8] ∧ v 0 2 = some [1, 2] ∧ v 1 0 = some [3, 7] ∧
    (∃ s', step none s 0 (.get 0) = .ok s' (some [1, 2, 9, 9])) ∧ (∃ s', step none s 0 (.get 1) = .ok s' (some [8])) ∧
    (∃ s', step none s 0 (.get 2) = .ok s' (some [1, 2])) ∧ ∃ s', step none s 1 (.get 0) = .ok s' (some [3, 7]) := by
  refine Runs.exec (l := [(0, .make 0 [1, 2]), (0, .dup 0 0 1), (0, .dup 0 0 2), (1, .make 0 [3]), (0, .window 1 1 0), (0, .put 0 (· ++ [9, 9])),
    (1, .put 0 (· ++ [7])), (0, .go), (0, .go), (1, .go), (0, .go), (0, .put 1 (· ++ [8])), (0, .go), (0, .go)]) ?_ (by simp [privateAct])
  show _ ∧ _ ∧ _ ∧ _ ∧ _ ∧ _ ∧ _ ∧ _
  exact ⟨rfl, rfl, rfl, rfl, ⟨_, rfl⟩, ⟨_, rfl⟩, ⟨_, rfl⟩, ⟨_, rfl⟩⟩

-- Non-vacuity: thread 0 builds a value in copied storage, hands it over, and both go on modifying.
example : ∃ s v, Passing none s v ∧ v 0 0 = none ∧ v 0 1 = some [1, 5] ∧ v 1 3 = some [1, 9] ∧
    (∃ s', step none s 0 (.get 1) = .ok s' (some [1, 5])) ∧ (∃ s', step none s 1 (.get 3) = .ok s' (some [1, 9])) ∧
    step none s 0 (.get 0) = .stuck := by
  have h0 : Passing none ({} : Sys Nat) fun _ _ => none := .init
  have h1 := Passing.step (t := 0) (act := .make 0 [1, 2]) h0 trivial rfl
  have h2 := Passing.step (t := 0) (act := .dup 0 0 1) h1 rfl rfl
  have h3 := Passing.step (t := 0) (act := .put 0 (set 1 9)) h2 trivial rfl
  have h4 := Passing.step (t := 0) (act := .go) h3 trivial rfl
  have h5 := Passing.step (t := 0) (act := .go) h4 trivial rfl
  have h6 := Passing.step (t := 0) (act := .go) h5 trivial rfl
  have h7 := Passing.step (t := 0) (act := .move 0 1 3) h6
    (Or.inr (by intro r b hr hb; cases hr; cases hb; decide)) rfl
  have h8 := Passing.step (t := 0) (act := .put 1 (set 1 5)) h7 trivial rfl
  have h9 := Passing.step (t := 0) (act := .go) h8 trivial rfl
  exact ⟨_, _, h9, rfl, rfl, rfl, ⟨_, rfl⟩, ⟨_, rfl⟩, rfl⟩

/-! ## Refutations

All clashes are real: each kind breaks one of the promises. -/

/-- **C58** (refuted) A thread copies a buffer that another thread has deleted in the meantime. -/
theorem c58_refuted_freed : ∃ (s : Sys Nat) (v : Vals Nat) (t : Nat), Exec none anyAct s v ∧ step none s t .go = .ub := by
  obtain ⟨s, v, h, h1⟩ := Runs.exec (w := none) (P := anyAct) (Q := fun s _ => step none s 0 .go = .ub)
    (l := two ++ [(0, .put 0 (set 0 9)), (0, .go), (1, .drop 0), (1, .go), (1, .go)]) (by
      show step none _ 0 .go = .ub
      rfl) (fun _ _ => trivial)
  exact ⟨s, v, 0, h, h1⟩

/-- **C58** (refuted) Handing over by moving does not help if a copy stays behind: thread 0 copies an object and moves the
copy to thread 1, which destroys it while thread 0 modifies its own. -/
theorem c58_refuted_handover : ∃ (s : Sys Nat) (v : Vals Nat) (t : Nat),
    Exec none (fun t act => match act with | .dup _ t' _ => t' = t | _ => True) s v ∧ step none s t .go = .ub := by
  obtain ⟨s, v, h, h1⟩ := Runs.exec (w := none) (P := fun t act => match act with | .dup _ t' _ => t' = t | _ => True)
    (Q := fun s _ => step none s 0 .go = .ub)
    (l := [(0, .make 0 [1, 2, 3]), (0, .dup 0 0 1), (0, .move 1 1 0), (0, .put 0 (set 0 9)), (0, .go), (1, .drop 0), (1, .go), (1, .go)]) (by
      show step none _ 0 .go = .ub
      rfl) (by simp)
  exact ⟨s, v, 0, h, h1⟩

/-- A leak: all threads are between calls and no object is left, but a buffer is. -/
def Leaked (s : Sys T) : Prop := (∀ t, s.pc t = .idle) ∧ s.refs = [] ∧ ∃ a b, s.heap a = some b

theorem run_pc {w : Option (Nat → T)} : ∀ (l : List (Nat × Act T)) {s s' : Sys T} {v v' : Vals T} {t : Nat},
    (∀ x ∈ l, x.1 ≠ t) → run w l s v = some (s', v') → s'.pc t = s.pc t
  | [], _, _, _, _, _, _, e => by cases e; rfl
  | (t0, act) :: l, s, s', v, v', t, hne, e => by
    unfold run at e
    cases hs : step w s t0 act with
    | stuck => rw [hs] at e; cases e
    | ub => rw [hs] at e; cases e
    | ok s1 seen =>
      rw [hs] at e
      rw [run_pc l (fun x hx => hne x (List.mem_cons_of_mem _ hx)) e,
        step_pc hs t (Ne.symm (hne (t0, act) List.mem_cons_self))]

theorem Runs.leaked {w : Option (Nat → T)} {l : List (Nat × Act T)} (hl : ∀ x ∈ l, x.1 < 2)
    (h : Runs w l fun s _ => s.pc 0 = .idle ∧ s.pc 1 = .idle ∧ s.refs = [] ∧ ∃ a b, s.heap a = some b) :
    ∃ s v, Exec w anyAct s v ∧ Leaked s := by
  unfold Runs at h
  split at h
  · exact h.elim
  · rename_i s v e
    refine ⟨s, v, run_exec l .init (fun _ _ => trivial) e, fun t => ?_, h.2.2⟩
    by_cases e0 : t = 0
    · rw [e0]; exact h.1
    · by_cases e1 : t = 1
      · rw [e1]; exact h.2.1
      · exact run_pc l (fun x hx => by have := hl x hx; omega) e

/-- **C58** (refuted) Two threads modify their objects: both find the storage shared, both leave it, nobody
releases it. -/
theorem c58_refuted_leak_modify : ∃ (s : Sys Nat) (v : Vals Nat), Exec none anyAct s v ∧ Leaked s := by
  refine Runs.leaked (l := two ++ [(0, .put 0 (set 0 9)), (1, .put 0 (set 0 8)), (0, .go), (1, .go), (0, .go), (1, .go), (0, .go), (0, .go), (1, .go), (1, .go),
    (0, .drop 0), (0, .go), (0, .go), (1, .drop 0), (1, .go), (1, .go)]) (by simp [two]) ?_
  exact ⟨rfl, rfl, rfl, 0, _, rfl⟩

/-- **C58** (refuted) The same with `clear`. -/
theorem c58_refuted_leak_clear : ∃ (s : Sys Nat) (v : Vals Nat), Exec none anyAct s v ∧ Leaked s := by
  refine Runs.leaked (l := two ++ [(0, .clear 0), (1, .clear 0), (0, .go), (1, .go)]) (by simp [two]) ?_
  exact ⟨rfl, rfl, rfl, 0, _, rfl⟩

/-- **C58** (refuted) One thread modifies its object while another one destroys its own. -/
theorem c58_refuted_leak_destroy : ∃ (s : Sys Nat) (v : Vals Nat), Exec none anyAct s v ∧ Leaked s := by
  refine Runs.leaked (l := two ++ [(0, .put 0 (set 0 9)), (1, .drop 0), (1, .go), (0, .go), (0, .go), (0, .go), (0, .go), (0, .drop 0), (0, .go), (0, .go)]) (by simp [two]) ?_
  exact ⟨rfl, rfl, rfl, 0, _, rfl⟩

/-- **C58** (refuted) A thread sees what another thread wrote to another object: it expects `9, 2, 3` and
reads `9, 7, 3`. -/
theorem c58_refuted_isolation : ∃ (s : Sys Nat) (v : Vals Nat), Exec none anyAct s v ∧ v 0 0 = some [9, 2, 3] ∧
    ∃ s', step none s 0 (.get 0) = .ok s' (some [9, 7, 3]) := by
  refine Runs.exec (l := two ++ [(0, .put 0 (set 0 9)), (0, .go), (1, .put 0 (set 1 7)), (1, .go), (0, .go), (0, .go), (0, .go)]) ?_ (fun _ _ => trivial)
  show _ ∧ _
  exact ⟨rfl, _, rfl⟩

/-- **C58** (refuted) A thread copies bytes that another thread's destructor has just wiped. -/
theorem c58_refuted_wiped : ∃ (s : Sys Nat) (v : Vals Nat), Exec (some fun _ => 0) anyAct s v ∧ v 0 0 = some [9, 2, 3] ∧
    ∃ s', step (some fun _ => 0) s 0 (.get 0) = .ok s' (some [9, 0, 0]) := by
  refine Runs.exec (l := two ++ [(0, .put 0 (set 0 9)), (0, .go), (1, .drop 0), (1, .go), (0, .go), (0, .go), (0, .go)]) ?_ (fun _ _ => trivial)
  show _ ∧ _
  exact ⟨rfl, _, rfl⟩

/-- **C58**, **C59** (refuted) Two threads destroy the last two copies of a string at the same time: both find
it shared, so the buffer is deleted without having been wiped. -/
theorem c58_refuted_unwiped : ∃ (s : Sys Nat) (v : Vals Nat), Exec (some fun _ => 0) plainAct s v ∧
    s.pc 1 = .free 0 ∧ s.heap 0 = some ⟨0, [1, 2, 3]⟩ := by
  refine Runs.exec (l := two ++ [(0, .drop 0), (1, .drop 0), (0, .go), (1, .go), (0, .go), (1, .go)]) ?_ (by simp [two, plainAct])
  show _ ∧ _
  exact ⟨rfl, rfl⟩

/-- **C58** (refuted) The value a thread gets need not be one its object, or any other, ever had: the buffer is
copied element by element while another thread, now its only owner, writes to it twice in place.  The thread
expects `9, 2, 3`; its copy has the second write and not the first. -/
theorem c58_refuted_torn : ∃ (s : Sys Nat) (v : Vals Nat), Exec none anyAct s v ∧ v 0 0 = some [9, 2, 3] ∧
    v 1 0 = some [1, 7, 8] ∧ ∃ s', step none s 0 (.get 0) = .ok s' (some [9, 2, 8]) := by
  refine Runs.exec (l := two ++ [(0, .put 0 (set 0 9)), (0, .go), (0, .go), (0, .go), (1, .put 0 (set 1 7)), (1, .go), (1, .put 0 (set 2 8)),
    (1, .go), (0, .go)]) ?_ (fun _ _ => trivial)
  show _ ∧ _ ∧ _
  exact ⟨rfl, rfl, _, rfl⟩

/-! ## Every such clash leaks -/

/-- The thread has, or is about to give up, a share in buffer `a`, or is about to delete it. -/
def Pc.holds (a : Nat) : Pc T → Prop
  | .idle => False
  | .write r _ => r.blk = a
  | .cow r _ => r.blk = a
  | .copy .. => False
  | .detach r => r.blk = a
  | .wipe r _ => r.blk = a
  | .release r => r.blk = a
  | .free a' => a' = a

/-- A buffer nobody will ever release. -/
structure Lost (s : Sys T) (a : Nat) : Prop where
  there : s.heap a ≠ none
  old : a < s.next
  refs : ∀ r ∈ s.refs, r.blk ≠ a
  pcs : ∀ t, ¬ (s.pc t).holds a

theorem Lost.mk' {s s' : Sys T} {a t : Nat} (h : Lost s a) (hh : s'.heap a = s.heap a ∨ ∃ b, s'.heap a = some b) (hn : s.next ≤ s'.next)
    (hr : ∀ r ∈ s'.refs, r ∈ s.refs ∨ r.blk ≠ a) (hp : ∀ t', t' ≠ t → s'.pc t' = s.pc t') (ht : ¬ (s'.pc t).holds a) : Lost s' a := by
  refine ⟨?_, Nat.lt_of_lt_of_le h.old hn, fun r hr' => (hr r hr').elim (h.refs r) id, fun t' => ?_⟩
  · rcases hh with e | ⟨b, e⟩
    · rw [e]; exact h.there
    · rw [e]; exact nofun
  · by_cases e : t' = t
    · rw [e]; exact ht
    · rw [hp t' e]; exact h.pcs t'

theorem Lost.step {w : Option (Nat → T)} {s s' : Sys T} {a t : Nat} {act : Act T} {seen : Option (List T)} (h : Lost s a)
    (hs : step w s t act = .ok s' seen) : Lost s' a := by
  have hpo := step_pc hs
  have hp := h.pcs t
  have hf : ∀ {o r}, s.find t o = some r → r.blk ≠ a := fun e => h.refs _ (find_some e).1
  have hset : ∀ (b : Nat) (x : Blk T), (s.setBlk b (some x)).heap a = s.heap a ∨ ∃ y, (s.setBlk b (some x)).heap a = some y := by
    intro b x
    by_cases e : a = b
    · exact Or.inr ⟨x, by simp [Sys.setBlk, e]⟩
    · exact Or.inl (by simp [Sys.setBlk, e])
  have hne : s.next ≠ a := Nat.ne_of_gt h.old
  unfold Conc.step Sys.access at hs
  cases hpc : s.pc t with
  | idle =>
    rw [hpc] at hs
    cases act with
    | make o xs =>
      dsimp only at hs
      split at hs
      · cases hs
      · cases hs
        refine h.mk' (hset _ _) (Nat.le_succ _) (fun r hr => ?_) hpo (by show ¬ (s.pc t).holds a; exact hp)
        rcases List.mem_cons.mp hr with rfl | hr
        · exact Or.inr hne
        · exact Or.inl hr
    | dup o t' o' =>
      dsimp only at hs
      split at hs
      · cases hs
      · rename_i r hr
        split at hs
        · cases hs
        · split at hs
          · cases hs
          · cases hs
            refine h.mk' (hset _ _) (Nat.le_refl _) (fun q hq => ?_) hpo (by show ¬ (s.pc t).holds a; exact hp)
            rcases List.mem_cons.mp hq with rfl | hq
            · exact Or.inr (show r.blk ≠ a from hf hr)
            · exact Or.inl hq
    | move o t' o' =>
      dsimp only at hs
      split at hs
      · cases hs
      · rename_i r hr
        split at hs
        · cases hs
        · cases hs
          refine h.mk' (Or.inl rfl) (Nat.le_refl _) (fun q hq => ?_) hpo (by show ¬ (s.pc t).holds a; exact hp)
          rcases List.mem_cons.mp hq with rfl | hq
          · exact Or.inr (show r.blk ≠ a from hf hr)
          · exact Or.inl (List.mem_of_mem_erase hq)
    | window o off len =>
      dsimp only at hs
      split at hs
      · cases hs
      · rename_i r hr
        split at hs
        · cases hs
          refine h.mk' (Or.inl rfl) (Nat.le_refl _) (fun q hq => ?_) hpo (by show ¬ (s.pc t).holds a; exact hp)
          rcases List.mem_cons.mp hq with rfl | hq
          · exact Or.inr (show r.blk ≠ a from hf hr)
          · exact Or.inl (List.mem_of_mem_erase hq)
        · cases hs
    | get o =>
      dsimp only at hs
      split at hs
      · cases hs
      · split at hs
        · cases hs
        · cases hs; exact h
    | put o f =>
      dsimp only at hs
      split at hs
      · cases hs
      · rename_i r hr
        split at hs
        · cases hs
        · cases hs
          refine h.mk' (Or.inl rfl) (Nat.le_refl _) (fun q hq => Or.inl hq) hpo ?_
          simp only [Sys.setPc, if_true]
          split <;> exact (show r.blk ≠ a from hf hr)
    | clear o =>
      dsimp only at hs
      split at hs
      · cases hs
      · rename_i r hr
        split at hs
        · cases hs
        · cases hs
          split
          · refine h.mk' (t := t) (Or.inl rfl) (Nat.le_refl _) (fun q hq => Or.inl hq) (fun t' ht => by simp [Sys.setPc, ht]) ?_
            simp only [Sys.setPc, if_true]
            exact (show r.blk ≠ a from hf hr)
          · refine h.mk' (t := t) (Or.inl rfl) (Nat.le_refl _) (fun q hq => ?_) (fun t' ht => rfl) (by show ¬ (s.pc t).holds a; exact hp)
            rcases List.mem_cons.mp hq with rfl | hq
            · exact Or.inr (show r.blk ≠ a from hf hr)
            · exact Or.inl (List.mem_of_mem_erase hq)
    | drop o =>
      dsimp only at hs
      split at hs
      · cases hs
      · rename_i r hr
        have hq' : ∀ q ∈ { r with obj := none } :: s.refs.erase r, q ∈ s.refs ∨ q.blk ≠ a := by
          intro q hq
          rcases List.mem_cons.mp hq with rfl | hq
          · exact Or.inr (show r.blk ≠ a from hf hr)
          · exact Or.inl (List.mem_of_mem_erase hq)
        split at hs
        · cases hs
          refine h.mk' (Or.inl rfl) (Nat.le_refl _) hq' hpo ?_
          simp only [Sys.setPc, if_true]
          exact (show r.blk ≠ a from hf hr)
        · split at hs
          · cases hs
          · cases hs
            refine h.mk' (Or.inl rfl) (Nat.le_refl _) hq' hpo ?_
            simp only [Sys.setPc, if_true]
            exact (show r.blk ≠ a from hf hr)
    | assign o o' =>
      dsimp only at hs
      split at hs
      · rename_i r q hr hq
        split at hs
        · cases hs
        · cases hs
          refine h.mk' (hset _ _) (Nat.le_refl _) (fun q1 hq1 => ?_) hpo ?_
          · rcases List.mem_cons.mp hq1 with rfl | hq1
            · exact Or.inr (show q.blk ≠ a from hf hq)
            · rcases List.mem_cons.mp hq1 with rfl | hq1
              · exact Or.inr (show r.blk ≠ a from hf hr)
              · exact Or.inl (List.mem_of_mem_erase hq1)
          · simp only [Sys.setPc, if_true]
            exact (show r.blk ≠ a from hf hr)
      · cases hs
    | go => cases hs
  | write r f =>
    rw [hpc] at hs hp
    cases act <;> first | (cases hs; done) | skip
    dsimp only at hs
    split at hs
    · cases hs
    · cases hs
      refine h.mk' (hset _ _) (Nat.le_refl _) (fun q hq => ?_) hpo (by simp [Sys.setPc, Pc.holds])
      rcases List.mem_cons.mp hq with rfl | hq
      · exact Or.inr hp
      · exact Or.inl (List.mem_of_mem_erase hq)
  | cow r f =>
    rw [hpc] at hs hp
    cases act <;> first | (cases hs; done) | skip
    dsimp only at hs
    split at hs
    · cases hs
    · cases hs
      exact h.mk' (hset _ _) (Nat.le_refl _) (fun q hq => Or.inl (List.mem_of_mem_erase hq)) hpo (by simp [Sys.setPc, Pc.holds])
  | copy r f got =>
    rw [hpc] at hs hp
    have hq' : ∀ n, ∀ q ∈ { r with blk := s.next, off := 0, len := n } :: s.refs, q ∈ s.refs ∨ q.blk ≠ a := by
      intro n q hq
      rcases List.mem_cons.mp hq with rfl | hq
      · exact Or.inr hne
      · exact Or.inl hq
    cases act <;> first | (cases hs; done) | skip
    dsimp only at hs
    split at hs
    · cases hs
      exact h.mk' (hset _ _) (Nat.le_succ _) (hq' _) hpo (by simp [Sys.setPc, Pc.holds])
    · split at hs
      · cases hs
      · split at hs
        · cases hs
        · split at hs
          · cases hs
            exact h.mk' (Or.inl rfl) (Nat.le_refl _) (fun q hq => Or.inl hq) hpo (by simp [Sys.setPc, Pc.holds])
          · cases hs
            exact h.mk' (hset _ _) (Nat.le_succ _) (hq' _) hpo (by simp [Sys.setPc, Pc.holds])
  | detach r =>
    rw [hpc] at hs hp
    cases act <;> first | (cases hs; done) | skip
    dsimp only at hs
    split at hs
    · cases hs
    · cases hs
      exact h.mk' (hset _ _) (Nat.le_refl _) (fun q hq => Or.inl (List.mem_of_mem_erase hq)) hpo (by simp [Sys.setPc, Pc.holds])
  | wipe r last =>
    rw [hpc] at hs hp
    cases act <;> first | (cases hs; done) | skip
    dsimp only at hs
    split at hs
    · split at hs
      · cases hs
      · cases hs
        refine h.mk' (hset _ _) (Nat.le_refl _) (fun q hq => Or.inl hq) hpo ?_
        simp only [Sys.setPc, if_true]
        exact hp
    · cases hs
      refine h.mk' (Or.inl rfl) (Nat.le_refl _) (fun q hq => Or.inl hq) hpo ?_
      simp only [Sys.setPc, if_true]
      exact hp
  | release r =>
    rw [hpc] at hs hp
    cases act <;> first | (cases hs; done) | skip
    dsimp only at hs
    split at hs
    · cases hs
    · cases hs
      refine h.mk' (hset _ _) (Nat.le_refl _) (fun q hq => Or.inl (List.mem_of_mem_erase hq)) hpo ?_
      simp only [Sys.setPc, if_true]
      split
      · exact hp
      · exact id
  | free a' =>
    rw [hpc] at hs hp
    cases act <;> first | (cases hs; done) | skip
    dsimp only at hs
    split at hs
    · cases hs
    · cases hs
      refine h.mk' (Or.inl ?_) (Nat.le_refl _) (fun q hq => Or.inl hq) hpo (by simp [Sys.setPc, Pc.holds])
      have : a ≠ a' := fun e => hp e.symm
      simp [Sys.setBlk, Sys.setPc, this]

/-- What any continuation of an execution leads to. -/
inductive Later (w : Option (Nat → T)) : Sys T → Sys T → Prop
  | refl (s : Sys T) : Later w s s
  | step {s s' s'' : Sys T} {t : Nat} {act : Act T} {seen : Option (List T)} : Later w s s' → step w s' t act = .ok s'' seen → Later w s s''

theorem Lost.later {w : Option (Nat → T)} {s s' : Sys T} {a : Nat} (h : Lost s a) (hl : Later w s s') : Lost s' a := by
  induction hl with
  | refl => exact h
  | step _ hs ih => exact ih.step hs

/-- **C58** (refuted) From every state without a clash in the past in which two threads have found the storage of their objects shared,
by these two objects only, and are about to modify them: if both go on, the storage is never released, whatever happens later. -/
theorem c58_refuted_leak_always {w : Option (Nat → T)} {s : Sys T} {v : Vals T} (h : Calm w s v) {t t' : Nat} (hne : t' ≠ t)
    {r r' : Ref} {f f' : List T → List T} (hp : s.pc t = .cow r f) (hp' : s.pc t' = .cow r' f') (hb : r'.blk = r.blk)
    (htwo : ∀ q ∈ s.refs, q.blk = r.blk → q = r ∨ q = r') :
    ∃ s1 s2, step w s t .go = .ok s1 none ∧ step w s1 t' .go = .ok s2 none ∧ ∀ s3, Later w s2 s3 → s3.heap r.blk ≠ none ∧
      ∀ q ∈ s3.refs, q.blk ≠ r.blk := by
  have hI := h.inv
  have h1 := hI.pcs t
  have h2 := hI.pcs t'
  rw [hp] at h1
  rw [hp'] at h2
  obtain ⟨b, hbk, _⟩ := hI.live r h1.1
  have e1 : step w s t .go = .ok { (s.setBlk r.blk (some { b with refs := b.refs - 1 })).setPc t (.copy r f []) with refs := s.refs.erase r } none := by
    unfold Conc.step Sys.access
    rw [hp]
    dsimp only
    rw [hbk]
  have e2 : step w { (s.setBlk r.blk (some { b with refs := b.refs - 1 })).setPc t (.copy r f []) with refs := s.refs.erase r } t' .go =
      .ok { (({ (s.setBlk r.blk (some { b with refs := b.refs - 1 })).setPc t (.copy r f []) with refs := s.refs.erase r } : Sys T).setBlk
        r.blk (some { b with refs := b.refs - 1 - 1 })).setPc t' (.copy r' f' []) with refs := (s.refs.erase r).erase r' } none := by
    have hpc : (({ (s.setBlk r.blk (some { b with refs := b.refs - 1 })).setPc t (.copy r f []) with refs := s.refs.erase r } : Sys T)).pc t' =
        .cow r' f' := by
      show (if t' = t then _ else s.pc t') = _
      rw [if_neg hne, hp']
    have hh : (({ (s.setBlk r.blk (some { b with refs := b.refs - 1 })).setPc t (.copy r f []) with refs := s.refs.erase r } : Sys T)).heap r'.blk =
        some { b with refs := b.refs - 1 } := by
      show (if r'.blk = r.blk then _ else s.heap r'.blk) = _
      rw [if_pos hb]
    unfold Conc.step Sys.access
    rw [hpc]
    dsimp only
    rw [hb] at hh ⊢
    rw [hh]
  refine ⟨_, _, e1, e2, fun s3 hl => ?_⟩
  have hrefs : ∀ q ∈ (s.refs.erase r).erase r', q.blk ≠ r.blk := by
    intro q hq e
    have h3 := (hI.nodup.erase r).mem_erase_iff.mp hq
    have h4 := hI.nodup.mem_erase_iff.mp h3.2
    rcases htwo q h4.2 e with rfl | rfl
    · exact h4.1 rfl
    · exact h3.1 rfl
  have hL : Lost { (({ (s.setBlk r.blk (some { b with refs := b.refs - 1 })).setPc t (.copy r f []) with refs := s.refs.erase r } : Sys T).setBlk
        r.blk (some { b with refs := b.refs - 1 - 1 })).setPc t' (.copy r' f' []) with refs := (s.refs.erase r).erase r' } r.blk := by
    refine ⟨by simp [Sys.setBlk, Sys.setPc], ?_, hrefs, fun t3 => ?_⟩
    · show r.blk < s.next
      refine Nat.lt_of_not_le fun hle => ?_
      rw [hI.fresh _ hle] at hbk
      cases hbk
    · show ¬ (if t3 = t' then Pc.copy r' f' [] else if t3 = t then .copy r f [] else s.pc t3).holds r.blk
      by_cases e' : t3 = t'
      · rw [if_pos e']; exact id
      · by_cases e : t3 = t
        · rw [if_neg e', if_pos e]; exact id
        · rw [if_neg e', if_neg e]
          have hq : ∀ q : Ref, q ∈ s.refs → q.thr = t3 → q.blk ≠ r.blk := by
            intro q hq hqt hqb
            rcases htwo q hq hqb with rfl | rfl
            · exact e (hqt.symm.trans h1.2.1)
            · exact e' (hqt.symm.trans h2.2.1)
          have h3 := hI.pcs t3
          cases hp3 : s.pc t3 with
          | idle => exact id
          | copy _ _ _ => exact id
          | free a => rw [hp3] at h3; exact fun e => h3.2.1 r h1.1 e.symm
          | write q _ => rw [hp3] at h3; exact hq q h3.1 h3.2.1
          | cow q _ => rw [hp3] at h3; exact hq q h3.1 h3.2.1
          | detach q => rw [hp3] at h3; exact hq q h3.1 h3.2.1
          | wipe q _ => rw [hp3] at h3; exact hq q h3.1 h3.2.1
          | release q => rw [hp3] at h3; exact hq q h3.1 h3.2.1
  exact ⟨(hL.later hl).there, (hL.later hl).refs⟩

-- Non-vacuity: the state exists.
example : ∃ s v, Calm none s v ∧ s.pc 0 = .cow ⟨0, some 0, 0, 0, 3⟩ (set 0 9) ∧ s.pc 1 = .cow ⟨1, some 0, 0, 0, 3⟩ (set 1 7) ∧
    s.refs = [⟨1, some 0, 0, 0, 3⟩, ⟨0, some 0, 0, 0, 3⟩] := by
  have h0 : Calm none ({} : Sys Nat) fun _ _ => none := .init
  have h1 := Calm.step (t := 0) (act := .make 0 [1, 2, 3]) h0 nofun rfl
  have h2 := Calm.step (t := 0) (act := .dup 0 1 0) h1 nofun rfl
  have h3 := Calm.step (t := 0) (act := .put 0 (set 0 9)) h2 nofun rfl
  have h4 := Calm.step (t := 1) (act := .put 0 (set 1 7)) h3 nofun rfl
  exact ⟨_, _, h4, rfl, rfl, rfl⟩

/-- **C58** (refuted) From every state without a clash in the past in which a thread copies a buffer that another thread is about to
delete: if that goes on first, the next step of the copy is an access to released memory. -/
theorem c58_refuted_freed_always {w : Option (Nat → T)} {s : Sys T} {v : Vals T} (h : Calm w s v) {t t' : Nat}
    {r : Ref} {f : List T → List T} {got : List T} (hp : s.pc t = .copy r f got) (hp' : s.pc t' = .free r.blk) (h0 : r.len ≠ 0) :
    ∃ s1, step w s t' .go = .ok s1 none ∧ step w s1 t .go = .ub := by
  have h2 := h.inv.pcs t'
  rw [hp'] at h2
  have hne : t ≠ t' := by rintro rfl; rw [hp] at hp'; cases hp'
  cases hb : s.heap r.blk with
  | none => exact absurd hb h2.1
  | some b =>
    refine ⟨(s.setBlk r.blk none).setPc t' .idle, ?_, ?_⟩
    · unfold Conc.step Sys.access
      rw [hp']
      dsimp only
      rw [hb]
    · have e1 : ((s.setBlk r.blk none).setPc t' .idle).pc t = .copy r f got := by
        show (if t = t' then _ else s.pc t) = _
        rw [if_neg hne, hp]
      have e2 : ((s.setBlk r.blk none).setPc t' .idle).heap r.blk = none := by simp [Sys.setBlk, Sys.setPc]
      unfold Conc.step Sys.access
      rw [e1]
      dsimp only
      rw [if_neg h0, e2]

-- Non-vacuity: the state exists.
example : ∃ s v, Calm none s v ∧ s.pc 0 = .copy ⟨0, some 0, 0, 0, 3⟩ (set 0 9) [] ∧ s.pc 1 = .free 0 := by
  have h0 : Calm none ({} : Sys Nat) fun _ _ => none := .init
  have h1 := Calm.step (t := 0) (act := .make 0 [1, 2, 3]) h0 nofun rfl
  have h2 := Calm.step (t := 0) (act := .dup 0 1 0) h1 nofun rfl
  have h3 := Calm.step (t := 0) (act := .put 0 (set 0 9)) h2 nofun rfl
  have h4 := Calm.step (t := 0) (act := .go) h3 (fun _ t' ht hc => by
    have := clash_leaving hc; simp [Sys.setPc, Sys.setBlk, ht, Pc.leaving] at this) rfl
  have h5 := Calm.step (t := 1) (act := .drop 0) h4 nofun rfl
  have h6 := Calm.step (t := 1) (act := .go) h5 (fun _ t' ht hc => by
    by_cases e : t' = 0
    · subst e; exact hc
    · have := clash_leaving hc; simp [Sys.setPc, Sys.setBlk, Sys.setRef, ht, e, Pc.leaving] at this) rfl
  exact ⟨_, _, h6, rfl, rfl⟩

end Bdlib.Conc
