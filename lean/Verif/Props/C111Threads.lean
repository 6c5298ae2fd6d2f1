import Verif.Props.C58

/-!
# C111 Builds with assertions: threads

Two assertions read the reference counter, which other threads change: `assert(isShared())` in `COW`
(`ReferenceCountedArray.h` 387), evaluated after `AboutToModify` (408) has found the storage shared, and
`assert(ref == rcount())` in `split` (`String.cpp` 233), where `ref` is what `rcount()` was at the beginning (199) and
one for each piece.  Both are about memory that is shared by distinct objects, which threads may use at the same time.
-/

namespace Bdlib.Conc
open Bdlib

variable {T : Type}

/-- Thread `t` has found the storage of its object shared and is about to leave it; if it evaluates
`assert(isShared())` (`ReferenceCountedArray.h` 387) in this state, the assertion fails. -/
def CowFails (s : Sys T) (t : Nat) : Prop :=
  ∃ r f b, s.pc t = .cow r f ∧ s.heap r.blk = some b ∧ ¬ b.refs > 1

theorem Inv.cow_holds {s : Sys T} {v : Vals T} (h : Inv s v) (t : Nat) : ¬ CowFails s t := by
  rintro ⟨r, f, b, hpc, hb, hle⟩
  have hp := h.pcs t
  rw [hpc] at hp
  obtain ⟨hr, _, ⟨q, hq, hne, hqb⟩, _⟩ := hp
  have hc := h.cnt _ _ hb
  have h1 := count_erase hr r.blk
  rw [if_pos rfl] at h1
  have hq' : q ∈ s.refs.erase r := h.nodup.mem_erase_iff.mpr ⟨hne, hq⟩
  have h2 := count_erase hq' r.blk
  rw [if_pos hqb] at h2
  unfold count at h1 h2
  omega

/-- **C111** Whenever thread `t` evaluates the assertion of copy-on-write, it holds: in every execution without a clash, for any number
of threads, objects and steps.  Partial: with clashes see `c111_refuted_cow`. -/
theorem c111_cow_calm_partial {w : Option (Nat → T)} {s : Sys T} {v : Vals T} (h : Calm w s v) (t : Nat) : ¬ CowFails s t :=
  h.inv.cow_holds t

/-- **C111** … and under every interleaving of threads that share no storage. -/
theorem c111_cow_private {w : Option (Nat → T)} {s : Sys T} {v : Vals T} (h : Exec w privateAct s v) (t : Nat) : ¬ CowFails s t :=
  c111_cow_calm_partial h.passing.separate.1 t

/-- **C111** (refuted) One thread modifies its object, another one destroys its own copy in the meantime: the assertion fails, and
the program ends.  Without assertions this execution is one that leaks (`c58_refuted_leak_destroy`). -/
theorem c111_refuted_cow : ∃ (s : Sys Nat) (v : Vals Nat), Exec none anyAct s v ∧ CowFails s 0 := by
  refine Runs.exec (l := two ++ [(0, .put 0 (set 0 9)), (1, .drop 0), (1, .go)]) ?_ (fun _ _ => trivial)
  exact ⟨_, _, _, rfl, rfl, by decide⟩

/-! ## `split` -/

/-- How many objects of thread `t` use storage `a`. -/
def ours (s : Sys T) (t a : Nat) : Nat := s.refs.countP fun r => decide (r.blk = a ∧ r.thr = t)

/-- How many objects of other threads use storage `a`. -/
def theirs (s : Sys T) (t a : Nat) : Nat := s.refs.countP fun r => decide (r.blk = a ∧ r.thr ≠ t)

theorem ours_theirs (s : Sys T) (t a : Nat) : s.refs.countP (fun r => decide (r.blk = a)) = ours s t a + theirs s t a := by
  unfold ours theirs
  induction s.refs with
  | nil => rfl
  | cons r l ih =>
    simp only [List.countP_cons, ih]
    by_cases h1 : r.blk = a <;> by_cases h2 : r.thr = t <;> simp [h1, h2] <;> omega

/-- **C111** The assertion at the end of `split`, for threads that copy, slice, read, assign and destroy objects sharing storage, under
every interleaving.  Thread `t` calls `split`, reads the counter in state `s` and, having made `k` pieces, again in `s'`.  The
assertion holds exactly if as many objects of other threads use the storage as at the beginning. -/
theorem c111_split_exactly {w : Option (Nat → T)} {s s' : Sys T} {v v' : Vals T} (h : Exec w plainAct s v) (h' : Exec w plainAct s' v')
    {t a k : Nat} {b b' : Blk T} (hb : s.heap a = some b) (hb' : s'.heap a = some b') (hk : ours s' t a = ours s t a + k) :
    b'.refs = b.refs + k ↔ theirs s' t a = theirs s t a := by
  have e := (c58_plain h).1.count a b hb
  have e' := (c58_plain h').1.count a b' hb'
  rw [ours_theirs s t a] at e
  rw [ours_theirs s' t a] at e'
  omega

/-- **C111** (refuted) Thread 0 calls `split` on its string and makes one piece; meanwhile thread 1 destroys its own copy of the string.
The counter was 2 and is 2 again, not 3: the assertion fails, and the program ends, although both threads used their own objects
only and nothing else went wrong. -/
theorem c111_refuted_split : ∃ (s s' : Sys Nat) (v v' : Vals Nat) (b b' : Blk Nat), Exec none plainAct s v ∧
    run none [(0, .dup 0 0 5), (0, .window 5 0 1), (1, .drop 0), (1, .go)] s v = some (s', v') ∧ Exec none plainAct s' v' ∧
    s.heap 0 = some b ∧ s'.heap 0 = some b' ∧ ours s' 0 0 = ours s 0 0 + 1 ∧ b'.refs ≠ b.refs + 1 := by
  obtain ⟨s, v, h, hQ⟩ : ∃ s v, Exec none plainAct s v ∧ run none two {} (fun _ _ => none) = some (s, v) := by
    refine ⟨_, _, run_exec two .init (by simp [two, plainAct]) rfl, rfl⟩
  cases hQ
  refine ⟨_, _, _, _, _, _, h, rfl, run_exec [(0, .dup 0 0 5), (0, .window 5 0 1), (1, .drop 0), (1, .go)] h
    (by simp [plainAct]) rfl, rfl, rfl, rfl, ?_⟩
  decide

-- Non-vacuity: a thread is about to evaluate the assertion of copy-on-write while another one, with the same storage, reads.
example : ∃ s v, Calm none s v ∧ (∃ r, s.pc 0 = .cow r (set 0 9)) := by
  have h : Calm none (T := Nat) {} fun _ _ => none := .init
  have h1 := Calm.step (t := 0) (act := .make 0 [1, 2, 3]) h nofun rfl
  have h2 := Calm.step (t := 0) (act := .dup 0 1 0) h1 nofun rfl
  have h3 := Calm.step (t := 0) (act := .put 0 (set 0 9)) h2 nofun rfl
  exact ⟨_, _, h3, _, rfl⟩

-- Non-vacuity: a thread splits its string into two pieces while another thread copies its own string and destroys the copy.
example : ∃ s v, Exec none plainAct s v ∧ s.heap 0 = some ⟨4, [1, 2, 3]⟩ ∧ ours s 0 0 = 3 ∧ theirs s 0 0 = 1 := by
  refine Runs.exec (l := two ++ [(0, .dup 0 0 5), (1, .dup 0 1 6), (0, .window 5 0 1), (1, .drop 6), (0, .dup 0 0 7), (1, .go)]) ?_ (by simp [two, plainAct])
  show _ ∧ _ ∧ _
  exact ⟨rfl, rfl, rfl⟩

end Bdlib.Conc
