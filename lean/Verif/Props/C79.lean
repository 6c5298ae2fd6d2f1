import Verif.Conc.SameAlone
import Verif.Rca.History
import Verif.Spec.Seq

/-!
# C79 `const` calls on one object by several threads

The model is `Verif/Conc/Same.lean`: any number of threads call `length()`, `at()`, `hash()`, `c_str()` on one
`String` and copy it, without a lock, while other objects that may share its buffer are read, copied and
destroyed.

Proved, for every interleaving: if there is a NUL behind the value, or nobody calls `c_str()`, every call gives
what it would give alone, in a bounded number of its thread's own steps; and if moreover the hash is cached, or
nobody calls `hash()`, there is no data race.  So after one `c_str()` and one `hash()` an object can be shared.

Refuted: `hash()` on an object whose hash is not cached races; `c_str()` on a piece of a larger buffer leads to
accesses to released memory and through null pointers, to other threads seeing an empty string, and to a wrong
hash that stays.
-/

namespace Bdlib.Same
open Bdlib

variable {hasher : UInt8 → UInt64} {P : Call → Prop} {s₀ s : Sys} {v : List UInt8}

/-- What a call on the common object, whose value is `v`, must give: `h` is memory after the call, `h₀` memory
before the threads started. -/
def Right (hasher : UInt8 → UInt64) (v : List UInt8) (h₀ h : Nat → Option Blk) : Seen → Prop
  | .length n => n = v.length
  | .at i x => x = v[i]?
  | .hash r => r.toNat = Spec.djb (fun x => (hasher x).toNat) v
  | .copy o => value h o = some v ∧ (o.hash = 0 ∨ o.hash.toNat = Spec.djb (fun x => (hasher x).toNat) v)
  | .cStr bs => bs = v.takeWhile (· ≠ 0) ++ [0]
  | .other o bs => value h₀ o = some bs

theorem H_djb (hasher : UInt8 → UInt64) (v : List UInt8) :
    (H hasher v).toNat = Spec.djb (fun x => (hasher x).toNat) v :=
  Rca.hashOf_djb ⟨none, fun _ _ => 0, id, id, fun _ _ => true, false, hasher, fun _ _ => 0, 0⟩ v

theorem Gave.right {h : Nat → Option Blk} {r : Seen} (g : Gave hasher s₀ v h r) : Right hasher v s₀.heap h r := by
  cases r with
  | hash r => exact (congrArg UInt64.toNat g).trans (H_djb hasher v)
  | copy o =>
    refine ⟨g.1, g.2.imp_right fun e => ?_⟩
    rw [e]; exact H_djb hasher v
  | _ => exact g

/-- **C79, values.** Whatever the interleaving, no call accesses memory it must not, and every call gives what
it gives alone.  Missing: `c_str()` without a NUL behind the value (`c79_refuted_c_str`). -/
theorem c79_values_partial (st : Start hasher s₀ v) (hP : P .cStr → Terminated s₀) (r : Reaches hasher P s₀ s)
    (t : Nat) (act : Act) (hact : ∀ c, act = .call c → P c) :
    step hasher s t act ≠ .ub ∧
    ∀ s' seen, step hasher s t act = .ok s' (some seen) → Right hasher v s₀.heap s'.heap seen := by
  have := (Inv.reaches st hP r).step st t act (fun h => hP (hact _ h))
  constructor
  · intro e; rw [e] at this; exact this
  · intro s' seen e
    rw [e] at this
    exact (this.2 seen rfl).right

/-- The value stays, and so do those of the other objects. -/
theorem c79_keeps_partial (st : Start hasher s₀ v) (hP : P .cStr → Terminated s₀) (r : Reaches hasher P s₀ s) :
    value s.heap s.main = some v ∧ ∀ o ∈ s.others, value s.heap o = value s₀.heap o := by
  have i := Inv.reaches st hP r
  exact ⟨i.value_main st, fun o ho => value_congr (i.buf_eq (List.mem_cons_of_mem _ ho))⟩

/-- A place in `hash()`. -/
def Pc.inHash : Pc → Bool
  | .hashGet | .hashTest _ _ | .hashRead _ _ | .hashPut _ => true
  | _ => false

theorem go_inHash {t : Nat} {s' : Sys} {seen : Option Seen} (e : go hasher s t = .ok s' seen) (u : Nat)
    (h : (s'.pc u).inHash = true) : (s.pc u).inHash = true := by
  by_cases hu : u = t
  · subst hu
    unfold go at e
    cases hpc : s.pc u <;> rw [hpc] at e <;> simp only [Pc.inHash] <;> exfalso <;> simp only at e <;>
      (repeat' split at e) <;> (try cases e) <;> (try simp [Pc.inHash] at h) <;> (try split at h) <;> simp [Pc.inHash] at h
  · have : s'.pc u = s.pc u := by
      unfold go at e
      cases hpc : s.pc t <;> rw [hpc] at e <;> simp only at e <;>
        (repeat' split at e) <;> (try cases e) <;> simp [hu]
    rwa [this] at h

theorem inHash_reaches (st : Start hasher s₀ v) (r : Reaches hasher P s₀ s) :
    ∀ u, (s.pc u).inHash = true → P .hash := by
  induction r with
  | init => intro u h; rw [st.idle u] at h; cases h
  | @step s s' t act seen _ hc e ih =>
    intro u h
    cases act with
    | go => exact ih u (go_inHash e u h)
    | call c =>
      simp only [step] at e
      split at e
      · cases e
        simp only at h
        split at h
        · cases c <;> simp [Call.pc, Pc.inHash] at h
          exact hc _ rfl
        · exact ih u h
      · cases e
    | read k =>
      simp only [step] at e
      (repeat' split at e) <;> (try cases e) <;> exact ih u h
    | dup k =>
      simp only [step] at e
      (repeat' split at e) <;> (try cases e) <;> exact ih u h
    | drop k =>
      simp only [step] at e
      (repeat' split at e) <;> (try cases e) <;> exact ih u h

theorem byteLoc_false {m : Obj} {i : Nat} {l : Loc} {w : Bool} (h : (l, w) ∈ byteLoc m i false) : w = false := by
  unfold byteLoc at h
  split at h
  · cases h
  · simp only [List.mem_singleton, Prod.mk.injEq] at h; exact h.2

/-- **C79, data races.** If the hash is cached or nobody calls `hash()`, and there is a NUL behind the value or
nobody calls `c_str()`, no two threads ever access the same plain memory with one of them storing.  Missing:
`hash()` when it is not cached (`c79_refuted_hash_race`). -/
theorem c79_race_free_partial (st : Start hasher s₀ v) (hP : P .cStr → Terminated s₀)
    (hH : P .hash → s₀.main.hash ≠ 0) (r : Reaches hasher P s₀ s) : ¬ Races s := by
  have i := Inv.reaches st hP r
  have key : ∀ t l w, (l, w) ∈ touches s.main (s.pc t) → w = false := by
    intro t l w h
    have hp := i.pc t
    have hh := inHash_reaches st r t
    cases hpc : s.pc t <;> rw [hpc] at hp h hh <;> simp only [At] at hp <;> simp only [touches] at h
    case hashPut x => exact absurd hp.2 (hH (hh rfl))
    all_goals
      first
      | (simp only [List.mem_cons, Prod.mk.injEq, List.not_mem_nil, or_false] at h; rcases h with h | h | h | h <;> exact h.2)
      | (simp only [List.mem_cons, Prod.mk.injEq, List.not_mem_nil, or_false] at h; exact h.2)
      | (exact absurd h (List.not_mem_nil))
      | (rcases List.mem_append.1 h with h | h
         · simp only [List.mem_cons, Prod.mk.injEq, List.not_mem_nil, or_false] at h
           first
           | (rcases h with h | h | h <;> exact h.2)
           | (rcases h with h | h <;> exact h.2)
         · exact byteLoc_false h)
      | (simp only [List.mem_cons, Prod.mk.injEq, List.not_mem_nil, or_false] at h; rcases h with h | h <;> exact h.2)
  rintro ⟨t, t', l, w, w', _, h, h', hw⟩
  rcases hw with hw | hw
  · exact absurd (key t l w h) (by rw [hw]; decide)
  · exact absurd (key t' l w' h') (by rw [hw]; decide)

/-- **C79, preparing an object.** `c_str()` by one thread alone gives the value as a C string, and leaves the
object, with the same value, such that any number of threads may call `c_str()` from then on; the other objects
keep their values.  (The byte behind the value must be part of the buffer, see C17.) -/
theorem c79_prepare (st : Start hasher s₀ v) (hbyte : s₀.main.len = 0 ∨ (byteAt s₀.heap s₀.main s₀.main.len).isSome)
    (hfresh : s₀.heap s₀.next = none) (t : Nat) :
    ∃ n s' s'', exec hasher s₀ ((t, .call .cStr) :: steps t n) = some s' ∧
      step hasher s' t .go = .ok s'' (some (.cStr (v.takeWhile (· ≠ 0) ++ [0]))) ∧
      Start hasher s'' v ∧ Terminated s'' ∧ s''.others = s₀.others ∧ ∀ o ∈ s₀.others, value s''.heap o = value s₀.heap o :=
  cStr_alone st hbyte hfresh t

/-! ## Every call finishes -/

/-- Own steps a thread still makes in its call, at most; `n` is the length of the value. -/
def rank (n : Nat) : Pc → Nat
  | .idle => 0
  | .length => 1
  | .atRead _ => 1
  | .atCheck _ => 2
  | .hashPut _ => 1
  | .hashTest i _ => 2 * (n - i) + 2
  | .hashRead i _ => 2 * (n - i) + 1
  | .hashGet => 2 * n + 3
  | .copyInc _ => 1
  | .copyRead => 2
  | .cRet => 1
  | .cByte => 2
  | .cLen => 3
  | _ => 0

theorem rank_go (st : Start hasher s₀ v) (i : Inv hasher s₀ v s) {t : Nat} {s' : Sys} {seen : Option Seen}
    (e : go hasher s t = .ok s' seen) : rank v.length (s'.pc t) < rank v.length (s.pc t) := by
  have hv := i.val st
  have hp := i.pc t
  unfold go at e
  cases hpc : s.pc t <;> rw [hpc] at e hp <;> simp only [At] at hp <;> simp only at e
  case cByte =>
    split at e
    · cases e
    · rename_i x hx
      cases e
      have := i.go st t
      simp only [Same.go, hpc, hx] at this
      have h2 := this.1.pc t
      simp only [if_true] at h2 ⊢
      split
      · simp [rank]
      · rename_i h0; simp only [h0, if_false, At] at h2
  all_goals
    (repeat' split at e) <;> (try cases e) <;> simp only [if_true, rank] <;> (try rw [hv.len] at *) <;> omega

/-- A run of steps, in order. -/
inductive Run (hasher : UInt8 → UInt64) (P : Call → Prop) : Sys → List (Nat × Act) → Sys → Prop
  | nil (s : Sys) : Run hasher P s [] s
  | cons (s s' s'' : Sys) (t : Nat) (act : Act) (seen : Option Seen) (l : List (Nat × Act)) : (∀ c, act = .call c → P c) →
      step hasher s t act = .ok s' seen → Run hasher P s' l s'' → Run hasher P s ((t, act) :: l) s''

/-- Steps thread `t` makes inside calls. -/
def goes (t : Nat) (l : List (Nat × Act)) : Nat := l.countP fun x => x == (t, .go)

/-- Calls thread `t` starts. -/
def calls (t : Nat) (l : List (Nat × Act)) : Nat :=
  l.countP fun x => match x with | (u, .call _) => u == t | _ => false

theorem rank_call (n : Nat) (c : Call) : rank n c.pc ≤ 2 * n + 3 := by
  cases c <;> simp [Call.pc, rank]

theorem go_pc {t u : Nat} {s' : Sys} {seen : Option Seen} (e : go hasher s t = .ok s' seen) (hu : u ≠ t) :
    s'.pc u = s.pc u := by
  unfold go at e
  cases hpc : s.pc t <;> rw [hpc] at e <;> simp only at e <;>
    (repeat' split at e) <;> (try cases e) <;> simp [hu]

theorem run_bound (st : Start hasher s₀ v) (hP : P .cStr → Terminated s₀) {l : List (Nat × Act)} {s' : Sys}
    (h : Run hasher P s l s') (t : Nat) : Reaches hasher P s₀ s →
    goes t l ≤ rank v.length (s.pc t) + (2 * v.length + 3) * calls t l := by
  induction h with
  | nil s => intro _; simp [goes, calls]
  | cons s s' s'' u act seen l hc e _ ih =>
    intro r
    have r' := Reaches.step r hc e
    have ih := ih r'
    have i := Inv.reaches st hP r
    simp only [goes, calls, List.countP_cons] at ih ⊢
    cases act with
    | go =>
      simp only [step] at e
      by_cases hu : t = u
      · subst hu
        have := rank_go st i e
        simp only [beq_self_eq_true, if_true, Bool.false_eq_true, if_false, Nat.add_zero]
        omega
      · rw [go_pc e hu] at ih
        have : ((u, Act.go) == (t, Act.go)) = false := by
          simp only [beq_eq_false_iff_ne, ne_eq, Prod.mk.injEq, and_true]
          exact fun h => hu h.symm
        simp only [this, Bool.false_eq_true, if_false]
        omega
    | call c =>
      simp only [step] at e
      split at e
      · rename_i hid
        cases e
        have hg : ((u, Act.call c) == (t, Act.go)) = false := by
          simp only [beq_eq_false_iff_ne, ne_eq, Prod.mk.injEq, reduceCtorEq, and_false, not_false_eq_true]
        simp only [hg, Bool.false_eq_true, if_false]
        simp only at ih
        by_cases hu : t = u
        · subst hu
          simp only [if_true] at ih
          have hr := rank_call v.length c
          simp only [beq_self_eq_true, if_true, Nat.mul_add]
          omega
        · have hu' : (u == t) = false := by simp only [beq_eq_false_iff_ne]; exact fun h => hu h.symm
          simp only [hu, if_false] at ih
          simp only [hu', Bool.false_eq_true, if_false]
          omega
      · cases e
    | read k =>
      have hpc : s'.pc = s.pc := by
        simp only [step] at e
        (repeat' split at e) <;> (try cases e) <;> rfl
      rw [hpc] at ih
      have hg : ((u, Act.read k) == (t, Act.go)) = false := by
        simp only [beq_eq_false_iff_ne, ne_eq, Prod.mk.injEq, reduceCtorEq, and_false, not_false_eq_true]
      simp only [hg, Bool.false_eq_true, if_false]
      omega
    | dup k =>
      have hpc : s'.pc = s.pc := by
        simp only [step] at e
        (repeat' split at e) <;> (try cases e) <;> rfl
      rw [hpc] at ih
      have hg : ((u, Act.dup k) == (t, Act.go)) = false := by
        simp only [beq_eq_false_iff_ne, ne_eq, Prod.mk.injEq, reduceCtorEq, and_false, not_false_eq_true]
      simp only [hg, Bool.false_eq_true, if_false]
      omega
    | drop k =>
      have hpc : s'.pc = s.pc := by
        simp only [step] at e
        (repeat' split at e) <;> (try cases e) <;> rfl
      rw [hpc] at ih
      have hg : ((u, Act.drop k) == (t, Act.go)) = false := by
        simp only [beq_eq_false_iff_ne, ne_eq, Prod.mk.injEq, reduceCtorEq, and_false, not_false_eq_true]
      simp only [hg, Bool.false_eq_true, if_false]
      omega

/-- **C79, no waiting.** A thread inside a call can always go on, and every call is over after at most
`2 * v.length + 3` of its own steps, whatever the other threads do. -/
theorem c79_finishes_partial (st : Start hasher s₀ v) (hP : P .cStr → Terminated s₀) {l : List (Nat × Act)}
    (h : Run hasher P s₀ l s) (t : Nat) :
    goes t l ≤ (2 * v.length + 3) * calls t l ∧ (s.pc t ≠ .idle → ∃ s' seen, step hasher s t .go = .ok s' seen) := by
  have hreach : ∀ {a b : Sys} {l}, Run hasher P a l b → Reaches hasher P s₀ a → Reaches hasher P s₀ b := by
    intro a b l h
    induction h with
    | nil => exact id
    | cons s s' s'' u act seen l hc e _ ih => exact fun r => ih (Reaches.step r hc e)
  constructor
  · have := run_bound st hP h t .init
    rw [st.idle t] at this
    simpa [rank] using this
  · intro hne
    have := (Inv.reaches st hP (hreach h .init)).go st t
    simp only [step]
    cases e : go hasher s t with
    | stuck => rw [e] at this; exact absurd this hne
    | ub => rw [e] at this; exact this.elim
    | ok s' seen => exact ⟨s', seen, rfl⟩

/-! ## What goes wrong otherwise -/

theorem exec_reaches {l : List (Nat × Act)} (hl : ∀ x ∈ l, ∀ c, x.2 = .call c → P c) {s s' : Sys}
    (r : Reaches hasher P s₀ s) (e : exec hasher s l = some s') : Reaches hasher P s₀ s' := by
  induction l generalizing s with
  | nil => cases e; exact r
  | cons x l ih =>
    obtain ⟨t, act⟩ := x
    simp only [exec] at e
    cases h : step hasher s t act with
    | ok s1 seen =>
      rw [h] at e
      exact ih (fun y hy => hl y (List.mem_cons_of_mem _ hy)) (.step r (hl _ (List.mem_cons_self ..)) h) e
    | stuck => rw [h] at e; cases e
    | ub => rw [h] at e; cases e

/-- Only calls from `cs` are started. -/
def only (cs : List Call) (l : List (Nat × Act)) : Bool :=
  l.all fun x => match x.2 with | .call c => cs.contains c | _ => true

theorem exec_any {cs : List Call} {l : List (Nat × Act)} {Q : Sys → Bool} (hl : only cs l = true)
    (h : (exec hasher s₀ l).any Q = true) : ∃ s, Reaches hasher (· ∈ cs) s₀ s ∧ Q s = true := by
  have hl' : ∀ x ∈ l, ∀ c, x.2 = .call c → c ∈ cs := by
    intro x hx c hc
    have := List.all_eq_true.1 hl x hx
    rw [hc] at this
    simpa using this
  cases e : exec hasher s₀ l with
  | none => rw [e] at h; cases h
  | some s => rw [e] at h; exact ⟨s, exec_reaches hl' .init e, h⟩

/-- The outcome is an access it must not make. -/
def Out.isUb : Out → Bool
  | .ub => true
  | _ => false

theorem isUb_iff {o : Out} (h : o.isUb = true) : o = .ub := by cases o <;> simp_all [Out.isUb]

/-- What was seen. -/
def Out.seen : Out → Option Seen
  | .ok _ r => r
  | _ => none

theorem seen_iff {o : Out} {r : Seen} (h : o.seen = some r) : ∃ s', o = .ok s' (some r) := by
  cases o with
  | ok s x => exact ⟨s, by simp only [Out.seen] at h; rw [h]⟩
  | _ => cases h

/-- A piece `"ab"` of a buffer `"abc"` that another object uses as a whole. -/
def piece : Sys where
  main := ⟨some 0, 0, 2, 0⟩
  heap := fun a => if a = 0 then some ⟨2, [97, 98, 99]⟩ else none
  next := 1
  others := [⟨some 0, 0, 3, 0⟩]
  pc := fun _ => .idle

/-- `std::hash<char>`. -/
def byteHash (x : UInt8) : UInt64 := x.toUInt64

theorem piece_start : Start byteHash piece [97, 98] := by
  refine ⟨fun _ => rfl, by decide, .inl rfl, ?_, by decide⟩
  intro o ho a ha
  have : a = 0 := by
    simp only [piece, List.mem_cons, List.not_mem_nil, or_false] at ho
    rcases ho with rfl | rfl <;> (cases ha; rfl)
  subst this
  exact ⟨⟨2, [97, 98, 99]⟩, rfl, by decide⟩

/-- **C79 refuted: released memory.** Two threads call `c_str()` on the piece.  Both find the buffer shared and
both give up a reference, so that the count is too small by one; when a copy of the other object dies, the buffer
is deleted, and reading the other object is an access to released memory. -/
theorem c79_refuted_c_str : ∃ s, Reaches byteHash (· ∈ [.cStr]) piece s ∧
    s.pc 0 = .idle ∧ s.pc 1 = .idle ∧ s.others = piece.others ∧ step byteHash s 2 (.read 0) = .ub := by
  obtain ⟨s, r, h⟩ := exec_any (hasher := byteHash) (cs := [.cStr]) (s₀ := piece)
    (l := [(0, .call .cStr), (1, .call .cStr)] ++ steps 0 5 ++ steps 1 5 ++ steps 0 1 ++ steps 1 1 ++ steps 0 5 ++ steps 1 5 ++
      [(2, .dup 0), (2, .drop 1)])
    (Q := fun s => s.pc 0 == .idle && s.pc 1 == .idle && s.others == piece.others && (step byteHash s 2 (.read 0)).isUb)
    (by decide) (by decide)
  simp only [Bool.and_eq_true, beq_iff_eq] at h
  exact ⟨s, r, h.1.1.1, h.1.1.2, h.1.2, isUb_iff h.2⟩

/-- **C79 refuted: null pointer.** While one thread runs `c_str()` on the piece, `at(0)` in another thread, which
has just checked the index, reads through a null pointer. -/
theorem c79_refuted_null : ∃ s, Reaches byteHash (· ∈ [.cStr, .at 0]) piece s ∧ step byteHash s 1 .go = .ub := by
  obtain ⟨s, r, h⟩ := exec_any (hasher := byteHash) (cs := [.cStr, .at 0]) (s₀ := piece)
    (l := [(0, .call .cStr), (1, .call (.at 0))] ++ steps 1 1 ++ steps 0 7)
    (Q := fun s => (step byteHash s 1 .go).isUb) (by decide) (by decide)
  exact ⟨s, r, isUb_iff h⟩

/-- **C79 refuted: an empty string.** While one thread runs `c_str()` on the piece, `length()` in another thread
gives 0. -/
theorem c79_refuted_length : ∃ s s', Reaches byteHash (· ∈ [.cStr, .length]) piece s ∧
    step byteHash s 1 .go = .ok s' (some (.length 0)) := by
  obtain ⟨s, r, h⟩ := exec_any (hasher := byteHash) (cs := [.cStr, .length]) (s₀ := piece)
    (l := [(0, .call .cStr), (1, .call .length)] ++ steps 0 7)
    (Q := fun s => (step byteHash s 1 .go).seen == some (.length 0)) (by decide) (by decide)
  obtain ⟨s', e⟩ := seen_iff (beq_iff_eq.1 h)
  exact ⟨s, s', r, e⟩

/-- **C79 refuted: a wrong hash that stays.** While one thread runs `c_str()` on the piece, `hash()` in another
thread finds the string empty after the first byte and caches the hash of that byte.  Both calls are over, the
value is what it was, and `hash()` gives that of another string. -/
theorem c79_refuted_hash : ∃ s s', Reaches byteHash (· ∈ [.cStr, .hash]) piece s ∧
    (s.pc 0 = .idle ∧ s.pc 1 = .idle ∧ s.pc 2 = .hashGet) ∧ value s.heap s.main = some [97, 98] ∧
    step byteHash s 2 .go = .ok s' (some (.hash (H byteHash [97]))) ∧ H byteHash [97] ≠ H byteHash [97, 98] := by
  obtain ⟨s, r, h⟩ := exec_any (hasher := byteHash) (cs := [.cStr, .hash]) (s₀ := piece)
    (l := [(0, .call .cStr), (1, .call .hash)] ++ steps 1 3 ++ steps 0 7 ++ steps 1 2 ++ steps 0 4 ++ [(2, .call .hash)])
    (Q := fun s => (s.pc 0 == .idle && s.pc 1 == .idle && s.pc 2 == .hashGet) && value s.heap s.main == some [97, 98] &&
      (step byteHash s 2 .go).seen == some (.hash (H byteHash [97]))) (by decide) (by decide)
  simp only [Bool.and_eq_true, beq_iff_eq] at h
  obtain ⟨s', e⟩ := seen_iff h.2
  exact ⟨s, s', r, ⟨h.1.1.1.1, h.1.1.1.2, h.1.1.2⟩, h.1.2, e, by decide⟩

/-- `"ab"` with its terminator, alone. -/
def ended : Sys where
  main := ⟨some 0, 0, 2, 0⟩
  heap := fun a => if a = 0 then some ⟨1, [97, 98, 0]⟩ else none
  next := 1
  others := []
  pc := fun _ => .idle

theorem ended_start : Start byteHash ended [97, 98] := by
  refine ⟨fun _ => rfl, by decide, .inl rfl, ?_, by decide⟩
  intro o ho a ha
  have : a = 0 := by
    simp only [ended, List.mem_cons, List.not_mem_nil, or_false] at ho
    rcases ho with rfl; cases ha; rfl
  subst this
  exact ⟨⟨1, [97, 98, 0]⟩, rfl, by decide⟩

/-- **C79 refuted: data race.** Two threads call `hash()` on a string whose hash is not cached: both store it.
The values are right where a word is stored in one piece (`c79_values_partial`), but C++ promises nothing. -/
theorem c79_refuted_hash_race : ∃ s, Reaches byteHash (· ∈ [.hash]) ended s ∧ Races s := by
  obtain ⟨s, r, h⟩ := exec_any (hasher := byteHash) (cs := [.hash]) (s₀ := ended)
    (l := [(0, .call .hash), (1, .call .hash)] ++ steps 0 6 ++ steps 1 6)
    (Q := fun s => s.pc 0 == .hashPut (H byteHash [97, 98]) && s.pc 1 == .hashPut (H byteHash [97, 98])) (by decide) (by decide)
  simp only [Bool.and_eq_true, beq_iff_eq] at h
  refine ⟨s, r, 0, 1, .hash, true, true, by decide, ?_, ?_, .inl rfl⟩
  · rw [h.1]; simp [touches]
  · rw [h.2]; simp [touches]

/-- **C79 refuted: data race.** While a thread in `c_str()` is about to give up the storage of a piece, every other thread that is about to read the length or
the cached hash, to read an element or to copy the object races with it. -/
theorem c79_refuted_c_str_race {s : Sys} {t t' a : Nat} {o : Obj} (ht : t ≠ t') (h : s.pc t = .cNull a o) :
    (s.pc t' = .length → Races s) ∧ (s.pc t' = .hashGet → Races s) ∧ (∀ i, s.pc t' = .atRead i → Races s) ∧ (s.pc t' = .copyRead → Races s) := by
  refine ⟨fun h' => ⟨t, t', .len, true, false, ht, ?_, ?_, .inl rfl⟩, fun h' => ⟨t, t', .hash, true, false, ht, ?_, ?_, .inl rfl⟩,
    fun i h' => ⟨t, t', .ref, true, false, ht, ?_, ?_, .inl rfl⟩, fun h' => ⟨t, t', .off, true, false, ht, ?_, ?_, .inl rfl⟩⟩
  all_goals first
    | (rw [h]; simp [touches]; done)
    | (rw [h']; simp [touches]; done)

/-- … which happens. -/
example : ∃ s, Reaches byteHash (· ∈ [.cStr, .length]) piece s ∧ Races s := by
  obtain ⟨s, r, h⟩ := exec_any (hasher := byteHash) (cs := [.cStr, .length]) (s₀ := piece)
    (l := [(0, .call .cStr), (1, .call .length)] ++ steps 0 6)
    (Q := fun s => (match s.pc 0 with | .cNull _ _ => true | _ => false) && s.pc 1 == .length) (by decide) (by decide)
  simp only [Bool.and_eq_true, beq_iff_eq] at h
  refine ⟨s, r, ?_⟩
  cases hp : s.pc 0 with
  | cNull a o => exact (c79_refuted_c_str_race (by decide) hp).1 h.2
  | _ => rw [hp] at h; simp at h

/-! ## The hypotheses are met -/

/-- Three threads on `"ab"` with its terminator: all calls, in any interleaving. -/
example : Start byteHash ended [97, 98] ∧ Terminated ended := ⟨ended_start, .inr (by decide)⟩

/-- The piece, if nobody calls `c_str()`. -/
example {s : Sys} (r : Reaches byteHash (· ≠ .cStr) piece s) : value s.heap s.main = some [97, 98] :=
  (c79_keeps_partial piece_start (fun h => absurd rfl h) r).1

/-- Calls that overlap: two threads hash and a third takes the C string in between. -/
example : (exec byteHash ended ([(0, .call .hash), (1, .call .hash)] ++ steps 0 4 ++ steps 1 3 ++ [(2, .call .cStr)] ++ steps 2 2 ++
    steps 0 2 ++ steps 1 3)).any (fun s => (step byteHash s 2 .go).seen == some (.cStr [97, 98, 0]) &&
      (step byteHash s 1 .go).seen == some (.hash (H byteHash [97, 98]))) = true := by decide

/-- Alone, `c_str()` on the piece does what it should: own storage, terminated, and the other object keeps its. -/
example : (exec byteHash piece ([(0, .call .cStr)] ++ steps 0 10)).any (fun s =>
    (step byteHash s 0 .go).seen == some (.cStr [97, 98, 0]) && value s.heap s.main == some [97, 98] &&
    (s.heap 0).map Blk.refs == some 1 && (s.heap 1).map Blk.refs == some 1) = true := by decide

/-- The piece meets the hypotheses of `c79_prepare`. -/
example : Start byteHash piece [97, 98] ∧ (byteAt piece.heap piece.main piece.main.len).isSome ∧ piece.heap piece.next = none :=
  ⟨piece_start, by decide, rfl⟩

/-- After `hash()` and `c_str()` by one thread the object can be shared without races. -/
example : ∃ s, exec byteHash ended ([(0, .call .cStr)] ++ steps 0 3 ++ [(0, .call .hash)] ++ steps 0 7) = some s ∧
    s.main.hash ≠ 0 ∧ Terminated s := ⟨_, rfl, by decide, .inr (by decide)⟩

end Bdlib.Same
