import Verif.Props.C91
import Verif.Props.C63

/-!
# C92 Linked variables: exceptions, and linking when memory runs out

Proved: with memory, hooks that return and conversions that do not throw, everything is as in C63
(`c92_write_partial`, `c92_link_partial`), so what is proved there holds; and if `linkVar` for a buffer cannot get
its first allocation, nothing happened (`c92_link_first`).

Refuted: a hook that throws throws through the interpreter (`c92_refuted_hook`, `c92_refuted_hook_buffer`); so does running out of memory for
the copy that a hook is shown (`c92_refuted_copy`); a `linkVar` that throws may have linked the variable without its hook (`c92_refuted_half`); if the new value of a linked
variable cannot be made, the old one is lost and the exception goes through the interpreter (`c92_refuted_lost`);
and if `linkVar` for a buffer runs out of memory after the traces have been set, the traces stay and refer to
released memory: the next read by a script is undefined (`c92_refuted_dangling`).
-/

namespace Bdlib.Tcl
open Bdlib Bdlib.Str Bdlib.Spec

variable {V H : Type}

/-- Hooks return without touching anything, and conversions are those of C63. -/
structure Tame (P : Side V H) (parse : Bytes → Option V) : Prop where
  hook : ∀ h old new n s, P.hook h old new n s = .ret () n s
  parse : ∀ x n s, P.parse x n s = match parse x with
    | some v => .ret v n s
    | none => .ub

/-- The outcome of code as C63 gives it: undefined, or a result and a state. -/
def Gives {S α : Type} (r : Ran S α) : Option (S × α) → Prop
  | none => r = .ub
  | some (s, a) => ∃ n, r = .ret a n s

theorem nameString_ok {S : Type} (x : Bytes) (n : Nat) (s : S) : ∃ n', nameString plenty x n s = .ret () n' s := by
  unfold nameString
  by_cases h : x = []
  · rw [if_pos h]; exact ⟨_, rfl⟩
  · rw [if_neg h]; exact ⟨_, X.alloc_ok rfl s⟩

theorem read_ok {S : Type} (n : Nat) (s : S) : X.read n s = .ret s n s := rfl
theorem newData_ok (b size n : Nat) (s : LinkSt V H) :
    newData b size n s = .ret s.data.length n { s with data := s.data ++ [some (b, size)] } := rfl
theorem modify_ok {S : Type} (f : S → S) (n : Nat) (s : S) : X.modify f n s = .ret () n (f s) := rfl

variable {P : Side V H} {parse : Bytes → Option V}

theorem callHook_ok (hP : Tame P parse) (x : Bytes) (old new : Seen V) (n : Nat) (s : LinkSt V H) :
    ∃ n', callHook plenty P x old new n s = .ret () n' { s with log := s.log ++ hookCalls s x old new } := by
  obtain ⟨n1, h1⟩ := nameString_ok (S := LinkSt V H) x n s
  unfold callHook
  rw [X.bind_ret h1, X.bind_ret (read_ok _ _)]
  unfold hookCalls
  cases s.hooks x with
  | none => exact ⟨n1, by rw [List.append_nil]; rfl⟩
  | some h => exact ⟨n1, (X.bind_ret (modify_ok _ _ _)).trans (hP.hook _ _ _ _ _)⟩

theorem put_put {A B : Type} [DecidableEq A] (f : A → B) (a : A) (b c : B) : put (put f a b) a c = put f a c := by
  funext x
  unfold put
  split <;> rfl

theorem writeTraceF_ok (hP : Tame P parse) (n x : Bytes) (k : Kind) (m : Nat) (s : LinkSt V H) :
    Gives (writeTraceF plenty P n x k m s) (writeTrace parse s n x k) := by
  cases k with
  | const a => exact ⟨m, rfl⟩
  | text b => exact ⟨m, rfl⟩
  | var a =>
    unfold writeTraceF writeTrace traceSetF
    dsimp only
    obtain ⟨n1, h1⟩ := nameString_ok (S := LinkSt V H) n m s
    have hp := hP.parse x n1 { s with vals := put s.vals a (P.moved (s.vals a)) }
    cases hx : parse x with
    | none =>
      rw [hx] at hp
      refine X.bind_ub ?_
      rw [X.bind_ret h1, X.bind_ret (read_ok _ _), X.bind_ret (modify_ok _ _ _), X.bind_ub hp]
    | some v =>
      rw [hx] at hp
      obtain ⟨n2, h2⟩ := callHook_ok hP n (.val (s.vals a)) (.val v) n1 { s with vals := put s.vals a v }
      refine ⟨n2, X.bind_ret (a := ()) ?_⟩
      rw [X.bind_ret h1, X.bind_ret (read_ok _ _), X.bind_ret (modify_ok _ _ _), X.bind_ret hp, X.bind_ret (modify_ok _ _ _)]
      dsimp only
      rw [put_put]
      exact h2
  | buf d =>
    unfold writeTraceF writeTrace traceSetPtrF
    dsimp only
    obtain ⟨n1, h1⟩ := nameString_ok (S := LinkSt V H) n m s
    obtain ⟨n2, h2⟩ := nameString_ok (S := LinkSt V H) n n1 s
    cases hd : s.data[d]? with
    | none =>
      refine X.bind_ub ?_
      rw [X.bind_ret h1, X.bind_ret h2, X.bind_ret (read_ok _ _), hd]
      rfl
    | some o =>
      cases o with
      | none =>
        refine X.bind_ub ?_
        rw [X.bind_ret h1, X.bind_ret h2, X.bind_ret (read_ok _ _), hd]
        rfl
      | some bs =>
        obtain ⟨b, size⟩ := bs
        dsimp only
        have ha : ∃ n3, copyOld plenty (s.hooks n) n2 s = .ret () n3 s := by
          unfold copyOld
          cases s.hooks n with
          | none => exact ⟨_, rfl⟩
          | some h => exact ⟨_, X.alloc_ok rfl s⟩
        obtain ⟨n3, h3⟩ := ha
        cases hst : storeBuf size (s.bufs b) x with
        | none =>
          refine X.bind_ub ?_
          rw [X.bind_ret h1, X.bind_ret h2, X.bind_ret (read_ok _ _), hd]
          dsimp only
          rw [X.bind_ret h3, hst]
          rfl
        | some y =>
          refine ⟨n3, X.bind_ret (a := ()) ?_⟩
          rw [X.bind_ret h1, X.bind_ret h2, X.bind_ret (read_ok _ _), hd]
          dsimp only
          rw [X.bind_ret h3, hst]
          dsimp only
          rw [X.bind_ret (modify_ok _ _ _)]
          unfold hookCalls
          cases s.hooks n with
          | none => dsimp only; rw [List.append_nil]; rfl
          | some h => exact (X.bind_ret (modify_ok _ _ _)).trans (hP.hook _ _ _ _ _)

theorem writeTracesF_ok (hP : Tame P parse) (n x : Bytes) : ∀ (ts : List Trace) (m : Nat) (s : LinkSt V H),
    Gives (writeTracesF plenty P n x ts m s) (writeTraces parse n x ts s)
  | [], m, s => ⟨m, rfl⟩
  | t :: ts, m, s => by
    unfold writeTracesF writeTraces
    by_cases hr : t.reads = true
    · rw [if_pos hr, if_pos hr]; exact writeTracesF_ok hP n x ts m s
    · rw [if_neg hr, if_neg hr]
      have h1 := writeTraceF_ok hP n x t.kind m s
      cases hw : writeTrace parse s n x t.kind with
      | none => rw [hw] at h1; exact X.bind_ub h1
      | some r =>
        obtain ⟨s1, e⟩ := r
        rw [hw] at h1
        obtain ⟨n1, h1⟩ := h1
        rw [X.bind_ret h1]
        cases e with
        | true => exact ⟨n1, rfl⟩
        | false => exact writeTracesF_ok hP n x ts n1 s1

/-- **C92** With memory, hooks that return and conversions that do not throw, setting a variable does what C63
says. -/
theorem c92_write_partial (hP : Tame P parse) (n x : Bytes) (m : Nat) (s : LinkSt V H) :
    Gives (writeVarF plenty P n x m s) (writeVar parse s n x) := by
  unfold writeVarF writeVar
  rw [X.bind_ret (read_ok _ _), X.bind_ret (modify_ok _ _ _)]
  have h1 := writeTracesF_ok hP n x (tracesOf s n) m { s with vars := put s.vars n (some ⟨x, tracesOf s n⟩) }
  cases hw : writeTraces parse n x (tracesOf s n) { s with vars := put s.vars n (some ⟨x, tracesOf s n⟩) } with
  | none => rw [hw] at h1; exact X.bind_ub h1
  | some r =>
    obtain ⟨s1, e⟩ := r
    rw [hw] at h1
    obtain ⟨n1, h1⟩ := h1
    rw [X.bind_ret h1]
    exact ⟨n1, rfl⟩

theorem setupTracesF_ok (hP : Tame P parse) (n : Bytes) (k : Kind) (hook : Option H) (m : Nat) (s : LinkSt V H) :
    Gives (setupTracesF plenty P n k hook m s) ((setupTraces parse s n k hook).map (·, ())) := by
  unfold setupTracesF setupTraces
  have h1 := c92_write_partial hP n [] m s
  cases hw : writeVar parse s n [] with
  | none => rw [hw] at h1; exact X.bind_ub h1
  | some r =>
    obtain ⟨s1, g⟩ := r
    rw [hw] at h1
    obtain ⟨n1, h1⟩ := h1
    rw [X.bind_ret h1, X.bind_ret (modify_ok _ _ _)]
    cases hook with
    | none => exact ⟨n1, rfl⟩
    | some h =>
      dsimp only
      rw [X.bind_ret (read_ok _ _)]
      dsimp only
      cases hh : s1.hooks n with
      | some _ => exact ⟨n1, (X.bind_ret (a := ()) (n' := n1) rfl).trans (modify_ok _ _ _)⟩
      | none => exact ⟨n1 + 1, (X.bind_ret (X.alloc_ok rfl _)).trans (modify_ok _ _ _)⟩

theorem catching_ret {S α : Type} {m : X S α} {h : Thrown → X S α} {n n' : Nat} {s s' : S} {a : α} (hm : m n s = .ret a n' s') :
    X.catching m h n s = .ret a n' s' := by unfold X.catching; rw [hm]

theorem catching_ub {S α : Type} {m : X S α} {h : Thrown → X S α} {n : Nat} {s : S} (hm : m n s = .ub) :
    X.catching m h n s = .ub := by unfold X.catching; rw [hm]

theorem catching_throw {S α : Type} {m : X S α} {h : Thrown → X S α} {n n' : Nat} {s s' : S} {e : Thrown} (hm : m n s = .throw e n' s') :
    X.catching m h n s = h e n' s' := by unfold X.catching; rw [hm]

/-- **C92** … and so does linking a variable. -/
theorem c92_link_partial (hP : Tame P parse) (n : Bytes) (t : Target) (hook : Option H) (m : Nat) (s : LinkSt V H) :
    Gives (linkVarF plenty P n t hook m s) ((linkVar parse s n t hook).map (·, ())) := by
  cases t with
  | var a => exact setupTracesF_ok hP n (.var a) hook m s
  | const a => exact setupTracesF_ok hP n (.const a) hook m s
  | text b => exact setupTracesF_ok hP n (.text b) hook m s
  | buf b size =>
    unfold linkVarF linkVar linkBufF
    dsimp only
    rw [X.bind_ret (X.alloc_ok (mem := plenty) rfl s), X.bind_ret (newData_ok _ _ _ _)]
    have h1 := setupTracesF_ok hP n (.buf s.data.length) hook (m + 1) { s with data := s.data ++ [some (b, size)] }
    cases hw : setupTraces parse { s with data := s.data ++ [some (b, size)] } n (.buf s.data.length) hook with
    | none =>
      rw [hw] at h1
      exact X.bind_ub (catching_ub (X.bind_ub h1))
    | some s1 =>
      rw [hw] at h1
      obtain ⟨n1, h1⟩ := h1
      cases hp : s1.ptrs n with
      | some d =>
        refine ⟨n1, (X.bind_ret (a := ()) (n' := n1) (s' := s1) (catching_ret ?_)).trans (modify_ok _ _ _)⟩
        rw [X.bind_ret h1, X.bind_ret (read_ok _ _), hp]
        rfl
      | none =>
        refine ⟨n1 + 1, (X.bind_ret (a := ()) (n' := n1 + 1) (s' := s1) (catching_ret ?_)).trans (modify_ok _ _ _)⟩
        rw [X.bind_ret h1, X.bind_ret (read_ok _ _), hp]
        exact X.alloc_ok rfl _

/-- **C92** No memory for the first allocation: nothing happened. -/
theorem c92_link_first (mem : Nat → Bool) (P : Side V H) (n : Bytes) (b size : Nat) (hook : Option H) (m : Nat) (s : LinkSt V H)
    (h : mem m = false) : linkVarF mem P n (.buf b size) hook m s = .throw .other (m + 1) s :=
  X.bind_throw (X.alloc_no h s)

/-! ## Exceptions through the interpreter -/

/-- **C92 refuted** A hook that throws when it gets the old value and the new one: the exception leaves the trace, into the interpreter; the
variable has its new value. -/
theorem c92_refuted_hook {P : Side V H} {n x : Bytes} {a : Nat} {v : V} {h : H} {e : Thrown} {s : LinkSt V H}
    (hh : s.hooks n = some h) (hx : ∀ m s, P.parse x m s = .ret v m s) (hk : ∀ m s', P.hook h (.val (s.vals a)) (.val v) m s' = .throw e m s') (m : Nat) :
    ∃ m' s', writeTraceF plenty P n x (.var a) m s = .throw e m' s' ∧ s'.vals a = v := by
  obtain ⟨n1, h1⟩ := nameString_ok (S := LinkSt V H) n m s
  obtain ⟨n2, h2⟩ := nameString_ok (S := LinkSt V H) n n1 { s with vals := put s.vals a v }
  refine ⟨n2, { s with vals := put s.vals a v, log := s.log ++ [(h, .val (s.vals a), .val v)] }, ?_, by simp [put]⟩
  unfold writeTraceF traceSetF
  dsimp only
  refine X.bind_throw ?_
  rw [X.bind_ret h1, X.bind_ret (read_ok _ _), X.bind_ret (modify_ok _ _ _), X.bind_ret (hx _ _), X.bind_ret (modify_ok _ _ _)]
  dsimp only
  rw [put_put]
  unfold callHook
  rw [X.bind_ret h2, X.bind_ret (read_ok _ _)]
  dsimp only
  rw [hh]
  exact (X.bind_ret (modify_ok _ _ _)).trans (hk _ _)

/-- **C92 refuted** … and the same for a linked buffer of `size` bytes: the hook gets the first `size` bytes of the buffer as they were, and the
buffer as it is now: the text cut off so that a NUL fits behind it. -/
theorem c92_refuted_hook_buffer {P : Side V H} {n x : Bytes} {d b size : Nat} {h : H} {e : Thrown} {s : LinkSt V H} (hd : s.data[d]? = some (some (b, size)))
    (h0 : 0 < size) (hb : size ≤ (s.bufs b).length) (hl : size ≤ x.length + 1) (hh : s.hooks n = some h)
    (hk : ∀ m s', P.hook h (.bytes ((s.bufs b).take size)) (.bytes (x.take (size - 1) ++ [0] ++ (s.bufs b).drop size)) m s' = .throw e m s') (m : Nat) :
    ∃ m' s', writeTraceF plenty P n x (.buf d) m s = .throw e m' s' ∧ s'.bufs b = x.take (size - 1) ++ [0] ++ (s.bufs b).drop size := by
  have hy : storeBuf size (s.bufs b) x = some (x.take (size - 1) ++ [0] ++ (s.bufs b).drop size) := by
    unfold storeBuf
    rw [if_neg (by omega)]
    refine congrArg some (List.ext_getElem? fun i => ?_)
    simp only [List.getElem?_set, List.getElem?_append, List.length_append, List.length_take, List.length_singleton, List.getElem?_take]
    grind
  obtain ⟨n1, h1⟩ := nameString_ok (S := LinkSt V H) n m s
  obtain ⟨n2, h2⟩ := nameString_ok (S := LinkSt V H) n n1 s
  have h3 : copyOld plenty (s.hooks n) n2 s = .ret () (n2 + 1) s := by
    unfold copyOld
    rw [hh]
    exact X.alloc_ok rfl s
  generalize x.take (size - 1) ++ [0] ++ (s.bufs b).drop size = y at *
  refine ⟨n2 + 1, { s with bufs := put s.bufs b y, log := s.log ++ [(h, .bytes ((s.bufs b).take size), .bytes y)] }, ?_, by simp [put]⟩
  unfold writeTraceF traceSetPtrF
  dsimp only
  refine X.bind_throw ?_
  rw [X.bind_ret h1, X.bind_ret h2, X.bind_ret (read_ok _ _), hd]
  dsimp only
  rw [X.bind_ret h3, hy]
  dsimp only
  rw [X.bind_ret (modify_ok _ _ _), hh]
  exact (X.bind_ret (modify_ok _ _ _)).trans (hk _ _)

/-- **C92 refuted** The new value cannot be made: the exception leaves the trace, and the variable is what moving
left of it. -/
theorem c92_refuted_lost {mem : Nat → Bool} {P : Side V H} {n x : Bytes} {a : Nat} {s : LinkSt V H} {m m' : Nat}
    (h1 : nameString mem n m s = .ret () m' s) (hx : ∀ s, P.parse x m' s = .throw .other (m' + 1) s) :
    ∃ s', writeTraceF mem P n x (.var a) m s = .throw .other (m' + 1) s' ∧ s'.vals a = P.moved (s.vals a) := by
  refine ⟨{ s with vals := put s.vals a (P.moved (s.vals a)) }, ?_, by simp [put]⟩
  unfold writeTraceF traceSetF
  dsimp only
  refine X.bind_throw ?_
  rw [X.bind_ret h1, X.bind_ret (read_ok _ _), X.bind_ret (modify_ok _ _ _), X.bind_throw (hx _)]

/-- **C92 refuted** A linked buffer with a hook, and no memory for the copy of the old bytes: the exception leaves the trace, and the buffer keeps them,
while a buffer without a hook would have been written. -/
theorem c92_refuted_copy {mem : Nat → Bool} {P : Side V H} {n x : Bytes} {d b size : Nat} {h : H} {s : LinkSt V H} (hd : s.data[d]? = some (some (b, size)))
    (hh : s.hooks n = some h) (hn : n ≠ []) {m : Nat} (h1 : mem m = true) (h2 : mem (m + 1) = true) (h3 : mem (m + 2) = false) :
    writeTraceF mem P n x (.buf d) m s = .throw .other (m + 3) s ∧
      ∀ y, storeBuf size (s.bufs b) x = some y →
        writeTraceF mem P n x (.buf d) m { s with hooks := fun _ => none } = .ret false (m + 2) { s with hooks := fun _ => none, bufs := put s.bufs b y } := by
  have e1 : ∀ s : LinkSt V H, nameString mem n m s = .ret () (m + 1) s := fun s => by
    unfold nameString; rw [if_neg hn]; exact X.alloc_ok h1 s
  have e2 : ∀ s : LinkSt V H, nameString mem n (m + 1) s = .ret () (m + 2) s := fun s => by
    unfold nameString; rw [if_neg hn]; exact X.alloc_ok h2 s
  constructor
  · unfold writeTraceF traceSetPtrF
    dsimp only
    refine X.bind_throw ?_
    rw [X.bind_ret (e1 _), X.bind_ret (e2 _), X.bind_ret (read_ok _ _), hd]
    dsimp only
    refine X.bind_throw ?_
    unfold copyOld
    rw [hh]
    exact X.alloc_no h3 s
  · intro y hy
    unfold writeTraceF traceSetPtrF
    dsimp only
    refine X.bind_ret (a := ()) ?_
    rw [X.bind_ret (e1 _), X.bind_ret (e2 _), X.bind_ret (read_ok _ _)]
    dsimp only
    rw [hd]
    dsimp only
    have h4 : copyOld (V := V) mem (none : Option H) (m + 2) { s with hooks := fun _ => none } = .ret () (m + 2) { s with hooks := fun _ => none } := rfl
    rw [X.bind_ret h4, hy]
    dsimp only
    exact X.bind_ret (modify_ok _ _ _)

/-! ## Half a link -/

/-- **C92 refuted** Linking a new name to anything but a buffer, with a hook, and no memory for the entry in the table of hooks: `linkVar` throws, but the
variable is linked, without the hook: the state is the one that linking without a hook gives. -/
theorem c92_refuted_half {mem : Nat → Bool} (P : Side V H) {n : Bytes} {t : Target} (h : H) {m : Nat} {s : LinkSt V H} (ht : ∀ b size, t ≠ .buf b size)
    (hnew : s.vars n = none) (hno : s.hooks n = none) (h1 : mem m = false) :
    ∃ s', linkVarF mem P n t (some h) m s = .throw .other (m + 1) s' ∧ linkVarF mem P n t none m s = .ret () m s' ∧ s'.vars n ≠ none ∧ s'.hooks n = none := by
  have key : ∀ k : Kind, ∃ s', setupTracesF mem P n k (some h) m s = .throw .other (m + 1) s' ∧ setupTracesF mem P n k none m s = .ret () m s' ∧
      s'.vars n ≠ none ∧ s'.hooks n = none := by
    intro k
    have ht : tracesOf s n = [] := by unfold tracesOf; rw [hnew]
    have hw : writeVarF mem P n [] m s = .ret .done m { s with vars := put s.vars n (some ⟨[], []⟩) } := by
      unfold writeVarF
      rw [X.bind_ret (read_ok _ _), X.bind_ret (modify_ok _ _ _), ht]
      rfl
    refine ⟨{ s with vars := put (put s.vars n (some ⟨[], []⟩)) n (some ⟨[], ⟨false, k⟩ :: ⟨true, k⟩ ::
      tracesOf { s with vars := put s.vars n (some ⟨[], []⟩) } n⟩) }, ?_, ?_, by simp [put], hno⟩
    · unfold setupTracesF
      rw [X.bind_ret hw, X.bind_ret (modify_ok _ _ _)]
      dsimp only
      rw [X.bind_ret (read_ok _ _)]
      dsimp only
      rw [hno]
      exact X.bind_throw (X.alloc_no h1 _)
    · unfold setupTracesF
      rw [X.bind_ret hw, X.bind_ret (modify_ok _ _ _)]
      rfl
  cases t with
  | var a => exact key (.var a)
  | const a => exact key (.const a)
  | text b => exact key (.text b)
  | buf b size => exact absurd rfl (ht b size)

/-! ## Traces that refer to released memory -/

/-- **C92 refuted** Linking a new name to a buffer, with a hook, and no memory for the entry in the table of hooks:
`linkVar` throws, but the script variable is there, and reading it is undefined. -/
theorem c92_refuted_dangling (mem : Nat → Bool) (P : Side V H) (toTcl : V → Option Bytes) (n : Bytes) (b size : Nat) (h : H) (m : Nat)
    (s : LinkSt V H) (hnew : s.vars n = none) (hno : s.hooks n = none) (h1 : mem m = true) (h2 : mem (m + 1) = false) :
    ∃ m' s', linkVarF mem P n (.buf b size) (some h) m s = .throw .other m' s' ∧ readVar toTcl s' n = none := by
  have ht : tracesOf { s with data := s.data ++ [some (b, size)] } n = [] := by unfold tracesOf; dsimp only; rw [hnew]
  refine ⟨m + 2, { s with
    vars := put (put s.vars n (some ⟨[], []⟩)) n (some ⟨[], [⟨false, .buf s.data.length⟩, ⟨true, .buf s.data.length⟩]⟩)
    data := (s.data ++ [some (b, size)]).set s.data.length none }, ?_, ?_⟩
  · unfold linkVarF linkBufF
    dsimp only
    refine (X.bind_ret (X.alloc_ok h1 s)).trans ?_
    refine (X.bind_ret (newData_ok _ _ _ _)).trans ?_
    refine X.bind_throw ((catching_throw (e := .other) (n' := m + 2) (s' := { s with
      vars := put (put s.vars n (some ⟨[], []⟩)) n (some ⟨[], [⟨false, .buf s.data.length⟩, ⟨true, .buf s.data.length⟩]⟩)
      data := s.data ++ [some (b, size)] }) (X.bind_throw ?_)).trans ?_)
    · unfold setupTracesF
      have hw : writeVarF mem P n [] (m + 1) { s with data := s.data ++ [some (b, size)] } = .ret .done (m + 1)
          { s with vars := put s.vars n (some ⟨[], []⟩), data := s.data ++ [some (b, size)] } := by
        unfold writeVarF
        rw [X.bind_ret (read_ok _ _), X.bind_ret (modify_ok _ _ _), ht]
        rfl
      have ht2 : tracesOf { s with vars := put s.vars n (some ⟨[], []⟩), data := s.data ++ [some (b, size)] } n = [] := by
        unfold tracesOf put; simp
      rw [X.bind_ret hw, X.bind_ret (modify_ok _ _ _), ht2]
      dsimp only
      rw [X.bind_ret (read_ok _ _)]
      dsimp only
      rw [hno]
      exact X.bind_throw (X.alloc_no h2 _)
    · exact (X.bind_ret (modify_ok _ _ _)).trans rfl
  · unfold readVar
    dsimp only
    have hv : put (put s.vars n (some (⟨[], []⟩ : TclVar))) n (some ⟨[], [⟨false, .buf s.data.length⟩, ⟨true, .buf s.data.length⟩]⟩) n =
        some ⟨[], [⟨false, .buf s.data.length⟩, ⟨true, .buf s.data.length⟩]⟩ := by unfold put; rw [if_pos rfl]
    rw [hv]
    dsimp only [readTraces]
    rw [if_neg Bool.false_ne_true, if_pos rfl]
    dsimp only [readTrace]
    rw [List.getElem?_set_self (by simp)]

/-! ## Witnesses -/

/-- Text variables; hook 1 throws; no memory for a value means `std::bad_alloc`. -/
def texts (mem : Nat → Bool) : Side Bytes Nat where
  parse := fun x => do X.alloc mem; return x
  moved := fun _ => []
  hook := fun h _ _ => if h = 1 then X.raise .other else pure ()

/-- A side as in `Tame`: no allocations, no throwing hooks. -/
def tame : Side Bytes Nat := ⟨fun x => pure x, fun _ => [], fun _ _ _ => pure ()⟩

example : Tame tame some := ⟨fun _ _ _ _ _ => rfl, fun _ _ _ => rfl⟩

/-- `x` is linked to variable 0, which is "old", with hook `h`. -/
def linked (h : Nat) : LinkSt Bytes Nat :=
  ((runLinks some some (.init (fun _ => [111, 108, 100]) fun _ => []) [.link [120] (.var 0) (some h), .set 0 [111, 108, 100]]).map (·.1)).getD (.init (fun _ => []) fun _ => [])

example : (linked 1).hooks [120] = some 1 ∧ (linked 1).vals 0 = [111, 108, 100] := by decide +kernel

/-- Hook 1 throws. -/
def throwing : Side Bytes Nat := ⟨fun x => pure x, fun _ => [], fun h _ _ => if h = 1 then X.raise (.text [33]) else pure ()⟩

example : ∃ m' s', writeTraceF plenty throwing [120] [97] (.var 0) 0 (linked 1) = .throw (.text [33]) m' s' ∧ s'.vals 0 = [97] :=
  c92_refuted_hook (P := throwing) (h := 1) (by decide +kernel) (fun _ _ => rfl) (fun _ _ => rfl) 0

/-- `x` is linked to three bytes of the buffer "old!", with hook `h`. -/
def linkedBuf (h : Nat) : LinkSt Bytes Nat :=
  { (LinkSt.init (fun _ => []) fun _ => [111, 108, 100, 33]) with data := [some (0, 3)], hooks := fun _ => some h }

/-- A hook that throws if "old" is replaced by "ne". -/
def pickyHook : Side Bytes Nat := ⟨fun x => pure x, fun _ => [], fun _ old new =>
  match old, new with
  | .bytes [111, 108, 100], .bytes [110, 101, 0, 33] => X.raise (.text [33])
  | _, _ => pure ()⟩

example : ∃ m' s', writeTraceF plenty pickyHook [120] [110, 101, 119] (.buf 0) 0 (linkedBuf 1) = .throw (.text [33]) m' s' ∧ s'.bufs 0 = [110, 101, 0, 33] :=
  c92_refuted_hook_buffer (P := pickyHook) (h := 1) (b := 0) (size := 3) rfl (by decide) (by decide) (by decide) rfl (fun _ _ => rfl) 0

/-- No memory from the second allocation on. -/
def one : Nat → Bool := fun n => decide (n < 1)

example : ∃ s', writeTraceF one (texts one) [120] [97] (.var 0) 0 (linked 0) = .throw .other 2 s' ∧ s'.vals 0 = [] :=
  c92_refuted_lost (P := texts one) (m' := 1) rfl fun _ => rfl

/-- No memory from the third allocation on. -/
def onlyTwo : Nat → Bool := fun n => decide (n < 2)

example : writeTraceF onlyTwo tame [120] [110, 101, 119] (.buf 0) 0 (linkedBuf 1) = .throw .other 3 (linkedBuf 1) :=
  (c92_refuted_copy (b := 0) (size := 3) (h := 1) rfl rfl (by decide) rfl rfl rfl).1

example : ∃ m' s', linkVarF one (texts one) [98] (.buf 0 4) (some 0) 0 (linked 0) = .throw .other m' s' ∧ readVar some s' [98] = none :=
  c92_refuted_dangling one (texts one) some [98] 0 4 0 0 (linked 0) (by decide +kernel) (by decide +kernel) rfl rfl

example : ∃ s', linkVarF (fun _ => false) tame [98] (.var 1) (some 0) 0 (linked 0) = .throw .other 1 s' ∧
    linkVarF (fun _ => false) tame [98] (.var 1) none 0 (linked 0) = .ret () 0 s' ∧ s'.vars [98] ≠ none ∧ s'.hooks [98] = none :=
  c92_refuted_half tame 0 (by simp) (by decide +kernel) (by decide +kernel) rfl

end Bdlib.Tcl
