import Verif.Tcl.Faults
import Verif.Props.C56

/-!
# C91 Exceptions of a command end in the script, not in the interpreter

A command is called by the Tcl interpreter, which is C: an exception that leaves the command is undefined behaviour
there.

Proved: while memory for Strings can be had, no exception leaves a command, whatever its conversions and its
function do and throw, and the script gets the text thrown (`c91_contained_partial`, `c91_reply_partial`); for
functions as in C56 it is the same command (`c91_same`).

Refuted: the name of the command is made a String outside the `try` (`c91_refuted_name`), and the handler for other
exceptions makes a String itself: a function that runs out of memory, with memory still exhausted when the
handler runs, throws through the interpreter (`c91_refuted_handler`).
-/

namespace Bdlib.Tcl
open Bdlib Bdlib.Str Bdlib.Spec

variable {S O P R : Type}

/-- There is always memory. -/
def plenty : Nat → Bool := fun _ => true

/-- No exception leaves the code, from any state. -/
def Contained {α : Type} (m : X S α) : Prop := ∀ n s e n' s', m n s ≠ .throw e n' s'

theorem bind_eq {α β : Type} (m : X S α) (f : α → X S β) : (m >>= f) = X.bind m f := rfl

theorem contained_bind {α β : Type} {m : X S α} {f : α → X S β} (h1 : Contained m) (h2 : ∀ a, Contained (f a)) :
    Contained (m >>= f) := by
  intro n s e n' s' h
  rw [bind_eq] at h
  unfold X.bind at h
  cases hm : m n s with
  | ret a n1 s1 => rw [hm] at h; exact h2 a n1 s1 e n' s' h
  | throw e1 n1 s1 => exact h1 n s e1 n1 s1 hm
  | ub => rw [hm] at h; cases h

theorem contained_pure {α : Type} (a : α) : Contained (pure a : X S α) := fun _ _ _ _ _ h => nomatch (show Ran.ret a _ _ = _ from h)

theorem contained_undef {α : Type} : Contained (X.undef : X S α) := fun _ _ _ _ _ h => nomatch (show Ran.ub = _ from h)

theorem contained_alloc : Contained (X.alloc plenty : X S Unit) :=
  fun n s _ _ _ h => nomatch (show Ran.ret () (n + 1) s = _ from h)

theorem contained_printf (text : Bytes) : Contained (printfF plenty text : X S Bytes) := by
  unfold printfF
  cases printf text with
  | ret b => exact contained_bind contained_alloc fun _ => contained_pure _
  | _ => exact contained_undef

theorem contained_wrongArgs (name : Bytes) (min given : Nat) (usage : Option Bytes) :
    Contained (wrongArgsF plenty name min given usage : X S Bytes) := by
  unfold wrongArgsF
  refine contained_bind (contained_printf _) fun e => ?_
  cases usage with
  | none => exact contained_pure _
  | some u => exact contained_bind (contained_printf _) fun f => contained_bind contained_alloc fun _ => contained_pure _

theorem contained_catching {α : Type} (m : X S α) {h : Thrown → X S α} (hh : ∀ e, Contained (h e)) : Contained (X.catching m h) := by
  intro n s e n' s' he
  unfold X.catching at he
  cases hm : m n s with
  | ret a n1 s1 => rw [hm] at he; cases he
  | throw e1 n1 s1 => rw [hm] at he; exact hh e1 n1 s1 e n' s' he
  | ub => rw [hm] at he; cases he

/-- **C91** While there is memory, no exception leaves a command: for any words, conversions, functions and
results, whatever they throw. -/
theorem c91_contained_partial (str : O → Bytes) (c : FCmd S O P R) (objv : List O) : Contained (dispatchF plenty str c objv) := by
  unfold dispatchF
  cases objv with
  | nil => exact contained_undef
  | cons o ws =>
    refine contained_bind contained_alloc fun _ => ?_
    split
    · exact contained_bind (contained_wrongArgs _ _ _ _) fun _ => contained_pure _
    · refine contained_catching _ fun e => ?_
      cases e with
      | text b => exact contained_pure _
      | other => exact contained_bind contained_alloc fun _ => contained_pure _

/-- Converting the words, running the function and converting its result, without any handler. -/
def FCmd.plain (c : FCmd S O P R) (objv : List O) : X S Bytes := do
  let as ← argumentsF c.params 0 objv
  let r ← c.fn as
  c.out r

theorem plain_bind (c : FCmd S O P R) (objv : List O) (n : Nat) (s : S) :
    (do
      let as ← argumentsF c.params 0 objv
      let r ← c.fn as
      let b ← c.out r
      return Reply.ok b : X S (Reply Bytes)) n s =
      match c.plain objv n s with
      | .ret b n s => .ret (.ok b) n s
      | .throw e n s => .throw e n s
      | .ub => .ub := by
  unfold FCmd.plain
  cases h1 : argumentsF c.params 0 objv n s with
  | ret as n1 s1 =>
    rw [X.bind_ret h1, X.bind_ret h1]
    cases h2 : c.fn as n1 s1 with
    | ret r n2 s2 =>
      rw [X.bind_ret h2, X.bind_ret h2]
      cases h3 : c.out r n2 s2 with
      | ret b n3 s3 => rw [X.bind_ret h3]; rfl
      | throw e n3 s3 => rw [X.bind_throw h3]
      | ub => rw [X.bind_ub h3]
    | throw e n2 s2 => rw [X.bind_throw h2, X.bind_throw h2]
    | ub => rw [X.bind_ub h2, X.bind_ub h2]
  | throw e n1 s1 => rw [X.bind_throw h1, X.bind_throw h1]
  | ub => rw [X.bind_ub h1, X.bind_ub h1]

/-- **C91** … and the script gets the result, or the text that was thrown, or that something else was thrown, with
all effects of the function up to there. -/
theorem c91_reply_partial (str : O → Bytes) (c : FCmd S O P R) (name : O) (ws : List O)
    (h : c.min ≤ ws.length ∧ ws.length ≤ c.max) (n : Nat) (s : S) :
    (∀ b n' s', c.plain (name :: ws) (n + 1) s = .ret b n' s' → ∃ k, dispatchF plenty str c (name :: ws) n s = .ret (.ok b) k s') ∧
    (∀ e n' s', c.plain (name :: ws) (n + 1) s = .throw (.text e) n' s' →
      ∃ k, dispatchF plenty str c (name :: ws) n s = .ret (.error e) k s') ∧
    (∀ n' s', c.plain (name :: ws) (n + 1) s = .throw .other n' s' →
      ∃ k, dispatchF plenty str c (name :: ws) n s = .ret (.error "Unhandled exception.".toUTF8.data.toList) k s') := by
  have hs : sub64 (name :: ws).length 1 = ws.length := by
    unfold sub64
    rw [if_pos (by simp)]
    simp
  have e : dispatchF plenty str c (name :: ws) n s = (X.catching (do
      let as ← argumentsF c.params 0 (name :: ws)
      let r ← c.fn as
      let b ← c.out r
      return Reply.ok b) fun
      | .text e => return .error e
      | .other => do
        X.alloc plenty
        return .error unhandled) (n + 1) s := by
    unfold dispatchF
    refine (X.bind_ret (X.alloc_ok (mem := plenty) rfl s)).trans ?_
    rw [hs, if_neg (by omega)]
    rfl
  rw [e]
  unfold X.catching
  rw [plain_bind]
  refine ⟨fun b n' s' hp => ?_, fun e n' s' hp => ?_, fun n' s' hp => ?_⟩
  · rw [hp]; exact ⟨_, rfl⟩
  · rw [hp]; exact ⟨_, rfl⟩
  · rw [hp]; exact ⟨_, rfl⟩

/-! ## The same command as in C56 -/

/-- A command of C56 whose results are shown by `show'`. -/
def Cmd.lift (S : Type) (c : Cmd O P R) (show' : R → Bytes) : FCmd S O P R where
  params := c.params.map fun p => (fun o => match p.1 o with
    | .ok a => pure a
    | .error e => X.raise (.text e), pure p.2)
  min := c.min
  max := c.max
  usage := c.usage
  fn := fun as => match c.fn as with
    | .ret r => pure r
    | .throwString e => X.raise (.text e)
    | .throwOther => X.raise .other
  out := fun r => pure (show' r)

theorem argumentsF_lift (objv : List O) (n : Nat) (s : S) : ∀ (params : List ((O → Except Bytes P) × P)) (i : Nat),
    argumentsF (params.map fun p => ((fun o => match p.1 o with
      | .ok a => pure a
      | .error e => X.raise (.text e) : O → X S P), (pure p.2 : X S P))) i objv n s =
    match arguments params i objv with
    | .ret (.ok as) => .ret as n s
    | .ret (.error e) => .throw (.text e) n s
    | _ => .ub
  | [], _ => rfl
  | p :: ps, i => by
    simp only [List.map_cons, argumentsF, arguments]
    have ih := argumentsF_lift objv n s ps (i + 1)
    unfold argument
    by_cases hl : objv.length - 1 ≥ i + 1
    · rw [if_pos hl]
      have hlt : i + 1 < objv.length := by omega
      rw [rd_lt hlt]
      simp only [Eff.ret_bind, Eff.pure_eq]
      cases hp : p.1 objv[i + 1] with
      | error e =>
        exact X.bind_throw (show argumentF _ i objv n s = .throw (.text e) n s by
          unfold argumentF; rw [if_pos hl, List.getElem?_eq_getElem hlt]; dsimp only; rw [hp]; rfl)
      | ok a =>
        rw [X.bind_ret (a := a) (n' := n) (s' := s) (by
          unfold argumentF; rw [if_pos hl, List.getElem?_eq_getElem hlt]; dsimp only; rw [hp]; rfl)]
        dsimp only
        cases ha : arguments ps (i + 1) objv with
        | ret r =>
          rw [ha] at ih
          cases r with
          | ok as => rw [X.bind_ret ih]; rfl
          | error e => rw [X.bind_throw ih]; rfl
        | _ => rw [ha] at ih; rw [X.bind_ub ih]; rfl
    · rw [if_neg hl]
      simp only [Eff.ret_bind, Eff.pure_eq]
      rw [X.bind_ret (a := p.2) (n' := n) (s' := s) (by unfold argumentF; rw [if_neg hl]; rfl)]
      cases ha : arguments ps (i + 1) objv with
      | ret r =>
        rw [ha] at ih
        cases r with
        | ok as => rw [X.bind_ret ih]; rfl
        | error e => rw [X.bind_throw ih]; rfl
      | _ => rw [ha] at ih; rw [X.bind_ub ih]; rfl

theorem printfF_ok {text b : Bytes} (h : printf text = .ret b) (n : Nat) (s : S) :
    ∃ k, printfF plenty text n s = .ret b k s := by
  unfold printfF
  rw [h]
  exact ⟨n + 1, X.bind_ret (X.alloc_ok rfl s)⟩

theorem wrongArgsF_ok {name : Bytes} {min given : Nat} {usage : Option Bytes} {b : Bytes}
    (h : wrongArgs name min given usage = .ret b) (n : Nat) (s : S) : ∃ k, wrongArgsF plenty name min given usage n s = .ret b k s := by
  unfold wrongArgs at h
  unfold wrongArgsF
  cases h1 : printf ([87, 114, 111, 110, 103, 32, 35, 32, 97, 114, 103, 115, 46, 32, 69, 120, 112, 101, 99, 116, 101, 100, 32]
    ++ decimal min ++ [44, 32, 103, 111, 116, 32] ++ decimal given ++ [46]) with
  | ret e =>
    rw [h1] at h
    obtain ⟨k1, e1⟩ := printfF_ok h1 n s
    rw [X.bind_ret e1]
    cases usage with
    | none =>
      injection h with h
      subst h
      exact ⟨k1, rfl⟩
    | some u =>
      simp only [Eff.ret_bind] at h
      cases h2 : printf ([32, 83, 104, 111, 117, 108, 100, 32, 98, 101, 32, 34] ++ cstr name ++ [32] ++ cstr u ++ [34]) with
      | ret f =>
        rw [h2] at h
        injection h with h
        subst h
        obtain ⟨k2, e2⟩ := printfF_ok h2 k1 s
        exact ⟨k2 + 1, (X.bind_ret e2).trans (X.bind_ret (X.alloc_ok rfl s))⟩
      | _ => rw [h2] at h; cases h
  | _ => rw [h1] at h; cases h

/-- **C91** With memory, a command as in C56 does what C56 says, called with whatever number of words: what is
proved there holds here. -/
theorem c91_same (str : O → Bytes) (c : Cmd O P R) (show' : R → Bytes) (name : O) (ws : List O)
    {as : Option (List P)} {r : Reply R} (hd : dispatch str c (name :: ws) = .ret (as, r)) (n : Nat) (s : S) :
    ∃ k, dispatchF plenty str (c.lift S show') (name :: ws) n s = .ret (match r with
      | .ok r => .ok (show' r)
      | .error e => .error e) k s := by
  have hs : sub64 (name :: ws).length 1 = ws.length := by
    unfold sub64
    rw [if_pos (by simp)]
    simp
  by_cases h : c.min ≤ ws.length ∧ ws.length ≤ c.max
  case neg =>
    unfold dispatch at hd
    rw [rd_lt (by simp)] at hd
    simp only [Eff.ret_bind] at hd
    rw [hs, if_pos (by omega)] at hd
    cases hw : wrongArgs (str (name :: ws)[0]) c.min ((name :: ws).length - 1) c.usage with
    | ret e =>
      rw [hw] at hd
      injection hd with hd
      injection hd with hd1 hd2
      subst hd2
      obtain ⟨k, ek⟩ := wrongArgsF_ok hw (n + 1) s
      refine ⟨k, ?_⟩
      unfold dispatchF
      refine (X.bind_ret (X.alloc_ok (mem := plenty) rfl s)).trans ?_
      have hc : sub64 (name :: ws).length 1 < (c.lift S show').min ∨ sub64 (name :: ws).length 1 > (c.lift S show').max := by
        rw [hs]; show ws.length < c.min ∨ ws.length > c.max; omega
      rw [if_pos hc]
      exact X.bind_ret ek
    | _ => rw [hw] at hd; cases hd
  unfold dispatch at hd
  rw [rd_lt (by simp)] at hd
  simp only [Eff.ret_bind] at hd
  rw [hs, if_neg (by omega)] at hd
  obtain ⟨h1, h2, h3⟩ := c91_reply_partial str (c.lift S show') name ws h n s
  have hp : (c.lift S show').plain (name :: ws) (n + 1) s =
      match arguments c.params 0 (name :: ws) with
      | .ret (.ok as) => (match c.fn as with
        | .ret r => .ret (show' r) (n + 1) s
        | .throwString e => .throw (.text e) (n + 1) s
        | .throwOther => .throw .other (n + 1) s)
      | .ret (.error e) => .throw (.text e) (n + 1) s
      | _ => .ub := by
    unfold FCmd.plain
    have e := argumentsF_lift (S := S) (name :: ws) (n + 1) s c.params 0
    cases ha : arguments c.params 0 (name :: ws) with
    | ret a =>
      rw [ha] at e
      cases a with
      | error e' => exact X.bind_throw e
      | ok as =>
        refine (X.bind_ret e).trans ?_
        dsimp only [Cmd.lift]
        cases c.fn as with
        | ret r => rfl
        | _ => rfl
    | _ => rw [ha] at e; exact X.bind_ub e
  rw [hp] at h1 h2 h3
  cases ha : arguments c.params 0 (name :: ws) with
  | ret a =>
    rw [ha] at hd h1 h2 h3
    simp only [Eff.ret_bind] at hd
    cases a with
    | error e =>
      injection hd with hd
      injection hd with hd1 hd2
      subst hd2
      exact h2 e _ _ rfl
    | ok as' =>
      dsimp only at hd h1 h2 h3
      cases hf : c.fn as' with
      | ret v =>
        rw [hf] at hd h1
        injection hd with hd
        injection hd with hd1 hd2
        subst hd2
        exact h1 _ _ _ rfl
      | throwString e =>
        rw [hf] at hd h2
        injection hd with hd
        injection hd with hd1 hd2
        subst hd2
        exact h2 e _ _ rfl
      | throwOther =>
        rw [hf] at hd h3
        injection hd with hd
        injection hd with hd1 hd2
        subst hd2
        exact h3 _ _ rfl
  | _ => rw [ha] at hd; cases hd

/-! ## Without memory -/

/-- **C91 refuted** No memory for the name: `std::bad_alloc` goes through the interpreter, for every command. -/
theorem c91_refuted_name (mem : Nat → Bool) (str : O → Bytes) (c : FCmd S O P R) (name : O) (ws : List O) (n : Nat) (s : S)
    (h : mem n = false) : dispatchF mem str c (name :: ws) n s = .throw .other (n + 1) s := by
  unfold dispatchF
  exact X.bind_throw (X.alloc_no h s)

/-- **C91 refuted** A function (or a conversion) that runs out of memory: if there still is none for the handler's
message, the exception goes through the interpreter, with the effects so far. -/
theorem c91_refuted_handler (mem : Nat → Bool) (str : O → Bytes) (c : FCmd S O P R) (name : O) (ws : List O)
    (h : c.min ≤ ws.length ∧ ws.length ≤ c.max) {n n' : Nat} {s s' : S} (h1 : mem n = true)
    (hp : c.plain (name :: ws) (n + 1) s = .throw .other n' s') (h2 : mem n' = false) :
    dispatchF mem str c (name :: ws) n s = .throw .other (n' + 1) s' := by
  have hs : sub64 (name :: ws).length 1 = ws.length := by
    unfold sub64
    rw [if_pos (by simp)]
    simp
  unfold dispatchF
  refine (X.bind_ret (X.alloc_ok h1 s)).trans ?_
  rw [hs, if_neg (by omega)]
  unfold X.catching
  rw [plain_bind, hp]
  exact X.bind_throw (X.alloc_no h2 s')

/-! ## Witnesses -/

/-- A command with one parameter that appends its argument to a list of texts, and throws after that if the
argument is empty; it needs memory for it. -/
def adder (mem : Nat → Bool) : FCmd (List Bytes) Bytes Bytes Unit where
  params := [(fun o => do X.alloc mem; return o, pure [])]
  min := 0
  max := 1
  usage := none
  fn := fun as => do
    X.modify (· ++ as)
    X.alloc mem
    if as = [[]] then X.raise .other
  out := fun _ => pure []

example : ∃ k, dispatchF plenty id (adder plenty) [[102], [97]] 0 [] = .ret (.ok []) k [[97]] := ⟨_, rfl⟩
example : ∃ k, dispatchF plenty id (adder plenty) [[102]] 0 [] = .ret (.error "Unhandled exception.".toUTF8.data.toList) k [[]] :=
  (c91_reply_partial id (adder plenty) [102] [] (by decide) 0 []).2.2 _ _ rfl

/-- Memory for two allocations only. -/
def two : Nat → Bool := fun n => decide (n < 2)

example : (adder two).plain [[102], [97]] 1 [] = .throw .other 3 [[97]] := rfl
example : dispatchF two id (adder two) [[102], [97]] 0 [] = .throw .other 4 [[97]] :=
  c91_refuted_handler two id (adder two) [102] [[97]] (by decide) rfl rfl rfl

end Bdlib.Tcl
