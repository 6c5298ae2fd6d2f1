import Verif.Tcl.Script
import Verif.Props.C36

/-!
# C56: script commands check their argument count

Partial: when the count is wrong and there is a usage text, the error text is made by `String::printf`, which
is limited to 4095 characters (`c56_refuted_usage`, `c56_refuted_quote`).
-/

namespace Bdlib.Tcl
open Bdlib Bdlib.Str

variable {O P R : Type}

/-- `args` are the words given, converted, in order, then default values. -/
inductive Passed : List ((O → Except Bytes P) × P) → List O → List P → Prop
  | done (ws) : Passed [] ws []
  | word (p ps w ws a as) (h : p.1 w = .ok a) (t : Passed ps ws as) : Passed (p :: ps) (w :: ws) (a :: as)
  | dflt (p ps as) (t : Passed ps [] as) : Passed (p :: ps) [] (p.2 :: as)

theorem arguments_ok (name : O) {params : List ((O → Except Bytes P) × P)} {rest : List O} {as : List P} (h : Passed params rest as) :
    ∀ (objv : List O) (i : Nat), objv.drop (i + 1) = rest → arguments params i objv = .ret (.ok as) := by
  induction h with
  | done => intros; rfl
  | word p ps w ws a as hp t ih =>
    intro objv i hd
    have hl : i + 1 < objv.length := by
      refine Classical.byContradiction fun hc => ?_
      rw [List.drop_eq_nil_of_le (by omega)] at hd
      cases hd
    rw [List.drop_eq_getElem_cons hl] at hd
    injection hd with h1 h2
    unfold arguments argument
    rw [if_pos (by omega), rd_lt hl]
    simp only [Eff.ret_bind, Eff.pure_eq, h1, hp]
    rw [ih objv (i + 1) h2]
    rfl
  | dflt p ps as t ih =>
    intro objv i hd
    have hl : objv.length ≤ i + 1 := by
      refine Classical.byContradiction fun hc => ?_
      have := congrArg List.length hd
      simp at this
      omega
    unfold arguments argument
    rw [if_neg (by omega)]
    simp only [Eff.ret_bind, Eff.pure_eq]
    rw [ih objv (i + 1) (List.drop_eq_nil_of_le (by omega))]
    rfl

/-- The number of arguments is right and the words can be converted: the function runs, once, with the words
converted in order and default values for those left out; its value is the script's result and exceptions
become script errors. -/
theorem c56_runs (str : O → Bytes) (c : Cmd O P R) (name : O) (ws : List O)
    (h : c.min ≤ ws.length ∧ ws.length ≤ c.max) (as : List P) (ha : Passed c.params ws as) :
    dispatch str c (name :: ws) = .ret (some as, match c.fn as with
      | .ret r => .ok r
      | .throwString s => .error s
      | .throwOther => .error "Unhandled exception.".toUTF8.data.toList) := by
  have hs : sub64 (name :: ws).length 1 = ws.length := by
    unfold sub64
    rw [if_pos (by simp)]
    simp
  have e := arguments_ok name ha (name :: ws) 0 rfl
  unfold dispatch
  rw [rd_lt (by simp)]
  simp only [Eff.ret_bind]
  rw [hs, if_neg (by omega), e]
  simp only [Eff.ret_bind]
  cases c.fn as <;> rfl

theorem arguments_error (name : O) : ∀ {params : List ((O → Except Bytes P) × P)} {rest : List O}, (¬ ∃ as, Passed params rest as) →
    ∀ (objv : List O) (i : Nat), objv.drop (i + 1) = rest →
    ∃ p w e, p ∈ params ∧ w ∈ rest ∧ p.1 w = .error e ∧ arguments params i objv = .ret (.error e)
  | [], rest, hn, _, _, _ => absurd ⟨[], .done rest⟩ hn
  | p :: ps, [], hn, objv, i, hd => by
    refine absurd ?_ hn
    have : ∀ ps : List ((O → Except Bytes P) × P), ∃ as, Passed ps [] as := by
      intro ps
      induction ps with
      | nil => exact ⟨_, .done _⟩
      | cons q qs ih => obtain ⟨as, h⟩ := ih; exact ⟨_, .dflt q qs as h⟩
    exact this _
  | p :: ps, w :: ws, hn, objv, i, hd => by
    have hl : i + 1 < objv.length := by
      refine Classical.byContradiction fun hc => ?_
      rw [List.drop_eq_nil_of_le (by omega)] at hd
      cases hd
    rw [List.drop_eq_getElem_cons hl] at hd
    injection hd with h1 h2
    unfold arguments argument
    rw [if_pos (by omega), rd_lt hl]
    simp only [Eff.ret_bind, Eff.pure_eq, h1]
    cases hp : p.1 w with
    | error e => exact ⟨p, w, e, List.mem_cons_self, List.mem_cons_self, hp, rfl⟩
    | ok a =>
      dsimp only
      obtain ⟨q, v, e, hq, hv, he, hr⟩ := arguments_error (params := ps) (rest := ws) name
        (fun ⟨as, h⟩ => hn ⟨_, .word p ps w ws a as hp h⟩) objv (i + 1) h2
      refine ⟨q, v, e, List.mem_cons_of_mem _ hq, List.mem_cons_of_mem _ hv, he, ?_⟩
      rw [hr]
      rfl

/-- The number of arguments is right but some word cannot be converted: the function does not run and the
script gets the error of such a word. -/
theorem c56_unconvertible (str : O → Bytes) (c : Cmd O P R) (name : O) (ws : List O)
    (h : c.min ≤ ws.length ∧ ws.length ≤ c.max) (ha : ¬ ∃ as, Passed c.params ws as) :
    ∃ p w e, p ∈ c.params ∧ w ∈ ws ∧ p.1 w = .error e ∧ dispatch str c (name :: ws) = .ret (none, .error e) := by
  have hs : sub64 (name :: ws).length 1 = ws.length := by
    unfold sub64
    rw [if_pos (by simp)]
    simp
  obtain ⟨p, w, e, hp, hw, he, hr⟩ := arguments_error name ha (name :: ws) 0 rfl
  refine ⟨p, w, e, hp, hw, he, ?_⟩
  unfold dispatch
  rw [rd_lt (by simp)]
  simp only [Eff.ret_bind]
  rw [hs, if_neg (by omega), hr]
  rfl

/-- Numbers of 64 bits have at most 20 digits. -/
theorem decimal_short {n : Nat} (h : n < 2 ^ 64) : (decimal n).length ≤ 20 := by
  unfold decimal
  rw [List.length_map, Nat.length_toDigits_le_iff (by decide) (by decide)]
  exact Nat.lt_trans h (by decide)

/-- The number of arguments is wrong: the function does not run and the script gets an error, which tells the
least number of arguments, the number given, and the usage. -/
theorem c56_wrong_partial (str : O → Bytes) (c : Cmd O P R) (name : O) (ws : List O)
    (h : ¬ (c.min ≤ ws.length ∧ ws.length ≤ c.max)) (hm : c.min < 2 ^ 64) (hw : ws.length < 2 ^ 64)
    (hu : ∀ u, c.usage = some u → (cstr (str name)).length + (cstr u).length < 4082) :
    dispatch str c (name :: ws) = .ret (none, .error
      ("Wrong # args. Expected ".toUTF8.data.toList ++ decimal c.min ++ ", got ".toUTF8.data.toList ++ decimal ws.length ++ ".".toUTF8.data.toList ++
        match c.usage with
        | none => []
        | some u => " Should be \"".toUTF8.data.toList ++ cstr (str name) ++ " ".toUTF8.data.toList ++ cstr u ++ "\"".toUTF8.data.toList)) := by
  have hs : sub64 (name :: ws).length 1 = ws.length := by
    unfold sub64
    rw [if_pos (by simp)]
    simp
  unfold dispatch
  rw [rd_lt (by simp)]
  simp only [Eff.ret_bind]
  rw [hs, if_pos (by omega)]
  unfold wrongArgs
  rw [c36_printf_partial _ (by have := decimal_short hm; have := decimal_short hw; simp; omega)]
  simp only [Eff.ret_bind, List.length_cons, Nat.add_sub_cancel, List.getElem_cons_zero]
  cases hus : c.usage with
  | none =>
    simp only [Eff.pure_eq, Eff.ret_bind, List.append_nil]
    rfl
  | some u =>
    dsimp only
    rw [c36_printf_partial _ (by have := hu u hus; simp; omega)]
    simp only [Eff.pure_eq, Eff.ret_bind]
    rfl

/-- So, if the texts are short: it runs exactly if the count is right and the words can be converted. -/
theorem c56_iff_partial (str : O → Bytes) (c : Cmd O P R) (name : O) (ws : List O)
    (hm : c.min < 2 ^ 64) (hw : ws.length < 2 ^ 64)
    (hu : ∀ u, c.usage = some u → (cstr (str name)).length + (cstr u).length < 4082) :
    ∃ r, dispatch str c (name :: ws) = .ret r ∧
      (r.1 ≠ none ↔ (c.min ≤ ws.length ∧ ws.length ≤ c.max) ∧ ∃ as, Passed c.params ws as) ∧
      ∀ as, r.1 = some as → Passed c.params ws as := by
  by_cases h : c.min ≤ ws.length ∧ ws.length ≤ c.max
  · by_cases ha : ∃ as, Passed c.params ws as
    · obtain ⟨as, ha⟩ := ha
      exact ⟨_, c56_runs str c name ws h as ha, ⟨fun _ => ⟨h, as, ha⟩, fun _ => nofun⟩, fun _ e => by cases e; exact ha⟩
    · obtain ⟨p, w, e, -, -, -, hr⟩ := c56_unconvertible str c name ws h ha
      exact ⟨_, hr, ⟨fun hn => absurd rfl hn, fun hc => absurd hc.2 ha⟩, nofun⟩
  · exact ⟨_, c56_wrong_partial str c name ws h hm hw hu, ⟨fun hn => absurd rfl hn, fun hc => absurd hc.1 h⟩, nofun⟩

/-- Without a minimum given, all parameters are needed; with one, the others may be left out. -/
theorem c56_create (params : List ((O → Except Bytes P) × P)) (fn : List P → Ends R) (usage : Option Bytes) (n : Nat) :
    (createCommand params fn usage npos).min = params.length ∧ (createCommand params fn usage npos).max = params.length ∧
    (n ≠ npos → (createCommand params fn usage n).min = n ∧ (createCommand params fn usage n).max = params.length) := by
  unfold createCommand
  refine ⟨by simp, rfl, fun h => ⟨by simp [h], rfl⟩⟩

/-- A conversion that refuses large numbers. -/
def small (n : Nat) : Except Bytes Nat := if n < 100 then .ok n else .error [33]

/-- A command with two parameters, the second optional. -/
def addCmd : Cmd Nat Nat Nat := createCommand [(small, 0), (small, 10)] (fun a => if a = [1, 1] then .throwOther else .ret a.sum) (some [97, 32, 63, 98, 63]) 1

example : dispatch (fun _ => [97]) addCmd [0, 5] = .ret (some [5, 10], .ok 15) := by rfl
example : dispatch (fun _ => [97]) addCmd [0, 5, 6] = .ret (some [5, 6], .ok 11) := by rfl
example := c56_runs (fun _ => [97]) addCmd 0 [5, 6] (by decide) [5, 6] (.word _ _ _ _ _ _ rfl (.word _ _ _ _ _ _ rfl (.done _)))
example : dispatch (fun _ => [97]) addCmd [0, 5, 600] = .ret (none, .error [33]) := by rfl
example := c56_unconvertible (fun _ => [97]) addCmd 0 [5, 600] (by decide) (by
  rintro ⟨as, h⟩
  cases h with
  | word _ _ _ _ _ _ _ t => cases t with
    | word _ _ _ _ _ _ h _ => cases h)
example := c56_wrong_partial (fun _ => [97]) addCmd 0 [5, 6, 7] (by decide) (by decide) (by decide) (by
  intro u hu; cases hu; decide)

/-- Refutation: if the command's name and its usage text have more than 4082 characters together, every call with a wrong number of arguments is
undefined. -/
theorem c56_refuted_usage (str : O → Bytes) (c : Cmd O P R) (name : O) (ws : List O) (h : ¬ (c.min ≤ ws.length ∧ ws.length ≤ c.max))
    (hm : c.min < 2 ^ 64) (hw : ws.length < 2 ^ 64) (u : Bytes) (hu : c.usage = some u) (h5 : 4082 < (cstr (str name)).length + (cstr u).length) :
    dispatch str c (name :: ws) = .ub := by
  have hs : sub64 (name :: ws).length 1 = ws.length := by
    unfold sub64
    rw [if_pos (by simp)]
    simp
  unfold dispatch
  rw [rd_lt (by simp)]
  simp only [Eff.ret_bind]
  rw [hs, if_pos (by omega)]
  unfold wrongArgs
  rw [c36_printf_partial _ (by have := decimal_short hm; have := decimal_short hw; simp; omega)]
  simp only [Eff.ret_bind, List.length_cons, Nat.add_sub_cancel, List.getElem_cons_zero]
  rw [hu]
  dsimp only
  rw [c36_refuted_long _ (by simp; omega)]
  rfl

/-- Refutation: with exactly 4082 characters the error text ends in NUL instead of the closing quote. -/
theorem c56_refuted_quote (str : O → Bytes) (c : Cmd O P R) (name : O) (ws : List O) (h : ¬ (c.min ≤ ws.length ∧ ws.length ≤ c.max))
    (hm : c.min < 2 ^ 64) (hw : ws.length < 2 ^ 64) (u : Bytes) (hu : c.usage = some u) (h5 : (cstr (str name)).length + (cstr u).length = 4082) :
    dispatch str c (name :: ws) = .ret (none, .error
      ("Wrong # args. Expected ".toUTF8.data.toList ++ decimal c.min ++ ", got ".toUTF8.data.toList ++ decimal ws.length ++ ".".toUTF8.data.toList ++
        (" Should be \"".toUTF8.data.toList ++ cstr (str name) ++ " ".toUTF8.data.toList ++ cstr u ++ [0]))) := by
  have hs : sub64 (name :: ws).length 1 = ws.length := by
    unfold sub64
    rw [if_pos (by simp)]
    simp
  unfold dispatch
  rw [rd_lt (by simp)]
  simp only [Eff.ret_bind]
  rw [hs, if_pos (by omega)]
  unfold wrongArgs
  rw [c36_printf_partial _ (by have := decimal_short hm; have := decimal_short hw; simp; omega)]
  simp only [Eff.ret_bind, List.length_cons, Nat.add_sub_cancel, List.getElem_cons_zero]
  rw [hu]
  dsimp only
  rw [c36_refuted_4096 _ _ (by simp; omega)]
  simp only [Eff.pure_eq, Eff.ret_bind]
  rfl

/-- A usage text of `n` characters. -/
def longUsage (n : Nat) : Cmd Nat Nat Nat := createCommand [(small, 0)] (fun a => .ret a.sum) (some (List.replicate n 97)) 1

theorem longUsage_length (n : Nat) : (cstr (List.replicate n 97)).length = n := by
  rw [cstr_self (fun h => by cases List.eq_of_mem_replicate h), List.length_replicate]

example := c56_refuted_usage (fun _ => [97]) (longUsage 4082) 0 [] (by rintro ⟨h, -⟩; cases h) (by decide : 1 < 2 ^ 64) (by decide) (List.replicate 4082 97)
  rfl (by rw [longUsage_length]; decide)
example := c56_refuted_quote (fun _ => [97]) (longUsage 4081) 0 [] (by rintro ⟨h, -⟩; cases h) (by decide : 1 < 2 ^ 64) (by decide) (List.replicate 4081 97)
  rfl (by rw [longUsage_length]; decide)

end Bdlib.Tcl
