import Verif.Deep.Scripts
import Verif.Props.C68
import Verif.Props.C100

/-!
# C102: live objects made from values of scripts

C68 speaks of the values the conversions give.  Here the conversions run in a program with any number of Strings and
arrays nested to any depth: they make objects, move them into arrays and destroy temporaries, and memory may run out
anywhere.
-/

namespace Bdlib.Deep
open Bdlib Bdlib.Spec Bdlib.Rca Bdlib.Tcl

variable {p : Params} {n : Nat} {w : Mem p n} {E : Envs n}

/-! ## For ever -/

/-- A program may go on for ever (C100 with no bound on the number of calls that are still to come). -/
theorem c102_for_ever (hp : p.Good) (n : Nat) : Lives p (tower p n).init (Envs.none n) :=
  ⟨fun w E => Keeps p w E, keeps_init n, fun _ _ h => keeps_sees hp h, fun w E h call hpre => by
    have hcut : ∀ F : Envs n, F.put (cut (fun _ => False) F.top) = F := fun F => by
      have : cut (fun _ => False) F.top = F.top := funext fun x => cut_out (by simp)
      rw [this, Envs.put_top]
    obtain ⟨out, w', E', h1, h2, _, h4⟩ := step hp call h (C := fun _ => False) (fun _ h => h.elim) (by rw [hcut]; exact hpre)
    rw [hcut, hcut] at h4
    exact ⟨out, w', E', h1, h4, h2⟩⟩

/-- The next call. -/
theorem c102_next (h : Lives p w E) {call : Call n} (hpre : Pre p (shares p w) E call) :
    ∃ out w' E', result (run p call w) = some (out, w') ∧ Post p (shares p w) E call out E' ∧ Lives p w' E' := by
  obtain ⟨I, h1, h2, h3⟩ := h
  obtain ⟨out, w', E', h4, h5, h6⟩ := h3 w E h1 call hpre
  exact ⟨out, w', E', h4, h5, I, h6, h2, h3⟩

/-- It implies that any number of calls may follow. -/
theorem c102_plays (h : Lives p w E) (k : Nat) : Plays p k w E := by
  obtain ⟨I, h1, h2, h3⟩ := h
  induction k generalizing w E with
  | zero => exact h2 w E h1
  | succ k ih =>
    refine ⟨h2 w E h1, fun call hpre => ?_⟩
    obtain ⟨out, w', E', h4, h5, h6⟩ := h3 w E h1 call hpre
    exact ⟨out, w', E', h4, h5, ih h6⟩

theorem lives_acts (p : Params) {n : Nat} : Acts p fun (w : Mem p n) E => Lives p w E := fun _ _ h _ hpre => c102_next h hpre

/-! ## From a script -/

/-- A String, an array of Strings, an array of such arrays and so on made from any value of a script: a new object
holds what the value says.  If memory runs out, at any depth and with however many objects made already, nothing has
happened.  In both cases nothing else has changed and nothing is left over. -/
theorem c102_from_script (hs : IsStr p.str) (C : Library) (h : Lives p w E) (o : Tcl.Obj) :
    (∃ t w', fromTcl p C n o w = .ok t w' ∧ E.top t = .dead ∧ Lives p w' (E.upd t (made C n o))) ∨
      ∃ w', fromTcl p C n o w = .throw .badAlloc w' ∧ Lives p w' E := by
  have := converts hs C n (lives_acts p) h o
  unfold Ends at this
  cases hm : fromTcl p C n o w with
  | ok t w' => rw [hm] at this; exact .inl ⟨t, w', rfl, this⟩
  | throw e w' => rw [hm] at this; obtain ⟨rfl, h⟩ := this; exact .inr ⟨w', rfl, h⟩
  | ub => rw [hm] at this; exact this.elim

/-- The same in a program that has objects of greater depth too: none of them changes. -/
theorem c102_from_script_deeper (hs : IsStr p.str) (C : Library) (d : Nat) {w : Mem p (n + d)} {E : Envs (n + d)}
    (h : Lives p w E) (o : Tcl.Obj) :
    (∃ t w', deeper (fromTcl p C n o) d w = .ok t w' ∧ E.topAt d t = .dead ∧ Lives p w' (E.updAt d t (made C n o))) ∨
      ∃ w', deeper (fromTcl p C n o) d w = .throw .badAlloc w' ∧ Lives p w' E := by
  have := converts_deeper hs C o d (lives_acts p) h
  unfold Ends at this
  cases hm : deeper (fromTcl p C n o) d w with
  | ok t w' => rw [hm] at this; exact .inl ⟨t, w', rfl, this⟩
  | throw e w' => rw [hm] at this; obtain ⟨rfl, h⟩ := this; exact .inr ⟨w', rfl, h⟩
  | ub => rw [hm] at this; exact this.elim

/-! ## To a script, and back -/

theorem lives_holds (h : Lives p w E) {t : Nat} (ht : E.top t ≠ .dead) : Holds p w t (E.top t) := by
  obtain ⟨I, h1, h2, _⟩ := h
  have := (h2 w E h1).1
  cases n with
  | zero => exact this t ht
  | succ n => exact this.2 t ht

/-- An object handed to Tcl is a value that says what it holds; the program does not notice.  Partial: strings shorter
than 2^31 - 1 bytes (`c68_refuted_long`). -/
theorem c102_to_script_partial (h : Lives p w E) {t : Nat} (hk : Known (E.top t)) (hshort : Short (E.top t)) :
    toTcl p n t w = .ok (some (valueOf (E.top t))) w :=
  holds_toTcl (lives_holds h (known_ne hk)) hk hshort

/-- Converted back, as a list or as the text a script makes of it, a new object holds the same; the first is
unchanged, and so is everything else. -/
theorem c102_round_trip_partial (hs : IsStr p.str) (C : Library) (h : Lives p w E) {t : Nat} (hk : Known (E.top t))
    (hshort : Short (E.top t)) :
    ∃ o, toTcl p n t w = .ok (some o) w ∧ ∀ o', o' = o ∨ o' = .str (C.text o) →
      (∃ u w', fromTcl p C n o' w = .ok u w' ∧ E.top u = .dead ∧ Lives p w' (E.upd u (E.top t))) ∨
        ∃ w', fromTcl p C n o' w = .throw .badAlloc w' ∧ Lives p w' E := by
  refine ⟨_, c102_to_script_partial h hk hshort, fun o' ho => ?_⟩
  have hm : made C n o' = E.top t := by
    rcases ho with rfl | rfl
    · exact made_valueOf C hk
    · exact made_text C hk
  have := c102_from_script hs C h o'
  rwa [hm] at this

/-! ## A program -/

/-- `{a bc} {}` -/
def rows : Tcl.Obj := .list [.list [.str [97], .str [98, 99]], .list []]

/-- Was an object made, and which?  `some none`: it threw. -/
def outcome {S : Type} : Res S Nat → Option (Option Nat)
  | .ok t _ => some (some t)
  | .throw _ _ => some none
  | .ub => none

/-- The state after it. -/
def after {S α : Type} (s : S) : Res S α → S
  | .ok _ s' => s'
  | .throw _ s' => s'
  | .ub => s

example : made plainLibrary 2 rows = arr [arr [str [97], str [98, 99]], arr []] := rfl

/-- What the code does. -/
theorem rows_made : outcome (fromTcl params plainLibrary 2 rows (tower params 2).init) = some (some 0) := by decide +kernel
example : seen (after (tower params 2).init (fromTcl params plainLibrary 2 rows (tower params 2).init)) 0 =
    some [some [some [97], some [98, 99]], some []] := by decide +kernel

/-- The second string cannot be allocated. -/
def tight : Params := { params with str := { byteCfg with allocOk := fun g n => decide (g < 1) && byteCfg.allocOk g n } }

theorem rows_not_made : outcome (fromTcl tight plainLibrary 2 rows (tower tight 2).init) = some none := by
  decide +kernel

theorem tight_good : tight.Good := ⟨byteCfg_valid, fun g n h => by
    show (decide (g < 1) && byteCfg.allocOk g n) = false
    rw [byteCfg_physical g n h, Bool.and_false], Str.glibc_ok, params_good.arr⟩

/-- The table is made, and the program goes on with it. -/
theorem c102_rows : ∃ w, Lives params w ((Envs.none 2).upd 0 (arr [arr [str [97], str [98, 99]], arr []])) := by
  rcases c102_from_script (p := params) rfl plainLibrary (c102_for_ever params_good 2) rows with ⟨t, w', h1, _, h2⟩ | ⟨w', h1, _⟩
  · have := rows_made
    rw [h1] at this
    cases this
    exact ⟨w', h2⟩
  · have := rows_made
    rw [h1] at this
    cases this

/-- It is not made, the first string was; nothing is left of it at any depth. -/
theorem c102_rows_fail : ∃ w, fromTcl tight plainLibrary 2 rows (tower tight 2).init = .throw .badAlloc w ∧ Clean tight w := by
  rcases c102_from_script (p := tight) rfl plainLibrary (c102_for_ever tight_good 2) rows with ⟨t, w', h1, _, _⟩ | ⟨w', h1, h2⟩
  · have := rows_not_made
    rw [h1] at this
    cases this
  · obtain ⟨I, h3, h4, _⟩ := h2
    exact ⟨w', h1, (h4 _ _ h3).2 ⟨⟨fun _ => rfl, fun _ => rfl⟩, fun _ => rfl⟩⟩

/-- There and back. -/
example : ∃ (w : Mem params 2) (o : Tcl.Obj), toTcl params 2 0 w = .ok (some o) w ∧ o = rows := by
  obtain ⟨w, h⟩ := c102_rows
  refine ⟨w, _, c102_to_script_partial h (t := 0) ?_ ?_, rfl⟩
  · exact ⟨_, rfl, by
      intro x hx
      rcases List.mem_cons.mp hx with rfl | hx
      · exact ⟨_, rfl, by
          intro y hy
          rcases List.mem_cons.mp hy with rfl | hy
          · exact ⟨_, rfl⟩
          · cases List.mem_singleton.mp hy; exact ⟨_, rfl⟩⟩
      · cases List.mem_singleton.mp hx; exact ⟨[], rfl, fun _ h => by cases h⟩⟩
  · intro x hx
    rcases List.mem_cons.mp hx with rfl | hx
    · intro y hy
      rcases List.mem_cons.mp hy with rfl | hy
      · show (1 : Nat) < 2 ^ 31 - 1; decide
      · cases List.mem_singleton.mp hy; show (2 : Nat) < 2 ^ 31 - 1; decide
    · cases List.mem_singleton.mp hx; exact fun _ h => by cases h

end Bdlib.Deep
