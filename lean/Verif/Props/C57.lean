import Verif.Tcl.Registry
import Verif.Spec.Registry

/-!
# C57: the command registry follows the history

The map is shared by all interpreters and keyed by the name a program gave, while interpreters look commands up
themselves.  So the property fails when two interpreters use one name, when an interpreter is destroyed, when a
script calls a command by another name (`::foo`, or after `rename`), and when a command is made anew or deleted
while it runs (`c57_refuted_*`).  Proved: it holds for all histories without these, with any number of
interpreters, calls inside calls, and commands made or deleted inside calls.
-/

namespace Bdlib.Tcl
open Bdlib Bdlib.Str

variable {F : Type}

/-- One operation; the result: the function that begins, if any. -/
def runOp (tclName : Bytes → Bytes) (s : Reg F) : Spec.CmdOp Bytes F → Option (Reg F × Option F)
  | .create i n f => (create tclName s i n f).map (·, none)
  | .delete _ n => (delete tclName s n).map (·, none)
  | .enter i n => enter tclName s i n
  | .leave => (leave tclName s).map (·, none)

def runOps (tclName : Bytes → Bytes) (s : Reg F) : List (Spec.CmdOp Bytes F) → Option (Reg F × List (Option F))
  | [] => some (s, [])
  | op :: ops => match runOp tclName s op with
    | none => none
    | some (s', o) => match runOps tclName s' ops with
      | none => none
      | some (s'', os) => some (s'', o :: os)

/-- The histories covered: every name belongs to one interpreter, which exists; the interpreter takes the name
as it is; a running command is not made anew or deleted. -/
def Allowed (tclName : Bytes → Bytes) (live : List Nat) (owner : Bytes → Nat) (s : Spec.Cmds Bytes F) : Spec.CmdOp Bytes F → Prop
  | .create i n _ => i = owner n ∧ i ∈ live ∧ tclName n = n ∧ n ∉ s.running
  | .delete i n => i = owner n ∧ n ∉ s.running
  | .enter _ n => tclName n = n
  | .leave => s.running ≠ []

def AllAllowed (tclName : Bytes → Bytes) (live : List Nat) (owner : Bytes → Nat) (s : Spec.Cmds Bytes F) : List (Spec.CmdOp Bytes F) → Prop
  | [] => True
  | op :: ops => Allowed tclName live owner s op ∧ AllAllowed tclName live owner (s.step op).1 ops

/-- Names, map, tables, running calls and reference counts fit together. -/
structure Inv (tclName : Bytes → Bytes) (live : List Nat) (owner : Bytes → Nat) (sp : Spec.Cmds Bytes F) (s : Reg F) : Prop where
  live_eq : s.live = live
  cmdOf : ∀ n j, entry s.map n = some (some j) → tclName n = n ∧ owner n ∈ live ∧ ∃ c, s.cmds[j]? = some c ∧ c.name = n ∧ c.si = owner n ∧
    c.registered = true ∧ c.refs = 1 + s.frames.count j ∧ sp.cmd (owner n) n = some c.fn
  nonull : ∀ n, entry s.map n ≠ some none
  noentry : ∀ n, entry s.map n = none → sp.cmd (owner n) n = none
  foreign : ∀ i n, i ≠ owner n → sp.cmd i n = none
  tbl : ∀ i n, (i, n) ∈ s.table ↔ i = owner n ∧ ∃ j, entry s.map n = some (some j)
  running : sp.running.map (entry s.map) = s.frames.map fun j => some (some j)

theorem modify_ne {α : Type} {l : List α} {f : α → α} {i j : Nat} (h : j ≠ i) : (l.modify i f)[j]? = l[j]? := by
  rw [List.getElem?_modify]
  simp [Ne.symm h]

theorem modify_eq {α : Type} {l : List α} {f : α → α} {i : Nat} : (l.modify i f)[i]? = l[i]?.map f := by
  rw [List.getElem?_modify]
  simp

theorem entry_without {m : List (Bytes × Option Nat)} {k n : Bytes} : entry (without m k) n = if n = k then none else entry m n := by
  induction m with
  | nil => simp [without, entry]
  | cons e m ih =>
    unfold without at ih ⊢
    rw [List.filter_cons]
    obtain ⟨a, p⟩ := e
    by_cases ha : a = k
    · subst ha
      simp only [ne_eq, not_true, decide_false, Bool.false_eq_true, if_false]
      rw [ih]
      by_cases hn : n = a
      · simp [hn]
      · rw [if_neg hn, if_neg hn, entry, if_neg (Ne.symm hn)]
    · simp only [ne_eq, ha, not_false_eq_true, decide_true, if_true]
      rw [entry, entry, ih]
      by_cases hn : n = k
      · subst hn
        rw [if_neg ha, if_pos rfl, if_pos rfl]
      · rw [if_neg hn]
        simp [hn]

theorem entry_put {m : List (Bytes × Option Nat)} {k n : Bytes} {p : Option Nat} :
    entry ((k, p) :: without m k) n = if n = k then some p else entry m n := by
  rw [entry, entry_without]
  by_cases h : n = k
  · subst h; simp
  · rw [if_neg (Ne.symm h), if_neg h, if_neg h]

/-- Entries for other names hold other commands. -/
theorem Inv.inj {tclName live owner} {sp : Spec.Cmds Bytes F} {s : Reg F} (h : Inv tclName live owner sp s) {n m j}
    (hn : entry s.map n = some (some j)) (hm : entry s.map m = some (some j)) : n = m := by
  obtain ⟨-, -, c, hc, e, -⟩ := h.cmdOf n j hn
  obtain ⟨-, -, c', hc', e', -⟩ := h.cmdOf m j hm
  rw [hc] at hc'
  cases hc'
  exact e ▸ e'

/-- A command whose name is not running is in no frame. -/
theorem Inv.not_frame {tclName live owner} {sp : Spec.Cmds Bytes F} {s : Reg F} (h : Inv tclName live owner sp s) {n j}
    (hn : entry s.map n = some (some j)) (hr : n ∉ sp.running) : s.frames.count j = 0 := by
  rw [List.count_eq_zero]
  intro hj
  have : some (some j) ∈ s.frames.map fun j => some (some j) := List.mem_map_of_mem hj
  rw [← h.running] at this
  obtain ⟨m, hm, e⟩ := List.mem_map.mp this
  exact hr (h.inj hn e ▸ hm)

theorem map_entry_congr {m m' : List (Bytes × Option Nat)} {l : List Bytes} (h : ∀ n ∈ l, entry m' n = entry m n) :
    l.map (entry m') = l.map (entry m) := List.map_congr_left h

theorem Inv.empty (tclName : Bytes → Bytes) (live : List Nat) (owner : Bytes → Nat) : Inv (F := F) tclName live owner .empty (.init live) where
  live_eq := rfl
  cmdOf := nofun
  nonull := nofun
  noentry := fun _ _ => rfl
  foreign := fun _ _ _ => rfl
  tbl := fun i n => ⟨nofun, fun ⟨_, j, h⟩ => nomatch h⟩
  running := rfl

theorem Inv.delete {tclName live owner} {sp : Spec.Cmds Bytes F} {s : Reg F} (h : Inv tclName live owner sp s) (n : Bytes) (hr : n ∉ sp.running) :
    ∃ s', Tcl.delete tclName s n = some s' ∧ Inv tclName live owner (sp.step (.delete (owner n) n)).1 s' := by
  unfold Tcl.delete
  cases he : entry s.map n with
  | none =>
    refine ⟨_, rfl, ?_⟩
    have hm : ∀ m, entry (without s.map n) m = entry s.map m := by
      intro m
      rw [entry_without]
      by_cases e : m = n
      · rw [if_pos e, e, he]
      · rw [if_neg e]
    have hsp : ∀ j m, (sp.step (.delete (owner n) n)).1.cmd j m = sp.cmd j m := by
      intro j m
      simp only [Spec.Cmds.step]
      by_cases e : j = owner n ∧ m = n
      · rw [if_pos e, e.1, e.2, h.noentry n he]
      · rw [if_neg e]
    exact {
      live_eq := h.live_eq
      cmdOf := fun m j hm' => by rw [hsp]; rw [hm] at hm'; exact h.cmdOf m j hm'
      nonull := fun m => by rw [hm]; exact h.nonull m
      noentry := fun m hm' => by rw [hsp]; rw [hm] at hm'; exact h.noentry m hm'
      foreign := fun i m hi => by rw [hsp]; exact h.foreign i m hi
      tbl := fun i m => by dsimp only; rw [hm]; exact h.tbl i m
      running := by dsimp only; rw [map_entry_congr fun m _ => hm m]; exact h.running }
  | some p =>
    cases p with
    | none => exact absurd he (h.nonull n)
    | some id =>
      obtain ⟨hcn, hlv, c, hc, hname, hsi, hreg, hrefs, hfn⟩ := h.cmdOf n id he
      rw [h.not_frame he hr] at hrefs
      have hrel : releaseEntry tclName { s with map := without s.map n } (some (some id)) =
          some { Reg.upd { s with map := without s.map n } id (fun c => { c with refs := 0, registered := false }) with
            table := s.table.filter fun e => e ≠ (owner n, n) } := by
        unfold releaseEntry release
        dsimp only
        rw [hc]
        dsimp only
        rw [if_neg (by omega), if_neg (by rw [hreg]; simp), if_pos (by rw [hsi, h.live_eq]; exact hlv), hsi, hname, hcn]
      refine ⟨_, hrel, ?_⟩
      have hsp : ∀ j m, m ≠ n → (sp.step (.delete (owner n) n)).1.cmd j m = sp.cmd j m := by
        intro j m e
        simp only [Spec.Cmds.step]
        rw [if_neg (fun hh => e hh.2)]
      exact {
        live_eq := h.live_eq
        cmdOf := fun m j hm' => by
          dsimp only [Reg.upd] at hm' ⊢
          rw [entry_without] at hm'
          by_cases e : m = n
          · rw [if_pos e] at hm'; cases hm'
          · rw [if_neg e] at hm'
            have hj : j ≠ id := fun hh => e (h.inj (hh ▸ hm') he)
            rw [hsp _ _ e, modify_ne hj]
            exact h.cmdOf m j hm'
        nonull := fun m => by
          dsimp only [Reg.upd]
          rw [entry_without]
          by_cases e : m = n
          · rw [if_pos e]; nofun
          · rw [if_neg e]; exact h.nonull m
        noentry := fun m hm' => by
          dsimp only [Reg.upd] at hm'
          rw [entry_without] at hm'
          by_cases e : m = n
          · subst e
            simp [Spec.Cmds.step]
          · rw [if_neg e] at hm'
            rw [hsp _ _ e]; exact h.noentry m hm'
        foreign := fun i m hi => by
          simp only [Spec.Cmds.step]
          split
          · rfl
          · exact h.foreign i m hi
        tbl := fun i m => by
          dsimp only [Reg.upd]
          rw [List.mem_filter, h.tbl, entry_without]
          by_cases e : m = n
          · subst e
            simp
            intro hi _ _
            exact hi
          · rw [if_neg e]
            simp [e]
        running := by
          dsimp only [Reg.upd]
          rw [← h.running]
          refine map_entry_congr fun m hm => ?_
          have e : m ≠ n := fun e => hr (e ▸ hm)
          rw [entry_without, if_neg e] }

theorem Inv.enter {tclName live owner} {sp : Spec.Cmds Bytes F} {s : Reg F} (h : Inv tclName live owner sp s) (i : Nat) (n : Bytes) (hn : tclName n = n) :
    ∃ s', Tcl.enter tclName s i n = some (s', (sp.step (.enter i n)).2) ∧ Inv tclName live owner (sp.step (.enter i n)).1 s' := by
  unfold Tcl.enter
  rw [hn]
  by_cases ht : (i, n) ∈ s.table
  · rw [if_pos ht]
    obtain ⟨rfl, id, he⟩ := (h.tbl i n).mp ht
    obtain ⟨hcn, hlv, c, hc, hname, hsi, hreg, hrefs, hfn⟩ := h.cmdOf n id he
    rw [he]
    dsimp only
    rw [hc]
    simp only [Spec.Cmds.step, hfn]
    refine ⟨_, rfl, ?_⟩
    exact {
      live_eq := h.live_eq
      cmdOf := fun m j hm' => by
        dsimp only [Reg.upd] at hm' ⊢
        by_cases hj : j = id
        · subst hj
          have := h.inj hm' he
          subst this
          refine ⟨hcn, hlv, { c with refs := c.refs + 1 }, by rw [modify_eq, hc]; rfl, hname, hsi, hreg, ?_, hfn⟩
          dsimp only
          rw [hrefs, List.count_cons_self]
          omega
        · rw [modify_ne hj, List.count_cons_of_ne (fun hh => hj hh.symm)]
          exact h.cmdOf m j hm'
      nonull := h.nonull
      noentry := h.noentry
      foreign := h.foreign
      tbl := h.tbl
      running := by
        dsimp only [Reg.upd]
        rw [List.map_cons, List.map_cons, h.running, he] }
  · rw [if_neg ht]
    have hs : sp.cmd i n = none := by
      by_cases hi : i = owner n
      · subst hi
        refine h.noentry n ?_
        cases he : entry s.map n with
        | none => rfl
        | some p => cases p with
          | none => exact absurd he (h.nonull n)
          | some id => exact absurd ((h.tbl _ n).mpr ⟨rfl, id, he⟩) ht
      · exact h.foreign i n hi
    simp only [Spec.Cmds.step, hs]
    exact ⟨_, rfl, h⟩

theorem Inv.leave {tclName live owner} {sp : Spec.Cmds Bytes F} {s : Reg F} (h : Inv tclName live owner sp s) (hr : sp.running ≠ []) :
    ∃ s', Tcl.leave tclName s = some s' ∧ Inv tclName live owner (sp.step .leave).1 s' := by
  have hrun := h.running
  unfold Tcl.leave
  cases hru : sp.running with
  | nil => exact absurd hru hr
  | cons n rest =>
    cases hfr : s.frames with
    | nil => rw [hru, hfr] at hrun; cases hrun
    | cons id fs =>
      rw [hru, hfr, List.map_cons, List.map_cons] at hrun
      injection hrun with he hrest
      obtain ⟨hcn, hlv, c, hc, hname, hsi, hreg, hrefs, hfn⟩ := h.cmdOf n id he
      rw [hfr, List.count_cons_self] at hrefs
      have hrel : release tclName { s with frames := fs } id = some (Reg.upd { s with frames := fs } id fun c => { c with refs := c.refs - 1 }) := by
        unfold release
        dsimp only
        rw [hc]
        dsimp only
        rw [if_pos (by omega)]
      refine ⟨_, hrel, ?_⟩
      have hst : (sp.step .leave).1 = { sp with running := rest } := by simp only [Spec.Cmds.step, hru, List.tail_cons]
      rw [hst]
      exact {
        live_eq := h.live_eq
        cmdOf := fun m j hm' => by
          dsimp only [Reg.upd] at hm' ⊢
          by_cases hj : j = id
          · subst hj
            have := h.inj hm' he
            subst this
            refine ⟨hcn, hlv, { c with refs := c.refs - 1 }, by rw [modify_eq, hc]; rfl, hname, hsi, hreg, ?_, hfn⟩
            dsimp only
            rw [hrefs]
            omega
          · have := h.cmdOf m j hm'
            rw [hfr, List.count_cons_of_ne (fun hh => hj hh.symm)] at this
            rw [modify_ne hj]
            exact this
        nonull := h.nonull
        noentry := h.noentry
        foreign := h.foreign
        tbl := h.tbl
        running := hrest }

theorem Inv.create {tclName live owner} {sp : Spec.Cmds Bytes F} {s : Reg F} (h : Inv tclName live owner sp s) (n : Bytes) (f : F)
    (hlv : owner n ∈ live) (hn : tclName n = n) (hr : n ∉ sp.running) :
    ∃ s', Tcl.create tclName s (owner n) n f = some s' ∧ Inv tclName live owner (sp.step (.create (owner n) n f)).1 s' := by
  -- what the steps do to the commands
  have key : ∃ s', Tcl.create tclName s (owner n) n f = some s' ∧ s'.live = s.live ∧ s'.frames = s.frames ∧
      s'.map = (n, some s.cmds.length) :: without s.map n ∧ s'.cmds[s.cmds.length]? = some ⟨owner n, n, f, true, 1⟩ ∧
      (∀ j, j < s.cmds.length → entry s.map n ≠ some (some j) → s'.cmds[j]? = s.cmds[j]?) ∧
      ∀ e, e ∈ s'.table ↔ e = (owner n, n) ∨ e ∈ s.table ∧ e ≠ (owner n, n) := by
    have last : ∀ s2 : Reg F, s2.cmds[s.cmds.length]? = some ⟨owner n, n, f, false, 2⟩ →
        release tclName { s2.upd s.cmds.length (fun c => { c with registered := true }) with table := (owner n, tclName n) :: s2.table.filter fun e => e ≠ (owner n, tclName n) }
          s.cmds.length = some (Reg.upd { s2.upd s.cmds.length (fun c => { c with registered := true }) with table := (owner n, tclName n) :: s2.table.filter fun e => e ≠ (owner n, tclName n) }
            s.cmds.length fun c => { c with refs := c.refs - 1 }) := by
      intro s2 h2
      unfold release
      dsimp only [Reg.upd]
      rw [modify_eq, h2]
      rfl
    unfold Tcl.create
    dsimp only [Bind.bind, Option.bind]
    cases he : entry s.map n with
    | none =>
      dsimp only [releaseEntry]
      refine ⟨_, last _ (by simp), rfl, rfl, rfl, ?_, ?_, ?_⟩
      · dsimp only [Reg.upd]
        rw [modify_eq, modify_eq]
        simp
      · intro j hj _
        dsimp only [Reg.upd]
        rw [modify_ne (by omega), modify_ne (by omega), List.getElem?_append_left hj]
      · intro e
        dsimp only [Reg.upd]
        rw [hn]
        simp
    | some p =>
      cases p with
      | none => exact absurd he (h.nonull n)
      | some id =>
        obtain ⟨-, -, c, hc, hname, hsi, hreg, hrefs, hfn⟩ := h.cmdOf n id he
        rw [h.not_frame he hr] at hrefs
        have hid : id < s.cmds.length := by
          refine Classical.byContradiction fun hh => ?_
          rw [List.getElem?_eq_none (by omega)] at hc
          cases hc
        have hrel : releaseEntry tclName { s with cmds := s.cmds ++ [⟨owner n, n, f, false, 2⟩], map := (n, some s.cmds.length) :: without s.map n } (some (some id)) =
            some { Reg.upd { s with cmds := s.cmds ++ [⟨owner n, n, f, false, 2⟩], map := (n, some s.cmds.length) :: without s.map n } id
              (fun c => { c with refs := 0, registered := false }) with table := s.table.filter fun e => e ≠ (owner n, n) } := by
          unfold releaseEntry release
          dsimp only
          rw [List.getElem?_append_left hid, hc]
          dsimp only
          rw [if_neg (by omega), if_neg (by rw [hreg]; simp), if_pos (by rw [hsi, h.live_eq]; exact hlv), hsi, hname, hn]
        rw [hrel]
        dsimp only
        refine ⟨_, last _ (by dsimp only [Reg.upd]; rw [modify_ne (by omega)]; simp), rfl, rfl, rfl, ?_, ?_, ?_⟩
        · dsimp only [Reg.upd]
          rw [modify_eq, modify_eq, modify_ne (by omega)]
          simp
        · intro j hj hne
          have hji : j ≠ id := fun e => hne (e ▸ rfl)
          dsimp only [Reg.upd]
          rw [modify_ne (by omega), modify_ne (by omega), modify_ne hji, List.getElem?_append_left hj]
        · intro e
          dsimp only [Reg.upd]
          rw [hn]
          simp
  obtain ⟨s', hs', hl', hf', hm', hnew, hold, htab⟩ := key
  refine ⟨s', hs', ?_⟩
  have hsp : ∀ j m, m ≠ n → (sp.step (.create (owner n) n f)).1.cmd j m = sp.cmd j m := by
    intro j m e
    simp only [Spec.Cmds.step]
    rw [if_neg (fun hh => e hh.2)]
  have hlt : ∀ m j, entry s.map m = some (some j) → j < s.cmds.length := by
    intro m j hm
    obtain ⟨-, -, c, hc, -⟩ := h.cmdOf m j hm
    refine Classical.byContradiction fun hh => ?_
    rw [List.getElem?_eq_none (by omega)] at hc
    cases hc
  have hfr : s.frames.count s.cmds.length = 0 := by
    rw [List.count_eq_zero]
    intro hj
    have : some (some s.cmds.length) ∈ s.frames.map fun j => some (some j) := List.mem_map_of_mem hj
    rw [← h.running] at this
    obtain ⟨m, hm, e⟩ := List.mem_map.mp this
    exact Nat.lt_irrefl _ (hlt m _ e)
  exact {
    live_eq := hl'.trans h.live_eq
    cmdOf := fun m j hmj => by
      rw [hm', entry_put] at hmj
      rw [hf']
      by_cases e : m = n
      · subst e
        rw [if_pos rfl] at hmj
        cases hmj
        refine ⟨hn, hlv, _, hnew, rfl, rfl, rfl, by rw [hfr], by simp [Spec.Cmds.step]⟩
      · rw [if_neg e] at hmj
        rw [hsp _ _ e, hold j (hlt m j hmj) fun hh => e (h.inj hmj hh)]
        exact h.cmdOf m j hmj
    nonull := fun m => by
      rw [hm', entry_put]
      by_cases e : m = n
      · rw [if_pos e]; nofun
      · rw [if_neg e]; exact h.nonull m
    noentry := fun m hmm => by
      rw [hm', entry_put] at hmm
      by_cases e : m = n
      · rw [if_pos e] at hmm; cases hmm
      · rw [if_neg e] at hmm
        rw [hsp _ _ e]; exact h.noentry m hmm
    foreign := fun i m hi => by
      by_cases e : m = n
      · subst e
        simp only [Spec.Cmds.step]
        rw [if_neg (fun hh => hi hh.1)]
        exact h.foreign i m hi
      · rw [hsp _ _ e]; exact h.foreign i m hi
    tbl := fun i m => by
      rw [htab, hm', entry_put, h.tbl]
      by_cases e : m = n
      · subst e
        rw [if_pos rfl]
        constructor
        · rintro (hh | ⟨hh, -⟩)
          · cases hh; exact ⟨rfl, _, rfl⟩
          · exact ⟨hh.1, _, rfl⟩
        · rintro ⟨rfl, -⟩
          exact .inl rfl
      · rw [if_neg e]
        constructor
        · rintro (hh | ⟨hh, -⟩)
          · cases hh; exact absurd rfl e
          · exact hh
        · intro hh
          exact .inr ⟨hh, fun hc => by cases hc; exact e rfl⟩
    running := by
      rw [hm', hf', ← h.running]
      refine map_entry_congr fun m hm => ?_
      have e : m ≠ n := fun e => hr (e ▸ hm)
      rw [entry_put, if_neg e] }

theorem Inv.steps {tclName live owner} : ∀ (ops : List (Spec.CmdOp Bytes F)) {sp : Spec.Cmds Bytes F} {s : Reg F}, Inv tclName live owner sp s →
    AllAllowed tclName live owner sp ops → ∃ s', runOps tclName s ops = some (s', (sp.steps ops).2) ∧ Inv tclName live owner (sp.steps ops).1 s'
  | [], sp, s, h, _ => ⟨s, rfl, h⟩
  | op :: ops, sp, s, h, ⟨ha, has⟩ => by
    have hstep : ∃ s', runOp tclName s op = some (s', (sp.step op).2) ∧ Inv tclName live owner (sp.step op).1 s' := by
      cases op with
      | create i n f =>
        obtain ⟨rfl, hlv, hn, hr⟩ := ha
        obtain ⟨s', hs', hi⟩ := h.create n f hlv hn hr
        exact ⟨s', by simp only [runOp, hs']; rfl, hi⟩
      | delete i n =>
        obtain ⟨rfl, hr⟩ := ha
        obtain ⟨s', hs', hi⟩ := h.delete n hr
        exact ⟨s', by simp only [runOp, hs']; rfl, hi⟩
      | enter i n => exact h.enter i n ha
      | leave =>
        obtain ⟨s', hs', hi⟩ := h.leave ha
        exact ⟨s', by simp only [runOp, hs']; rfl, hi⟩
    obtain ⟨s', hs', hi⟩ := hstep
    obtain ⟨s'', hs'', hi'⟩ := Inv.steps ops hi has
    refine ⟨s'', ?_, hi'⟩
    rw [runOps, hs']
    dsimp only
    rw [hs'']
    rfl

/-- In every covered history nothing undefined happens, and every call runs the function most recently
registered in that interpreter under that name, or none if there is none or it was deleted since. -/
theorem c57_history_partial (tclName : Bytes → Bytes) (live : List Nat) (owner : Bytes → Nat) (ops : List (Spec.CmdOp Bytes F))
    (h : AllAllowed tclName live owner .empty ops) :
    ∃ s, runOps tclName (.init live) ops = some (s, (Spec.Cmds.empty.steps ops).2) := by
  obtain ⟨s, hs, -⟩ := Inv.steps ops (Inv.empty tclName live owner) h
  exact ⟨s, hs⟩

/-- Names without `::` in front. -/
def strip : Bytes → Bytes
  | 58 :: 58 :: n => n
  | n => n

/-- Two interpreters; a command that makes another, a new version, and deletes. -/
example : AllAllowed (F := Nat) strip [0, 1] (fun n => if n = [98] then 1 else 0) .empty
    [.create 0 [97] 1, .enter 0 [97], .create 1 [98] 2, .enter 1 [98], .enter 0 [98], .leave, .leave, .create 0 [97] 3,
     .enter 0 [97], .leave, .delete 0 [97], .enter 0 [97]] := by
  simp [AllAllowed, Allowed, strip, Spec.Cmds.step, Spec.Cmds.empty]

example : (runOps (F := Nat) strip (.init [0, 1]) [.create 0 [97] 1, .enter 0 [97], .create 1 [98] 2, .enter 1 [98], .enter 0 [98], .leave, .leave,
    .create 0 [97] 3, .enter 0 [97], .leave, .delete 0 [97], .enter 0 [97]]).map (·.2) =
    some [none, some 1, none, some 2, none, none, none, none, some 3, none, none, none] := by decide

/-- Refutation: a command of the same name in a second interpreter removes the first one's. -/
theorem c57_refuted_second_create : (runOps (F := Nat) strip (.init [0, 1]) [.create 0 [97] 1, .create 1 [97] 2, .enter 0 [97]]).map (·.2) =
    some [none, none, none] := by decide

/-- Refutation: deleting a command in an interpreter that does not have it deletes that of another. -/
theorem c57_refuted_foreign_delete : (runOps (F := Nat) strip (.init [0, 1]) [.create 0 [97] 1, .delete 1 [97], .enter 0 [97]]).map (·.2) =
    some [none, none, none] := by decide

/-- Refutation: destroying an interpreter removes the commands of all. -/
theorem c57_refuted_destroy : ((create (F := Nat) strip (.init [0, 1]) 0 [97] 1 >>= fun s => destroyInterp strip s 1) >>=
    fun s => enter strip s 0 [97]).map (·.2) = some none := by decide

/-- Refutation: calling `a` as `::a` dereferences a null pointer. -/
theorem c57_refuted_qualified : (create (F := Nat) strip (.init [0]) 0 [97] 1 >>= fun s => (enter strip s 0 [58, 58, 97]).map (·.2)) = none ∧
    (create (F := Nat) strip (.init [0]) 0 [97] 1 >>= fun s => (enter strip s 0 [97]).map (·.2)) = some (some 1) := by decide

/-- Refutation: so does calling it by the name a script gave it; by its old name it is no command. -/
theorem c57_refuted_rename : ((create (F := Nat) strip (.init [0]) 0 [97] 1 >>= fun s => rename strip s 0 [97] [98]) >>=
      fun s => (enter strip s 0 [98]).map (·.2)) = none ∧
    ((create (F := Nat) strip (.init [0]) 0 [97] 1 >>= fun s => rename strip s 0 [97] [98]) >>=
      fun s => (enter strip s 0 [97]).map (·.2)) = some none := by decide

/-- Refutation: a command made anew while it runs is gone when that call ends. -/
theorem c57_refuted_recreate : (runOps (F := Nat) strip (.init [0]) [.create 0 [97] 1, .enter 0 [97], .create 0 [97] 2, .leave, .enter 0 [97]]).map (·.2) =
    some [none, some 1, none, none, none] := by decide

/-- Refutation: a command that deletes itself and is called again before it ends dereferences a null pointer. -/
theorem c57_refuted_delete_running : (runOps (F := Nat) strip (.init [0]) [.create 0 [97] 1, .enter 0 [97], .delete 0 [97], .enter 0 [97]]).map (·.2) =
    none := by decide

end Bdlib.Tcl
