import Verif.Props.C57

/-!
# C57 with interpreters that come and go

More histories than in `c57_history_partial`: interpreters are made and destroyed, scripts remove commands, and a
name may go from one interpreter to another.  Excluded, as each breaks the property: a name that is a command of
two interpreters at once, destroying an interpreter while another has commands or while a command runs, calling an
existing command by another spelling, making anew or deleting a running command (`c57_refuted_*`,
`c57_refuted_destroy_running`).
-/

namespace Bdlib.Tcl
open Bdlib Bdlib.Str

variable {F : Type}

/-- One operation; the result: the function that begins, if any. -/
def runCmdWorld (tclName : Bytes → Bytes) (s : Reg F) : Spec.CmdWorldOp Bytes F → Option (Reg F × Option F)
  | .on op => runOp tclName s op
  | .drop i n => some (dropCmd tclName s i n, none)
  | .make i => some (makeInterp s i, none)
  | .destroy i => (destroyInterp tclName s i).map (·, none)

def runCmdWorlds (tclName : Bytes → Bytes) (s : Reg F) : List (Spec.CmdWorldOp Bytes F) → Option (Reg F × List (Option F))
  | [] => some (s, [])
  | op :: ops => match runCmdWorld tclName s op with
    | none => none
    | some (s', o) => match runCmdWorlds tclName s' ops with
      | none => none
      | some (s'', os) => some (s'', o :: os)

/-- The interpreters that exist after an operation. -/
def cmdLive (live : List Nat) : Spec.CmdWorldOp Bytes F → List Nat
  | .make i => i :: live
  | .destroy i => live.filter (· ≠ i)
  | _ => live

/-- The operations covered. -/
def CmdAllowed (tclName : Bytes → Bytes) (live : List Nat) (s : Spec.Cmds Bytes F) : Spec.CmdWorldOp Bytes F → Prop
  | .on (.create i n _) => i ∈ live ∧ tclName n = n ∧ n ∉ s.running ∧ ∀ j, j ≠ i → s.cmd j n = none
  | .on (.delete i n) => n ∉ s.running ∧ ∀ j, j ≠ i → s.cmd j n = none
  | .on (.enter i n) => s.cmd i (tclName n) ≠ none → tclName n = n
  | .on .leave => s.running ≠ []
  | .drop _ _ => True
  | .make i => i ∉ live
  | .destroy i => s.running = [] ∧ ∀ j n, j ≠ i → s.cmd j n = none

def AllCmdAllowed (tclName : Bytes → Bytes) (live : List Nat) (s : Spec.Cmds Bytes F) : List (Spec.CmdWorldOp Bytes F) → Prop
  | [] => True
  | op :: ops => CmdAllowed tclName live s op ∧ AllCmdAllowed tclName (cmdLive live op) (s.worldStep (op.meant tclName)).1 ops

/-- Names, map, tables, running calls and reference counts fit together. -/
structure CInv (tclName : Bytes → Bytes) (live : List Nat) (sp : Spec.Cmds Bytes F) (s : Reg F) : Prop where
  live_eq : s.live = live
  keys : (s.map.map (·.1)).Nodup
  cmdOf : ∀ n j, entry s.map n = some (some j) → tclName n = n ∧ ∃ c, s.cmds[j]? = some c ∧ c.name = n ∧ c.si ∈ live ∧
    c.registered = true ∧ c.refs = 1 + s.frames.count j
  nonull : ∀ n, entry s.map n ≠ some none
  tbl : ∀ i n, (i, n) ∈ s.table → ∃ j c, entry s.map n = some (some j) ∧ s.cmds[j]? = some c ∧ c.si = i ∧ sp.cmd i n = some c.fn
  notbl : ∀ i n, (i, n) ∉ s.table → sp.cmd i n = none
  running : sp.running.map (entry s.map) = s.frames.map fun j => some (some j)

section
variable {tclName : Bytes → Bytes} {live : List Nat} {sp : Spec.Cmds Bytes F} {s : Reg F}

theorem CInv.empty (tclName : Bytes → Bytes) : CInv (F := F) tclName [] .empty (.init []) where
  live_eq := rfl
  keys := List.nodup_nil
  cmdOf := nofun
  nonull := nofun
  tbl := nofun
  notbl := fun _ _ _ => rfl
  running := rfl

theorem CInv.inj (h : CInv tclName live sp s) {n m j} (hn : entry s.map n = some (some j)) (hm : entry s.map m = some (some j)) : n = m := by
  obtain ⟨-, c, hc, e, -⟩ := h.cmdOf n j hn
  obtain ⟨-, c', hc', e', -⟩ := h.cmdOf m j hm
  rw [hc] at hc'
  cases hc'
  exact e ▸ e'

theorem CInv.not_frame (h : CInv tclName live sp s) {n j} (hn : entry s.map n = some (some j)) (hr : n ∉ sp.running) : s.frames.count j = 0 := by
  rw [List.count_eq_zero]
  intro hj
  have : some (some j) ∈ s.frames.map fun j => some (some j) := List.mem_map_of_mem hj
  rw [← h.running] at this
  obtain ⟨m, hm, e⟩ := List.mem_map.mp this
  exact hr (h.inj hn e ▸ hm)

theorem CInv.lt (h : CInv tclName live sp s) {n j} (hn : entry s.map n = some (some j)) : j < s.cmds.length := by
  obtain ⟨-, c, hc, -⟩ := h.cmdOf n j hn
  refine Classical.byContradiction fun hh => ?_
  rw [List.getElem?_eq_none (by omega)] at hc
  cases hc

theorem without_keys (m : List (Bytes × Option Nat)) (k : Bytes) (h : (m.map (·.1)).Nodup) :
    ((without m k).map (·.1)).Nodup ∧ k ∉ (without m k).map (·.1) := by
  refine ⟨h.sublist (List.filter_sublist.map _), ?_⟩
  simp [without]

/-- Only interpreters that have a command in the map have one of that name; releasing the entry of a name that
does not run. -/
theorem CInv.release (h : CInv tclName live sp s) {n : Bytes} {id : Nat} (he : entry s.map n = some (some id)) (hr : n ∉ sp.running)
    (s1 : Reg F) (h1 : s1.cmds[id]? = s.cmds[id]?) (h2 : s1.live = s.live) (h3 : s1.table = s.table) :
    ∃ k, k ∈ live ∧ (∀ i, (i, n) ∈ s.table → i = k) ∧ Tcl.release tclName s1 id = some { s1.upd id (fun c => { c with refs := 0, registered := false }) with
      table := s.table.filter fun e => e ≠ (k, n) } := by
  obtain ⟨hcn, c, hc, hname, hsi, hreg, hrefs⟩ := h.cmdOf n id he
  rw [h.not_frame he hr] at hrefs
  refine ⟨c.si, hsi, ?_, ?_⟩
  · intro i hi
    obtain ⟨j, c', he', hc', hs, -⟩ := h.tbl i n hi
    rw [he] at he'
    cases he'
    rw [hc] at hc'
    cases hc'
    exact hs.symm
  · unfold Tcl.release
    rw [h1, hc]
    dsimp only
    rw [if_neg (by omega), if_neg (by rw [hreg]; simp), if_pos (by rw [h2, h.live_eq]; exact hsi), hname, hcn, h3]

theorem CInv.delete (h : CInv tclName live sp s) (i : Nat) (n : Bytes) (hr : n ∉ sp.running) (ho : ∀ j, j ≠ i → sp.cmd j n = none) :
    ∃ s', Tcl.delete tclName s n = some s' ∧ CInv tclName live (sp.step (.delete i n)).1 s' := by
  have hk := without_keys s.map n h.keys
  have hrun : sp.running.map (entry (without s.map n)) = s.frames.map fun j => some (some j) := by
    rw [← h.running]
    refine map_entry_congr fun m hm => ?_
    have e : m ≠ n := fun e => hr (e ▸ hm)
    rw [entry_without, if_neg e]
  have hnon : ∀ m, entry (without s.map n) m ≠ some none := by
    intro m
    rw [entry_without]
    split
    · nofun
    · exact h.nonull m
  have hsp : ∀ j m, m ≠ n → (sp.step (.delete i n)).1.cmd j m = sp.cmd j m := by
    intro j m e
    simp only [Spec.Cmds.step]
    rw [if_neg (fun hh => e hh.2)]
  have hsn : ∀ j, (sp.step (.delete i n)).1.cmd j n = none := by
    intro j
    simp only [Spec.Cmds.step]
    split
    · rfl
    · rename_i hh; exact ho j fun e => hh ⟨e, trivial⟩
  unfold Tcl.delete
  cases he : entry s.map n with
  | none =>
    have hm : ∀ m, entry (without s.map n) m = entry s.map m := by
      intro m
      rw [entry_without]
      by_cases e : m = n
      · rw [if_pos e, e, he]
      · rw [if_neg e]
    have hnt : ∀ j, (j, n) ∉ s.table := by
      intro j hj
      obtain ⟨_, _, he', -⟩ := h.tbl j n hj
      rw [he] at he'
      cases he'
    refine ⟨_, rfl, h.live_eq, hk.1, fun m j hm' => ?_, hnon, fun j m hj => ?_, fun j m hj => ?_, hrun⟩
    · rw [hm] at hm'
      exact h.cmdOf m j hm'
    · have e : m ≠ n := fun e => hnt j (e ▸ hj)
      dsimp only
      rw [hm, hsp j m e]
      exact h.tbl j m hj
    · by_cases e : m = n
      · rw [e]; exact hsn j
      · rw [hsp j m e]; exact h.notbl j m hj
  | some p =>
    cases p with
    | none => exact absurd he (h.nonull n)
    | some id =>
      obtain ⟨k, hk1, hk2, hrel⟩ := h.release he hr { s with map := without s.map n } rfl rfl rfl
      refine ⟨_, hrel, h.live_eq, hk.1, fun m j hm' => ?_, hnon, fun j m hj => ?_, fun j m hj => ?_, hrun⟩
      · dsimp only [Reg.upd] at hm' ⊢
        rw [entry_without] at hm'
        by_cases e : m = n
        · rw [if_pos e] at hm'; cases hm'
        · rw [if_neg e] at hm'
          have hj : j ≠ id := fun hh => e (h.inj (hh ▸ hm') he)
          rw [modify_ne hj]
          exact h.cmdOf m j hm'
      · dsimp only [Reg.upd] at hj ⊢
        rw [List.mem_filter] at hj
        have e : m ≠ n := by
          rintro rfl
          have := hk2 j hj.1
          simp [this] at hj
        obtain ⟨j', c, a1, a2, a3, a4⟩ := h.tbl j m hj.1
        refine ⟨j', c, by rw [entry_without, if_neg e]; exact a1, ?_, a3, by rw [hsp j m e]; exact a4⟩
        have hj : j' ≠ id := fun hh => e (h.inj (hh ▸ a1) he)
        rw [modify_ne hj]
        exact a2
      · by_cases e : m = n
        · rw [e]; exact hsn j
        · rw [hsp j m e]
          refine h.notbl j m fun hj' => hj ?_
          dsimp only [Reg.upd]
          rw [List.mem_filter]
          exact ⟨hj', by simp [e]⟩

theorem CInv.enter (h : CInv tclName live sp s) (i : Nat) (n : Bytes) (hn : sp.cmd i (tclName n) ≠ none → tclName n = n) :
    ∃ s', Tcl.enter tclName s i n = some (s', (sp.step (.enter i (tclName n))).2) ∧ CInv tclName live (sp.step (.enter i (tclName n))).1 s' := by
  unfold Tcl.enter
  by_cases ht : (i, tclName n) ∈ s.table
  · obtain ⟨id, c, he, hc, hsi, hfn⟩ := h.tbl i _ ht
    have hn := hn (by rw [hfn]; nofun)
    rw [hn] at ht he hfn ⊢
    obtain ⟨hcn, c', hc', hname, hsl, hreg, hrefs⟩ := h.cmdOf n id he
    rw [hc] at hc'
    cases hc'
    rw [if_pos ht, he]
    dsimp only
    rw [hc]
    simp only [Spec.Cmds.step, hfn]
    refine ⟨_, rfl, h.live_eq, h.keys, fun m j hm' => ?_, h.nonull, fun j m hj => ?_, h.notbl, ?_⟩
    · dsimp only [Reg.upd] at hm' ⊢
      by_cases hj : j = id
      · subst hj
        have := h.inj hm' he
        subst this
        refine ⟨hcn, { c with refs := c.refs + 1 }, by rw [modify_eq, hc]; rfl, hname, hsl, hreg, ?_⟩
        dsimp only
        rw [hrefs, List.count_cons_self]
        omega
      · rw [modify_ne hj, List.count_cons_of_ne (fun hh => hj hh.symm)]
        exact h.cmdOf m j hm'
    · obtain ⟨j', c', a1, a2, a3, a4⟩ := h.tbl j m hj
      dsimp only [Reg.upd]
      by_cases hj : j' = id
      · subst hj
        rw [hc] at a2
        cases a2
        exact ⟨j', { c with refs := c.refs + 1 }, a1, by rw [modify_eq, hc]; rfl, a3, a4⟩
      · exact ⟨j', c', a1, (modify_ne hj).trans a2, a3, a4⟩
    · dsimp only [Reg.upd]
      rw [List.map_cons, List.map_cons, h.running, he]
  · rw [if_neg ht]
    simp only [Spec.Cmds.step, h.notbl i _ ht]
    exact ⟨_, rfl, h⟩

theorem CInv.leave (h : CInv tclName live sp s) (hr : sp.running ≠ []) :
    ∃ s', Tcl.leave tclName s = some s' ∧ CInv tclName live (sp.step .leave).1 s' := by
  have hrun := h.running
  unfold Tcl.leave
  cases hru : sp.running with
  | nil => exact absurd hru hr
  | cons n rest =>
    cases hfr : s.frames with
    | nil => rw [hru, hfr] at hrun; cases hrun
    | cons id fs =>
      rw [hru, hfr, List.map_cons, List.map_cons] at hrun
      injection hrun with he hrest
      obtain ⟨hcn, c, hc, hname, hsi, hreg, hrefs⟩ := h.cmdOf n id he
      rw [hfr, List.count_cons_self] at hrefs
      have hrel : Tcl.release tclName { s with frames := fs } id = some (Reg.upd { s with frames := fs } id fun c => { c with refs := c.refs - 1 }) := by
        unfold Tcl.release
        dsimp only
        rw [hc]
        dsimp only
        rw [if_pos (by omega)]
      have hst : (sp.step .leave).1 = { sp with running := rest } := by simp only [Spec.Cmds.step, hru, List.tail_cons]
      rw [hst]
      refine ⟨_, hrel, h.live_eq, h.keys, fun m j hm' => ?_, h.nonull, fun j m hj => ?_, h.notbl, hrest⟩
      · dsimp only [Reg.upd] at hm' ⊢
        by_cases hj : j = id
        · subst hj
          have := h.inj hm' he
          subst this
          refine ⟨hcn, { c with refs := c.refs - 1 }, by rw [modify_eq, hc]; rfl, hname, hsi, hreg, ?_⟩
          dsimp only
          rw [hrefs]
          omega
        · have := h.cmdOf m j hm'
          rw [hfr, List.count_cons_of_ne (fun hh => hj hh.symm)] at this
          rw [modify_ne hj]
          exact this
      · obtain ⟨j', c', a1, a2, a3, a4⟩ := h.tbl j m hj
        dsimp only [Reg.upd]
        by_cases hj : j' = id
        · subst hj
          rw [hc] at a2
          cases a2
          exact ⟨j', { c with refs := c.refs - 1 }, a1, by rw [modify_eq, hc]; rfl, a3, a4⟩
        · exact ⟨j', c', a1, (modify_ne hj).trans a2, a3, a4⟩

/-- What `createCommand` does, a running command excepted. -/
theorem CInv.create_key (h : CInv tclName live sp s) (i : Nat) (n : Bytes) (f : F) (hn : tclName n = n) (hr : n ∉ sp.running) :
    ∃ s', Tcl.create tclName s i n f = some s' ∧ s'.live = s.live ∧ s'.frames = s.frames ∧
      s'.map = (n, some s.cmds.length) :: without s.map n ∧ s'.cmds[s.cmds.length]? = some ⟨i, n, f, true, 1⟩ ∧
      (∀ j, j < s.cmds.length → entry s.map n ≠ some (some j) → s'.cmds[j]? = s.cmds[j]?) ∧
      ∀ e, e ∈ s'.table ↔ e = (i, n) ∨ e ∈ s.table ∧ e.2 ≠ n := by
  have last : ∀ s2 : Reg F, s2.cmds[s.cmds.length]? = some ⟨i, n, f, false, 2⟩ →
      Tcl.release tclName { s2.upd s.cmds.length (fun c => { c with registered := true }) with table := (i, tclName n) :: s2.table.filter fun e => e ≠ (i, tclName n) }
        s.cmds.length = some (Reg.upd { s2.upd s.cmds.length (fun c => { c with registered := true }) with table := (i, tclName n) :: s2.table.filter fun e => e ≠ (i, tclName n) }
          s.cmds.length fun c => { c with refs := c.refs - 1 }) := by
    intro s2 h2
    unfold Tcl.release
    dsimp only [Reg.upd]
    rw [modify_eq, h2]
    rfl
  unfold Tcl.create
  dsimp only [Bind.bind, Option.bind]
  cases he : entry s.map n with
  | none =>
    dsimp only [releaseEntry]
    refine ⟨_, last _ (by simp), rfl, rfl, rfl, ?_, ?_, ?_⟩
    · dsimp only [Reg.upd]
      rw [modify_eq, modify_eq]
      simp
    · intro j hj _
      dsimp only [Reg.upd]
      rw [modify_ne (by omega), modify_ne (by omega), List.getElem?_append_left hj]
    · intro e
      dsimp only [Reg.upd]
      rw [hn, List.mem_cons, List.mem_filter]
      constructor
      · rintro (hh | ⟨hh, -⟩)
        · exact .inl hh
        · refine .inr ⟨hh, fun e2 => ?_⟩
          obtain ⟨_, _, he', -⟩ := h.tbl e.1 e.2 hh
          rw [e2, he] at he'
          cases he'
      · rintro (hh | ⟨hh, h2⟩)
        · exact .inl hh
        · exact .inr ⟨hh, by rw [decide_eq_true_eq]; rintro rfl; exact h2 rfl⟩
  | some p =>
    cases p with
    | none => exact absurd he (h.nonull n)
    | some id =>
      have hid := h.lt he
      obtain ⟨k, hk1, hk2, hrel⟩ := h.release he hr { s with cmds := s.cmds ++ [⟨i, n, f, false, 2⟩], map := (n, some s.cmds.length) :: without s.map n }
        (List.getElem?_append_left hid) rfl rfl
      dsimp only [releaseEntry]
      rw [hrel]
      dsimp only
      refine ⟨_, last _ (by dsimp only [Reg.upd]; rw [modify_ne (by omega)]; simp), rfl, rfl, rfl, ?_, ?_, ?_⟩
      · dsimp only [Reg.upd]
        rw [modify_eq, modify_eq, modify_ne (by omega)]
        simp
      · intro j hj hne
        have hji : j ≠ id := fun e => hne (e ▸ rfl)
        dsimp only [Reg.upd]
        rw [modify_ne (by omega), modify_ne (by omega), modify_ne hji, List.getElem?_append_left hj]
      · intro e
        dsimp only [Reg.upd]
        rw [hn, List.mem_cons, List.mem_filter, List.mem_filter]
        constructor
        · rintro (hh | ⟨⟨hh, h3⟩, -⟩)
          · exact .inl hh
          · refine .inr ⟨hh, fun e2 => ?_⟩
            obtain ⟨e1, e3⟩ := e
            dsimp only at e2
            subst e2
            have := hk2 e1 hh
            simp [this] at h3
        · rintro (hh | ⟨hh, h2⟩)
          · exact .inl hh
          · refine .inr ⟨⟨hh, ?_⟩, ?_⟩ <;>
            · rw [decide_eq_true_eq]; rintro rfl; exact h2 rfl

theorem CInv.create (h : CInv tclName live sp s) (i : Nat) (n : Bytes) (f : F) (hlv : i ∈ live) (hn : tclName n = n) (hr : n ∉ sp.running)
    (ho : ∀ j, j ≠ i → sp.cmd j n = none) :
    ∃ s', Tcl.create tclName s i n f = some s' ∧ CInv tclName live (sp.step (.create i n f)).1 s' := by
  obtain ⟨s', hs', hl', hf', hm', hnew, hold, htab⟩ := h.create_key i n f hn hr
  refine ⟨s', hs', ?_⟩
  have hsp : ∀ j m, m ≠ n → (sp.step (.create i n f)).1.cmd j m = sp.cmd j m := by
    intro j m e
    simp only [Spec.Cmds.step]
    rw [if_neg (fun hh => e hh.2)]
  have hfr : s.frames.count s.cmds.length = 0 := by
    rw [List.count_eq_zero]
    intro hj
    have : some (some s.cmds.length) ∈ s.frames.map fun j => some (some j) := List.mem_map_of_mem hj
    rw [← h.running] at this
    obtain ⟨m, hm, e⟩ := List.mem_map.mp this
    exact Nat.lt_irrefl _ (h.lt e)
  have hk := without_keys s.map n h.keys
  refine ⟨hl'.trans h.live_eq, ?_, ?_, ?_, ?_, ?_, ?_⟩
  · rw [hm', List.map_cons, List.nodup_cons]
    exact ⟨hk.2, hk.1⟩
  · intro m j hmj
    rw [hm', entry_put] at hmj
    rw [hf']
    by_cases e : m = n
    · subst e
      rw [if_pos rfl] at hmj
      cases hmj
      exact ⟨hn, _, hnew, rfl, hlv, rfl, by rw [hfr]⟩
    · rw [if_neg e] at hmj
      rw [hold j (h.lt hmj) fun hh => e (h.inj hmj hh)]
      exact h.cmdOf m j hmj
  · intro m
    rw [hm', entry_put]
    by_cases e : m = n
    · rw [if_pos e]; nofun
    · rw [if_neg e]; exact h.nonull m
  · intro j m hj
    rw [htab] at hj
    rcases hj with hj | ⟨hj, e⟩
    · cases hj
      exact ⟨_, _, by rw [hm', entry_put, if_pos rfl], hnew, rfl, by simp [Spec.Cmds.step]⟩
    · obtain ⟨j', c, a1, a2, a3, a4⟩ := h.tbl j m hj
      exact ⟨j', c, by rw [hm', entry_put, if_neg e]; exact a1, by rw [hold j' (h.lt a1) fun hh => e (h.inj a1 hh)]; exact a2, a3, by rw [hsp j m e]; exact a4⟩
  · intro j m hj
    rw [htab] at hj
    by_cases e : m = n
    · subst e
      have hji : j ≠ i := fun e => hj (.inl (by rw [e]))
      simp only [Spec.Cmds.step]
      rw [if_neg (fun hh => hji hh.1)]
      exact ho j hji
    · rw [hsp j m e]
      exact h.notbl j m fun hh => hj (.inr ⟨hh, e⟩)
  · rw [hm', hf', ← h.running]
    show sp.running.map _ = _
    refine map_entry_congr fun m hm => ?_
    have e : m ≠ n := fun e => hr (e ▸ hm)
    rw [entry_put, if_neg e]

/-- Clearing the map while nothing runs: every command is released and its interpreter's command removed. -/
theorem releaseAll_ok (tclName : Bytes → Bytes) : ∀ (m : List (Bytes × Option Nat)) (s : Reg F),
    (∀ n p, (n, p) ∈ m → tclName n = n ∧ ∃ j c, p = some j ∧ s.cmds[j]? = some c ∧ c.name = n ∧ c.si ∈ s.live ∧ c.registered = true ∧ c.refs = 1) →
    (m.map (·.1)).Nodup →
    ∃ s', releaseAll tclName s m = some s' ∧ s'.map = s.map ∧ s'.frames = s.frames ∧ s'.live = s.live ∧
      ∀ i n, (i, n) ∈ s'.table → (i, n) ∈ s.table ∧ ∀ j c, (n, some j) ∈ m → s.cmds[j]? = some c → c.si ≠ i
  | [], s, _, _ => ⟨s, rfl, rfl, rfl, rfl, fun i n h => ⟨h, nofun⟩⟩
  | (n, p) :: m, s, h, hd => by
    obtain ⟨hn, j, c, rfl, hc, hname, hlive, hreg, hrefs⟩ := h n p List.mem_cons_self
    rw [List.map_cons, List.nodup_cons] at hd
    have hrel : releaseEntry tclName s (some (some j)) = some { s.upd j (fun c => { c with refs := 0, registered := false }) with
        table := s.table.filter fun e => e ≠ (c.si, n) } := by
      unfold releaseEntry Tcl.release
      dsimp only
      rw [hc]
      dsimp only
      rw [if_neg (by omega), if_neg (by rw [hreg]; simp), if_pos hlive, hname, hn]
    have hne : ∀ n' j', (n', some j') ∈ m → j' ≠ j := by
      intro n' j' hm e
      obtain ⟨-, j'', c', e', hc', hname', -⟩ := h n' _ (List.mem_cons_of_mem _ hm)
      cases e'
      subst e
      rw [hc] at hc'
      cases hc'
      exact hd.1 (List.mem_map.mpr ⟨_, hm, hname'.symm.trans hname⟩)
    obtain ⟨s', hs', e1, e2, e3, htab⟩ := releaseAll_ok tclName m
      { s.upd j (fun c => { c with refs := 0, registered := false }) with table := s.table.filter fun e => e ≠ (c.si, n) } (fun n' p' hm => by
        obtain ⟨a0, j', c', rfl, a1, a2⟩ := h n' p' (List.mem_cons_of_mem _ hm)
        refine ⟨a0, j', c', rfl, ?_, a2⟩
        dsimp only [Reg.upd]
        rw [modify_ne (hne n' j' hm)]
        exact a1) hd.2
    refine ⟨s', ?_, e1, e2, e3, fun i k hk => ?_⟩
    · rw [releaseAll, hrel]
      exact hs'
    · obtain ⟨b1, b2⟩ := htab i k hk
      dsimp only [Reg.upd] at b1 b2
      rw [List.mem_filter, decide_eq_true_eq] at b1
      refine ⟨b1.1, fun j' c' hm hc' => ?_⟩
      rcases List.mem_cons.mp hm with hm | hm
      · cases hm
        rw [hc] at hc'
        cases hc'
        intro e
        exact b1.2 (by rw [e])
      · refine b2 j' c' hm ?_
        rw [modify_ne (hne k j' hm)]
        exact hc'

theorem entry_of_mem : ∀ {m : List (Bytes × Option Nat)} {n : Bytes} {p : Option Nat}, (m.map (·.1)).Nodup → (n, p) ∈ m → entry m n = some p
  | (k, q) :: m, n, p, hd, h => by
    rw [List.map_cons, List.nodup_cons] at hd
    rw [entry]
    rcases List.mem_cons.mp h with h | h
    · cases h
      rw [if_pos rfl]
    · rw [if_neg, entry_of_mem hd.2 h]
      rintro rfl
      exact hd.1 (List.mem_map.mpr ⟨_, h, rfl⟩)

theorem mem_of_entry : ∀ {m : List (Bytes × Option Nat)} {n : Bytes} {p : Option Nat}, entry m n = some p → (n, p) ∈ m
  | (k, q) :: m, n, p, h => by
    rw [entry] at h
    by_cases e : k = n
    · rw [if_pos e] at h
      cases h
      rw [e]
      exact List.mem_cons_self
    · rw [if_neg e] at h
      exact List.mem_cons_of_mem _ (mem_of_entry h)

theorem CInv.destroy (h : CInv tclName live sp s) (i : Nat) (hr : sp.running = []) (ho : ∀ j n, j ≠ i → sp.cmd j n = none) :
    ∃ s', destroyInterp tclName s i = some s' ∧ CInv tclName (live.filter (· ≠ i)) (sp.worldStep (.destroy i)).1 s' := by
  have hfr : s.frames = [] := by
    have := h.running
    rw [hr] at this
    exact List.map_eq_nil_iff.mp this.symm
  obtain ⟨s1, hs1, e1, e2, e3, htab⟩ := releaseAll_ok tclName s.map { s with map := [] } (fun n p hm => by
    have he := entry_of_mem h.keys hm
    cases p with
    | none => exact absurd he (h.nonull n)
    | some j =>
      obtain ⟨a0, c, a1, a2, a3, a4, a5⟩ := h.cmdOf n j he
      refine ⟨a0, j, c, rfl, a1, a2, by dsimp only; rw [h.live_eq]; exact a3, a4, ?_⟩
      rw [hfr] at a5
      exact a5) h.keys
  have hnone : ∀ j n, (j, n) ∉ s1.table := by
    intro j n hj
    obtain ⟨b1, b2⟩ := htab j n hj
    obtain ⟨j', c, c1, c2, c3, -⟩ := h.tbl j n b1
    exact b2 j' c (mem_of_entry c1) c2 c3
  refine ⟨{ s1 with live := s1.live.filter (· ≠ i), table := s1.table.filter fun e => e.1 ≠ i }, ?_, ?_, ?_, ?_, ?_, ?_, ?_, ?_⟩
  · unfold destroyInterp
    rw [hs1]
    rfl
  · dsimp only
    rw [e3, h.live_eq]
  · dsimp only
    rw [e1]
    exact List.nodup_nil
  · intro n j hn
    dsimp only at hn
    rw [e1] at hn
    cases hn
  · intro n hn
    dsimp only at hn
    rw [e1] at hn
    cases hn
  · intro j n hj
    exact absurd (List.mem_filter.mp hj).1 (hnone j n)
  · intro j n _
    simp only [Spec.Cmds.worldStep]
    split
    · rfl
    · rename_i e; exact ho j n e
  · simp only [Spec.Cmds.worldStep]
    rw [hr, e2, hfr]
    rfl

theorem CInv.drop (h : CInv tclName live sp s) (i : Nat) (n : Bytes) :
    CInv tclName live (sp.worldStep (.drop i (tclName n))).1 (dropCmd tclName s i n) := by
  generalize hm : tclName n = m
  have hd : dropCmd tclName s i n = { s with table := s.table.filter fun e => e ≠ (i, m) } := by rw [← hm]; rfl
  rw [hd]
  refine ⟨h.live_eq, h.keys, h.cmdOf, h.nonull, ?_, ?_, h.running⟩
  · intro j k hj
    rw [List.mem_filter, decide_eq_true_eq] at hj
    obtain ⟨j', c, a1, a2, a3, a4⟩ := h.tbl j k hj.1
    refine ⟨j', c, a1, a2, a3, ?_⟩
    simp only [Spec.Cmds.worldStep]
    rw [if_neg (fun e => hj.2 (by rw [e.1, e.2]))]
    exact a4
  · intro j k hj
    rw [List.mem_filter, decide_eq_true_eq] at hj
    simp only [Spec.Cmds.worldStep]
    split
    · rfl
    · rename_i e
      exact h.notbl j k fun hh => hj ⟨hh, fun e' => e (by cases e'; exact ⟨rfl, rfl⟩)⟩

theorem CInv.make (h : CInv tclName live sp s) (i : Nat) : CInv tclName (i :: live) sp (makeInterp s i) := by
  refine ⟨congrArg (i :: ·) h.live_eq, h.keys, fun n j hn => ?_, h.nonull, h.tbl, h.notbl, h.running⟩
  obtain ⟨a0, c, a1, a2, a3, a4⟩ := h.cmdOf n j hn
  exact ⟨a0, c, a1, a2, List.mem_cons_of_mem _ a3, a4⟩

theorem CInv.step (h : CInv tclName live sp s) (op : Spec.CmdWorldOp Bytes F) (ha : CmdAllowed tclName live sp op) :
    ∃ s', runCmdWorld tclName s op = some (s', (sp.worldStep (op.meant tclName)).2) ∧ CInv tclName (cmdLive live op) (sp.worldStep (op.meant tclName)).1 s' := by
  cases op with
  | on op =>
    cases op with
    | create i n f =>
      obtain ⟨hlv, hn, hr, ho⟩ := ha
      obtain ⟨s', hs', hi⟩ := h.create i n f hlv hn hr ho
      exact ⟨s', by simp only [runCmdWorld, runOp, hs']; rfl, hi⟩
    | delete i n =>
      obtain ⟨hr, ho⟩ := ha
      obtain ⟨s', hs', hi⟩ := h.delete i n hr ho
      exact ⟨s', by simp only [runCmdWorld, runOp, hs']; rfl, hi⟩
    | enter i n => exact h.enter i n ha
    | leave =>
      obtain ⟨s', hs', hi⟩ := h.leave ha
      exact ⟨s', by simp only [runCmdWorld, runOp, hs']; rfl, hi⟩
  | drop i n => exact ⟨_, rfl, h.drop i n⟩
  | make i => exact ⟨_, rfl, h.make i⟩
  | destroy i =>
    obtain ⟨s', hs', hi⟩ := h.destroy i ha.1 ha.2
    exact ⟨s', by simp only [runCmdWorld, hs']; rfl, hi⟩

end

theorem CInv.steps {tclName : Bytes → Bytes} : ∀ (ops : List (Spec.CmdWorldOp Bytes F)) {live : List Nat} {sp : Spec.Cmds Bytes F} {s : Reg F},
    CInv tclName live sp s → AllCmdAllowed tclName live sp ops → ∃ s', runCmdWorlds tclName s ops = some (s', (sp.worldSteps tclName ops).2)
  | [], _, _, s, _, _ => ⟨s, rfl⟩
  | op :: ops, live, sp, s, h, ⟨ha, has⟩ => by
    obtain ⟨s', hs', hi⟩ := h.step op ha
    obtain ⟨s'', hs''⟩ := CInv.steps ops hi has
    refine ⟨s'', ?_⟩
    rw [runCmdWorlds, hs']
    dsimp only
    rw [hs'']
    rfl

/-- In every covered history, with interpreters made and destroyed and scripts that remove commands: nothing
undefined happens, and every call runs the function most recently registered in that interpreter under that name,
or none if there is none or it was deleted since. -/
theorem c57_worlds_partial (tclName : Bytes → Bytes) (ops : List (Spec.CmdWorldOp Bytes F)) (h : AllCmdAllowed tclName [] .empty ops) :
    ∃ s, runCmdWorlds tclName (.init []) ops = some (s, (Spec.Cmds.empty.worldSteps tclName ops).2) :=
  CInv.steps ops (CInv.empty tclName) h

/-- `a` is a command of the first interpreter, dropped by a script while it runs, then one of the second; the
second is destroyed and made again. -/
def cmdWorldSample : List (Spec.CmdWorldOp Bytes Nat) :=
  [.make 0, .make 1, .on (.create 0 [97] 1), .on (.enter 0 [97]), .drop 0 [58, 58, 97], .on (.enter 0 [58, 58, 97]), .on .leave, .on (.create 1 [97] 2),
   .on (.enter 1 [97]), .on .leave, .destroy 1, .make 1, .on (.enter 1 [97]), .on (.create 0 [97] 3), .on (.enter 0 [97]), .on .leave, .destroy 0]

example : AllCmdAllowed strip [] .empty cmdWorldSample := by
  simp [cmdWorldSample, AllCmdAllowed, CmdAllowed, strip, Spec.Cmds.worldStep, Spec.Cmds.step, Spec.Cmds.empty, Spec.CmdWorldOp.meant, cmdLive]
  grind

example : (runCmdWorlds strip (.init []) cmdWorldSample).map (·.2) =
    some [none, none, none, some 1, none, none, none, none, some 2, none, none, none, none, none, some 3, none, none] := by decide

/-- Refutation: destroying an interpreter while one of its commands runs (in a script that ends with it) uses the
interpreter after it was deleted, when that call ends. -/
theorem c57_refuted_destroy_running : runCmdWorlds (F := Nat) strip (.init []) [.make 0, .on (.create 0 [97] 1), .on (.enter 0 [97]), .destroy 0, .on .leave] |>.isNone := by
  decide

end Bdlib.Tcl
