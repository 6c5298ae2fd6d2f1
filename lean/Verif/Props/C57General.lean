import Verif.Props.C57Worlds

/-!
# C57: what breaks the registry, in general

Each of the things excluded in `c57_worlds_partial` breaks the property after every covered history, for all names, functions and
interpreters.
-/

namespace Bdlib.Tcl
open Bdlib Bdlib.Str

variable {F : Type} {tclName : Bytes → Bytes}

theorem runCmdWorlds_append (a b : List (Spec.CmdWorldOp Bytes F)) (s : Reg F) : runCmdWorlds tclName s (a ++ b) =
    match runCmdWorlds tclName s a with
    | none => none
    | some (s', os) => match runCmdWorlds tclName s' b with
      | none => none
      | some (s'', os') => some (s'', os ++ os') := by
  induction a generalizing s with
  | nil =>
    simp only [List.nil_append, runCmdWorlds]
    cases runCmdWorlds tclName s b <;> rfl
  | cons op a ih =>
    simp only [List.cons_append, runCmdWorlds]
    cases runCmdWorld tclName s op with
    | none => rfl
    | some r =>
      dsimp only
      rw [ih]
      cases runCmdWorlds tclName r.1 a with
      | none => rfl
      | some r' =>
        dsimp only
        cases runCmdWorlds tclName r'.1 b <;> rfl

theorem CInv.reached : ∀ (ops : List (Spec.CmdWorldOp Bytes F)) {live : List Nat} {sp : Spec.Cmds Bytes F} {s : Reg F},
    CInv tclName live sp s → AllCmdAllowed tclName live sp ops →
    ∃ s', runCmdWorlds tclName s ops = some (s', (sp.worldSteps tclName ops).2) ∧ CInv tclName (ops.foldl cmdLive live) (sp.worldSteps tclName ops).1 s'
  | [], _, _, s, h, _ => ⟨s, rfl, h⟩
  | op :: ops, live, sp, s, h, ⟨ha, has⟩ => by
    obtain ⟨s', hs', hi⟩ := h.step op ha
    obtain ⟨s'', hs'', hi'⟩ := CInv.reached ops hi has
    refine ⟨s'', ?_, hi'⟩
    rw [runCmdWorlds, hs']
    dsimp only
    rw [hs'']
    rfl

/-- A command there is: its entry in the map. -/
theorem CInv.has {live : List Nat} {sp : Spec.Cmds Bytes F} {s : Reg F} (h : CInv tclName live sp s) {i : Nat} {n : Bytes} {g : F} (hg : sp.cmd i n = some g) :
    (i, n) ∈ s.table ∧ tclName n = n ∧ ∃ id c, entry s.map n = some (some id) ∧ s.cmds[id]? = some c ∧ c.si = i ∧ c.fn = g ∧ c.name = n ∧ c.si ∈ live ∧
      c.registered = true ∧ c.refs = 1 + s.frames.count id := by
  have ht : (i, n) ∈ s.table := Classical.byContradiction fun hc => by rw [h.notbl i n hc] at hg; cases hg
  obtain ⟨id, c, h1, h2, h3, h4⟩ := h.tbl i n ht
  obtain ⟨k0, c', k1, k2, k3, k4, k5⟩ := h.cmdOf n id h1
  rw [h2] at k1
  cases k1
  rw [hg] at h4
  exact ⟨ht, k0, id, c, h1, h2, h3, by cases h4; rfl, k2, k3, k4, k5⟩

section
variable {ops : List (Spec.CmdWorldOp Bytes F)}

/-- What the interpreters' commands ought to be after a history, and the calls' functions. -/
abbrev meantBy (tclName : Bytes → Bytes) (ops : List (Spec.CmdWorldOp Bytes F)) : Spec.Cmds Bytes F × List (Option F) := Spec.Cmds.empty.worldSteps tclName ops

/-- **C57** (refuted in general) After every covered history: making a command of a second interpreter, under the name of a command that does not
run, takes it from the first. -/
theorem c57_refuted_second {i j : Nat} {n : Bytes} {g f : F} (hops : AllCmdAllowed tclName [] .empty ops) (hg : (meantBy tclName ops).1.cmd i n = some g)
    (hr : n ∉ (meantBy tclName ops).1.running) (hj : j ≠ i) :
    (runCmdWorlds tclName (.init []) (ops ++ [.on (.create j n f), .on (.enter i n)])).map (·.2) = some ((meantBy tclName ops).2 ++ [none, none]) := by
  obtain ⟨s, hs, h⟩ := CInv.reached ops (CInv.empty tclName) hops
  obtain ⟨ht, hn, id, c, -⟩ := h.has hg
  obtain ⟨s', hs', -, -, -, -, -, htab⟩ := h.create_key j n f hn hr
  have hno : (i, tclName n) ∉ s'.table := by
    rw [hn, htab]
    rintro (e | e)
    · cases e; exact hj rfl
    · exact e.2 rfl
  rw [runCmdWorlds_append, hs]
  simp only [runCmdWorlds, runCmdWorld, runOp, hs', Option.map_some, enter, if_neg hno]

/-- **C57** (refuted in general) Deleting it through an interpreter that has no such command does too. -/
theorem c57_refuted_foreign {i j : Nat} {n : Bytes} {g : F} (hops : AllCmdAllowed tclName [] .empty ops) (hg : (meantBy tclName ops).1.cmd i n = some g)
    (hr : n ∉ (meantBy tclName ops).1.running) :
    (runCmdWorlds tclName (.init []) (ops ++ [.on (.delete j n), .on (.enter i n)])).map (·.2) = some ((meantBy tclName ops).2 ++ [none, none]) := by
  obtain ⟨s, hs, h⟩ := CInv.reached ops (CInv.empty tclName) hops
  obtain ⟨ht, hn, id, c, he, hc, hsi, hfn, hname, hlive, hreg, hrefs⟩ := h.has hg
  have hf := h.not_frame he hr
  obtain ⟨k, hk, hk2, hrel⟩ := h.release he hr { s with map := without s.map n } rfl rfl rfl
  have := hk2 i ht
  subst this
  rw [runCmdWorlds_append, hs]
  simp only [runCmdWorlds, runCmdWorld, runOp, Tcl.delete, he, releaseEntry, hrel, Option.map_some, enter]
  rw [if_neg (by rw [hn]; simp [List.mem_filter])]
  rfl

/-- **C57** (refuted in general) Destroying another interpreter, while nothing runs, removes it. -/
theorem c57_refuted_other {i j : Nat} {n : Bytes} {g : F} (hops : AllCmdAllowed tclName [] .empty ops) (hg : (meantBy tclName ops).1.cmd i n = some g)
    (hr : (meantBy tclName ops).1.running = []) :
    (runCmdWorlds tclName (.init []) (ops ++ [.destroy j, .on (.enter i n)])).map (·.2) = some ((meantBy tclName ops).2 ++ [none, none]) := by
  obtain ⟨s, hs, h⟩ := CInv.reached ops (CInv.empty tclName) hops
  have hfr : s.frames = [] := by
    have := h.running
    rw [hr] at this
    exact List.map_eq_nil_iff.mp this.symm
  obtain ⟨s1, hs1, e1, e2, e3, htab⟩ := releaseAll_ok tclName s.map { s with map := [] } (fun n p hm => by
    have he := entry_of_mem h.keys hm
    cases p with
    | none => exact absurd he (h.nonull n)
    | some j =>
      obtain ⟨a0, c, a1, a2, a3, a4, a5⟩ := h.cmdOf n j he
      refine ⟨a0, j, c, rfl, a1, a2, by dsimp only; rw [h.live_eq]; exact a3, a4, ?_⟩
      rw [hfr] at a5
      exact a5) h.keys
  have hnone : ∀ j n, (j, n) ∉ s1.table := by
    intro j n hj
    obtain ⟨b1, b2⟩ := htab j n hj
    obtain ⟨j', c, c1, c2, c3, -⟩ := h.tbl j n b1
    exact b2 j' c (mem_of_entry c1) c2 c3
  have hd : destroyInterp tclName s j = some { s1 with live := s1.live.filter (· ≠ j), table := s1.table.filter fun e => e.1 ≠ j } := by
    unfold destroyInterp
    rw [hs1]
    rfl
  rw [runCmdWorlds_append, hs]
  simp only [runCmdWorlds, runCmdWorld, runOp, hd, Option.map_some, enter]
  rw [if_neg (fun hm => hnone _ _ (List.mem_filter.1 hm).1)]
  rfl

/-- **C57** (refuted in general) Calling a command by any other spelling of its name dereferences a null pointer. -/
theorem c57_refuted_spelling {i : Nat} {m : Bytes} {g : F} (hops : AllCmdAllowed tclName [] .empty ops)
    (hg : (meantBy tclName ops).1.cmd i (tclName m) = some g) (hm : tclName m ≠ m) :
    runCmdWorlds tclName (.init []) (ops ++ [.on (.enter i m)]) = none := by
  obtain ⟨s, hs, h⟩ := CInv.reached ops (CInv.empty tclName) hops
  obtain ⟨ht, -⟩ := h.has hg
  have he : entry s.map m = none := by
    cases hm' : entry s.map m with
    | none => rfl
    | some p => cases p with
      | none => exact absurd hm' (h.nonull m)
      | some id => exact absurd (h.cmdOf m id hm').1 hm
  rw [runCmdWorlds_append, hs]
  simp only [runCmdWorlds, runCmdWorld, runOp, enter, if_pos ht, he]

/-- **C57** (refuted in general) A command that a script renames is gone under its old name; called by its new name, it runs the function of
another interpreter's command of that name if there is one. -/
theorem c57_refuted_renamed {i j : Nat} {a b : Bytes} {g k : F} (hops : AllCmdAllowed tclName [] .empty ops)
    (hg : (meantBy tclName ops).1.cmd i a = some g) (hk : (meantBy tclName ops).1.cmd j b = some k) (hab : a ≠ b) :
    ∃ s s', runCmdWorlds tclName (.init []) ops = some (s, (meantBy tclName ops).2) ∧ rename tclName s i a b = some s' ∧
      enter tclName s' i a = some (s', none) ∧ (enter tclName s' i b).map (·.2) = some (some k) := by
  obtain ⟨s, hs, h⟩ := CInv.reached ops (CInv.empty tclName) hops
  obtain ⟨ht, hn, -⟩ := h.has hg
  obtain ⟨ht', hn', id, c, he, hc, -, hfn, -⟩ := h.has hk
  refine ⟨s, _, hs, by unfold rename; rw [hn, hn', if_pos ht], ?_, ?_⟩
  · unfold enter
    rw [hn, if_neg (by simp [hab])]
  · unfold enter
    rw [hn', if_pos (List.mem_cons_self ..)]
    dsimp only
    rw [he]
    dsimp only
    rw [hc]
    simp [hfn]

/-- … or it dereferences a null pointer, if no command of that name was ever made. -/
theorem c57_refuted_renamed_null {i : Nat} {a b : Bytes} {g : F} (hops : AllCmdAllowed tclName [] .empty ops)
    (hg : (meantBy tclName ops).1.cmd i a = some g) (hb : ∀ j f, .on (.create j b f) ∉ ops) :
    ∃ s s', runCmdWorlds tclName (.init []) ops = some (s, (meantBy tclName ops).2) ∧ rename tclName s i a b = some s' ∧
      enter tclName s' i b = none := by
  obtain ⟨s, hs, h⟩ := CInv.reached ops (CInv.empty tclName) hops
  obtain ⟨ht, hn, -⟩ := h.has hg
  have hrel : ∀ (s s' : Reg F) id, Tcl.release tclName s id = some s' → s'.map = s.map := by
    intro s s' id hr
    unfold Tcl.release at hr
    split at hr
    · cases hr
    · split at hr
      · cases hr; rfl
      · split at hr
        · cases hr; rfl
        · split at hr
          · cases hr; rfl
          · cases hr
  have hre : ∀ (s s' : Reg F) p, releaseEntry tclName s p = some s' → s'.map = s.map := by
    intro s s' p hr
    unfold releaseEntry at hr
    split at hr
    · exact hrel _ _ _ hr
    · cases hr; rfl
  have hall : ∀ (m : List (Bytes × Option Nat)) (s s' : Reg F), releaseAll tclName s m = some s' → s'.map = s.map := by
    intro m
    induction m with
    | nil => intro s s' hr; cases hr; rfl
    | cons e m ih =>
      intro s s' hr
      rw [releaseAll] at hr
      split at hr
      · cases hr
      · rename_i s1 h1
        rw [ih _ _ hr, hre _ _ _ h1]
  have key : ∀ (l : List (Spec.CmdWorldOp Bytes F)) (s s' : Reg F) (os), (∀ j f, .on (.create j b f) ∉ l) → entry s.map b = none →
      runCmdWorlds tclName s l = some (s', os) → entry s'.map b = none := by
    intro l
    induction l with
    | nil => intro s s' os _ h0 hr; cases hr; exact h0
    | cons op l ih =>
      intro s s' os hl h0 hr
      rw [runCmdWorlds] at hr
      cases hop : runCmdWorld tclName s op with
      | none => rw [hop] at hr; cases hr
      | some r =>
        rw [hop] at hr
        dsimp only at hr
        cases hr2 : runCmdWorlds tclName r.1 l with
        | none => rw [hr2] at hr; cases hr
        | some q =>
          rw [hr2] at hr
          cases hr
          refine ih _ _ _ (fun j f hm => hl j f (List.mem_cons_of_mem _ hm)) ?_ hr2
          cases op with
          | on op =>
            cases op with
            | create j n f =>
              have hne : b ≠ n := fun e => hl j f (by rw [e]; exact List.mem_cons_self ..)
              simp only [runCmdWorld, runOp, Option.map_eq_some_iff] at hop
              obtain ⟨s1, hc, rfl⟩ := hop
              unfold Tcl.create at hc
              dsimp only [Bind.bind, Option.bind] at hc
              split at hc
              · cases hc
              · rename_i s2 h2
                dsimp only
                rw [hrel _ _ _ hc]
                dsimp only [Reg.upd]
                rw [hre _ _ _ h2]
                dsimp only
                rw [entry_put, if_neg hne]
                exact h0
            | delete j n =>
              simp only [runCmdWorld, runOp, Option.map_eq_some_iff] at hop
              obtain ⟨s1, hc, rfl⟩ := hop
              unfold Tcl.delete at hc
              dsimp only
              rw [hre _ _ _ hc]
              dsimp only
              rw [entry_without, h0]
              split <;> rfl
            | enter j n =>
              simp only [runCmdWorld, runOp, enter] at hop
              split at hop
              · split at hop
                · split at hop
                  · cases hop; exact h0
                  · cases hop
                · cases hop
              · cases hop; exact h0
            | leave =>
              simp only [runCmdWorld, runOp, Option.map_eq_some_iff] at hop
              obtain ⟨s1, hc, rfl⟩ := hop
              unfold Tcl.leave at hc
              split at hc
              · cases hc
              · dsimp only; rw [hrel _ _ _ hc]; exact h0
          | drop j n => cases hop; exact h0
          | make j => cases hop; exact h0
          | destroy j =>
            simp only [runCmdWorld, Option.map_eq_some_iff] at hop
            obtain ⟨s1, hc, rfl⟩ := hop
            unfold destroyInterp at hc
            dsimp only [Bind.bind, Option.bind] at hc
            split at hc
            · cases hc
            · rename_i s2 h2
              cases hc
              dsimp only
              rw [hall _ _ _ h2]
              rfl
  have he := key ops _ _ _ hb rfl hs
  refine ⟨s, _, hs, by unfold rename; rw [hn, if_pos ht], ?_⟩
  unfold enter
  rw [if_pos (List.mem_cons_self ..)]
  dsimp only
  rw [he]

/-- **C57** (refuted in general) Making anew the command that runs: when it ends, the new one is gone. -/
theorem c57_refuted_anew {i : Nat} {n : Bytes} {g f : F} {rest : List Bytes} (hops : AllCmdAllowed tclName [] .empty ops)
    (hg : (meantBy tclName ops).1.cmd i n = some g) (hr : (meantBy tclName ops).1.running = n :: rest) (hn1 : n ∉ rest) :
    (runCmdWorlds tclName (.init []) (ops ++ [.on (.create i n f), .on .leave, .on (.enter i n)])).map (·.2) =
      some ((meantBy tclName ops).2 ++ [none, none, none]) := by
  obtain ⟨s, hs, h⟩ := CInv.reached ops (CInv.empty tclName) hops
  obtain ⟨ht, hn, id, c, he, hc, hsi, hfn, hname, hlive, hreg, hrefs⟩ := h.has hg
  have hrun := h.running
  rw [hr] at hrun
  cases hfr : s.frames with
  | nil => rw [hfr] at hrun; cases hrun
  | cons id' fs =>
    rw [hfr, List.map_cons, List.map_cons] at hrun
    injection hrun with h1 h2
    rw [he] at h1
    cases h1
    have hcnt : fs.count id = 0 := by
      rw [List.count_eq_zero]
      intro hj
      have : some (some id) ∈ fs.map fun j => some (some j) := List.mem_map_of_mem hj
      rw [← h2] at this
      obtain ⟨m, hm, e⟩ := List.mem_map.mp this
      exact hn1 (h.inj he e ▸ hm)
    rw [hfr, List.count_cons_self, hcnt] at hrefs
    have hid := h.lt he
    have hcr : ∃ s', Tcl.create tclName s i n f = some s' ∧ s'.frames = s.frames ∧ s'.live = s.live ∧ s'.cmds[id]? = some { c with refs := 1 } := by
      unfold Tcl.create
      dsimp only [Bind.bind, Option.bind]
      rw [he]
      unfold releaseEntry Tcl.release
      dsimp only
      rw [List.getElem?_append_left hid, hc]
      dsimp only
      rw [if_pos (by omega)]
      dsimp only [Reg.upd]
      rw [modify_eq, modify_ne (by omega)]
      simp only [List.getElem?_concat_length, Option.map_some]
      rw [if_pos (by omega)]
      refine ⟨_, rfl, rfl, rfl, ?_⟩
      dsimp only
      rw [modify_ne (by omega), modify_ne (by omega), modify_eq, List.getElem?_append_left hid, hc]
      simp [hrefs]
    obtain ⟨s', hs', e1, e2, e3⟩ := hcr
    have hlv : Tcl.leave tclName s' = some { Reg.upd { s' with frames := fs } id (fun c => { c with refs := 0, registered := false }) with
        table := s'.table.filter fun e => e ≠ (i, n) } := by
      unfold Tcl.leave
      rw [e1, hfr]
      dsimp only
      unfold Tcl.release
      dsimp only
      rw [e3]
      dsimp only
      rw [if_neg (by omega), if_neg (by rw [hreg]; simp), if_pos (by rw [e2, h.live_eq]; exact hlive), hsi, hname, hn]
    rw [runCmdWorlds_append, hs]
    simp only [runCmdWorlds, runCmdWorld, runOp, hs', hlv, Option.map_some, enter]
    rw [if_neg (by rw [hn]; simp [List.mem_filter])]
    rfl

/-- **C57** (refuted in general) Deleting a command that runs, and calling it again before it ends, dereferences a null pointer. -/
theorem c57_refuted_deleted {i j : Nat} {n : Bytes} {g : F} (hops : AllCmdAllowed tclName [] .empty ops)
    (hg : (meantBy tclName ops).1.cmd i n = some g) (hr : n ∈ (meantBy tclName ops).1.running) :
    runCmdWorlds tclName (.init []) (ops ++ [.on (.delete j n), .on (.enter i n)]) = none := by
  obtain ⟨s, hs, h⟩ := CInv.reached ops (CInv.empty tclName) hops
  obtain ⟨ht, hn, id, c, he, hc, hsi, hfn, hname, hlive, hreg, hrefs⟩ := h.has hg
  have hmem : id ∈ s.frames := by
    have : entry s.map n ∈ (meantBy tclName ops).1.running.map (entry s.map) := List.mem_map_of_mem hr
    rw [h.running, he] at this
    obtain ⟨k, hk, e⟩ := List.mem_map.1 this
    cases e
    exact hk
  have hpos := List.count_pos_iff.2 hmem
  have hd : Tcl.delete tclName s n = some (Reg.upd { s with map := without s.map n } id fun c => { c with refs := c.refs - 1 }) := by
    unfold Tcl.delete releaseEntry
    rw [he]
    dsimp only
    unfold Tcl.release
    dsimp only
    rw [hc]
    dsimp only
    rw [if_pos (by omega)]
  rw [runCmdWorlds_append, hs]
  simp only [runCmdWorlds, runCmdWorld, runOp, hd, Option.map_some, enter]
  rw [if_pos (by rw [hn]; exact ht)]
  have : entry (Reg.upd { s with map := without s.map n } id fun c => { c with refs := c.refs - 1 }).map n = none := by
    dsimp only [Reg.upd]
    rw [entry_without, if_pos rfl]
  rw [this]

/-- What releasing all entries leaves of a command that something else still refers to. -/
theorem releaseAll_rest {id : Nat} : ∀ (m : List (Bytes × Option Nat)) (s s' : Reg F) (c : ScriptCmd F), s.cmds[id]? = some c →
    (m.map (·.2)).count (some id) < c.refs → releaseAll tclName s m = some s' →
    s'.cmds[id]? = some { c with refs := c.refs - (m.map (·.2)).count (some id) } ∧ s'.frames = s.frames ∧ s'.live = s.live
  | [], s, s', c, hc, _, hr => by cases hr; exact ⟨hc, rfl, rfl⟩
  | (n, p) :: m, s, s', c, hc, hlt, hr => by
    rw [releaseAll] at hr
    split at hr
    · cases hr
    rename_i s1 h1
    rw [List.map_cons, List.count_cons] at hlt ⊢
    by_cases hp : p = some id
    · subst hp
      simp only [beq_self_eq_true, if_true] at hlt ⊢
      unfold releaseEntry Tcl.release at h1
      dsimp only at h1
      rw [hc] at h1
      dsimp only at h1
      rw [if_pos (by omega)] at h1
      cases h1
      obtain ⟨k1, k2, k3⟩ := releaseAll_rest m _ s' { c with refs := c.refs - 1 } (by dsimp only [Reg.upd]; rw [modify_eq, hc]; rfl) (by dsimp only; omega) hr
      refine ⟨?_, k2, k3⟩
      rw [k1]
      simp only [Option.some.injEq]
      congr 1
      omega
    · have hb : ((p == some id) = true) = False := by simp [hp]
      rw [if_neg (by rw [hb]; exact id_not)] at hlt ⊢
      have hk : s1.cmds[id]? = some c ∧ s1.frames = s.frames ∧ s1.live = s.live := by
        cases p with
        | none => cases h1; exact ⟨hc, rfl, rfl⟩
        | some j =>
          have hj : id ≠ j := fun e => hp (by rw [e])
          unfold releaseEntry Tcl.release at h1
          dsimp only at h1
          split at h1
          · cases h1
          · split at h1
            · cases h1; exact ⟨(modify_ne hj).trans hc, rfl, rfl⟩
            · split at h1
              · cases h1; exact ⟨(modify_ne hj).trans hc, rfl, rfl⟩
              · split at h1
                · cases h1; exact ⟨(modify_ne hj).trans hc, rfl, rfl⟩
                · cases h1
      obtain ⟨k1, k2, k3⟩ := releaseAll_rest m s1 s' c hk.1 hlt hr
      exact ⟨k1, k2.trans hk.2.1, k3.trans hk.2.2⟩
where id_not : ¬ False := fun h => h

/-- **C57** (refuted in general) Destroying an interpreter while its command runs: when the command ends, the interpreter is used after it was
deleted. -/
theorem c57_refuted_destroyed {i : Nat} {n : Bytes} {g : F} {rest : List Bytes} (hops : AllCmdAllowed tclName [] .empty ops)
    (hg : (meantBy tclName ops).1.cmd i n = some g) (hr : (meantBy tclName ops).1.running = n :: rest) (hn1 : n ∉ rest) :
    runCmdWorlds tclName (.init []) (ops ++ [.destroy i, .on .leave]) = none := by
  obtain ⟨s, hs, h⟩ := CInv.reached ops (CInv.empty tclName) hops
  obtain ⟨ht, hn, id, c, he, hc, hsi, hfn, hname, hlive, hreg, hrefs⟩ := h.has hg
  have hrun := h.running
  rw [hr] at hrun
  rw [runCmdWorlds_append, hs]
  dsimp only
  cases hfr : s.frames with
  | nil => rw [hfr] at hrun; cases hrun
  | cons id' fs =>
    rw [hfr, List.map_cons, List.map_cons] at hrun
    injection hrun with h1 h2
    rw [he] at h1
    cases h1
    have hcnt : fs.count id = 0 := by
      rw [List.count_eq_zero]
      intro hj
      have : some (some id) ∈ fs.map fun j => some (some j) := List.mem_map_of_mem hj
      rw [← h2] at this
      obtain ⟨m, hm, e⟩ := List.mem_map.mp this
      exact hn1 (h.inj he e ▸ hm)
    rw [hfr, List.count_cons_self, hcnt] at hrefs
    have hone : (s.map.map (·.2)).count (some id) = 1 := by
      have hmem := mem_of_entry he
      have huniq : ∀ m q, (m, some q) ∈ s.map → q = id → m = n := by
        rintro m q hm rfl
        exact h.inj (entry_of_mem h.keys hm) he
      have hk := h.keys
      clear hs he h h2 hfr ht
      revert hmem huniq hk
      generalize s.map = mp
      intro hmem huniq hk
      induction mp with
      | nil => cases hmem
      | cons e mp ih =>
        obtain ⟨m, p⟩ := e
        rw [List.map_cons, List.nodup_cons] at hk
        rw [List.map_cons, List.count_cons]
        rcases List.mem_cons.1 hmem with hh | hh
        · cases hh
          have : (mp.map (·.2)).count (some id) = 0 := by
            rw [List.count_eq_zero]
            intro hx
            obtain ⟨⟨m', p'⟩, hm', e⟩ := List.mem_map.1 hx
            dsimp only at e
            subst e
            have := huniq m' id (List.mem_cons_of_mem _ hm') rfl
            subst this
            exact hk.1 (List.mem_map_of_mem (f := (·.1)) hm')
          rw [this]; simp
        · have hne : p ≠ some id := by
            rintro rfl
            have := huniq m id (List.mem_cons_self ..) rfl
            subst this
            exact hk.1 (List.mem_map_of_mem (f := (·.1)) hh)
          rw [ih hh (fun m q hm => huniq m q (List.mem_cons_of_mem _ hm)) hk.2]
          simp [hne]
    simp only [runCmdWorlds, runCmdWorld]
    cases hd : destroyInterp tclName s i with
    | none => rfl
    | some s' =>
      unfold destroyInterp at hd
      dsimp only [Bind.bind, Option.bind] at hd
      split at hd
      · cases hd
      rename_i s1 hs1
      cases hd
      obtain ⟨k1, k2, k3⟩ := releaseAll_rest _ { s with map := [] } s1 c hc (by rw [hone]; omega) hs1
      have hlv : Tcl.leave tclName { s1 with live := s1.live.filter (· ≠ i), table := s1.table.filter fun e => e.1 ≠ i } = none := by
        unfold Tcl.leave
        dsimp only
        rw [k2]
        dsimp only
        rw [hfr]
        dsimp only
        unfold Tcl.release
        dsimp only
        rw [k1, hone]
        dsimp only
        rw [if_neg (by omega), if_neg (by rw [hreg]; simp), if_neg (by rw [hsi]; simp)]
      simp only [Option.map_some, runOp]
      rw [show Tcl.leave tclName _ = none from hlv]
      rfl

end

/-! Covered histories to continue: a command; one that runs; two commands of two interpreters. -/

def histOne : List (Spec.CmdWorldOp Bytes Nat) := [.make 0, .make 1, .on (.create 0 [97] 1)]
def histTwo : List (Spec.CmdWorldOp Bytes Nat) := [.make 0, .make 1, .on (.create 0 [97] 1), .on (.create 1 [98] 2)]
def histRun : List (Spec.CmdWorldOp Bytes Nat) := [.make 0, .on (.create 0 [97] 1), .on (.enter 0 [97])]

theorem histOne_ok : AllCmdAllowed strip [] .empty histOne := by
  simp [histOne, AllCmdAllowed, CmdAllowed, strip, Spec.Cmds.worldStep, Spec.Cmds.empty, Spec.CmdWorldOp.meant, cmdLive]
theorem histTwo_ok : AllCmdAllowed strip [] .empty histTwo := by
  simp [histTwo, AllCmdAllowed, CmdAllowed, strip, Spec.Cmds.worldStep, Spec.Cmds.step, Spec.Cmds.empty, Spec.CmdWorldOp.meant, cmdLive]
theorem histRun_ok : AllCmdAllowed strip [] .empty histRun := by
  simp [histRun, AllCmdAllowed, CmdAllowed, strip, Spec.Cmds.worldStep, Spec.Cmds.step, Spec.Cmds.empty, Spec.CmdWorldOp.meant, cmdLive]

example := c57_refuted_second histOne_ok (i := 0) (j := 1) (n := [97]) (g := 1) (f := 5) rfl (by decide) (by decide)
example := c57_refuted_foreign histOne_ok (i := 0) (j := 1) (n := [97]) (g := 1) rfl (by decide)
example := c57_refuted_other histOne_ok (i := 0) (j := 1) (n := [97]) (g := 1) rfl rfl
example := c57_refuted_spelling histOne_ok (i := 0) (m := [58, 58, 97]) (g := 1) rfl (by decide)
example := c57_refuted_renamed histTwo_ok (i := 0) (j := 1) (a := [97]) (b := [98]) (g := 1) (k := 2) rfl rfl (by decide)
example := c57_refuted_renamed_null histOne_ok (i := 0) (a := [97]) (b := [98]) (g := 1) rfl (by simp [histOne])
example := c57_refuted_anew histRun_ok (i := 0) (n := [97]) (g := 1) (f := 5) (rest := []) rfl rfl (by decide)
example := c57_refuted_deleted histRun_ok (i := 0) (j := 0) (n := [97]) (g := 1) rfl (by decide)
example := c57_refuted_destroyed histRun_ok (i := 0) (n := [97]) (g := 1) (rest := []) rfl rfl (by decide)

end Bdlib.Tcl
