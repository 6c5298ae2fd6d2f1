import Verif.Props.C57Worlds
import Verif.Spec.SharedCmds

/-!
# C57: all histories

Without any condition on names, interpreters, spellings, renaming by scripts or what running commands do: as long as nothing undefined happens, every
call runs the function last registered under the name as typed, by whatever interpreter, and the functions given to `createCommand` are destroyed
exactly when they are neither registered nor running.  Two things are undefined: calling a command of an interpreter by a name that is not registered,
and dropping the last pointer to a command of an interpreter that is gone.
-/

namespace Bdlib.Tcl
open Bdlib Bdlib.Str Bdlib.Spec

variable {F : Type}

/-- One operation. -/
def runAny (tclName : Bytes → Bytes) (s : Reg F) : AnyCmdOp Bytes F → Option (Reg F × Option F)
  | .world op => runCmdWorld tclName s op
  | .rename i a b => (rename tclName s i a b).map (·, none)

def runAnys (tclName : Bytes → Bytes) (s : Reg F) : List (AnyCmdOp Bytes F) → Option (Reg F × List (Option F))
  | [] => some (s, [])
  | op :: ops => match runAny tclName s op with
    | none => none
    | some (s', o) => match runAnys tclName s' ops with
      | none => none
      | some (s'', os) => some (s'', o :: os)

/-- What the `id`-th `createCommand` made, its function among it, exists. -/
def FnAlive (s : Reg F) (id : Nat) : Prop := ∃ c, s.cmds[id]? = some c ∧ 0 < c.refs

/-- The pointers in the map to a command. -/
def inMap (m : List (Bytes × Option Nat)) (id : Nat) : Nat := (m.map Prod.snd).count (some id)

/-- Reference counts are right; `pend` are pointers about to be released. -/
structure CmdRInv (s : Reg F) (pend : List Nat) : Prop where
  refs : ∀ id c, s.cmds[id]? = some c → c.refs = inMap s.map id + s.frames.count id + pend.count id
  mapOk : ∀ id, some id ∈ s.map.map Prod.snd → id < s.cmds.length
  frameOk : ∀ id ∈ s.frames, id < s.cmds.length
  pendOk : ∀ id ∈ pend, id < s.cmds.length
  keys : (s.map.map Prod.fst).Nodup

structure CmdFInv (s : Reg F) (t : SharedCmds Bytes F) : Prop where
  made : t.made = s.cmds.length
  running : t.running = s.frames
  table : ∀ n, entry s.map n = (t.table n).map fun x => some x.1
  fn : ∀ n id f, t.table n = some (id, f) → (s.cmds[id]?).map ScriptCmd.fn = some f

theorem entry_without_ne {m : List (Bytes × Option Nat)} {n k : Bytes} (h : k ≠ n) : entry (without m n) k = entry m k := by
  induction m with
  | nil => rfl
  | cons e m ih =>
    obtain ⟨a, p⟩ := e
    unfold without at ih ⊢
    by_cases ha : a = n
    · rw [List.filter_cons_of_neg (by simpa using ha), ih]
      exact (if_neg (by rintro rfl; exact h ha)).symm
    · rw [List.filter_cons_of_pos (by simpa using ha)]
      show (if a = k then some p else entry _ k) = if a = k then some p else entry m k
      rw [ih]

theorem entry_none_of {m : List (Bytes × Option Nat)} {n : Bytes} (h : n ∉ m.map Prod.fst) : entry m n = none := by
  induction m with
  | nil => rfl
  | cons e m ih =>
    obtain ⟨a, p⟩ := e
    simp only [List.map_cons, List.mem_cons, not_or] at h
    exact (if_neg fun e => h.1 e.symm).trans (ih h.2)

theorem without_of_none {m : List (Bytes × Option Nat)} {n : Bytes} (h : entry m n = none) : without m n = m := by
  induction m with
  | nil => rfl
  | cons e m ih =>
    obtain ⟨a, p⟩ := e
    unfold entry at h
    split at h
    · cases h
    · rename_i ha
      unfold without at ih ⊢
      rw [List.filter_cons_of_pos (by simpa using ha), ih h]

theorem keys_without {m : List (Bytes × Option Nat)} (h : (m.map Prod.fst).Nodup) (n : Bytes) : ((without m n).map Prod.fst).Nodup :=
  List.Nodup.sublist (List.Sublist.map _ List.filter_sublist) h

theorem inMap_without {m : List (Bytes × Option Nat)} (h : (m.map Prod.fst).Nodup) (n : Bytes) (id : Nat) :
    inMap m id = inMap (without m n) id + if entry m n = some (some id) then 1 else 0 := by
  induction m with
  | nil => rfl
  | cons e m ih =>
    obtain ⟨a, p⟩ := e
    simp only [List.map_cons, List.nodup_cons] at h
    have ih := ih h.2
    unfold inMap at ih ⊢
    by_cases ha : a = n
    · subst ha
      have hn := entry_none_of h.1
      have hw : without ((a, p) :: m) a = m := by
        have := without_of_none hn
        unfold without at this ⊢
        rw [List.filter_cons_of_neg (by simp), this]
      have he : entry ((a, p) :: m) a = some p := if_pos rfl
      rw [hw, he]
      simp only [List.map_cons, List.count_cons, beq_iff_eq, Option.some.injEq]
    · have hw : without ((a, p) :: m) n = (a, p) :: without m n := by
        unfold without
        rw [List.filter_cons_of_pos (by simpa using ha)]
      have he : entry ((a, p) :: m) n = entry m n := if_neg ha
      rw [hw, he]
      simp only [List.map_cons, List.count_cons]
      omega

theorem mem_map_entry {m : List (Bytes × Option Nat)} (h : (m.map Prod.fst).Nodup) {id : Nat} : some id ∈ m.map Prod.snd ↔ ∃ n, entry m n = some (some id) := by
  induction m with
  | nil => exact ⟨nofun, nofun⟩
  | cons e m ih =>
    obtain ⟨a, p⟩ := e
    simp only [List.map_cons, List.nodup_cons] at h
    simp only [List.map_cons, List.mem_cons]
    rw [ih h.2]
    constructor
    · rintro (e | ⟨n, hn⟩)
      · exact ⟨a, (if_pos rfl).trans (congrArg some e.symm)⟩
      · refine ⟨n, (if_neg ?_).trans hn⟩
        rintro rfl
        rw [entry_none_of h.1] at hn
        cases hn
    · rintro ⟨n, hn⟩
      unfold entry at hn
      split at hn
      · exact Or.inl (Option.some.inj hn).symm
      · exact Or.inr ⟨n, hn⟩

/-- What releasing a pointer does to the commands. -/
theorem release_spec {tclName : Bytes → Bytes} {s s' : Reg F} {id : Nat} (h : release tclName s id = some s') :
    s'.map = s.map ∧ s'.frames = s.frames ∧ s'.live = s.live ∧
      ∀ j : Nat, (s'.cmds[j]?).map (fun c => (c.fn, c.refs)) = (s.cmds[j]?).map fun c => (c.fn, if id = j then c.refs - 1 else c.refs) := by
  unfold release at h
  split at h
  · cases h
  · rename_i c hc
    have key : ∀ g : ScriptCmd F → ScriptCmd F, (g c).fn = c.fn → (g c).refs = c.refs - 1 →
        ∀ j : Nat, ((s.cmds.modify id g)[j]?).map (fun c => (c.fn, c.refs)) = (s.cmds[j]?).map fun c => (c.fn, if id = j then c.refs - 1 else c.refs) := by
      intro g h1 h2 j
      rw [List.getElem?_modify]
      by_cases e : id = j
      · subst e
        rw [hc]
        simp [h1, h2]
      · cases s.cmds[j]? <;> simp [e]
    split at h
    · cases h
      exact ⟨rfl, rfl, rfl, key _ rfl rfl⟩
    · rename_i h1
      split at h
      · cases h
        exact ⟨rfl, rfl, rfl, key _ rfl (by dsimp only; omega)⟩
      · split at h
        · cases h
          exact ⟨rfl, rfl, rfl, key _ rfl (by dsimp only; omega)⟩
        · cases h

theorem length_of_map {A B : Type} {l l' : List A} {f : A → B} {g : Nat → A → B} (h : ∀ j : Nat, (l'[j]?).map f = (l[j]?).map (g j)) : l'.length = l.length := by
  rcases Nat.lt_trichotomy l'.length l.length with hl | hl | hl
  · have := h l'.length
    rw [List.getElem?_eq_none (Nat.le_refl _), List.getElem?_eq_getElem hl] at this
    cases this
  · exact hl
  · have := h l.length
    rw [List.getElem?_eq_none (l := l) (Nat.le_refl _), List.getElem?_eq_getElem hl] at this
    cases this

theorem CmdRInv.release {tclName : Bytes → Bytes} {s s' : Reg F} {id : Nat} {pend : List Nat} (hI : CmdRInv s (id :: pend)) (h : release tclName s id = some s') :
    CmdRInv s' pend ∧ s'.map = s.map ∧ s'.frames = s.frames ∧ s'.cmds.length = s.cmds.length ∧
      ∀ j : Nat, (s'.cmds[j]?).map ScriptCmd.fn = (s.cmds[j]?).map ScriptCmd.fn := by
  obtain ⟨e1, e2, _, e4⟩ := release_spec h
  have hl := length_of_map (g := fun j (c : ScriptCmd F) => (c.fn, if id = j then c.refs - 1 else c.refs)) e4
  refine ⟨⟨?_, by rw [e1, hl]; exact hI.mapOk, by rw [e2, hl]; exact hI.frameOk, fun j hj => by rw [hl]; exact hI.pendOk j (List.mem_cons_of_mem _ hj),
    by rw [e1]; exact hI.keys⟩, e1, e2, hl, ?_⟩
  · intro j c hc
    have := e4 j
    rw [hc] at this
    cases hc' : s.cmds[j]? with
    | none => rw [hc'] at this; cases this
    | some c' =>
      rw [hc'] at this
      simp only [Option.map_some, Option.some.injEq, Prod.mk.injEq] at this
      have hr := hI.refs j c' hc'
      rw [List.count_cons] at hr
      rw [this.2, e1, e2]
      by_cases e : id = j
      · rw [if_pos e]; simp [e] at hr; omega
      · rw [if_neg e]; simp [e] at hr; omega
  · intro j
    have := congrArg (Option.map Prod.fst) (e4 j)
    simp only [Option.map_map] at this
    exact this

/-- The interpreters commands were made for. -/
def makers (s : Reg F) : List Nat := s.cmds.map fun c => c.si

/-- A command was made for an interpreter that is gone. -/
def GoneInterp (s : Reg F) : Prop := ∃ i ∈ makers s, i ∉ s.live

theorem release_none {tclName : Bytes → Bytes} {s : Reg F} {id : Nat} (hid : id < s.cmds.length) (h : release tclName s id = none) : GoneInterp s := by
  unfold release at h
  rw [List.getElem?_eq_getElem hid] at h
  dsimp only at h
  split at h
  · cases h
  · split at h
    · cases h
    · rename_i hr
      split at h
      · cases h
      · rename_i hl
        exact ⟨_, List.mem_map.mpr ⟨_, List.getElem_mem hid, rfl⟩, hl⟩

theorem CmdFInv.same {s s' : Reg F} {t : SharedCmds Bytes F} (h : CmdFInv s t) (e1 : s'.map = s.map) (e2 : s'.frames = s.frames)
    (e3 : s'.cmds.length = s.cmds.length) (e4 : ∀ j : Nat, (s'.cmds[j]?).map ScriptCmd.fn = (s.cmds[j]?).map ScriptCmd.fn) : CmdFInv s' t :=
  ⟨h.made.trans e3.symm, h.running.trans e2.symm, by rw [e1]; exact h.table, fun n id f hf => (e4 id).trans (h.fn n id f hf)⟩

theorem count_zero_of_ge {l : List Nat} {n id : Nat} (h : ∀ j ∈ l, j < n) (hid : n ≤ id) : l.count id = 0 := by
  rw [List.count_eq_zero]
  intro hm
  have := h id hm
  omega

theorem CmdRInv.create {tclName : Bytes → Bytes} {s s' : Reg F} {t : SharedCmds Bytes F} {i : Nat} {n : Bytes} {f : F} (hI : CmdRInv s []) (hF : CmdFInv s t)
    (h : create tclName s i n f = some s') :
    CmdRInv s' [] ∧ CmdFInv s' { t with table := fun m => if m = n then some (t.made, f) else t.table m, made := t.made + 1 } := by
  simp only [Tcl.create, Option.bind_eq_bind, Option.bind_eq_some_iff] at h
  obtain ⟨s2, h2, h3⟩ := h
  -- the new command and its entry
  let s1 : Reg F := { s with cmds := s.cmds ++ [⟨i, n, f, false, 2⟩], map := (n, some s.cmds.length) :: without s.map n }
  have hfresh : inMap s.map s.cmds.length = 0 := by
    unfold inMap
    rw [List.count_eq_zero]
    intro hm
    have := hI.mapOk _ hm
    omega
  have hfresh' : inMap (without s.map n) s.cmds.length = 0 := by
    have := inMap_without hI.keys n s.cmds.length
    omega
  have hmapOk : ∀ id, some id ∈ (without s.map n).map Prod.snd → id < s.cmds.length := fun id hid => by
    refine hI.mapOk id ?_
    unfold without at hid
    obtain ⟨e, he, he'⟩ := List.mem_map.mp hid
    exact List.mem_map.mpr ⟨e, (List.mem_filter.mp he).1, he'⟩
  have hcons : ∀ id, inMap s1.map id = inMap (without s.map n) id + if s.cmds.length = id then 1 else 0 := by
    intro id
    show ((((n, some s.cmds.length) :: without s.map n).map Prod.snd).count (some id)) = _
    rw [List.map_cons, List.count_cons]
    simp [inMap]
  have hI1 : CmdRInv s1 (match entry s.map n with | some (some id) => [id, s.cmds.length] | _ => [s.cmds.length]) := by
    refine ⟨?_, ?_, ?_, ?_, ?_⟩
    · intro id c hc
      rw [hcons]
      have hw := inMap_without hI.keys n id
      rcases Nat.lt_trichotomy id s.cmds.length with hl | hl | hl
      · have hc : s.cmds[id]? = some c := by rw [← hc]; exact (List.getElem?_append_left hl).symm
        have := hI.refs id c hc
        rw [if_neg (by omega)]
        show c.refs = _ + s.frames.count id + _
        have hne : s.cmds.length ≠ id := by omega
        cases he : entry s.map n with
        | none => rw [he] at hw; simp at hw; simp [hne]; simp at this; omega
        | some p =>
          cases p with
          | none => rw [he] at hw; simp at hw; simp [hne]; simp at this; omega
          | some id' =>
            rw [he] at hw
            simp only [Option.some.injEq] at hw
            simp only [List.count_cons, List.count_nil, beq_iff_eq, hne, if_false]
            simp at this
            omega
      · subst hl
        have hc : c = ⟨i, n, f, false, 2⟩ := by
          have : (s.cmds ++ [(⟨i, n, f, false, 2⟩ : ScriptCmd F)])[s.cmds.length]? = some ⟨i, n, f, false, 2⟩ := by simp
          exact (Option.some.inj (hc.symm.trans this))
        subst hc
        rw [hfresh', if_pos rfl]
        have h0 := count_zero_of_ge hI.frameOk (Nat.le_refl _)
        show 2 = 0 + 1 + s.frames.count _ + _
        rw [h0]
        cases he : entry s.map n with
        | none => simp
        | some p =>
          cases p with
          | none => simp
          | some id' =>
            have : id' < s.cmds.length := hI.mapOk id' ((mem_map_entry hI.keys).mpr ⟨n, he⟩)
            have hne : id' ≠ s.cmds.length := by omega
            simp [hne]
      · have : s1.cmds[id]? = none := List.getElem?_eq_none (by simp [s1]; omega)
        rw [this] at hc
        cases hc
    · intro id hid
      simp only [s1, List.map_cons, List.mem_cons, Option.some.injEq, List.length_append, List.length_singleton] at hid ⊢
      rcases hid with rfl | hid
      · omega
      · have := hmapOk id hid; omega
    · intro id hid
      have := hI.frameOk id hid
      simp only [s1, List.length_append, List.length_singleton]
      omega
    · intro id hid
      simp only [s1, List.length_append, List.length_singleton]
      cases he : entry s.map n with
      | none => rw [he] at hid; simp at hid; omega
      | some p =>
        cases p with
        | none => rw [he] at hid; simp at hid; omega
        | some id' =>
          have : id' < s.cmds.length := hI.mapOk id' ((mem_map_entry hI.keys).mpr ⟨n, he⟩)
          rw [he] at hid
          simp at hid
          omega
    · show ((n :: (without s.map n).map Prod.fst)).Nodup
      rw [List.nodup_cons]
      refine ⟨?_, keys_without hI.keys n⟩
      unfold without
      simp
  have hF1 : CmdFInv s1 { t with table := fun m => if m = n then some (t.made, f) else t.table m, made := t.made + 1 } := by
    refine ⟨by simp [s1, hF.made], hF.running, ?_, ?_⟩
    · intro m
      show (if n = m then some (some s.cmds.length) else entry (without s.map n) m) = _
      by_cases e : m = n
      · subst e; simp [hF.made]
      · dsimp only
        rw [if_neg (Ne.symm e), if_neg e, entry_without_ne e, hF.table]
    · intro m id g hg
      dsimp only at hg
      by_cases e : m = n
      · rw [if_pos e] at hg
        cases hg
        simp [s1, hF.made]
      · rw [if_neg e] at hg
        have := hF.fn m id g hg
        have hl : id < s.cmds.length := by
          rcases Nat.lt_or_ge id s.cmds.length with hl | hl
          · exact hl
          · rw [List.getElem?_eq_none hl] at this; cases this
        show ((s.cmds ++ _)[id]?).map _ = _
        rw [List.getElem?_append_left hl]
        exact this
  -- the old entry goes
  have h2' : CmdRInv s2 [s.cmds.length] ∧ s2.map = s1.map ∧ s2.frames = s1.frames ∧ s2.cmds.length = s1.cmds.length ∧
      ∀ j : Nat, (s2.cmds[j]?).map ScriptCmd.fn = (s1.cmds[j]?).map ScriptCmd.fn := by
    cases he : entry s.map n with
    | none =>
      rw [he] at h2 hI1
      cases h2
      exact ⟨hI1, rfl, rfl, rfl, fun _ => rfl⟩
    | some p =>
      cases p with
      | none =>
        rw [he] at h2 hI1
        cases h2
        exact ⟨hI1, rfl, rfl, rfl, fun _ => rfl⟩
      | some id' =>
        rw [he] at h2 hI1
        exact hI1.release h2
  obtain ⟨hI2, a1, a2, a3, a4⟩ := h2'
  have hF2 := hF1.same a1 a2 a3 a4
  -- it is registered
  let s3 : Reg F := { s2.upd s.cmds.length (fun c => { c with registered := true }) with
    table := (i, tclName n) :: s2.table.filter fun e => e ≠ (i, tclName n) }
  have hc3 : ∀ j : Nat, (s3.cmds[j]?).map (fun c => (c.fn, c.refs)) = (s2.cmds[j]?).map fun c => (c.fn, c.refs) := by
    intro j
    show ((s2.cmds.modify _ _)[j]?).map _ = _
    rw [List.getElem?_modify]
    cases s2.cmds[j]? with
    | none => rfl
    | some c => by_cases e : s.cmds.length = j <;> simp [e]
  have hl3 := length_of_map (g := fun _ (c : ScriptCmd F) => (c.fn, c.refs)) hc3
  have hI3 : CmdRInv s3 [s.cmds.length] := by
    refine ⟨?_, fun j hj => by rw [hl3]; exact hI2.mapOk j hj, fun j hj => by rw [hl3]; exact hI2.frameOk j hj,
      fun j hj => by rw [hl3]; exact hI2.pendOk j hj, hI2.keys⟩
    intro j c hc
    have := hc3 j
    rw [hc] at this
    cases hc' : s2.cmds[j]? with
    | none => rw [hc'] at this; cases this
    | some c' =>
      rw [hc'] at this
      simp only [Option.map_some, Option.some.injEq, Prod.mk.injEq] at this
      rw [this.2]
      exact hI2.refs j c' hc'
  have hF3 : CmdFInv s3 _ := hF2.same (s' := s3) rfl rfl hl3 fun j => by
    have := congrArg (Option.map Prod.fst) (hc3 j)
    simp only [Option.map_map] at this
    exact this
  obtain ⟨hI4, b1, b2, b3, b4⟩ := hI3.release h3
  exact ⟨hI4, hF3.same b1 b2 b3 b4⟩

theorem CmdRInv.delete {tclName : Bytes → Bytes} {s s' : Reg F} {t : SharedCmds Bytes F} {n : Bytes} (hI : CmdRInv s []) (hF : CmdFInv s t)
    (h : delete tclName s n = some s') : CmdRInv s' [] ∧ CmdFInv s' { t with table := fun m => if m = n then none else t.table m } := by
  unfold Tcl.delete at h
  let s1 : Reg F := { s with map := without s.map n }
  have hI1 : CmdRInv s1 (match entry s.map n with | some (some id) => [id] | _ => []) := by
    refine ⟨?_, ?_, hI.frameOk, ?_, keys_without hI.keys n⟩
    · intro id c hc
      have hw := inMap_without hI.keys n id
      have := hI.refs id c hc
      show c.refs = inMap (without s.map n) id + s.frames.count id + _
      cases he : entry s.map n with
      | none => rw [he] at hw; simp at hw; simp; simp at this; omega
      | some p =>
        cases p with
        | none => rw [he] at hw; simp at hw; simp; simp at this; omega
        | some id' =>
          rw [he] at hw
          simp only [Option.some.injEq] at hw
          simp only [List.count_cons, List.count_nil, beq_iff_eq]
          simp at this
          omega
    · intro id hid
      refine hI.mapOk id ?_
      obtain ⟨e, he, he'⟩ := List.mem_map.mp hid
      exact List.mem_map.mpr ⟨e, (List.mem_filter.mp he).1, he'⟩
    · intro id hid
      cases he : entry s.map n with
      | none => rw [he] at hid; cases hid
      | some p =>
        cases p with
        | none => rw [he] at hid; cases hid
        | some id' =>
          rw [he] at hid
          simp at hid
          subst hid
          exact hI.mapOk id ((mem_map_entry hI.keys).mpr ⟨n, he⟩)
  have hF1 : CmdFInv s1 { t with table := fun m => if m = n then none else t.table m } := by
    refine ⟨hF.made, hF.running, ?_, ?_⟩
    · intro m
      show entry (without s.map n) m = _
      by_cases e : m = n
      · subst e; simp [entry_without]
      · dsimp only
        rw [if_neg e, entry_without_ne e, hF.table]
    · intro m id g hg
      dsimp only at hg
      by_cases e : m = n
      · rw [if_pos e] at hg; cases hg
      · rw [if_neg e] at hg; exact hF.fn m id g hg
  cases he : entry s.map n with
  | none => rw [he] at h hI1; cases h; exact ⟨hI1, hF1⟩
  | some p =>
    cases p with
    | none => rw [he] at h hI1; cases h; exact ⟨hI1, hF1⟩
    | some id' =>
      rw [he] at h hI1
      obtain ⟨b0, b1, b2, b3, b4⟩ := hI1.release h
      exact ⟨b0, hF1.same b1 b2 b3 b4⟩

/-- The pointers of entries. -/
def held (m : List (Bytes × Option Nat)) : List Nat := m.filterMap Prod.snd

theorem count_held (m : List (Bytes × Option Nat)) (id : Nat) : (held m).count id = inMap m id := by
  unfold held inMap
  induction m with
  | nil => rfl
  | cons e m ih =>
    obtain ⟨a, p⟩ := e
    cases p with
    | none => rw [List.filterMap_cons_none rfl, List.map_cons, List.count_cons, ih]; simp
    | some j => rw [List.filterMap_cons_some (f := Prod.snd) (b := j) rfl, List.map_cons, List.count_cons, List.count_cons, ih]; simp

theorem CmdRInv.releaseAll {tclName : Bytes → Bytes} : ∀ (m : List (Bytes × Option Nat)) {s s' : Reg F}, CmdRInv s (held m) → releaseAll tclName s m = some s' →
    CmdRInv s' [] ∧ s'.map = s.map ∧ s'.frames = s.frames ∧ s'.cmds.length = s.cmds.length ∧
      ∀ j : Nat, (s'.cmds[j]?).map ScriptCmd.fn = (s.cmds[j]?).map ScriptCmd.fn
  | [], s, s', hI, h => by cases h; exact ⟨hI, rfl, rfl, rfl, fun _ => rfl⟩
  | (a, p) :: m, s, s', hI, h => by
    unfold Tcl.releaseAll at h
    cases p with
    | none => exact CmdRInv.releaseAll m hI h
    | some id =>
      split at h
      · cases h
      · rename_i s1 h1
        obtain ⟨c0, c1, c2, c3, c4⟩ := CmdRInv.release (pend := held m) hI h1
        obtain ⟨b0, b1, b2, b3, b4⟩ := CmdRInv.releaseAll m c0 h
        exact ⟨b0, b1.trans c1, b2.trans c2, b3.trans c3, fun j => (b4 j).trans (c4 j)⟩

theorem makers_modify (l : List (ScriptCmd F)) (id : Nat) (f : ScriptCmd F → ScriptCmd F) (hf : ∀ c, (f c).si = c.si) :
    (l.modify id f).map (fun c => c.si) = l.map fun c => c.si := by
  apply List.ext_getElem?
  intro j
  rw [List.getElem?_map, List.getElem?_map, List.getElem?_modify]
  cases l[j]? with
  | none => rfl
  | some c => by_cases e : id = j <;> simp [e, hf]

theorem release_makers {tclName : Bytes → Bytes} {s s' : Reg F} {id : Nat} (h : release tclName s id = some s') : makers s' = makers s := by
  unfold Tcl.release at h
  split at h
  · cases h
  · split at h
    · cases h; exact makers_modify _ _ _ fun _ => rfl
    · split at h
      · cases h; exact makers_modify _ _ _ fun _ => rfl
      · split at h
        · cases h; exact makers_modify _ _ _ fun _ => rfl
        · cases h

theorem releaseEntry_makers {tclName : Bytes → Bytes} {s s' : Reg F} {p : Option (Option Nat)} (h : releaseEntry tclName s p = some s') : makers s' = makers s := by
  unfold releaseEntry at h
  split at h
  · exact release_makers h
  · cases h; rfl

theorem releaseAll_makers {tclName : Bytes → Bytes} : ∀ (m : List (Bytes × Option Nat)) {s s' : Reg F}, releaseAll tclName s m = some s' → makers s' = makers s
  | [], s, s', h => by cases h; rfl
  | (a, p) :: m, s, s', h => by
    unfold Tcl.releaseAll at h
    split at h
    · cases h
    · rename_i s1 h1
      exact (releaseAll_makers m h).trans (releaseEntry_makers h1)

theorem releaseAll_none {tclName : Bytes → Bytes} : ∀ (m : List (Bytes × Option Nat)) {s : Reg F}, CmdRInv s (held m) → releaseAll tclName s m = none → GoneInterp s
  | [], s, hI, h => by cases h
  | (a, p) :: m, s, hI, h => by
    unfold Tcl.releaseAll at h
    cases p with
    | none => exact releaseAll_none m hI h
    | some id =>
      split at h
      · rename_i h1
        exact release_none (hI.pendOk id (List.mem_cons_self)) h1
      · rename_i s1 h1
        change release tclName s id = some s1 at h1
        obtain ⟨c0, _⟩ := CmdRInv.release (pend := held m) hI h1
        obtain ⟨i, g1, g2⟩ := releaseAll_none m c0 h
        exact ⟨i, release_makers h1 ▸ g1, (release_spec h1).2.2.1 ▸ g2⟩

theorem CmdRInv.cleared {s : Reg F} (hI : CmdRInv s []) : CmdRInv { s with map := [] } (held s.map) := by
  refine ⟨?_, nofun, hI.frameOk, ?_, List.nodup_nil⟩
  · intro id c hc
    have := hI.refs id c hc
    rw [count_held]
    show c.refs = inMap [] id + s.frames.count id + _
    simp [inMap] at this ⊢
    omega
  · intro id hid
    unfold held at hid
    obtain ⟨e, he, he'⟩ := List.mem_filterMap.mp hid
    exact hI.mapOk id (List.mem_map.mpr ⟨e, he, he'⟩)

theorem CmdRInv.any {tclName : Bytes → Bytes} {s s' : Reg F} {t : SharedCmds Bytes F} {op : AnyCmdOp Bytes F} {o : Option F} (hI : CmdRInv s []) (hF : CmdFInv s t)
    (h : runAny tclName s op = some (s', o)) : ∃ t', t.Step op o t' ∧ CmdRInv s' [] ∧ CmdFInv s' t' := by
  cases op with
  | rename i a b =>
    unfold runAny at h
    dsimp only at h
    unfold Tcl.rename at h
    split at h
    · cases h
      exact ⟨t, .rename t i a b, ⟨hI.refs, hI.mapOk, hI.frameOk, hI.pendOk, hI.keys⟩, hF.same rfl rfl rfl fun _ => rfl⟩
    · cases h
      exact ⟨t, .rename t i a b, hI, hF⟩
  | world op =>
    unfold runAny at h
    dsimp only at h
    cases op with
    | drop i n => cases h; exact ⟨t, .drop t i n, ⟨hI.refs, hI.mapOk, hI.frameOk, hI.pendOk, hI.keys⟩, hF.same rfl rfl rfl fun _ => rfl⟩
    | make i => cases h; exact ⟨t, .make t i, ⟨hI.refs, hI.mapOk, hI.frameOk, hI.pendOk, hI.keys⟩, hF.same rfl rfl rfl fun _ => rfl⟩
    | destroy i =>
      unfold runCmdWorld at h
      dsimp only at h
      simp only [destroyInterp, Option.bind_eq_bind, Option.map_eq_some_iff, Option.bind_eq_some_iff] at h
      obtain ⟨s1, ⟨s2, h2, h3⟩, h4⟩ := h
      cases h4
      cases h3
      obtain ⟨b0, b1, b2, b3, b4⟩ := CmdRInv.releaseAll s.map hI.cleared h2
      refine ⟨_, .destroy t i, ⟨b0.refs, b0.mapOk, b0.frameOk, b0.pendOk, b0.keys⟩, ?_⟩
      refine ⟨hF.made.trans b3.symm, hF.running.trans b2.symm, fun n => ?_, nofun⟩
      show entry s2.map n = none
      rw [b1]
      rfl
    | on op =>
      unfold runCmdWorld at h
      dsimp only at h
      cases op with
      | create i n f =>
        simp only [runOp, Option.map_eq_some_iff] at h
        obtain ⟨s1, h1, h2⟩ := h
        cases h2
        obtain ⟨g1, g2⟩ := hI.create hF h1
        exact ⟨_, .create t i n f, g1, g2⟩
      | delete i n =>
        simp only [runOp, Option.map_eq_some_iff] at h
        obtain ⟨s1, h1, h2⟩ := h
        cases h2
        obtain ⟨g1, g2⟩ := hI.delete hF h1
        exact ⟨_, .delete t i n, g1, g2⟩
      | leave =>
        simp only [runOp, Option.map_eq_some_iff] at h
        obtain ⟨s1, h1, h2⟩ := h
        cases h2
        unfold Tcl.leave at h1
        split at h1
        · cases h1
        · rename_i id fs hfs
          have hI1 : CmdRInv { s with frames := fs } [id] := by
            refine ⟨?_, hI.mapOk, fun j hj => hI.frameOk j (by rw [hfs]; exact List.mem_cons_of_mem _ hj), ?_, hI.keys⟩
            · intro j c hc
              have := hI.refs j c hc
              rw [hfs, List.count_cons] at this
              rw [List.count_cons]
              show c.refs = inMap s.map j + fs.count j + _
              simp at this ⊢
              omega
            · intro j hj
              simp at hj
              subst hj
              exact hI.frameOk j (by rw [hfs]; exact List.mem_cons_self)
          obtain ⟨b0, b1, b2, b3, b4⟩ := hI1.release h1
          refine ⟨_, .leave t (hF.running.trans hfs), b0, hF.made.trans b3.symm, b2.symm, by rw [b1]; exact hF.table, fun n j f hf => (b4 j).trans (hF.fn n j f hf)⟩
      | enter i n =>
        change enter tclName s i n = some (s', o) at h
        unfold Tcl.enter at h
        split at h
        · split at h
          · rename_i id he
            split at h
            · rename_i c hc
              cases h
              have ht : t.table n = some (id, c.fn) := by
                have h1 := hF.table n
                rw [he] at h1
                cases ht : t.table n with
                | none => rw [ht] at h1; cases h1
                | some x =>
                  obtain ⟨id', g⟩ := x
                  rw [ht] at h1
                  simp only [Option.map_some, Option.some.injEq] at h1
                  subst h1
                  have h2 := hF.fn n _ g ht
                  rw [hc] at h2
                  simp only [Option.map_some, Option.some.injEq] at h2
                  rw [h2]
              have hlen : (s.upd id fun c => { c with refs := c.refs + 1 }).cmds.length = s.cmds.length := by simp [Reg.upd]
              refine ⟨_, .enter t i n ht, ⟨?_, fun j hj => ?_, fun j hj => ?_, nofun, hI.keys⟩, ?_⟩
              · intro j c' hc'
                change (s.cmds.modify id _)[j]? = some c' at hc'
                rw [List.getElem?_modify] at hc'
                cases hcj : s.cmds[j]? with
                | none => rw [hcj] at hc'; cases hc'
                | some c0 =>
                  rw [hcj] at hc'
                  have := hI.refs j c0 hcj
                  show c'.refs = inMap s.map j + (id :: s.frames).count j + _
                  rw [List.count_cons]
                  by_cases e : id = j
                  · simp [e] at hc'
                    subst hc'
                    simp [e]
                    simp at this
                    omega
                  · simp [e] at hc'
                    subst hc'
                    simp [e]
                    simpa using this
              · exact hlen ▸ hI.mapOk j hj
              · show j < (s.upd id fun c => { c with refs := c.refs + 1 }).cmds.length
                rw [hlen]
                rcases List.mem_cons.mp hj with rfl | hj
                · rcases Nat.lt_or_ge j s.cmds.length with hl | hl
                  · exact hl
                  · rw [List.getElem?_eq_none hl] at hc; cases hc
                · exact hI.frameOk j hj
              · refine ⟨hF.made.trans hlen.symm, congrArg _ hF.running, hF.table, fun m j g hg => ?_⟩
                refine Eq.trans ?_ (hF.fn m j g hg)
                show ((s.cmds.modify id _)[j]?).map _ = _
                rw [List.getElem?_modify]
                cases s.cmds[j]? with
                | none => rfl
                | some c0 => by_cases e : id = j <;> simp [e]
            · cases h
          · cases h
        · cases h
          exact ⟨t, .unknown t i n, hI, hF⟩

theorem CmdRInv.anys {tclName : Bytes → Bytes} : ∀ (ops : List (AnyCmdOp Bytes F)) {s s' : Reg F} {t : SharedCmds Bytes F} {os : List (Option F)}, CmdRInv s [] → CmdFInv s t →
    runAnys tclName s ops = some (s', os) → ∃ t', t.Steps ops os t' ∧ CmdRInv s' [] ∧ CmdFInv s' t'
  | [], s, s', t, os, hI, hF, h => by cases h; exact ⟨t, .nil t, hI, hF⟩
  | op :: ops, s, s', t, os, hI, hF, h => by
    unfold runAnys at h
    split at h
    · cases h
    · rename_i s1 o h1
      split at h
      · cases h
      · rename_i s2 os' h2
        cases h
        obtain ⟨t1, g1, g2, g3⟩ := hI.any hF h1
        obtain ⟨t2, k1, k2, k3⟩ := CmdRInv.anys ops g2 g3 h2
        exact ⟨t2, .cons g1 k1, k2, k3⟩

theorem CmdRInv.init (live : List Nat) : CmdRInv (F := F) (.init live) [] := ⟨nofun, nofun, nofun, nofun, List.nodup_nil⟩

theorem CmdFInv.init (live : List Nat) : CmdFInv (F := F) (.init live) .empty := ⟨rfl, rfl, fun _ => rfl, nofun⟩

theorem CmdFInv.alive {s : Reg F} {t : SharedCmds Bytes F} (hI : CmdRInv s []) (hF : CmdFInv s t) (id : Nat) : FnAlive s id ↔ t.Needed id := by
  have hmap : (∃ n f, t.table n = some (id, f)) ↔ some id ∈ s.map.map Prod.snd := by
    rw [mem_map_entry hI.keys]
    constructor
    · rintro ⟨n, f, h⟩
      exact ⟨n, by rw [hF.table, h]; rfl⟩
    · rintro ⟨n, h⟩
      rw [hF.table] at h
      cases ht : t.table n with
      | none => rw [ht] at h; cases h
      | some x =>
        rw [ht] at h
        simp only [Option.map_some, Option.some.injEq] at h
        obtain ⟨id', f⟩ := x
        exact ⟨n, f, by rw [ht]; simp at h; rw [h]⟩
  unfold SharedCmds.Needed
  rw [hmap, hF.running]
  constructor
  · rintro ⟨c, hc, h0⟩
    have := hI.refs id c hc
    simp only [List.count_nil, Nat.add_zero] at this
    by_cases hm : some id ∈ s.map.map Prod.snd
    · exact Or.inl hm
    · have : inMap s.map id = 0 := by unfold inMap; exact List.count_eq_zero.mpr hm
      exact Or.inr (List.count_pos_iff.mp (by omega))
  · intro h
    have hl : id < s.cmds.length := h.elim (hI.mapOk id) (hI.frameOk id)
    refine ⟨_, List.getElem?_eq_getElem hl, ?_⟩
    rw [hI.refs id _ (List.getElem?_eq_getElem hl)]
    rcases h with h | h
    · have : 0 < inMap s.map id := by unfold inMap; exact List.count_pos_iff.mpr h
      omega
    · have := List.count_pos_iff.mpr h
      omega

/-- In every history, as long as nothing undefined happens: every call that finds a command runs the function last registered under that name and
not removed since, and functions exist exactly while they are registered or running. -/
theorem c57_shared (tclName : Bytes → Bytes) (ops : List (AnyCmdOp Bytes F)) {s : Reg F} {os : List (Option F)}
    (h : runAnys tclName (.init []) ops = some (s, os)) :
    ∃ t, SharedCmds.empty.Steps ops os t ∧ ∀ id, FnAlive s id ↔ t.Needed id := by
  obtain ⟨t, h1, h2, h3⟩ := CmdRInv.anys ops (.init []) (.init []) h
  exact ⟨t, h1, fun id => h3.alive h2 id⟩

theorem any_makers {tclName : Bytes → Bytes} {s s' : Reg F} {op : AnyCmdOp Bytes F} {o : Option F} (h : runAny tclName s op = some (s', o)) {i : Nat}
    (hi : i ∈ makers s') : i ∈ makers s ∨ ∃ n f, op = .world (.on (.create i n f)) := by
  cases op with
  | rename j a b =>
    unfold runAny at h
    dsimp only at h
    unfold Tcl.rename at h
    split at h <;> · cases h; exact Or.inl hi
  | world op =>
    unfold runAny at h
    dsimp only at h
    cases op with
    | drop j n => cases h; exact Or.inl hi
    | make j => cases h; exact Or.inl hi
    | destroy j =>
      unfold runCmdWorld at h
      dsimp only at h
      simp only [destroyInterp, Option.bind_eq_bind, Option.map_eq_some_iff, Option.bind_eq_some_iff] at h
      obtain ⟨s1, ⟨s2, h2, h3⟩, h4⟩ := h
      cases h4
      cases h3
      exact Or.inl (releaseAll_makers s.map h2 ▸ hi)
    | on op =>
      unfold runCmdWorld at h
      dsimp only at h
      cases op with
      | create j n f =>
        simp only [runOp, Option.map_eq_some_iff] at h
        obtain ⟨s1, h1, h2⟩ := h
        cases h2
        simp only [Tcl.create, Option.bind_eq_bind, Option.bind_eq_some_iff] at h1
        obtain ⟨s2, h2, h3⟩ := h1
        have e1 := release_makers h3
        have e2 := releaseEntry_makers h2
        rw [e1] at hi
        have hi : i ∈ makers s2 := by
          have := makers_modify s2.cmds s.cmds.length (fun c => { c with registered := true }) fun _ => rfl
          unfold makers at hi ⊢
          rw [← this]
          exact hi
        rw [e2] at hi
        unfold makers at hi ⊢
        simp only [List.map_append, List.mem_append, List.map_cons, List.map_nil, List.mem_singleton] at hi
        rcases hi with hi | rfl
        · exact Or.inl hi
        · exact Or.inr ⟨n, f, rfl⟩
      | delete j n =>
        simp only [runOp, Option.map_eq_some_iff] at h
        obtain ⟨s1, h1, h2⟩ := h
        cases h2
        exact Or.inl (releaseEntry_makers h1 ▸ hi)
      | leave =>
        simp only [runOp, Option.map_eq_some_iff] at h
        obtain ⟨s1, h1, h2⟩ := h
        cases h2
        unfold Tcl.leave at h1
        split at h1
        · cases h1
        · exact Or.inl (release_makers h1 ▸ hi)
      | enter j n =>
        change enter tclName s j n = some (s', o) at h
        unfold Tcl.enter at h
        split at h
        · split at h
          · split at h
            · cases h
              have := makers_modify s.cmds ‹Nat› (fun c => { c with refs := c.refs + 1 }) fun _ => rfl
              refine Or.inl ?_
              unfold makers at hi ⊢
              rw [← this]
              exact hi
            · cases h
          · cases h
        · cases h; exact Or.inl hi

theorem anys_makers {tclName : Bytes → Bytes} : ∀ (ops : List (AnyCmdOp Bytes F)) {s s' : Reg F} {os : List (Option F)},
    runAnys tclName s ops = some (s', os) → ∀ {i : Nat}, i ∈ makers s' → i ∈ makers s ∨ ∃ n f, .world (.on (.create i n f)) ∈ ops
  | [], s, s', os, h, i, hi => by cases h; exact Or.inl hi
  | op :: ops, s, s', os, h, i, hi => by
    unfold runAnys at h
    split at h
    · cases h
    · rename_i s1 o h1
      split at h
      · cases h
      · rename_i s2 os' h2
        cases h
        rcases anys_makers ops h2 hi with hi | ⟨n, f, hi⟩
        · rcases any_makers h1 hi with hi | ⟨n, f, rfl⟩
          · exact Or.inl hi
          · exact Or.inr ⟨n, f, List.mem_cons_self⟩
        · exact Or.inr ⟨n, f, List.mem_cons_of_mem _ hi⟩

theorem any_none {tclName : Bytes → Bytes} {s : Reg F} {t : SharedCmds Bytes F} {op : AnyCmdOp Bytes F} (hI : CmdRInv s []) (hF : CmdFInv s t)
    (hn : runAny tclName s op = none) :
    (∃ i n, op = .world (.on (.enter i n)) ∧ (i, tclName n) ∈ s.table ∧ t.table n = none) ∨ (op = .world (.on .leave) ∧ t.running = []) ∨
      ∃ i, i ∉ s.live ∧ (i ∈ makers s ∨ ∃ n f, op = .world (.on (.create i n f))) := by
  have gone : GoneInterp s → ∃ i, i ∉ s.live ∧ (i ∈ makers s ∨ ∃ n f, op = .world (.on (.create i n f))) := fun ⟨i, h1, h2⟩ => ⟨i, h2, Or.inl h1⟩
  cases op with
  | rename j a b =>
    unfold runAny at hn
    dsimp only at hn
    unfold Tcl.rename at hn
    split at hn <;> cases hn
  | world op =>
    unfold runAny at hn
    dsimp only at hn
    cases op with
    | drop j n => cases hn
    | make j => cases hn
    | destroy j =>
      refine Or.inr (Or.inr (gone ?_))
      unfold runCmdWorld at hn
      dsimp only at hn
      cases h2 : releaseAll tclName { s with map := [] } s.map with
      | none => exact releaseAll_none (s := { s with map := [] }) s.map hI.cleared h2
      | some s2 =>
        unfold destroyInterp at hn
        rw [h2] at hn
        cases hn
    | on op =>
      unfold runCmdWorld at hn
      dsimp only at hn
      cases op with
      | create j n f =>
        refine Or.inr (Or.inr ?_)
        have hb : ∀ i, i ∈ makers s ∨ i = j → i ∉ s.live → ∃ i, i ∉ s.live ∧ (i ∈ makers s ∨ ∃ n' f', AnyCmdOp.world (.on (.create j n f)) = .world (.on (.create i n' f'))) := by
          rintro i (h1 | rfl) h2
          · exact ⟨i, h2, Or.inl h1⟩
          · exact ⟨i, h2, Or.inr ⟨n, f, rfl⟩⟩
        simp only [runOp, Option.map_eq_none_iff] at hn
        simp only [Tcl.create, Option.bind_eq_bind] at hn
        have hmk : ∀ i, i ∈ s.cmds.map (fun c => c.si) ++ [j] → i ∈ makers s ∨ i = j := fun i hi => by simpa [makers] using hi
        cases h2 : releaseEntry tclName { s with cmds := s.cmds ++ [⟨j, n, f, false, 2⟩], map := (n, some s.cmds.length) :: without s.map n } (entry s.map n) with
        | none =>
          unfold releaseEntry at h2
          split at h2
          · rename_i id he
            have hid := hI.mapOk id ((mem_map_entry hI.keys).mpr ⟨n, he⟩)
            obtain ⟨i, g1, g2⟩ := release_none (by rw [List.length_append]; exact Nat.lt_add_right _ hid) h2
            exact hb i (hmk i (by simpa [makers] using g1)) g2
          · cases h2
        | some s2 =>
          rw [h2] at hn
          have e2 := releaseEntry_makers h2
          have hlive : s2.live = s.live := by
            unfold releaseEntry at h2
            split at h2
            · exact (release_spec h2).2.2.1
            · cases h2; rfl
          have hl2 : s2.cmds.length = s.cmds.length + 1 := by
            have := congrArg List.length e2
            simpa [makers] using this
          obtain ⟨i, g1, g2⟩ := release_none (by simp [Reg.upd, hl2]) hn
          have e3 := makers_modify s2.cmds s.cmds.length (fun c => { c with registered := true }) fun _ => rfl
          refine hb i (hmk i ?_) (by rw [← hlive]; exact g2)
          have g1 : i ∈ makers s2 := by unfold makers; rw [← e3]; exact g1
          rw [e2] at g1
          simpa [makers] using g1
      | delete j n =>
        refine Or.inr (Or.inr (gone ?_))
        simp only [runOp, Option.map_eq_none_iff] at hn
        unfold Tcl.delete releaseEntry at hn
        split at hn
        · rename_i id he
          exact release_none (s := { s with map := without s.map n }) (hI.mapOk id ((mem_map_entry hI.keys).mpr ⟨n, he⟩)) hn
        · cases hn
      | leave =>
        simp only [runOp, Option.map_eq_none_iff] at hn
        unfold Tcl.leave at hn
        split at hn
        · rename_i hfs
          exact Or.inr (Or.inl ⟨rfl, hF.running.trans hfs⟩)
        · rename_i id fs hfs
          exact Or.inr (Or.inr (gone (release_none (s := { s with frames := fs }) (hI.frameOk id (by rw [hfs]; exact List.mem_cons_self)) hn)))
      | enter j n =>
        change enter tclName s j n = none at hn
        unfold Tcl.enter at hn
        split at hn
        · rename_i htab
          refine Or.inl ⟨j, n, rfl, htab, ?_⟩
          cases ht : t.table n with
          | none => rfl
          | some x =>
            obtain ⟨id, f⟩ := x
            have h1 := hF.table n
            rw [ht] at h1
            have h2 := hF.fn n id f ht
            rw [h1] at hn
            dsimp only [Option.map_some] at hn
            cases hc : s.cmds[id]? with
            | none => rw [hc] at h2; cases h2
            | some c => rw [hc] at hn; cases hn
        · cases hn

/-- The only undefined things: calling a command of the interpreter by a name that is not in the table, and what may drop the last pointer to a
command made for an interpreter that is gone (or ending a call when none runs, which no program can do). -/
theorem c57_undefined (tclName : Bytes → Bytes) (ops : List (AnyCmdOp Bytes F)) {s : Reg F} {os : List (Option F)}
    (h : runAnys tclName (.init []) ops = some (s, os)) (op : AnyCmdOp Bytes F) (hn : runAny tclName s op = none) :
    ∃ t, SharedCmds.empty.Steps ops os t ∧
      ((∃ i n, op = .world (.on (.enter i n)) ∧ (i, tclName n) ∈ s.table ∧ t.table n = none) ∨
       (op = .world (.on .leave) ∧ t.running = []) ∨
       ∃ i n f, i ∉ s.live ∧ .world (.on (.create i n f)) ∈ ops ++ [op]) := by
  obtain ⟨t, h1, hI, hF⟩ := CmdRInv.anys ops (.init []) (.init []) h
  refine ⟨t, h1, ?_⟩
  rcases any_none hI hF hn with h2 | h2 | ⟨i, h2, h3⟩
  · exact Or.inl h2
  · exact Or.inr (Or.inl h2)
  · refine Or.inr (Or.inr ?_)
    rcases h3 with h3 | ⟨n, f, rfl⟩
    · rcases anys_makers ops h h3 with h3 | ⟨n, f, h3⟩
      · cases h3
      · exact ⟨i, n, f, h2, List.mem_append_left _ h3⟩
    · exact ⟨i, n, f, h2, List.mem_append_right _ List.mem_cons_self⟩

/-! ## Examples -/

/-- Two interpreters, one name; the running command is made anew and then deleted. -/
def sharedHistory : List (AnyCmdOp Bytes Nat) :=
  [.world (.make 0), .world (.make 1), .world (.on (.create 0 [97] 5)), .world (.on (.create 1 [97] 6)), .world (.on (.enter 0 [97])), .world (.on (.enter 1 [97])),
    .world (.on (.create 1 [97] 7))]

example : (runAnys id (.init []) sharedHistory).map (·.2) = some [none, none, none, none, none, some 6, none] := by decide +kernel

-- The first function is gone with its entry, the second runs, the third is registered.
example : (runAnys id (.init []) sharedHistory).map (fun x => x.1.cmds.map fun c => decide (0 < c.refs)) = some [false, true, true] := by decide +kernel

-- When the call ends the second goes too, and the third stays.
example : (runAnys id (.init []) (sharedHistory ++ [.world (.on .leave)])).map (fun x => x.1.cmds.map fun c => decide (0 < c.refs)) =
    some [false, false, true] := by decide +kernel

-- Undefined: a renamed command called by its new name; dropping a running command of an interpreter that is gone.
example : (runAnys (F := Nat) id (.init []) [.world (.make 0), .world (.on (.create 0 [97] 5)), .rename 0 [97] [98]]).isSome = true ∧
    (runAnys (F := Nat) id (.init []) [.world (.make 0), .world (.on (.create 0 [97] 5)), .rename 0 [97] [98], .world (.on (.enter 0 [98]))]).isNone = true := by
  decide +kernel
example : (runAnys (F := Nat) id (.init []) [.world (.make 0), .world (.on (.create 0 [97] 5)), .world (.on (.enter 0 [97])), .world (.destroy 0)]).isSome = true ∧
    (runAnys (F := Nat) id (.init []) [.world (.make 0), .world (.on (.create 0 [97] 5)), .world (.on (.enter 0 [97])), .world (.destroy 0),
      .world (.on .leave)]).isNone = true := by
  decide +kernel

end Bdlib.Tcl
