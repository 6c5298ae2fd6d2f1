import Verif.Tcl.Reenter
import Verif.Props.C63

/-!
# C98: hooks of linked variables may use the interpreter

For hooks that return.  As in C63, a name is not linked again before it is unlinked, values read have no NUL, and a text written
into a buffer fills it (`HLinks.allowed`).
-/

namespace Bdlib.Tcl
open Bdlib Bdlib.Str Bdlib.Spec

variable {V H : Type}

/-- The state without what is busy. -/
def proj (sp : HLinks Bytes V H) : Links Bytes V H :=
  ⟨sp.link, fun n => match sp.link n with
    | none => sp.own n
    | some _ => none, sp.vals, sp.bufs, sp.log⟩

structure RInv (sp : HLinks Bytes V H) (s : RSt V H) : Prop where
  inv : LInv (proj sp) s.st
  names : s.stack.map (·.1) = sp.busy
  own : ∀ n ∈ sp.busy, (s.st.vars n).map (·.value) = sp.own n

/-- The same ending, in related states; nothing is said after calls that are not allowed. -/
def Alike {A : Type} : Finish (HLinks Bytes V H) A → Finish (RSt V H) A → Prop
  | .wrong, _ => True
  | .ret sp a, r => ∃ s, r = .ret s a ∧ RInv sp s
  | .cut sp, r => ∃ s, r = .cut s ∧ RInv sp s

theorem RInv.busy {sp : HLinks Bytes V H} {s : RSt V H} (h : RInv sp s) (n : Bytes) : busy s n = decide (n ∈ sp.busy) := by
  rw [← h.names]
  unfold Tcl.busy
  rw [Bool.eq_iff_iff]
  simp [List.any_eq_true]

/-- A relation between two states whose plain variables, log and the rest are the same. -/
theorem LInv.change {sp sp' : Links Bytes V H} {s s' : LinkSt V H} (h : LInv sp s) (e1 : s'.vals = sp'.vals) (e2 : s'.bufs = sp'.bufs)
    (e3 : s'.log = sp'.log) (e4 : sp'.link = sp.link) (e5 : sp'.plain = sp.plain) (e6 : s'.vars = s.vars) (e7 : s'.hooks = s.hooks)
    (e8 : s'.ptrs = s.ptrs) (e9 : s'.data = s.data) : LInv sp' s' := by
  refine ⟨e1, e2, e3, ?_, ?_, ?_, ?_⟩
  · intro n t hk hl
    rw [e4] at hl
    obtain ⟨a1, a2, x, k, a3, a4⟩ := h.linked n t hk hl
    refine ⟨by rw [e7]; exact a1, by rw [e5]; exact a2, x, k, by rw [e6]; exact a3, ?_⟩
    unfold KindOf at a4 ⊢
    rw [e8, e9]
    exact a4
  · intro n hl
    rw [e4] at hl
    rw [e5, e6, e7, e8]
    exact h.unlinked n hl
  · rw [e8]; exact h.inj
  · rw [e8, e9]; exact h.lt

/-- Setting a variable without running traces, which the specification has as a variable of its own. -/
theorem RInv.plainWrite {sp : HLinks Bytes V H} {s : RSt V H} (h : RInv sp s) (n x : Bytes) :
    RInv { sp with own := put sp.own n (some x) } { s with st := { s.st with vars := put s.st.vars n (some ⟨x, tracesOf s.st n⟩) } } := by
  refine ⟨⟨h.inv.vals, h.inv.bufs, h.inv.log, ?_, ?_, h.inv.inj, h.inv.lt⟩, h.names, ?_⟩
  · intro m t hk hl
    obtain ⟨a1, a2, y, k, a3, a4⟩ := h.inv.linked m t hk hl
    have hl' : sp.link m = some (t, hk) := hl
    refine ⟨a1, ?_, ?_⟩
    · dsimp only [proj]
      rw [hl']
    · by_cases e : m = n
      · subst e
        refine ⟨x, k, ?_, a4⟩
        dsimp only
        rw [put_same]
        unfold tracesOf
        rw [a3]
      · refine ⟨y, k, ?_, a4⟩
        dsimp only
        rw [put_ne _ _ e]
        exact a3
  · intro m hl
    obtain ⟨b1, b2, b3⟩ := h.inv.unlinked m hl
    have hl' : sp.link m = none := hl
    refine ⟨b1, b2, ?_⟩
    dsimp only [proj] at b3 ⊢
    rw [hl'] at b3 ⊢
    by_cases e : m = n
    · subst e
      rw [put_same, put_same, tracesOf_plain h.inv hl]
      rfl
    · rw [put_ne _ _ e, put_ne _ _ e]
      exact b3
  · intro m hm
    dsimp only
    by_cases e : m = n
    · subst e
      rw [put_same, put_same]
      rfl
    · rw [put_ne _ _ e, put_ne _ _ e]
      exact h.own m hm

theorem writeVarR_plain (parse : Bytes → Option V) (run : Runner V H) (s : RSt V H) (n x : Bytes) (h : tracesOf s.st n = []) :
    writeVarR parse run s n x = .ret { s with st := { s.st with vars := put s.st.vars n (some ⟨x, []⟩) } } .done := by
  unfold writeVarR
  dsimp only
  rw [if_pos (Or.inr h), h]

theorem setupTracesR_plain (parse : Bytes → Option V) (run : Runner V H) (s : RSt V H) (n : Bytes) (k : Kind) (hook : Option H)
    (h : tracesOf s.st n = []) {st : LinkSt V H} (hs : setupTraces parse s.st n k hook = some st) :
    setupTracesR parse run s n k hook = .ret { s with st := st } () := by
  unfold setupTraces at hs
  rw [writeVar_plain parse s.st n [] h] at hs
  unfold setupTracesR
  rw [writeVarR_plain parse run s n [] h]
  cases hook with
  | none => cases hs; rfl
  | some h => cases hs; rfl

theorem linkVarR_plain (parse : Bytes → Option V) (run : Runner V H) (s : RSt V H) (n : Bytes) (t : Target) (hook : Option H)
    (h : tracesOf s.st n = []) {st : LinkSt V H} (hs : linkVar parse s.st n t hook = some st) :
    linkVarR parse run s n t hook = .ret { s with st := st } () := by
  cases t with
  | var a => exact setupTracesR_plain parse run s n _ hook h hs
  | const a => exact setupTracesR_plain parse run s n _ hook h hs
  | text a => exact setupTracesR_plain parse run s n _ hook h hs
  | buf b size =>
    unfold linkVar at hs
    dsimp only at hs
    unfold linkVarR
    dsimp only
    cases hst : setupTraces parse { s.st with data := s.st.data ++ [some (b, size)] } n (.buf s.st.data.length) hook with
    | none => rw [hst] at hs; cases hs
    | some st' =>
      rw [hst] at hs
      rw [setupTracesR_plain parse run { s with st := { s.st with data := s.st.data ++ [some (b, size)] } } n _ hook h hst]
      cases hs
      rfl

/-- Linking a name sets its variable to "". -/
theorem linkVar_value (parse : Bytes → Option V) (s : LinkSt V H) (n : Bytes) (t : Target) (hook : Option H) (h : tracesOf s n = [])
    {s' : LinkSt V H} (hs : linkVar parse s n t hook = some s') :
    (s'.vars n).map (·.value) = some [] ∧ ∀ m, m ≠ n → s'.vars m = s.vars m := by
  have key : ∀ (s : LinkSt V H) k (s' : LinkSt V H), tracesOf s n = [] → setupTraces parse s n k hook = some s' →
      (s'.vars n).map (·.value) = some [] ∧ ∀ m, m ≠ n → s'.vars m = s.vars m := by
    intro s k s' h hs
    unfold setupTraces at hs
    rw [writeVar_plain parse s n [] h] at hs
    dsimp only at hs
    cases hook with
    | none =>
      cases hs
      exact ⟨by dsimp only; rw [put_same]; rfl, fun m hm => by dsimp only; rw [put_ne _ _ hm, put_ne _ _ hm]⟩
    | some h =>
      cases hs
      exact ⟨by dsimp only; rw [put_same]; rfl, fun m hm => by dsimp only; rw [put_ne _ _ hm, put_ne _ _ hm]⟩
  cases t with
  | var a => exact key s _ s' h hs
  | const a => exact key s _ s' h hs
  | text a => exact key s _ s' h hs
  | buf b size =>
    unfold linkVar at hs
    dsimp only at hs
    cases hst : setupTraces parse { s with data := s.data ++ [some (b, size)] } n (.buf s.data.length) hook with
    | none => rw [hst] at hs; cases hs
    | some st' =>
      rw [hst] at hs
      cases hs
      exact key { s with data := s.data ++ [some (b, size)] } _ st' h hst

theorem RInv.link {toTcl : V → Option Bytes} {parse : Bytes → Option V} (runS : H → Seen V → Seen V → HLinks Bytes V H → Finish (HLinks Bytes V H) Unit) (run : Runner V H)
    {sp : HLinks Bytes V H} {s : RSt V H} (h : RInv sp s) (n : Bytes) (t : Target)
    (hook : Option H) (hn : sp.link n = none) :
    Alike (sp.step toTcl parse runS (.link n t hook)) (runLinkR toTcl parse run s (.link n t hook)) := by
  obtain ⟨st, hs, hi⟩ := h.inv.link (toTcl := toTcl) (parse := parse) n t hook hn
  have htr := tracesOf_plain h.inv hn
  obtain ⟨v1, v2⟩ := linkVar_value parse s.st n t hook htr hs
  refine ⟨{ s with st := st }, ?_, ?_, h.names, ?_⟩
  · dsimp only [runLinkR]
    rw [linkVarR_plain parse run s n t hook htr hs]
  · have e : proj { sp with link := put sp.link n (some (t, hook)), own := put sp.own n (some []) } = ((proj sp).step toTcl parse (.link n t hook)).1 := by
      dsimp only [proj, Links.step]
      congr 1
      funext m
      by_cases e : m = n
      · subst e
        rw [put_same, put_same, put_same]
      · rw [put_ne _ _ e, put_ne _ _ e, put_ne _ _ e]
    rw [e]
    exact hi
  · intro m hm
    dsimp only
    by_cases e : m = n
    · subst e
      rw [put_same]
      exact v1
    · rw [put_ne _ _ e, v2 m e]
      exact h.own m hm

theorem RInv.unlink {toTcl : V → Option Bytes} {parse : Bytes → Option V} (runS : H → Seen V → Seen V → HLinks Bytes V H → Finish (HLinks Bytes V H) Unit) (run : Runner V H)
    {sp : HLinks Bytes V H} {s : RSt V H} (h : RInv sp s) (n : Bytes) :
    Alike (sp.step toTcl parse runS (.unlink n)) (runLinkR toTcl parse run s (.unlink n)) := by
  refine ⟨_, rfl, ?_, ?_, ?_⟩
  · have e : proj { sp with link := put sp.link n none, own := put sp.own n none } = ((proj sp).step toTcl parse (.unlink n)).1 := by
      dsimp only [proj, Links.step]
      congr 1
      funext m
      by_cases e : m = n
      · subst e
        rw [put_same, put_same, put_same]
      · rw [put_ne _ _ e, put_ne _ _ e, put_ne _ _ e]
    rw [e]
    exact h.inv.unlink n
  · dsimp only [unlinkVarR]
    rw [List.map_map, ← h.names]
    apply List.map_congr_left
    intro e _
    dsimp only [Function.comp]
    split <;> rfl
  · intro m hm
    dsimp only [unlinkVarR, unlinkVar]
    by_cases e : m = n
    · subst e
      rw [put_same, put_same]
      rfl
    · rw [put_ne _ _ e, put_ne _ _ e]
      exact h.own m hm

theorem readVar_others (toTcl : V → Option Bytes) (s : LinkSt V H) (n : Bytes) {s' : LinkSt V H} {g : Got} (h : readVar toTcl s n = some (s', g)) :
    ∀ m, m ≠ n → s'.vars m = s.vars m := by
  intro m hm
  unfold readVar at h
  cases hv : s.vars n with
  | none => rw [hv] at h; cases h; rfl
  | some v =>
    rw [hv] at h
    dsimp only at h
    cases hr : readTraces toTcl s v.traces v.value with
    | none => rw [hr] at h; cases h
    | some x => rw [hr] at h; cases h; exact put_ne _ _ hm

theorem RInv.read {toTcl : V → Option Bytes} {parse : Bytes → Option V} (runS : H → Seen V → Seen V → HLinks Bytes V H → Finish (HLinks Bytes V H) Unit) (run : Runner V H)
    {sp : HLinks Bytes V H} {s : RSt V H} (h : RInv sp s) (n : Bytes) (ha : sp.allowed toTcl parse (.read n) = true) :
    Alike (sp.step toTcl parse runS (.read n)) (runLinkR toTcl parse run s (.read n)) := by
  have hb := h.busy n
  dsimp only [runLinkR, readVarR, HLinks.step]
  dsimp only [HLinks.allowed] at ha
  by_cases hm : n ∈ sp.busy
  · rw [hb, if_pos (decide_eq_true hm), if_pos hm]
    have := h.own n hm
    cases hv : s.st.vars n with
    | none =>
      rw [hv] at this
      dsimp only
      rw [← this]
      exact ⟨s, rfl, h⟩
    | some v =>
      rw [hv] at this
      dsimp only
      rw [← this]
      exact ⟨s, rfl, h⟩
  · rw [if_neg hm] at ha
    rw [if_neg hm, hb, if_neg (by simpa using hm)]
    have ha' : LinkAllowed toTcl parse (proj sp) (.read n) := by
      dsimp only [LinkAllowed, proj]
      cases hl : sp.link n with
      | none => trivial
      | some th =>
        obtain ⟨t, hk⟩ := th
        rw [hl] at ha
        cases t with
        | var a =>
          dsimp only at ha ⊢
          cases hx : toTcl (sp.vals a) with
          | none => rw [hx] at ha; cases ha
          | some x => rw [hx] at ha; exact ⟨x, rfl, of_decide_eq_true ha⟩
        | const a =>
          dsimp only at ha ⊢
          cases hx : toTcl (sp.vals a) with
          | none => rw [hx] at ha; cases ha
          | some x => rw [hx] at ha; exact ⟨x, rfl, of_decide_eq_true ha⟩
        | buf b size => exact of_decide_eq_true ha
        | text b => exact of_decide_eq_true ha
    obtain ⟨st, hs, hi⟩ := h.inv.read n ha'
    rw [hs]
    refine ⟨{ s with st := st }, ?_, hi, h.names, ?_⟩
    · dsimp only [Links.step, proj]
      congr 1
      cases hl : sp.link n with
      | none => rfl
      | some th =>
        obtain ⟨t, hk⟩ := th
        cases t <;> rfl
    · intro m hm'
      have e : m ≠ n := fun e => hm (e ▸ hm')
      dsimp only
      rw [readVar_others toTcl s.st n hs m e]
      exact h.own m hm'

/-- Hooks do what the specification says. -/
def Follows (runS : H → Seen V → Seen V → HLinks Bytes V H → Finish (HLinks Bytes V H) Unit) (run : Runner V H) : Prop :=
  ∀ h old new sp s, RInv sp s → Alike (runS h old new sp) (run h old new s)

/-- After storing the value: the hook, and the end of the traces. -/
theorem RInv.tracesEnd {runS : H → Seen V → Seen V → HLinks Bytes V H → Finish (HLinks Bytes V H) Unit} {run : Runner V H} (hf : Follows runS run)
    {sp : HLinks Bytes V H} {s s0 : RSt V H} {n : Bytes} {x : Bytes} (h : RInv { sp with own := put sp.own n (some x), busy := n :: sp.busy } s) (parse : Bytes → Option V) (hk : Option H) (old new : Seen V) (k : Kind)
    (hw : writeTraceR parse run s0 n x k = match callHookR run s hk old new with
      | .ret s _ => .ret s false
      | .cut s => .cut s
      | .wrong => .wrong) :
    Alike (sp.hooked runS n x hk old new)
      (match writeTracesR parse run n x [⟨false, k⟩, ⟨true, k⟩] s0 with
        | .wrong => .wrong
        | .cut s => .cut s
        | .ret s err => .ret { s with stack := s.stack.tail } (if err then .refused else .done) : Finish (RSt V H) Got) := by
  have pop : ∀ (sp : HLinks Bytes V H) (s : RSt V H), RInv sp s → RInv { sp with busy := sp.busy.tail } { s with stack := s.stack.tail } := by
    intro sp s h
    refine ⟨h.inv.change h.inv.vals h.inv.bufs h.inv.log rfl rfl rfl rfl rfl rfl, ?_, ?_⟩
    · dsimp only
      rw [← h.names, List.map_tail]
    · intro m hm
      exact h.own m (List.mem_of_mem_tail hm)
  have fin : ∀ s1 : RSt V H, writeTraceR parse run s0 n x k = .ret s1 false →
      writeTracesR parse run n x [⟨false, k⟩, ⟨true, k⟩] s0 = .ret s1 false := by
    intro s1 e
    dsimp only [writeTracesR]
    rw [if_neg Bool.false_ne_true, e]
    dsimp only
    split <;> rfl
  cases hk with
  | none =>
    rw [fin s hw]
    exact ⟨_, rfl, pop _ _ h⟩
  | some hh =>
    have h2 : RInv { sp with own := put sp.own n (some x), busy := n :: sp.busy, log := sp.log ++ [(hh, old, new)] } { s with st := { s.st with log := s.st.log ++ [(hh, old, new)] } } := by
      refine ⟨h.inv.change h.inv.vals h.inv.bufs ?_ rfl rfl rfl rfl rfl rfl, h.names, h.own⟩
      dsimp only [proj]
      rw [h.inv.log]
      rfl
    have h3 := hf hh old new _ _ h2
    dsimp only [callHookR] at hw
    dsimp only [HLinks.hooked]
    cases hr : runS hh old new { sp with own := put sp.own n (some x), busy := n :: sp.busy, log := sp.log ++ [(hh, old, new)] } with
    | wrong => trivial
    | cut sp' =>
      rw [hr] at h3
      obtain ⟨s1, e, hi⟩ := h3
      rw [e] at hw
      dsimp only [writeTracesR]
      rw [if_neg Bool.false_ne_true, hw]
      exact ⟨s1, rfl, hi⟩
    | ret sp' u =>
      rw [hr] at h3
      obtain ⟨s1, e, hi⟩ := h3
      rw [e] at hw
      rw [fin s1 hw]
      exact ⟨_, rfl, pop _ _ hi⟩

theorem RInv.write {toTcl : V → Option Bytes} {parse : Bytes → Option V} {runS : H → Seen V → Seen V → HLinks Bytes V H → Finish (HLinks Bytes V H) Unit} {run : Runner V H}
    (hf : Follows runS run) {sp : HLinks Bytes V H} {s : RSt V H} (h : RInv sp s) (n x : Bytes) (ha : sp.allowed toTcl parse (.write n x) = true) :
    Alike (sp.step toTcl parse runS (.write n x)) (runLinkR toTcl parse run s (.write n x)) := by
  have hb := h.busy n
  dsimp only [runLinkR, writeVarR, HLinks.step]
  dsimp only [HLinks.allowed] at ha
  by_cases hm : n ∈ sp.busy
  · rw [if_pos hm, if_pos (Or.inl (by rw [hb]; exact decide_eq_true hm))]
    exact ⟨_, rfl, h.plainWrite n x⟩
  · rw [if_neg hm] at ha
    rw [if_neg hm]
    cases hl : sp.link n with
    | none =>
      rw [if_pos (Or.inr (tracesOf_plain h.inv hl))]
      exact ⟨_, rfl, h.plainWrite n x⟩
    | some th =>
      obtain ⟨t, hk⟩ := th
      obtain ⟨hhook, -, y, k, hv, hkind⟩ := h.inv.linked n t hk hl
      have htr : tracesOf s.st n = [⟨false, k⟩, ⟨true, k⟩] := by
        unfold tracesOf
        rw [hv]
      rw [if_neg (by rw [hb, htr]; simp [hm]), htr]
      rw [hl] at ha
      have hp := h.plainWrite n x
      rw [htr] at hp
      have hpush : ∀ (sp : HLinks Bytes V H) (s : RSt V H), RInv sp s → (s.st.vars n).map (·.value) = sp.own n →
          RInv { sp with busy := n :: sp.busy } { s with stack := (n, false) :: s.stack } := by
        intro sp s h ho
        refine ⟨h.inv.change h.inv.vals h.inv.bufs h.inv.log rfl rfl rfl rfl rfl rfl, by dsimp only; rw [List.map_cons, h.names], ?_⟩
        intro m hm
        rcases List.mem_cons.1 hm with e | hm
        · rw [e]; exact ho
        · exact h.own m hm
      have hro : RInv sp { s with st := { s.st with vars := put s.st.vars n (some ⟨x, [⟨false, k⟩, ⟨true, k⟩]⟩) } } := by
        have hne : (proj sp).link n ≠ none := by
          show sp.link n ≠ none
          rw [hl]; nofun
        refine ⟨h.inv.setValue hv hne x, h.names, ?_⟩
        intro m hm'
        have e : m ≠ n := fun e => hm (e ▸ hm')
        dsimp only
        rw [put_ne _ _ e]
        exact h.own m hm'
      cases t with
      | var a =>
        obtain ⟨rfl, -⟩ := hkind
        dsimp only at ha ⊢
        cases hpx : parse x with
        | none => rw [hpx] at ha; cases ha
        | some v =>
          refine RInv.tracesEnd hf (sp := { sp with vals := put sp.vals a v })
            (s := ⟨{ s.st with vars := put s.st.vars n (some ⟨x, [⟨false, .var a⟩, ⟨true, .var a⟩]⟩), vals := put s.st.vals a v }, (n, false) :: s.stack⟩) ?_ parse hk _ _ _ ?_
          · refine hpush { sp with own := put sp.own n (some x), vals := put sp.vals a v }
              ⟨{ s.st with vars := put s.st.vars n (some ⟨x, [⟨false, .var a⟩, ⟨true, .var a⟩]⟩), vals := put s.st.vals a v }, s.stack⟩ ?_ ?_
            · refine ⟨hp.inv.change ?_ hp.inv.bufs hp.inv.log rfl rfl rfl rfl rfl rfl, hp.names, hp.own⟩
              dsimp only [proj]
              rw [h.inv.vals]
              rfl
            · dsimp only
              rw [put_same, put_same]
              rfl
          · dsimp only [writeTraceR]
            rw [hpx]
            dsimp only
            rw [hhook, h.inv.vals]
            rfl
      | const a =>
        obtain ⟨rfl, -⟩ := hkind
        exact ⟨_, rfl, hro⟩
      | text a =>
        obtain ⟨rfl, -⟩ := hkind
        exact ⟨_, rfl, hro⟩
      | buf b size =>
        obtain ⟨d, rfl, -, hd⟩ := hkind
        have ha' := of_decide_eq_true ha
        have hbf : s.st.bufs = sp.bufs := h.inv.bufs
        refine RInv.tracesEnd hf (sp := { sp with bufs := put sp.bufs b (stored size (sp.bufs b) x) })
          (s := ⟨{ s.st with vars := put s.st.vars n (some ⟨x, [⟨false, .buf d⟩, ⟨true, .buf d⟩]⟩), bufs := put s.st.bufs b (stored size (sp.bufs b) x) }, (n, false) :: s.stack⟩) ?_ parse hk _ _ _ ?_
        · refine hpush { sp with own := put sp.own n (some x), bufs := put sp.bufs b (stored size (sp.bufs b) x) }
            ⟨{ s.st with vars := put s.st.vars n (some ⟨x, [⟨false, .buf d⟩, ⟨true, .buf d⟩]⟩), bufs := put s.st.bufs b (stored size (sp.bufs b) x) }, s.stack⟩ ?_ ?_
          · refine ⟨hp.inv.change hp.inv.vals ?_ hp.inv.log rfl rfl rfl rfl rfl rfl, hp.names, hp.own⟩
            dsimp only [proj]
            rw [hbf]
          · dsimp only
            rw [put_same, put_same]
            rfl
        · dsimp only [writeTraceR]
          rw [hd]
          dsimp only
          rw [hbf, storeBuf_eq ha'.1 ha'.2.1 ha'.2.2]
          dsimp only
          rw [hhook]
          rfl

theorem RInv.step {toTcl : V → Option Bytes} {parse : Bytes → Option V} {runS : H → Seen V → Seen V → HLinks Bytes V H → Finish (HLinks Bytes V H) Unit} {run : Runner V H}
    (hf : Follows runS run) {sp : HLinks Bytes V H} {s : RSt V H} (h : RInv sp s) (op : LinkOp Bytes V H) (ha : sp.allowed toTcl parse op = true) :
    Alike (sp.step toTcl parse runS op) (runLinkR toTcl parse run s op) := by
  cases op with
  | link n t hk => exact h.link runS run n t hk (Option.isNone_iff_eq_none.1 ha)
  | unlink n => exact h.unlink runS run n
  | read n => exact h.read runS run n ha
  | write n x => exact h.write hf n x ha
  | set a v =>
    refine ⟨_, rfl, h.inv.change ?_ h.inv.bufs h.inv.log rfl rfl rfl rfl rfl rfl, h.names, h.own⟩
    dsimp only [proj]
    rw [h.inv.vals]
    rfl
  | fill b x =>
    refine ⟨_, rfl, h.inv.change h.inv.vals ?_ h.inv.log rfl rfl rfl rfl rfl rfl, h.names, h.own⟩
    dsimp only [proj]
    rw [h.inv.bufs]
    rfl

theorem RInv.prog {toTcl : V → Option Bytes} {parse : Bytes → Option V} {runS : H → Seen V → Seen V → HLinks Bytes V H → Finish (HLinks Bytes V H) Unit} {run : Runner V H}
    (hf : Follows runS run) (p : HookProg Bytes V H) : ∀ {sp : HLinks Bytes V H} {s : RSt V H}, RInv sp s →
    Alike (HLinks.prog toTcl parse runS p sp) (runProgR toTcl parse run p s) := by
  induction p with
  | done => exact fun {sp s} h => ⟨s, rfl, h⟩
  | call op next ih =>
    intro sp s h
    unfold HLinks.prog runProgR
    by_cases ha : sp.allowed toTcl parse op = true
    · rw [if_pos ha]
      have := h.step hf op ha
      cases hr : sp.step toTcl parse runS op with
      | wrong => trivial
      | cut sp' =>
        rw [hr] at this
        obtain ⟨s', e, hi⟩ := this
        rw [e]
        exact ⟨s', rfl, hi⟩
      | ret sp' g =>
        rw [hr] at this
        obtain ⟨s', e, hi⟩ := this
        rw [e]
        dsimp only
        rw [hi.inv.vals, hi.inv.bufs]
        exact ih g sp'.vals sp'.bufs hi
    · rw [if_neg ha]
      trivial

theorem follows (toTcl : V → Option Bytes) (parse : Bytes → Option V) (body : H → Seen V → Seen V → (Nat → V) → (Nat → Bytes) → HookProg Bytes V H) :
    ∀ depth, Follows (HLinks.hook toTcl parse body depth) (runHookR toTcl parse body depth)
  | 0 => fun _ _ _ _ s h => ⟨s, rfl, h⟩
  | depth + 1 => fun hh old new sp s h => by
    unfold HLinks.hook runHookR
    rw [h.inv.vals, h.inv.bufs]
    exact h.prog (follows toTcl parse body depth) _

theorem RInv.init (vals : Nat → V) (bufs : Nat → Bytes) : RInv (H := H) (.init vals bufs) (.init vals bufs) :=
  ⟨(LInv.init vals bufs).change rfl rfl rfl rfl rfl rfl rfl rfl rfl, rfl, nofun⟩

/-- Programs with hooks that link, unlink, run scripts and set C variables, which may call hooks again, to any depth: nothing
undefined happens, everything the program and the hooks get, and the C variables and buffers they find, are what the specification says,
hooks are called as it says, and runs that are cut off at some depth are so in the same state. -/
theorem c98_hooks_partial (toTcl : V → Option Bytes) (parse : Bytes → Option V) (body : H → Seen V → Seen V → (Nat → V) → (Nat → Bytes) → HookProg Bytes V H)
    (depth : Nat) (p : HookProg Bytes V H) (vals : Nat → V) (bufs : Nat → Bytes) :
    match HLinks.prog toTcl parse (HLinks.hook toTcl parse body depth) p (.init vals bufs) with
    | .wrong => True
    | .ret sp _ => ∃ s, runProgR toTcl parse (runHookR toTcl parse body depth) p (.init vals bufs) = .ret s () ∧
        s.st.vals = sp.vals ∧ s.st.bufs = sp.bufs ∧ s.st.log = sp.log
    | .cut sp => ∃ s, runProgR toTcl parse (runHookR toTcl parse body depth) p (.init vals bufs) = .cut s ∧
        s.st.vals = sp.vals ∧ s.st.bufs = sp.bufs ∧ s.st.log = sp.log := by
  have h := RInv.prog (toTcl := toTcl) (parse := parse) (follows toTcl parse body depth) p (RInv.init vals bufs)
  cases hr : HLinks.prog toTcl parse (HLinks.hook toTcl parse body depth) p (.init vals bufs) with
  | wrong => trivial
  | ret sp _ =>
    rw [hr] at h
    obtain ⟨s, e, hi⟩ := h
    exact ⟨s, e, hi.inv.vals, hi.inv.bufs, hi.inv.log⟩
  | cut sp =>
    rw [hr] at h
    obtain ⟨s, e, hi⟩ := h
    exact ⟨s, e, hi.inv.vals, hi.inv.bufs, hi.inv.log⟩

theorem c98_ret {toTcl : V → Option Bytes} {parse : Bytes → Option V} {body : H → Seen V → Seen V → (Nat → V) → (Nat → Bytes) → HookProg Bytes V H}
    {depth : Nat} {p : HookProg Bytes V H} {vals : Nat → V} {bufs : Nat → Bytes} {sp : HLinks Bytes V H} {u : Unit}
    (hr : HLinks.prog toTcl parse (HLinks.hook toTcl parse body depth) p (.init vals bufs) = .ret sp u) :
    ∃ s, runProgR toTcl parse (runHookR toTcl parse body depth) p (.init vals bufs) = .ret s () ∧
      s.st.vals = sp.vals ∧ s.st.bufs = sp.bufs ∧ s.st.log = sp.log := by
  have h := c98_hooks_partial toTcl parse body depth p vals bufs
  rw [hr] at h
  exact h

/-- A program runs only scripts that set variables with names in `P`. -/
def Sets {N : Type} (P : N → Prop) : HookProg N V H → Prop
  | .done => True
  | .call (.write n _) next => P n ∧ ∀ g v b, Sets P (next g v b)
  | .call _ next => ∀ g v b, Sets P (next g v b)

/-- Returns with the same variables busy, or a call was not allowed. -/
def Keeps {N A : Type} (b : List N) : Finish (HLinks N V H) A → Prop
  | .ret sp _ => sp.busy = b
  | .cut _ => False
  | .wrong => True

theorem keeps_hooked {N : Type} [DecidableEq N] {run : H → Seen V → Seen V → HLinks N V H → Finish (HLinks N V H) Unit} {n : N} {b : List N}
    (hr : ∀ h old new (sp : HLinks N V H), sp.busy = n :: b → Keeps (n :: b) (run h old new sp)) {sp : HLinks N V H} (h : sp.busy = b) (x : List UInt8) (hk : Option H) (old new : Seen V) :
    Keeps b (sp.hooked run n x hk old new) := by
  unfold HLinks.hooked
  cases hk with
  | none => exact h
  | some hh =>
    have := hr hh old new { sp with own := put sp.own n (some x), busy := n :: sp.busy, log := sp.log ++ [(hh, old, new)] } (congrArg _ h)
    dsimp only
    cases hr : run hh old new { sp with own := put sp.own n (some x), busy := n :: sp.busy, log := sp.log ++ [(hh, old, new)] } with
    | ret sp' u =>
      rw [hr] at this
      show sp'.busy.tail = b
      rw [show sp'.busy = n :: b from this]
      rfl
    | cut sp' => rw [hr] at this; exact this.elim
    | wrong => trivial

theorem keeps_prog {N : Type} [DecidableEq N] (toTcl : V → Option Bytes) (parse : Bytes → Option V) {run : H → Seen V → Seen V → HLinks N V H → Finish (HLinks N V H) Unit} {P : N → Prop} {b : List N}
    (hr : ∀ n, P n → n ∉ b → ∀ h old new (sp : HLinks N V H), sp.busy = n :: b → Keeps (n :: b) (run h old new sp)) (p : HookProg N V H) :
    Sets P p → ∀ {sp : HLinks N V H}, sp.busy = b → Keeps b (HLinks.prog toTcl parse run p sp) := by
  induction p with
  | done => exact fun _ _ h => h
  | call op next ih =>
    intro hs sp h
    unfold HLinks.prog
    have hs' : ∀ g v c, Sets P (next g v c) := by
      cases op <;> first | exact hs.2 | exact hs
    have key : Keeps b (sp.step toTcl parse run op) := by
      cases op with
      | link n t hk => exact h
      | unlink n => exact h
      | read n => exact h
      | set a v => exact h
      | fill c x => exact h
      | write n x =>
        dsimp only [HLinks.step]
        by_cases hb : n ∈ sp.busy
        · rw [if_pos hb]; exact h
        · rw [if_neg hb]
          have hn := hr n hs.1 (h ▸ hb)
          split
          · exact h
          · split
            · exact h
            · rename_i a hk _ _ v _
              exact keeps_hooked hn (sp := { sp with vals := put sp.vals a v }) h _ _ _ _
          · rename_i c size hk _
            exact keeps_hooked hn (sp := { sp with bufs := put sp.bufs c (stored size (sp.bufs c) x) }) h _ _ _ _
          · exact h
          · exact h
    by_cases ha : sp.allowed toTcl parse op = true
    · rw [if_pos ha]
      cases hst : sp.step toTcl parse run op with
      | wrong => trivial
      | cut sp' => rw [hst] at key; exact key.elim
      | ret sp' g =>
        rw [hst] at key
        exact ih g _ _ (hs' g _ _) key
    · rw [if_neg ha]
      trivial

/-- The names of a list that are not busy. -/
theorem free_lt {N : Type} [DecidableEq N] (b : List N) (n : N) (hb : n ∉ b) : ∀ L : List N, n ∈ L →
    (L.filter (· ∉ n :: b)).length < (L.filter (· ∉ b)).length := by
  have le : ∀ L : List N, (L.filter (· ∉ n :: b)).length ≤ (L.filter (· ∉ b)).length := by
    intro L
    induction L with
    | nil => exact Nat.le_refl _
    | cons m L ih =>
      rw [List.filter_cons, List.filter_cons]
      by_cases h1 : m ∈ b
      · rw [if_neg (by simp [h1]), if_neg (by simp [h1])]
        exact ih
      · rw [if_pos (c := decide (m ∉ b) = true) (by simp [h1])]
        split <;> simp only [List.length_cons] <;> omega
  intro L
  induction L with
  | nil => nofun
  | cons m L ih =>
    intro hm
    rw [List.filter_cons, List.filter_cons]
    by_cases e : m = n
    · subst e
      rw [if_neg (by simp), if_pos (by simp [hb])]
      exact Nat.lt_succ_of_le (le L)
    · have := ih ((List.mem_cons.1 hm).resolve_left fun h => e h.symm)
      by_cases h1 : m ∈ b
      · rw [if_neg (by simp [h1]), if_neg (by simp [h1])]
        exact this
      · rw [if_pos (by simp [h1, e]), if_pos (by simp [h1])]
        simp only [List.length_cons]
        omega

theorem keeps_hook {N : Type} [DecidableEq N] (toTcl : V → Option Bytes) (parse : Bytes → Option V)
    (body : H → Seen V → Seen V → (Nat → V) → (Nat → Bytes) → HookProg N V H) (L : List N) (hL : ∀ h old new v c, Sets (· ∈ L) (body h old new v c)) :
    ∀ (depth : Nat) (b : List N), (L.filter (· ∉ b)).length < depth →
    ∀ h old new (sp : HLinks N V H), sp.busy = b → Keeps b (HLinks.hook toTcl parse body depth h old new sp)
  | 0, _, h => absurd h (Nat.not_lt_zero _)
  | depth + 1, b, hd => fun h old new sp hb => by
    unfold HLinks.hook
    refine keeps_prog toTcl parse (P := (· ∈ L)) ?_ _ (hL h old new _ _) hb
    intro n hn hnb
    refine keeps_hook toTcl parse body L hL depth (n :: b) ?_
    have := free_lt b n hnb L hn
    omega

/-- Hooks cannot call each other for ever: if all they set are variables in a list `L`, every allowed run, of whatever program, returns with
hooks nested at most `L.length + 1` deep. -/
theorem c98_depth_partial (toTcl : V → Option Bytes) (parse : Bytes → Option V) (body : H → Seen V → Seen V → (Nat → V) → (Nat → Bytes) → HookProg Bytes V H)
    (L : List Bytes) (hL : ∀ h old new v c, Sets (· ∈ L) (body h old new v c)) (p : HookProg Bytes V H) (vals : Nat → V) (bufs : Nat → Bytes) :
    match HLinks.prog toTcl parse (HLinks.hook toTcl parse body (L.length + 1)) p (.init vals bufs) with
    | .wrong => True
    | .ret _ _ => ∃ s, runProgR toTcl parse (runHookR toTcl parse body (L.length + 1)) p (.init vals bufs) = .ret s ()
    | .cut _ => False := by
  have all : ∀ p : HookProg Bytes V H, Sets (fun _ => True) p := by
    intro p
    induction p with
    | done => trivial
    | call op next ih => cases op <;> first | exact ⟨trivial, ih⟩ | exact ih
  have h1 : Keeps [] (HLinks.prog toTcl parse (HLinks.hook toTcl parse body (L.length + 1)) p (.init vals bufs)) := by
    refine keeps_prog toTcl parse (P := fun _ => True) ?_ p (all p) rfl
    intro n _ _
    exact keeps_hook toTcl parse body L hL _ [n] (Nat.lt_succ_of_le (List.length_filter_le _ _))
  have h2 := c98_hooks_partial toTcl parse body (L.length + 1) p vals bufs
  cases hr : HLinks.prog toTcl parse (HLinks.hook toTcl parse body (L.length + 1)) p (.init vals bufs) with
  | wrong => trivial
  | ret sp u =>
    rw [hr] at h2
    obtain ⟨s, e, -⟩ := h2
    exact ⟨s, e⟩
  | cut sp => rw [hr] at h1; exact h1

/-- A program that makes these calls, whatever they give. -/
def straight {N : Type} : List (LinkOp N V H) → HookProg N V H
  | [] => .done
  | op :: ops => .call op fun _ _ _ => straight ops

/-- Refutation of "setting a linked variable sets the C variable": a hook that runs a script to put another text `y` into its variable
is told that it is set (it then sets C variable 1), but C variable 0 keeps `x`, the hook is not called for `y`, and scripts read `x`
afterwards (the program then sets C variable 2). -/
theorem c98_refuted_own (n x y z : Bytes) (hx : 0 ∉ x) (vals : Nat → Bytes) (bufs : Nat → Bytes) (depth : Nat) :
    let body : Unit → Seen Bytes → Seen Bytes → (Nat → Bytes) → (Nat → Bytes) → HookProg Bytes Bytes Unit := fun _ _ _ _ _ =>
      .call (.write n y) fun g _ _ => if g = .done then straight [.set 1 z] else .done
    let main : HookProg Bytes Bytes Unit := .call (.link n (.var 0) (some ())) fun _ _ _ => .call (.write n x) fun _ _ _ =>
      .call (.read n) fun g _ _ => if g = .value x then straight [.set 2 z] else .done
    ∃ s, runProgR some some (runHookR some some body (depth + 1)) main (.init vals bufs) = .ret s () ∧
      s.st.vals 0 = x ∧ s.st.vals 1 = z ∧ s.st.vals 2 = z ∧ s.st.log = [((), .val (vals 0), .val x)] := by
  intro body main
  have h := c98_hooks_partial some some body (depth + 1) main vals bufs
  have e : HLinks.prog some some (HLinks.hook some some body (depth + 1)) main (.init vals bufs) =
      .ret ⟨put (fun _ => none) n (some (.var 0, some ())), put (put (put (fun _ => none) n (some [])) n (some x)) n (some y), put (put (put vals 0 x) 1 z) 2 z, bufs,
        [((), .val (vals 0), .val x)], []⟩ () := by
    simp [straight, HLinks.prog, HLinks.allowed, HLinks.step, HLinks.hooked, HLinks.init, HLinks.hook, put, body, main, hx]
  rw [e] at h
  obtain ⟨s, e, h1, h2, h3⟩ := h
  exact ⟨s, e, by rw [h1]; rfl, by rw [h1]; rfl, by rw [h1]; rfl, h3⟩

/-! ## Cases that meet the hypotheses -/

/-- Variable `[97]` is buffer 0, `[98]` and `[99]` are C variables.  Hook 0 (of `[97]`) unlinks its own variable, links it to C variable 5,
and sets `[98]`; hook 1 (of `[98]`) sets `[97]` and `[99]`; hook 2 (of `[99]`) sets `[98]`, which is busy. -/
def exBody : Nat → Seen Bytes → Seen Bytes → (Nat → Bytes) → (Nat → Bytes) → HookProg Bytes Bytes Nat
  | 0, _, _, _, _ => straight [.unlink [97], .link [97] (.var 5) none, .write [98] [50]]
  | 1, _, _, vals, _ => straight [.write [97] [7], .write [99] (vals 0 ++ [51])]
  | _, _, _, _, _ => straight [.write [98] [52]]

def exMain : HookProg Bytes Bytes Nat := straight
  [.link [97] (.buf 0 2) (some 0), .link [98] (.var 0) (some 1), .link [99] (.var 1) (some 2), .write [97] [49], .read [98], .write [97] [53]]

/-- Some of what a run leaves: returned, or cut off; C variables 0, 1, 5; buffer 0; the hooks called; what is busy. -/
def exLeft : Finish (HLinks Bytes Bytes Nat) Unit → Option (Bool × List Bytes × List Nat × List Bytes)
  | .ret s _ => some (true, [s.vals 0, s.vals 1, s.vals 5, s.bufs 0], s.log.map (·.1), s.busy)
  | .cut s => some (false, [s.vals 0, s.vals 1, s.vals 5, s.bufs 0], s.log.map (·.1), s.busy)
  | .wrong => none

def exRun (depth : Nat) : Finish (HLinks Bytes Bytes Nat) Unit :=
  HLinks.prog some some (HLinks.hook some some exBody depth) exMain (.init (fun _ => []) fun _ => [1, 0])

/-- The specification allows all of it, and says what comes of it: three hooks, nested, and after them `[97]` is C variable 5. -/
theorem exLeft_ret : exLeft (exRun 4) =
    some (true, [[50], [50, 51], [53], [49, 0]], [0, 1, 2], []) := by decide +kernel

example : ∃ s, runProgR some some (runHookR some some exBody 4) exMain (.init (fun _ => []) fun _ => [1, 0]) = .ret s () ∧
    s.st.vals 5 = [53] ∧ s.st.bufs 0 = [49, 0] := by
  have e := exLeft_ret
  cases hr : exRun 4 with
  | wrong => rw [hr] at e; cases e
  | cut sp => rw [hr] at e; simp [exLeft] at e
  | ret sp u =>
    rw [hr] at e
    obtain ⟨s, e', h1, h2, -⟩ := c98_ret hr
    simp only [exLeft, Option.some.injEq, Prod.mk.injEq, List.cons.injEq] at e
    exact ⟨s, e', by rw [h1]; exact e.2.1.2.2.1, by rw [h2]; exact e.2.1.2.2.2.1⟩

/-- These hooks set variables of a list only. -/
example : ∀ h old new v c, Sets (· ∈ [[97], [98], [99]]) (exBody h old new v c) := by
  intro h old new v c
  unfold exBody
  split <;> simp [straight, Sets]

/-- A run that is cut off: hook 2 would be the third level. -/
example : exLeft (exRun 2) =
    some (false, [[50], [50, 51], [], [49, 0]], [0, 1, 2], [[99], [98], [97]]) := by decide +kernel

end Bdlib.Tcl
