import Verif.Tcl.Links

/-!
# C63: linked variables mirror the C variable

Proved for histories in which a name is not linked again before it is unlinked, values read have no NUL, and a
text written into a buffer of `size` bytes has at least `size - 1` characters.  The others fail:
`c63_refuted_short` (reads past the end of the text), `c63_refuted_nul`, `c63_refuted_relink_*`.
-/

namespace Bdlib.Tcl
open Bdlib Bdlib.Str Bdlib.Spec

variable {V H : Type}

/-- The operations covered. -/
def LinkAllowed {N : Type} (toTcl : V → Option Bytes) (parse : Bytes → Option V) (s : Links N V H) : LinkOp N V H → Prop
  | .link n _ _ => s.link n = none
  | .read n => match s.link n with
    | none => True
    | some (.var a, _) | some (.const a, _) => ∃ x, toTcl (s.vals a) = some x ∧ 0 ∉ x
    | some (.buf b _, _) | some (.text b, _) => 0 ∈ s.bufs b
  | .write n x => match s.link n with
    | some (.var _, _) => parse x ≠ none
    | some (.buf b size, _) => 1 ≤ size ∧ size ≤ (s.bufs b).length ∧ size ≤ x.length + 1
    | _ => True
  | _ => True

def AllLinkAllowed (toTcl : V → Option Bytes) (parse : Bytes → Option V) (s : Links Bytes V H) : List (LinkOp Bytes V H) → Prop
  | [] => True
  | op :: ops => LinkAllowed toTcl parse s op ∧ AllLinkAllowed toTcl parse (s.step toTcl parse op).1 ops

/-- The traces of a name are those of its target. -/
def KindOf (s : LinkSt V H) (n : Bytes) (k : Kind) : Target → Prop
  | .var a => k = .var a ∧ s.ptrs n = none
  | .const a => k = .const a ∧ s.ptrs n = none
  | .text b => k = .text b ∧ s.ptrs n = none
  | .buf b size => ∃ d, k = .buf d ∧ s.ptrs n = some d ∧ s.data[d]? = some (some (b, size))

structure LInv (sp : Links Bytes V H) (s : LinkSt V H) : Prop where
  vals : s.vals = sp.vals
  bufs : s.bufs = sp.bufs
  log : s.log = sp.log
  linked : ∀ n t h, sp.link n = some (t, h) → s.hooks n = h ∧ sp.plain n = none ∧
    ∃ x k, s.vars n = some ⟨x, [⟨false, k⟩, ⟨true, k⟩]⟩ ∧ KindOf s n k t
  unlinked : ∀ n, sp.link n = none → s.hooks n = none ∧ s.ptrs n = none ∧ s.vars n = (sp.plain n).map (⟨·, []⟩)
  inj : ∀ n m d, s.ptrs n = some d → s.ptrs m = some d → n = m
  lt : ∀ n d, s.ptrs n = some d → d < s.data.length

theorem put_same {A B : Type} [DecidableEq A] (f : A → B) (a : A) (b : B) : put f a b a = b := if_pos rfl
theorem put_ne {A B : Type} [DecidableEq A] (f : A → B) {a x : A} (b : B) (h : x ≠ a) : put f a b x = f x := if_neg h

theorem LInv.init (vals : Nat → V) (bufs : Nat → Bytes) : LInv (H := H) (.init vals bufs) (.init vals bufs) where
  vals := rfl
  bufs := rfl
  log := rfl
  linked := nofun
  unlinked := fun _ _ => ⟨rfl, rfl, rfl⟩
  inj := nofun
  lt := nofun

/-- Setting a variable without traces. -/
theorem writeVar_plain (parse : Bytes → Option V) (s : LinkSt V H) (n x : Bytes) (h : tracesOf s n = []) :
    writeVar parse s n x = some ({ s with vars := put s.vars n (some ⟨x, []⟩) }, .done) := by
  unfold writeVar
  rw [h]
  rfl

theorem tracesOf_plain {sp : Links Bytes V H} {s : LinkSt V H} (h : LInv sp s) {n : Bytes} (hn : sp.link n = none) : tracesOf s n = [] := by
  obtain ⟨-, -, hv⟩ := h.unlinked n hn
  unfold tracesOf
  rw [hv]
  cases sp.plain n <;> rfl

theorem setupTraces_plain (parse : Bytes → Option V) (s : LinkSt V H) (n : Bytes) (k : Kind) (hook : Option H)
    (h : tracesOf s n = []) (hh : s.hooks n = none) :
    setupTraces parse s n k hook = some { s with vars := put s.vars n (some ⟨[], [⟨false, k⟩, ⟨true, k⟩]⟩), hooks := put s.hooks n hook } := by
  unfold setupTraces
  rw [writeVar_plain parse s n [] h]
  have e1 : put (put s.vars n (some ⟨[], []⟩)) n (some ⟨[], [⟨false, k⟩, ⟨true, k⟩]⟩) = put s.vars n (some ⟨[], [⟨false, k⟩, ⟨true, k⟩]⟩) := by
    funext m
    unfold put
    split <;> rfl
  have e2 : tracesOf { s with vars := put s.vars n (some ⟨[], []⟩) } n = [] := by
    unfold tracesOf
    dsimp only
    rw [put_same]
  have e3 : put s.hooks n none = s.hooks := by
    funext m
    unfold put
    split
    · rename_i e; rw [e, hh]
    · rfl
  dsimp only
  rw [e2, e1]
  cases hook with
  | none => dsimp only; rw [e3]
  | some h => rfl

theorem LInv.link {toTcl : V → Option Bytes} {parse : Bytes → Option V} {sp : Links Bytes V H} {s : LinkSt V H} (h : LInv sp s) (n : Bytes) (t : Target)
    (hook : Option H) (hn : sp.link n = none) :
    ∃ s', linkVar parse s n t hook = some s' ∧ LInv (sp.step toTcl parse (.link n t hook)).1 s' := by
  obtain ⟨hh, hp, hv⟩ := h.unlinked n hn
  have ht := tracesOf_plain h hn
  -- what is common to the four
  have fin : ∀ (k : Kind) (s' : LinkSt V H), s'.vals = s.vals → s'.bufs = s.bufs → s'.log = s.log →
      s'.vars = put s.vars n (some ⟨[], [⟨false, k⟩, ⟨true, k⟩]⟩) → s'.hooks = put s.hooks n hook → KindOf s' n k t →
      (∀ m, m ≠ n → s'.ptrs m = s.ptrs m) → (∀ d < s.data.length, s'.data[d]? = s.data[d]?) → (∀ d, s'.ptrs n = some d → d = s.data.length) →
      s.data.length ≤ s'.data.length → (∀ d, s'.ptrs n = some d → d < s'.data.length) →
      LInv (sp.step toTcl parse (.link n t hook)).1 s' := by
    intro k s' e1 e2 e3 e4 e5 hk hptr hdat hnew hlen hnlt
    refine ⟨e1.trans h.vals, e2.trans h.bufs, e3.trans h.log, ?_, ?_, ?_, ?_⟩
    · intro m t' h' hm
      dsimp only [Links.step] at hm ⊢
      rw [e4, e5]
      by_cases e : m = n
      · subst e
        rw [put_same] at hm
        cases hm
        rw [put_same, put_same, put_same]
        exact ⟨rfl, rfl, _, _, rfl, hk⟩
      · rw [put_ne _ _ e] at hm
        rw [put_ne _ _ e, put_ne _ _ e, put_ne _ _ e]
        obtain ⟨a1, a2, x, k', a3, a4⟩ := h.linked m t' h' hm
        refine ⟨a1, a2, x, k', a3, ?_⟩
        cases t' with
        | var a => exact ⟨a4.1, (hptr m e).trans a4.2⟩
        | const a => exact ⟨a4.1, (hptr m e).trans a4.2⟩
        | text a => exact ⟨a4.1, (hptr m e).trans a4.2⟩
        | buf b size =>
          obtain ⟨d, b1, b2, b3⟩ := a4
          exact ⟨d, b1, (hptr m e).trans b2, (hdat d (h.lt m d b2)).trans b3⟩
    · intro m hm
      dsimp only [Links.step] at hm ⊢
      rw [e4, e5]
      by_cases e : m = n
      · subst e
        rw [put_same] at hm
        cases hm
      · rw [put_ne _ _ e] at hm
        rw [put_ne _ _ e, put_ne _ _ e, put_ne _ _ e, hptr m e]
        exact h.unlinked m hm
    · intro m m' d hm hm'
      by_cases e : m = n
      · by_cases e' : m' = n
        · rw [e, e']
        · rw [e] at hm
          have := hnew d hm
          rw [hptr m' e'] at hm'
          have := h.lt m' d hm'
          omega
      · rw [hptr m e] at hm
        have := h.lt m d hm
        by_cases e' : m' = n
        · rw [e'] at hm'
          have := hnew d hm'
          omega
        · rw [hptr m' e'] at hm'
          exact h.inj m m' d hm hm'
    · intro m d hm
      by_cases e : m = n
      · exact hnlt d (e ▸ hm)
      · rw [hptr m e] at hm
        have := h.lt m d hm
        omega
  cases t with
  | var a =>
    refine ⟨_, setupTraces_plain parse s n _ hook ht hh, fin (.var a) _ rfl rfl rfl rfl rfl ⟨rfl, hp⟩ (fun _ _ => rfl) (fun _ _ => rfl) ?_ (Nat.le_refl _) ?_⟩ <;>
    · intro d hd; dsimp only at hd; rw [hp] at hd; cases hd
  | const a =>
    refine ⟨_, setupTraces_plain parse s n _ hook ht hh, fin (.const a) _ rfl rfl rfl rfl rfl ⟨rfl, hp⟩ (fun _ _ => rfl) (fun _ _ => rfl) ?_ (Nat.le_refl _) ?_⟩ <;>
    · intro d hd; dsimp only at hd; rw [hp] at hd; cases hd
  | text a =>
    refine ⟨_, setupTraces_plain parse s n _ hook ht hh, fin (.text a) _ rfl rfl rfl rfl rfl ⟨rfl, hp⟩ (fun _ _ => rfl) (fun _ _ => rfl) ?_ (Nat.le_refl _) ?_⟩ <;>
    · intro d hd; dsimp only at hd; rw [hp] at hd; cases hd
  | buf b size =>
    unfold linkVar
    dsimp only
    rw [setupTraces_plain parse { s with data := s.data ++ [some (b, size)] } n _ hook ht hh]
    dsimp only [freeData]
    rw [hp]
    refine ⟨_, rfl, fin (.buf s.data.length) _ rfl rfl rfl rfl rfl ⟨s.data.length, rfl, put_same _ _ _, by simp⟩ (fun m e => put_ne _ _ e)
      (fun d hd => List.getElem?_append_left hd) ?_ (by simp) ?_⟩
    · intro d hd
      dsimp only at hd
      rw [put_same] at hd
      cases hd
      rfl
    · intro d hd
      dsimp only at hd
      rw [put_same] at hd
      cases hd
      simp

theorem LInv.unlink {toTcl : V → Option Bytes} {parse : Bytes → Option V} {sp : Links Bytes V H} {s : LinkSt V H} (h : LInv sp s) (n : Bytes) :
    LInv (sp.step toTcl parse (.unlink n)).1 (unlinkVar s n) := by
  have hdat : ∀ m d, m ≠ n → s.ptrs m = some d → (unlinkVar s n).data[d]? = s.data[d]? := by
    intro m d e hm
    dsimp only [unlinkVar, freeData]
    cases hn : s.ptrs n with
    | none => rfl
    | some d' =>
      dsimp only
      have : d' ≠ d := fun hh => e (h.inj m n d hm (hh ▸ hn))
      rw [List.getElem?_set_ne this]
  have hlen : (unlinkVar s n).data.length = s.data.length := by
    dsimp only [unlinkVar, freeData]
    cases s.ptrs n with
    | none => rfl
    | some d' => simp
  refine ⟨h.vals, h.bufs, h.log, ?_, ?_, ?_, ?_⟩
  · intro m t' h' hm
    dsimp only [Links.step] at hm ⊢
    by_cases e : m = n
    · subst e
      rw [put_same] at hm
      cases hm
    · rw [put_ne _ _ e] at hm
      obtain ⟨a1, a2, x, k', a3, a4⟩ := h.linked m t' h' hm
      refine ⟨(put_ne _ _ e).trans a1, (put_ne _ _ e).trans a2, x, k', (put_ne _ _ e).trans a3, ?_⟩
      cases t' with
      | var a => exact ⟨a4.1, (put_ne _ _ e).trans a4.2⟩
      | const a => exact ⟨a4.1, (put_ne _ _ e).trans a4.2⟩
      | text a => exact ⟨a4.1, (put_ne _ _ e).trans a4.2⟩
      | buf b size =>
        obtain ⟨d, b1, b2, b3⟩ := a4
        exact ⟨d, b1, (put_ne _ _ e).trans b2, (hdat m d e b2).trans b3⟩
  · intro m hm
    dsimp only [Links.step, unlinkVar] at hm ⊢
    by_cases e : m = n
    · subst e
      rw [put_same, put_same, put_same, put_same]
      exact ⟨rfl, rfl, rfl⟩
    · rw [put_ne _ _ e] at hm
      rw [put_ne _ _ e, put_ne _ _ e, put_ne _ _ e, put_ne _ _ e]
      exact h.unlinked m hm
  · intro m m' d hm hm'
    dsimp only [unlinkVar] at hm hm'
    by_cases e : m = n
    · rw [e, put_same] at hm; cases hm
    · by_cases e' : m' = n
      · rw [e', put_same] at hm'; cases hm'
      · rw [put_ne _ _ e] at hm
        rw [put_ne _ _ e'] at hm'
        exact h.inj m m' d hm hm'
  · intro m d hm
    rw [hlen]
    dsimp only [unlinkVar] at hm
    by_cases e : m = n
    · rw [e, put_same] at hm; cases hm
    · rw [put_ne _ _ e] at hm
      exact h.lt m d hm

/-- Changing only values of variables of the interpreter that are linked keeps the relation. -/
theorem LInv.setValue {sp : Links Bytes V H} {s : LinkSt V H} (h : LInv sp s) {n : Bytes} {v : TclVar} (hv : s.vars n = some v) (hl : sp.link n ≠ none) (x : Bytes) :
    LInv sp { s with vars := put s.vars n (some { v with value := x }) } := by
  refine ⟨h.vals, h.bufs, h.log, ?_, ?_, h.inj, h.lt⟩
  · intro m t' h' hm
    obtain ⟨a1, a2, y, k', a3, a4⟩ := h.linked m t' h' hm
    by_cases e : m = n
    · subst e
      rw [hv] at a3
      cases a3
      exact ⟨a1, a2, x, k', put_same _ _ _, a4⟩
    · exact ⟨a1, a2, y, k', (put_ne _ _ e).trans a3, a4⟩
  · intro m hm
    have e : m ≠ n := fun e => hl (e ▸ hm)
    dsimp only
    rw [put_ne _ _ e]
    exact h.unlinked m hm

theorem LInv.read {toTcl : V → Option Bytes} {parse : Bytes → Option V} {sp : Links Bytes V H} {s : LinkSt V H} (h : LInv sp s) (n : Bytes)
    (ha : LinkAllowed toTcl parse sp (.read n)) :
    ∃ s', readVar toTcl s n = some (s', (sp.step toTcl parse (.read n)).2) ∧ LInv sp s' := by
  unfold LinkAllowed at ha
  unfold readVar
  dsimp only [Links.step]
  cases hl : sp.link n with
  | none =>
    obtain ⟨-, -, hv⟩ := h.unlinked n hl
    rw [hv]
    cases hp : sp.plain n with
    | none => exact ⟨s, rfl, h⟩
    | some x =>
      refine ⟨_, rfl, ?_⟩
      refine ⟨h.vals, h.bufs, h.log, ?_, ?_, h.inj, h.lt⟩
      · intro m t' h' hm
        have e : m ≠ n := fun e => by rw [e, hl] at hm; cases hm
        dsimp only
        rw [put_ne _ _ e]
        exact h.linked m t' h' hm
      · intro m hm
        dsimp only
        by_cases e : m = n
        · subst e
          rw [put_same, hp]
          obtain ⟨b1, b2, -⟩ := h.unlinked m hm
          exact ⟨b1, b2, rfl⟩
        · rw [put_ne _ _ e]
          exact h.unlinked m hm
  | some lt =>
    obtain ⟨t, hk⟩ := lt
    obtain ⟨-, -, x, k, hv, hkind⟩ := h.linked n t hk hl
    dsimp only at ha
    rw [hl] at ha
    rw [hv]
    dsimp only [readTraces]
    rw [if_neg Bool.false_ne_true, if_pos rfl]
    have hne : sp.link n ≠ none := by rw [hl]; nofun
    cases t with
    | var a =>
      obtain ⟨rfl, -⟩ := hkind
      obtain ⟨y, hy, hz⟩ := ha
      have hy' : toTcl (s.vals a) = some y := by rw [h.vals]; exact hy
      dsimp only [readTrace]
      rw [hy', hy]
      dsimp only
      rw [cstr_self hz]
      exact ⟨_, rfl, h.setValue hv hne y⟩
    | const a =>
      obtain ⟨rfl, -⟩ := hkind
      obtain ⟨y, hy, hz⟩ := ha
      have hy' : toTcl (s.vals a) = some y := by rw [h.vals]; exact hy
      dsimp only [readTrace]
      rw [hy', hy]
      dsimp only
      rw [cstr_self hz]
      exact ⟨_, rfl, h.setValue hv hne y⟩
    | text b =>
      obtain ⟨rfl, -⟩ := hkind
      dsimp only [readTrace, bufText]
      have hb : 0 ∈ s.bufs b := by rw [h.bufs]; exact ha
      rw [if_pos hb]
      refine ⟨_, ?_, h.setValue hv hne (cstr (s.bufs b))⟩
      rw [← h.bufs]
      rfl
    | buf b size =>
      obtain ⟨d, rfl, -, hd⟩ := hkind
      dsimp only [readTrace, bufText]
      rw [hd]
      dsimp only
      have hb : 0 ∈ s.bufs b := by rw [h.bufs]; exact ha
      rw [if_pos hb]
      refine ⟨_, ?_, h.setValue hv hne (cstr (s.bufs b))⟩
      rw [← h.bufs]
      rfl

theorem storeBuf_eq {size : Nat} {old x : Bytes} (h1 : 1 ≤ size) (h2 : size ≤ old.length) (h3 : size ≤ x.length + 1) :
    storeBuf size old x = some (stored size old x) := by
  unfold storeBuf stored
  rw [if_neg (by omega)]
  congr 1
  apply List.ext_getElem
  · simp; omega
  · intro i hi hj
    rw [List.getElem_set]
    by_cases e : size - 1 = i
    · subst e
      rw [if_pos rfl, List.getElem_append_left (by simp; omega), List.getElem_append_right (by simp; omega)]
      simp
    · rw [if_neg e]
      by_cases hi' : i < size - 1
      · rw [List.getElem_append_left (by simp; omega), List.getElem_append_left (by simp; omega), List.getElem_append_left (by simp; omega)]
        rw [List.getElem_take, List.getElem_take, List.getElem_append_left (by omega)]
      · rw [List.getElem_append_right (by simp; omega), List.getElem_append_right (by simp; omega)]
        congr 1
        simp
        omega

theorem hookCalls_eq {s : LinkSt V H} {n : Bytes} {hk : Option H} (h : s.hooks n = hk) (old new : Seen V) : hookCalls s n old new = called hk old new := by
  unfold hookCalls called
  rw [h]
  cases hk <;> rfl

theorem LInv.write {toTcl : V → Option Bytes} {parse : Bytes → Option V} {sp : Links Bytes V H} {s : LinkSt V H} (h : LInv sp s) (n x : Bytes)
    (ha : LinkAllowed toTcl parse sp (.write n x)) :
    ∃ s', writeVar parse s n x = some (s', (sp.step toTcl parse (.write n x)).2) ∧ LInv (sp.step toTcl parse (.write n x)).1 s' := by
  unfold LinkAllowed at ha
  cases hl : sp.link n with
  | none =>
    rw [writeVar_plain parse s n x (tracesOf_plain h hl)]
    dsimp only [Links.step]
    rw [hl]
    refine ⟨_, rfl, ?_⟩
    refine ⟨h.vals, h.bufs, h.log, ?_, ?_, h.inj, h.lt⟩
    · intro m t' h' hm
      have e : m ≠ n := fun e => by dsimp only at hm; rw [e, hl] at hm; cases hm
      dsimp only
      rw [put_ne _ _ e, put_ne _ _ e]
      exact h.linked m t' h' hm
    · intro m hm
      dsimp only at hm ⊢
      by_cases e : m = n
      · subst e
        rw [put_same, put_same]
        obtain ⟨b1, b2, -⟩ := h.unlinked m hm
        exact ⟨b1, b2, rfl⟩
      · rw [put_ne _ _ e, put_ne _ _ e]
        exact h.unlinked m hm
  | some lt =>
    obtain ⟨t, hk⟩ := lt
    obtain ⟨hhook, -, y, k, hv, hkind⟩ := h.linked n t hk hl
    have hne : sp.link n ≠ none := by rw [hl]; nofun
    have htr : tracesOf s n = [⟨false, k⟩, ⟨true, k⟩] := by
      unfold tracesOf
      rw [hv]
    have hset := h.setValue hv hne x
    unfold writeVar
    rw [htr]
    dsimp only [writeTraces]
    rw [if_neg Bool.false_ne_true]
    simp only [if_true]
    dsimp only at ha
    rw [hl] at ha
    dsimp only [Links.step]
    rw [hl]
    cases t with
    | var a =>
      obtain ⟨rfl, -⟩ := hkind
      dsimp only at ha
      cases hp : parse x with
      | none => exact absurd hp ha
      | some v =>
        dsimp only [writeTrace]
        rw [hp]
        dsimp only
        refine ⟨_, rfl, ?_⟩
        refine ⟨?_, hset.bufs, ?_, hset.linked, hset.unlinked, hset.inj, hset.lt⟩
        · dsimp only; rw [h.vals]
        · dsimp only
          rw [hookCalls_eq (hk := hk) (by exact hhook), h.log, h.vals]
    | const a =>
      obtain ⟨rfl, -⟩ := hkind
      exact ⟨_, rfl, hset⟩
    | text a =>
      obtain ⟨rfl, -⟩ := hkind
      exact ⟨_, rfl, hset⟩
    | buf b size =>
      obtain ⟨d, rfl, -, hd⟩ := hkind
      dsimp only at ha
      dsimp only [writeTrace]
      rw [hd]
      dsimp only
      rw [← h.bufs] at ha
      rw [storeBuf_eq ha.1 ha.2.1 ha.2.2]
      dsimp only
      refine ⟨_, rfl, ?_⟩
      refine ⟨hset.vals, by dsimp only; rw [h.bufs], ?_, hset.linked, hset.unlinked, hset.inj, hset.lt⟩
      dsimp only
      rw [← h.bufs, hookCalls_eq (hk := hk) (by exact hhook), h.log]

theorem LInv.step {toTcl : V → Option Bytes} {parse : Bytes → Option V} {sp : Links Bytes V H} {s : LinkSt V H} (h : LInv sp s) (op : LinkOp Bytes V H)
    (ha : LinkAllowed toTcl parse sp op) :
    ∃ s', runLink toTcl parse s op = some (s', (sp.step toTcl parse op).2) ∧ LInv (sp.step toTcl parse op).1 s' := by
  cases op with
  | link n t hook =>
    obtain ⟨s', hs', hi⟩ := h.link (toTcl := toTcl) (parse := parse) n t hook ha
    exact ⟨s', by simp only [runLink, hs']; rfl, hi⟩
  | unlink n => exact ⟨_, rfl, h.unlink n⟩
  | read n => exact h.read n ha
  | write n x => exact h.write n x ha
  | set a v => exact ⟨_, rfl, by dsimp only [Links.step]; rw [h.vals], h.bufs, h.log, h.linked, h.unlinked, h.inj, h.lt⟩
  | fill b x => exact ⟨_, rfl, h.vals, by dsimp only [Links.step]; rw [h.bufs], h.log, h.linked, h.unlinked, h.inj, h.lt⟩

theorem LInv.steps {toTcl : V → Option Bytes} {parse : Bytes → Option V} : ∀ (ops : List (LinkOp Bytes V H)) {sp : Links Bytes V H} {s : LinkSt V H}, LInv sp s →
    AllLinkAllowed toTcl parse sp ops → ∃ s', runLinks toTcl parse s ops = some (s', (sp.steps toTcl parse ops).2) ∧ LInv (sp.steps toTcl parse ops).1 s'
  | [], sp, s, h, _ => ⟨s, rfl, h⟩
  | op :: ops, sp, s, h, ⟨ha, has⟩ => by
    obtain ⟨s', hs', hi⟩ := h.step op ha
    obtain ⟨s'', hs'', hi'⟩ := LInv.steps ops hi has
    refine ⟨s'', ?_, hi'⟩
    rw [runLinks, hs']
    dsimp only
    rw [hs'']
    rfl

/-- In every covered history of linking, unlinking, reading, writing and changes by the program: nothing
undefined happens, scripts get what the specification says, the C variables and buffers have the contents it
says, and the hooks are called as it says. -/
theorem c63_history_partial (toTcl : V → Option Bytes) (parse : Bytes → Option V) (vals : Nat → V) (bufs : Nat → Bytes) (ops : List (LinkOp Bytes V H))
    (h : AllLinkAllowed toTcl parse (.init vals bufs) ops) :
    ∃ s, runLinks toTcl parse (.init vals bufs) ops = some (s, ((Links.init vals bufs).steps toTcl parse ops).2) ∧
      s.vals = ((Links.init vals bufs).steps toTcl parse ops).1.vals ∧ s.bufs = ((Links.init vals bufs).steps toTcl parse ops).1.bufs ∧
      s.log = ((Links.init vals bufs).steps toTcl parse ops).1.log := by
  obtain ⟨s, hs, hi⟩ := LInv.steps ops (LInv.init vals bufs) h
  exact ⟨s, hs, hi.vals, hi.bufs, hi.log⟩

/-- One operation more. -/
theorem runLinks_snoc (toTcl : V → Option Bytes) (parse : Bytes → Option V) (op : LinkOp Bytes V H) : ∀ (ops : List (LinkOp Bytes V H)) {s s' : LinkSt V H} {os : List Got},
    runLinks toTcl parse s ops = some (s', os) → runLink toTcl parse s' op = none → runLinks toTcl parse s (ops ++ [op]) = none
  | [], s, s', os, h, h1 => by
    simp only [runLinks, Option.some.injEq, Prod.mk.injEq] at h
    obtain ⟨rfl, -⟩ := h
    simp only [List.nil_append, runLinks, h1]
  | o :: ops, s, s', os, h, h1 => by
    rw [runLinks] at h
    rw [List.cons_append, runLinks]
    cases hr : runLink toTcl parse s o with
    | none => rfl
    | some x =>
      obtain ⟨s1, g⟩ := x
      rw [hr] at h
      dsimp only at h ⊢
      cases hs : runLinks toTcl parse s1 ops with
      | none => rw [hs] at h; cases h
      | some y =>
        obtain ⟨s2, gs⟩ := y
        rw [hs] at h
        simp only [Option.some.injEq, Prod.mk.injEq] at h
        obtain ⟨rfl, -⟩ := h
        rw [runLinks_snoc toTcl parse op ops hs h1]

/-- Refutation in every state: after any covered history, reading a name linked to a buffer the program has left without a NUL
reads past its end. -/
theorem c63_refuted_unterminated (toTcl : V → Option Bytes) (parse : Bytes → Option V) (vals : Nat → V) (bufs : Nat → Bytes) (ops : List (LinkOp Bytes V H))
    (h : AllLinkAllowed toTcl parse (.init vals bufs) ops) {n : Bytes} {t : Target} {hk : Option H} {b : Nat}
    (hl : ((Links.init vals bufs).steps toTcl parse ops).1.link n = some (t, hk)) (ht : t = .text b ∨ ∃ size, t = .buf b size)
    (hb : 0 ∉ ((Links.init vals bufs).steps toTcl parse ops).1.bufs b) :
    runLinks toTcl parse (.init vals bufs) (ops ++ [.read n]) = none := by
  obtain ⟨s, hs, hi⟩ := LInv.steps ops (LInv.init vals bufs) h
  refine runLinks_snoc toTcl parse _ ops hs ?_
  obtain ⟨-, -, x, k, hv, hkind⟩ := hi.linked n t hk hl
  rw [← hi.bufs] at hb
  dsimp only [runLink, readVar]
  rw [hv]
  dsimp only [readTraces]
  rw [if_neg Bool.false_ne_true, if_pos rfl]
  rcases ht with rfl | ⟨size, rfl⟩
  · obtain ⟨rfl, -⟩ := hkind
    dsimp only [readTrace, bufText]
    rw [if_neg hb]
  · obtain ⟨d, rfl, -, hd⟩ := hkind
    dsimp only [readTrace, bufText]
    rw [hd]
    dsimp only
    rw [if_neg hb]

/-- Refutation in every state: after any covered history, setting a name linked to the first `size` bytes of a buffer to a text of
fewer than `size - 1` characters reads past the end of the text (and to any text, if `size` is 0 or the buffer is smaller, writes
outside the buffer). -/
theorem c63_refuted_short_text (toTcl : V → Option Bytes) (parse : Bytes → Option V) (vals : Nat → V) (bufs : Nat → Bytes) (ops : List (LinkOp Bytes V H))
    (h : AllLinkAllowed toTcl parse (.init vals bufs) ops) {n x : Bytes} {hk : Option H} {b size : Nat}
    (hl : ((Links.init vals bufs).steps toTcl parse ops).1.link n = some (.buf b size, hk))
    (hx : x.length + 1 < size ∨ size = 0 ∨ (((Links.init vals bufs).steps toTcl parse ops).1.bufs b).length < size) :
    runLinks toTcl parse (.init vals bufs) (ops ++ [.write n x]) = none := by
  obtain ⟨s, hs, hi⟩ := LInv.steps ops (LInv.init vals bufs) h
  refine runLinks_snoc toTcl parse _ ops hs ?_
  obtain ⟨-, -, y, k, hv, d, rfl, -, hd⟩ := hi.linked n _ hk hl
  rw [← hi.bufs] at hx
  dsimp only [runLink, writeVar, tracesOf]
  rw [hv]
  dsimp only [writeTraces]
  rw [if_neg Bool.false_ne_true]
  dsimp only [writeTrace]
  rw [hd]
  dsimp only [storeBuf]
  rw [if_pos (by omega)]

/-- Variables that are Strings. -/
def strTo (v : Bytes) : Option Bytes := some v

/-- A String, a read-only one and a buffer of 4 bytes. -/
def sample : List (LinkOp Bytes Bytes Nat) :=
  [.link [120] (.var 0) (some 7), .write [120] [65], .read [120], .set 0 [66], .read [120], .link [121] (.const 0) none, .write [121] [67],
   .read [121], .link [122] (.buf 0 4) (some 8), .write [122] [97, 98, 99, 100, 101], .read [122], .unlink [120], .write [120] [68], .read [120]]

example : AllLinkAllowed strTo some (.init (fun _ => []) (fun _ => [0, 0, 0, 0, 9])) sample := by
  simp [sample, AllLinkAllowed, LinkAllowed, Links.step, Links.init, put, strTo, stored]

example : (runLinks strTo some (.init (fun _ => []) (fun _ => [0, 0, 0, 0, 9])) sample).map (fun r => (r.2, r.1.vals 0, r.1.bufs 0, r.1.log)) =
    some ([.nothing, .done, .value [65], .nothing, .value [66], .nothing, .refused, .value [66], .nothing, .done, .value [97, 98, 99],
      .nothing, .done, .value [68]], [66], [97, 98, 99, 0, 9],
      [(7, .val [], .val [65]), (8, .bytes [0, 0, 0, 0], .bytes [97, 98, 99, 0, 9])]) := by rfl

/-- Refutation: setting a variable linked to a buffer of 4 bytes to a single character reads past the end of
the text. -/
theorem c63_refuted_short : runLinks (H := Nat) strTo some (.init (fun _ => []) (fun _ => [0, 0, 0, 0])) [.link [120] (.buf 0 4) none, .write [120] [97]] |>.isNone := by decide

/-- The two of above: a buffer of 4 bytes filled by the program with "abcd", and one set to "a". -/
example := c63_refuted_unterminated (H := Nat) strTo some (fun _ => []) (fun _ => [0, 0, 0, 0]) [.link [120] (.buf 0 4) none, .fill 0 [97, 98, 99, 100]]
  (by simp [AllLinkAllowed, LinkAllowed, Links.init]) (n := [120]) (b := 0) rfl (.inr ⟨4, rfl⟩) (by decide)
example := c63_refuted_short_text (H := Nat) strTo some (fun _ => []) (fun _ => [0, 0, 0, 0]) [.link [120] (.buf 0 4) none]
  (by simp [AllLinkAllowed, LinkAllowed, Links.init]) (n := [120]) (x := [97]) (b := 0) rfl (.inl (by decide))

/-- Refutation: a String with a NUL is read only up to it. -/
theorem c63_refuted_nul : (runLinks (H := Nat) strTo some (.init (fun _ => [97, 0, 98]) (fun _ => [])) [.link [120] (.var 0) none, .read [120]]).map (·.2) =
    some [.nothing, .value [97]] := by decide

/-- Refutation: linking `x` to variable 0 and then to 1 clears variable 0, calling its hook; and reading `x`
still gives variable 0; setting it changes both. -/
theorem c63_refuted_relink_var : (runLinks (H := Nat) strTo some (.init (fun a => if a = 0 then [97] else [98]) (fun _ => []))
      [.link [120] (.var 0) (some 7), .link [120] (.var 1) none, .read [120], .write [120] [99]]).map (fun r => (r.2, r.1.vals 0, r.1.vals 1, r.1.log)) =
    some ([.nothing, .nothing, .value [], .done], [99], [99],
      [(7, .val [97], .val []), (7, .val [98], .val [99]), (7, .val [], .val [99])]) := by rfl

/-- Refutation: after linking a name to a second buffer, reading it uses freed memory. -/
theorem c63_refuted_relink_buf : runLinks (H := Nat) strTo some (.init (fun _ => []) (fun _ => [0]))
      [.link [120] (.buf 0 1) none, .link [120] (.buf 1 1) none, .read [120]] |>.isNone := by decide

end Bdlib.Tcl
