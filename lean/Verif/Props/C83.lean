import Verif.Props.C63
import Verif.Tcl.Interps

/-!
# C83: linked variables of several interpreters are independent

Proved for histories in which a name that has a hook is used for links by one interpreter only, its variable is
not unset by scripts and is set under the name the program gave, and an interpreter is destroyed when no other
has a hook; with C63's conditions on values.  The others fail: `c83_refuted_*`.
-/

namespace Bdlib.Tcl
open Bdlib Bdlib.Str Bdlib.Spec

variable {V H : Type}

/-- The interpreters that exist after an operation. -/
def liveAfter (live : Nat → Bool) : WorldOp V H → Nat → Bool
  | .create i => put live i true
  | .destroy i => put live i false
  | _ => live

/-- The operations covered. -/
def WorldAllowed (tclName name1 : Bytes → Bytes) (toTcl : V → Option Bytes) (parse : Bytes → Option V) (live : Nat → Bool) (s : Links (Nat × Bytes) V H) :
    WorldOp V H → Prop
  | .on (.link (i, n) t h) => live i = true ∧ tclName n = n ∧ LinkAllowed toTcl parse s (.link (i, n) t h) ∧
      ∀ j t' h', j ≠ i → s.link (j, n) = some (t', h') → h' = none ∧ h = none
  | .on (.unlink (i, n)) => live i = true ∧ tclName n = n ∧ ∀ j t' h', j ≠ i → s.link (j, n) = some (t', h') → h' = none
  | .on (.read (i, n)) => live i = true ∧ LinkAllowed toTcl parse s (.read (i, tclName n))
  | .on (.write (i, n) x) => live i = true ∧ LinkAllowed toTcl parse s (.write (i, tclName n) x) ∧
      (∀ t h, s.link (i, tclName n) = some (t, h) → name1 n = n ∧ (h ≠ none → tclName n = n))
  | .on (.set _ _) | .on (.fill _ _) => True
  | .unset i n => live i = true ∧ ∀ t h, s.link (i, tclName n) = some (t, h) → h = none
  | .create i => live i = false
  | .destroy i => live i = true ∧ ∀ j n t h, j ≠ i → s.link (j, n) = some (t, h) → h = none

def AllWorldAllowed (tclName name1 : Bytes → Bytes) (toTcl : V → Option Bytes) (parse : Bytes → Option V) (live : Nat → Bool) (s : Links (Nat × Bytes) V H) :
    List (WorldOp V H) → Prop
  | [] => True
  | op :: ops => WorldAllowed tclName name1 toTcl parse live s op ∧
      AllWorldAllowed tclName name1 toTcl parse (liveAfter live op) (s.worldStep toTcl parse (op.meant tclName)).1 ops

/-- The traces of a name are those of its target. -/
def KindAt (tclName : Bytes → Bytes) (p : TclInterp) (n : Bytes) (k : Kind) : Target → Prop
  | .var a => k = .var a
  | .const a => k = .const a
  | .text b => k = .text b
  | .buf b size => ∃ d m, k = .buf d ∧ tclName m = n ∧ p.ptrs m = some d ∧ p.data[d]? = some (some (b, size))

/-- One interpreter and the links and plain variables it should have. -/
structure PInv (tclName : Bytes → Bytes) (link : Bytes → Option (Target × Option H)) (plain : Bytes → Option Bytes) (p : TclInterp) : Prop where
  linked : ∀ n t h, link n = some (t, h) → plain n = none ∧ ∃ x k, p.vars n = some ⟨x, [⟨false, k⟩, ⟨true, k⟩]⟩ ∧ KindAt tclName p n k t
  unlinked : ∀ n, link n = none → p.vars n = (plain n).map (⟨·, []⟩)
  inj : ∀ n m d, p.ptrs n = some d → p.ptrs m = some d → n = m
  lt : ∀ n d, p.ptrs n = some d → d < p.data.length

/-- The interpreter with number `i`. -/
def AtInv (tclName : Bytes → Bytes) (live : Nat → Bool) (sp : Links (Nat × Bytes) V H) (i : Nat) : Option TclInterp → Prop
  | none => live i = false ∧ ∀ n, sp.link (i, n) = none ∧ sp.plain (i, n) = none
  | some p => live i = true ∧ PInv tclName (fun n => sp.link (i, n)) (fun n => sp.plain (i, n)) p

structure WInv (tclName : Bytes → Bytes) (live : Nat → Bool) (sp : Links (Nat × Bytes) V H) (w : Interps V H) : Prop where
  vals : w.vals = sp.vals
  bufs : w.bufs = sp.bufs
  log : w.log = sp.log
  hook : ∀ i n t h, sp.link (i, n) = some (t, h) → w.hooks n = h
  nohook : ∀ n, (∀ i, sp.link (i, n) = none) → w.hooks n = none
  canon : ∀ i n, sp.link (i, n) ≠ none → tclName n = n
  each : ∀ i, AtInv tclName live sp i (w.interp i)

theorem WInv.init (tclName : Bytes → Bytes) (vals : Nat → V) (bufs : Nat → Bytes) : WInv (H := H) tclName (fun _ => false) (.init vals bufs) (.init vals bufs) where
  vals := rfl
  bufs := rfl
  log := rfl
  hook := nofun
  nohook := fun _ _ => rfl
  canon := fun _ _ h => absurd rfl h
  each := fun _ => ⟨rfl, fun _ => ⟨rfl, rfl⟩⟩

section one
variable {tclName : Bytes → Bytes} {live : Nat → Bool} {sp : Links (Nat × Bytes) V H} {w : Interps V H}

/-- A live interpreter. -/
theorem WInv.alive (h : WInv tclName live sp w) {i : Nat} (hl : live i = true) :
    ∃ p, w.interp i = some p ∧ PInv tclName (fun n => sp.link (i, n)) (fun n => sp.plain (i, n)) p := by
  have := h.each i
  cases hp : w.interp i with
  | none => rw [hp] at this; rw [this.1] at hl; cases hl
  | some p => rw [hp] at this; exact ⟨p, rfl, this.2⟩

/-- If no link of a name has a hook, there is none. -/
theorem WInv.none_of (h : WInv tclName live sp w) {n : Bytes} (hn : ∀ j t' h', sp.link (j, n) = some (t', h') → h' = none) : w.hooks n = none := by
  by_cases hx : ∀ i, sp.link (i, n) = none
  · exact h.nohook n hx
  · obtain ⟨i, hi⟩ := Classical.not_forall.mp hx
    cases hl : sp.link (i, n) with
    | none => exact absurd hl hi
    | some lt =>
      obtain ⟨t, hk⟩ := lt
      rw [h.hook i n t hk hl]
      exact hn i t hk hl

/-- After something was done in interpreter `i`. -/
theorem WInv.back (h : WInv tclName live sp w) {i : Nat} (hi : live i = true) {sp' : Links (Nat × Bytes) V H} {s : LinkSt V H}
    (e1 : s.vals = sp'.vals) (e2 : s.bufs = sp'.bufs) (e3 : s.log = sp'.log)
    (e4 : ∀ j n, j ≠ i → sp'.link (j, n) = sp.link (j, n) ∧ sp'.plain (j, n) = sp.plain (j, n))
    (e5 : ∀ j n t h, sp'.link (j, n) = some (t, h) → s.hooks n = h) (e6 : ∀ n, (∀ j, sp'.link (j, n) = none) → s.hooks n = none)
    (e7 : ∀ n, sp'.link (i, n) ≠ none → tclName n = n)
    (hp : PInv tclName (fun n => sp'.link (i, n)) (fun n => sp'.plain (i, n)) ⟨s.vars, s.ptrs, s.data⟩) : WInv tclName live sp' (w.back i s) := by
  refine ⟨e1, e2, e3, e5, e6, ?_, ?_⟩
  · intro j n hj
    by_cases e : j = i
    · exact e7 n (e ▸ hj)
    · rw [(e4 j n e).1] at hj
      exact h.canon j n hj
  · intro j
    dsimp only [Interps.back]
    by_cases e : j = i
    · subst e
      rw [put_same]
      exact ⟨hi, hp⟩
    · rw [put_ne _ _ e]
      have hj := h.each j
      cases hq : w.interp j with
      | none =>
        rw [hq] at hj
        refine ⟨hj.1, fun n => ?_⟩
        rw [(e4 j n e).1, (e4 j n e).2]
        exact hj.2 n
      | some q =>
        rw [hq] at hj
        refine ⟨hj.1, ?_⟩
        have f1 : (fun n => sp'.link (j, n)) = fun n => sp.link (j, n) := funext fun n => (e4 j n e).1
        have f2 : (fun n => sp'.plain (j, n)) = fun n => sp.plain (j, n) := funext fun n => (e4 j n e).2
        rw [f1, f2]
        exact hj.2

theorem put_pair {B : Type} (f : Nat × Bytes → B) (i : Nat) (n : Bytes) (b : B) : (fun m => put f (i, n) b (i, m)) = put (fun m => f (i, m)) n b := by
  funext m
  unfold put
  by_cases e : m = n
  · rw [if_pos e, if_pos (by rw [e])]
  · rw [if_neg e, if_neg (by intro h; cases h; exact e rfl)]

theorem put_pair_ne {B : Type} (f : Nat × Bytes → B) {i j : Nat} (n m : Bytes) (b : B) (h : j ≠ i) : put f (i, n) b (j, m) = f (j, m) :=
  if_neg (by intro e; cases e; exact h rfl)

end one

section interp
variable {tclName : Bytes → Bytes} {link : Bytes → Option (Target × Option H)} {plain : Bytes → Option Bytes} {p : TclInterp}

theorem PInv.traces (h : PInv tclName link plain p) (w : Interps V H) {n : Bytes} (hn : link n = none) : tracesOf (w.view p) n = [] := by
  unfold tracesOf Interps.view
  dsimp only
  rw [h.unlinked n hn]
  cases plain n <;> rfl

/-- Another value of a linked variable. -/
theorem PInv.setValue (h : PInv tclName link plain p) {n : Bytes} {v : TclVar} (hv : p.vars n = some v) (hl : link n ≠ none) (x : Bytes) :
    PInv tclName link plain { p with vars := put p.vars n (some { v with value := x }) } := by
  refine ⟨?_, ?_, h.inj, h.lt⟩
  · intro m t' h' hm
    obtain ⟨a2, y, k', a3, a4⟩ := h.linked m t' h' hm
    by_cases e : m = n
    · subst e
      rw [hv] at a3
      cases a3
      refine ⟨a2, x, k', put_same _ _ _, ?_⟩
      cases t' <;> exact a4
    · refine ⟨a2, y, k', (put_ne _ _ e).trans a3, ?_⟩
      cases t' <;> exact a4
  · intro m hm
    have e : m ≠ n := fun e => hl (e ▸ hm)
    dsimp only
    rw [put_ne _ _ e]
    exact h.unlinked m hm

/-- Setting a plain variable. -/
theorem PInv.setPlain (h : PInv tclName link plain p) {n : Bytes} (hl : link n = none) (x : Bytes) :
    PInv tclName link (put plain n (some x)) { p with vars := put p.vars n (some ⟨x, []⟩) } := by
  refine ⟨?_, ?_, h.inj, h.lt⟩
  · intro m t' h' hm
    have e : m ≠ n := fun e => by rw [e, hl] at hm; cases hm
    obtain ⟨a2, y, k', a3, a4⟩ := h.linked m t' h' hm
    refine ⟨(put_ne _ _ e).trans a2, y, k', (put_ne _ _ e).trans a3, ?_⟩
    cases t' <;> exact a4
  · intro m hm
    dsimp only
    by_cases e : m = n
    · subst e
      rw [put_same, put_same]
      rfl
    · rw [put_ne _ _ e, put_ne _ _ e]
      exact h.unlinked m hm

/-- A variable is gone. -/
theorem PInv.unset (h : PInv tclName link plain p) (n : Bytes) :
    PInv tclName (put link n none) (put plain n none) { p with vars := put p.vars n none } := by
  refine ⟨?_, ?_, h.inj, h.lt⟩
  · intro m t' h' hm
    by_cases e : m = n
    · subst e; rw [put_same] at hm; cases hm
    · rw [put_ne _ _ e] at hm
      obtain ⟨a2, y, k', a3, a4⟩ := h.linked m t' h' hm
      refine ⟨(put_ne _ _ e).trans a2, y, k', (put_ne _ _ e).trans a3, ?_⟩
      cases t' <;> exact a4
  · intro m hm
    dsimp only
    by_cases e : m = n
    · subst e; rw [put_same, put_same]; rfl
    · rw [put_ne _ _ e] at hm
      rw [put_ne _ _ e, put_ne _ _ e]
      exact h.unlinked m hm

theorem PInv.unlink (h : PInv tclName link plain p) (w : Interps V H) (n : Bytes) :
    PInv tclName (put link (tclName n) none) (put plain (tclName n) none)
      ⟨(unlinkVarAs tclName (w.view p) n).vars, (unlinkVarAs tclName (w.view p) n).ptrs, (unlinkVarAs tclName (w.view p) n).data⟩ := by
  have hdat : ∀ m d, m ≠ n → p.ptrs m = some d → (freeData (w.view p) n)[d]? = p.data[d]? := by
    intro m d e hm
    dsimp only [freeData, Interps.view]
    cases hn : p.ptrs n with
    | none => rfl
    | some d' =>
      dsimp only
      have : d' ≠ d := fun hh => e (h.inj m n d hm (hh ▸ hn))
      rw [List.getElem?_set_ne this]
  have hlen : (freeData (w.view p) n).length = p.data.length := by
    dsimp only [freeData, Interps.view]
    cases p.ptrs n with
    | none => rfl
    | some d' => simp
  have hu := h.unset (tclName n)
  refine ⟨?_, hu.unlinked, ?_, ?_⟩
  · intro m t' h' hm
    obtain ⟨a2, y, k', a3, a4⟩ := hu.linked m t' h' hm
    refine ⟨a2, y, k', a3, ?_⟩
    have e : m ≠ tclName n := by intro e; subst e; rw [put_same] at hm; cases hm
    cases t' with
    | buf b size =>
      obtain ⟨d, m', b1, b0, b2, b3⟩ := a4
      have e' : m' ≠ n := by rintro rfl; exact e b0.symm
      exact ⟨d, m', b1, b0, (put_ne _ _ e').trans b2, (hdat m' d e' b2).trans b3⟩
    | _ => exact a4
  · intro m m' d hm hm'
    dsimp only [unlinkVarAs, Interps.view] at hm hm'
    by_cases e : m = n
    · rw [e, put_same] at hm; cases hm
    · by_cases e' : m' = n
      · rw [e', put_same] at hm'; cases hm'
      · rw [put_ne _ _ e] at hm
        rw [put_ne _ _ e'] at hm'
        exact h.inj m m' d hm hm'
  · intro m d hm
    dsimp only [unlinkVarAs] at hm ⊢
    rw [hlen]
    dsimp only [Interps.view] at hm
    by_cases e : m = n
    · rw [e, put_same] at hm; cases hm
    · rw [put_ne _ _ e] at hm
      exact h.lt m d hm

/-- The hooks after a link: without a hook, what was there stays. -/
def given (hooks : Bytes → Option H) (n : Bytes) : Option H → Bytes → Option H
  | none => hooks
  | some h => put hooks n (some h)

theorem given_put {hooks : Bytes → Option H} {n : Bytes} (h : hooks n = none) (hook : Option H) : given hooks n hook = put hooks n hook := by
  cases hook with
  | some _ => rfl
  | none =>
    funext m
    show hooks m = put hooks n none m
    unfold put
    split
    · rename_i e; rw [e, h]
    · rfl

theorem setupTraces_any (name1 : Bytes → Bytes) (parse : Bytes → Option V) (s : LinkSt V H) (n : Bytes) (k : Kind) (hook : Option H) (h : tracesOf s (tclName n) = []) :
    setupTracesAs tclName name1 parse s n k hook =
      some { s with vars := put s.vars (tclName n) (some ⟨[], [⟨false, k⟩, ⟨true, k⟩]⟩), hooks := given s.hooks n hook } := by
  have e0 : writeVarAs tclName name1 parse s n [] = some ({ s with vars := put s.vars (tclName n) (some ⟨[], []⟩) }, .done) := by
    unfold writeVarAs
    dsimp only
    rw [h]
    rfl
  unfold setupTracesAs
  rw [e0]
  have e1 : put (put s.vars (tclName n) (some ⟨[], []⟩)) (tclName n) (some ⟨[], [⟨false, k⟩, ⟨true, k⟩]⟩) =
      put s.vars (tclName n) (some ⟨[], [⟨false, k⟩, ⟨true, k⟩]⟩) := by
    funext m
    unfold put
    split <;> rfl
  have e2 : tracesOf { s with vars := put s.vars (tclName n) (some ⟨[], []⟩) } (tclName n) = [] := by
    unfold tracesOf
    dsimp only
    rw [put_same]
  dsimp only
  rw [e2, e1]
  cases hook <;> rfl

theorem PInv.linkTo (h : PInv tclName link plain p) (name1 : Bytes → Bytes) (parse : Bytes → Option V) (w : Interps V H) (n : Bytes) (t : Target) (hook : Option H)
    (hn : link (tclName n) = none) :
    ∃ s', linkVarAs tclName name1 parse (w.view p) n t hook = some s' ∧ s'.vals = w.vals ∧ s'.bufs = w.bufs ∧ s'.log = w.log ∧ s'.hooks = given w.hooks n hook ∧
      PInv tclName (put link (tclName n) (some (t, hook))) (put plain (tclName n) none) ⟨s'.vars, s'.ptrs, s'.data⟩ := by
  have ht := h.traces w hn
  have fin : ∀ (k : Kind) (q : TclInterp),
      q.vars = put p.vars (tclName n) (some ⟨[], [⟨false, k⟩, ⟨true, k⟩]⟩) → KindAt tclName q (tclName n) k t →
      (∀ m, m ≠ n → q.ptrs m = p.ptrs m) → (∀ m d, m ≠ n → p.ptrs m = some d → q.data[d]? = p.data[d]?) →
      (∀ d, q.ptrs n = some d → p.ptrs n = some d ∨ d = p.data.length) →
      p.data.length ≤ q.data.length → (∀ d, q.ptrs n = some d → d < q.data.length) →
      PInv tclName (put link (tclName n) (some (t, hook))) (put plain (tclName n) none) q := by
    intro k q e4 hk hptr hdat hnew hlen hnlt
    refine ⟨?_, ?_, ?_, ?_⟩
    · intro m t' h' hm
      rw [e4]
      by_cases e : m = tclName n
      · subst e
        rw [put_same] at hm
        cases hm
        rw [put_same, put_same]
        exact ⟨rfl, _, _, rfl, hk⟩
      · rw [put_ne _ _ e] at hm
        rw [put_ne _ _ e, put_ne _ _ e]
        obtain ⟨a2, x, k', a3, a4⟩ := h.linked m t' h' hm
        refine ⟨a2, x, k', a3, ?_⟩
        cases t' with
        | buf b size =>
          obtain ⟨d, m', b1, b0, b2, b3⟩ := a4
          have e' : m' ≠ n := by rintro rfl; exact e b0.symm
          exact ⟨d, m', b1, b0, (hptr m' e').trans b2, (hdat m' d e' b2).trans b3⟩
        | _ => exact a4
    · intro m hm
      rw [e4]
      by_cases e : m = tclName n
      · subst e
        rw [put_same] at hm
        cases hm
      · rw [put_ne _ _ e] at hm
        rw [put_ne _ _ e, put_ne _ _ e]
        exact h.unlinked m hm
    · intro m m' d hm hm'
      by_cases e : m = n
      · by_cases e' : m' = n
        · rw [e, e']
        · rw [e] at hm
          rw [hptr m' e'] at hm'
          have := h.lt m' d hm'
          rcases hnew d hm with h1 | h1
          · exact e.trans (h.inj _ _ d h1 hm')
          · omega
      · rw [hptr m e] at hm
        have := h.lt m d hm
        by_cases e' : m' = n
        · rw [e'] at hm'
          rcases hnew d hm' with h1 | h1
          · exact (h.inj _ _ d hm h1).trans e'.symm
          · omega
        · rw [hptr m' e'] at hm'
          exact h.inj m m' d hm hm'
    · intro m d hm
      by_cases e : m = n
      · exact hnlt d (e ▸ hm)
      · rw [hptr m e] at hm
        have := h.lt m d hm
        omega
  have plainKind : ∀ k : Kind, KindAt tclName ⟨put p.vars (tclName n) (some ⟨[], [⟨false, k⟩, ⟨true, k⟩]⟩), p.ptrs, p.data⟩ (tclName n) k t →
      ∃ s', setupTracesAs tclName name1 parse (w.view p) n k hook = some s' ∧ s'.vals = w.vals ∧ s'.bufs = w.bufs ∧ s'.log = w.log ∧ s'.hooks = given w.hooks n hook ∧
      PInv tclName (put link (tclName n) (some (t, hook))) (put plain (tclName n) none) ⟨s'.vars, s'.ptrs, s'.data⟩ := fun k hk =>
    ⟨_, setupTraces_any name1 parse _ n k hook ht, rfl, rfl, rfl, rfl,
      fin k _ rfl hk (fun _ _ => rfl) (fun _ _ _ _ => rfl) (fun d hd => Or.inl hd) (Nat.le_refl _) (fun d hd => h.lt n d hd)⟩
  cases t with
  | var a => exact plainKind (.var a) rfl
  | const a => exact plainKind (.const a) rfl
  | text b => exact plainKind (.text b) rfl
  | buf b size =>
    unfold linkVarAs
    dsimp only
    rw [setupTraces_any name1 parse { w.view p with data := (w.view p).data ++ [some (b, size)] } n _ hook ht]
    refine ⟨_, rfl, rfl, rfl, rfl, rfl, fin (.buf p.data.length) _ rfl ⟨p.data.length, n, rfl, rfl, put_same _ _ _, ?_⟩ (fun m e => put_ne _ _ e) ?_ ?_ ?_ ?_⟩
    · dsimp only [freeData, Interps.view]
      cases hpn : p.ptrs n with
      | none => simp
      | some d =>
        have := h.lt n d hpn
        dsimp only
        rw [List.getElem?_set_ne (by omega)]
        simp
    · intro m d e hm
      have hlt := h.lt m d hm
      dsimp only [freeData, Interps.view]
      cases hpn : p.ptrs n with
      | none => exact List.getElem?_append_left hlt
      | some d' =>
        have : d' ≠ d := fun hh => e (h.inj m n d hm (hh ▸ hpn))
        dsimp only
        rw [List.getElem?_set_ne this]
        exact List.getElem?_append_left hlt
    · intro d hd
      dsimp only at hd
      rw [put_same] at hd
      cases hd
      exact Or.inr rfl
    · dsimp only [freeData, Interps.view]
      cases p.ptrs n <;> simp
    · intro d hd
      dsimp only at hd
      rw [put_same] at hd
      cases hd
      dsimp only [freeData, Interps.view]
      cases p.ptrs n <;> simp
end interp

section steps
variable {tclName name1 : Bytes → Bytes} {live : Nat → Bool} {sp : Links (Nat × Bytes) V H} {w : Interps V H} {toTcl : V → Option Bytes} {parse : Bytes → Option V}

/-- The links are as they were. -/
theorem WInv.back_same (h : WInv tclName live sp w) {i : Nat} (hi : live i = true) {sp' : Links (Nat × Bytes) V H} {s : LinkSt V H}
    (e1 : s.vals = sp'.vals) (e2 : s.bufs = sp'.bufs) (e3 : s.log = sp'.log) (eh : s.hooks = w.hooks) (el : sp'.link = sp.link)
    (e4 : ∀ j n, j ≠ i → sp'.plain (j, n) = sp.plain (j, n))
    (hp : PInv tclName (fun n => sp.link (i, n)) (fun n => sp'.plain (i, n)) ⟨s.vars, s.ptrs, s.data⟩) : WInv tclName live sp' (w.back i s) := by
  refine h.back hi e1 e2 e3 (fun j n e => ⟨by rw [el], e4 j n e⟩) ?_ ?_ ?_ (by rw [el]; exact hp)
  · rw [el, eh]; exact h.hook
  · rw [el, eh]; exact h.nohook
  · rw [el]; exact h.canon i

theorem at_ok {i : Nat} {p : TclInterp} {f : LinkSt V H → Option (LinkSt V H × Got)} {s : LinkSt V H} {g : Got} (hp : w.interp i = some p)
    (hf : f (w.view p) = some (s, g)) : w.at i f = some (w.back i s, g) := by
  unfold Interps.at
  rw [hp]
  dsimp only
  rw [hf]

theorem WInv.read (h : WInv tclName live sp w) {i : Nat} (n : Bytes) (hi : live i = true) (ha : LinkAllowed toTcl parse sp (.read (i, n))) :
    ∃ w', (w.at i fun s => readVar toTcl s n) = some (w', (sp.step toTcl parse (.read (i, n))).2) ∧ WInv tclName live sp w' := by
  obtain ⟨p, hp, hpi⟩ := h.alive hi
  have same : ∀ (q : TclInterp) (g : Got), readVar toTcl (w.view p) n = some (w.view q, g) → PInv tclName (fun n => sp.link (i, n)) (fun n => sp.plain (i, n)) q →
      ∃ w', (w.at i fun s => readVar toTcl s n) = some (w', g) ∧ WInv tclName live sp w' := fun q g hr hq =>
    ⟨_, at_ok hp hr, h.back_same hi h.vals h.bufs h.log rfl rfl (fun _ _ _ => rfl) hq⟩
  unfold LinkAllowed at ha
  dsimp only [Links.step]
  cases hl : sp.link (i, n) with
  | none =>
    have hv := hpi.unlinked n hl
    cases hx : sp.plain (i, n) with
    | none =>
      rw [hx] at hv
      refine same p _ ?_ hpi
      unfold readVar Interps.view
      dsimp only
      rw [hv]
      rfl
    | some x =>
      rw [hx] at hv
      refine same ⟨put p.vars n (some ⟨x, []⟩), p.ptrs, p.data⟩ _ ?_ ?_
      · unfold readVar Interps.view
        dsimp only
        rw [hv]
        rfl
      · have := hpi.setPlain hl x
        have e : put (fun n => sp.plain (i, n)) n (some x) = fun n => sp.plain (i, n) := by
          funext m
          unfold put
          split
          · rename_i e; rw [e, hx]
          · rfl
        rw [e] at this
        exact this
  | some lt =>
    obtain ⟨t, hk⟩ := lt
    obtain ⟨-, x, k, hv, hkind⟩ := hpi.linked n t hk hl
    dsimp only at ha
    rw [hl] at ha
    have hne : sp.link (i, n) ≠ none := by rw [hl]; nofun
    have fin : ∀ y, readTrace toTcl (w.view p) x k = some y → ∃ w', (w.at i fun s => readVar toTcl s n) = some (w', .value y) ∧ WInv tclName live sp w' := by
      intro y hy
      refine same ⟨put p.vars n (some ⟨y, [⟨false, k⟩, ⟨true, k⟩]⟩), p.ptrs, p.data⟩ _ ?_ (hpi.setValue hv hne y)
      have hv' : (w.view p).vars n = some ⟨x, [⟨false, k⟩, ⟨true, k⟩]⟩ := hv
      unfold readVar
      rw [hv']
      dsimp only [readTraces]
      rw [if_neg Bool.false_ne_true, if_pos rfl, hy]
      rfl
    cases t with
    | var a =>
      cases hkind
      obtain ⟨y, hy, hz⟩ := ha
      dsimp only
      rw [hy]
      refine fin y ?_
      dsimp only [readTrace, Interps.view]
      rw [h.vals, hy]
      dsimp only
      rw [cstr_self hz]
    | const a =>
      cases hkind
      obtain ⟨y, hy, hz⟩ := ha
      dsimp only
      rw [hy]
      refine fin y ?_
      dsimp only [readTrace, Interps.view]
      rw [h.vals, hy]
      dsimp only
      rw [cstr_self hz]
    | text b =>
      cases hkind
      refine fin _ ?_
      dsimp only [readTrace, bufText, Interps.view]
      rw [h.bufs, if_pos ha]
      rfl
    | buf b size =>
      obtain ⟨d, m, rfl, -, -, hd⟩ := hkind
      refine fin _ ?_
      dsimp only [readTrace, bufText, Interps.view]
      rw [hd]
      dsimp only
      rw [h.bufs, if_pos ha]
      rfl

theorem WInv.write (h : WInv tclName live sp w) {i : Nat} (n x : Bytes) (hi : live i = true) (ha : LinkAllowed toTcl parse sp (.write (i, tclName n) x))
    (hs : ∀ t h, sp.link (i, tclName n) = some (t, h) → name1 n = n ∧ (h ≠ none → tclName n = n)) :
    ∃ w', (w.at i fun s => writeVarAs tclName name1 parse s n x) = some (w', (sp.step toTcl parse (.write (i, tclName n) x)).2) ∧
      WInv tclName live (sp.step toTcl parse (.write (i, tclName n) x)).1 w' := by
  obtain ⟨p, hp, hpi⟩ := h.alive hi
  unfold LinkAllowed at ha
  dsimp only [Links.step]
  cases hl : sp.link (i, tclName n) with
  | none =>
    dsimp only
    have ht := hpi.traces w hl
    refine ⟨_, at_ok hp (s := w.view { p with vars := put p.vars (tclName n) (some ⟨x, []⟩) }) ?_, ?_⟩
    · unfold writeVarAs
      dsimp only
      rw [ht]
      rfl
    · refine h.back_same hi h.vals h.bufs h.log rfl rfl (fun j m e => put_pair_ne _ _ _ _ e) ?_
      dsimp only
      rw [put_pair]
      exact hpi.setPlain hl x
  | some lt =>
    obtain ⟨t, hk⟩ := lt
    obtain ⟨-, y, k, hv, hkind⟩ := hpi.linked _ t hk hl
    have hn1 : name1 n = n := (hs t hk hl).1
    have hne : sp.link (i, tclName n) ≠ none := by rw [hl]; nofun
    have hhook : w.hooks n = hk := by
      by_cases e : tclName n = n
      · rw [e] at hl
        exact h.hook i n t hk hl
      · cases hk with
        | some f => exact absurd ((hs t _ hl).2 nofun) e
        | none =>
          refine h.nohook n fun j => ?_
          cases hj : sp.link (j, n) with
          | none => rfl
          | some _ => exact absurd (h.canon j n (by rw [hj]; nofun)) e
    have htr : tracesOf (w.view p) (tclName n) = [⟨false, k⟩, ⟨true, k⟩] := by
      unfold tracesOf Interps.view
      dsimp only
      rw [hv]
    have hset := hpi.setValue hv hne x
    dsimp only at hset
    have fin : ∀ (s' : LinkSt V H) (b : Bool) (sp' : Links (Nat × Bytes) V H),
        writeTrace parse (w.view { p with vars := put p.vars (tclName n) (some ⟨x, [⟨false, k⟩, ⟨true, k⟩]⟩) }) n x k = some (s', b) →
        s'.vals = sp'.vals → s'.bufs = sp'.bufs → s'.log = sp'.log → s'.hooks = w.hooks → s'.vars = put p.vars (tclName n) (some ⟨x, [⟨false, k⟩, ⟨true, k⟩]⟩) →
        s'.ptrs = p.ptrs → s'.data = p.data → sp'.link = sp.link → sp'.plain = sp.plain →
        ∃ w', (w.at i fun s => writeVarAs tclName name1 parse s n x) = some (w', if b then .refused else .done) ∧ WInv tclName live sp' w' := by
      intro s' b sp' hw e1 e2 e3 e4 e5 e6 e7 e8 e9
      refine ⟨_, at_ok hp (s := s') ?_, h.back_same hi e1 e2 e3 e4 e8 (fun j m _ => by rw [e9]) ?_⟩
      · unfold writeVarAs
        dsimp only
        rw [htr, hn1]
        dsimp only [writeTraces]
        rw [if_neg Bool.false_ne_true]
        simp only [if_true]
        rw [show ({ w.view p with vars := put (w.view p).vars (tclName n) (some ⟨x, [⟨false, k⟩, ⟨true, k⟩]⟩) } : LinkSt V H) =
          w.view { p with vars := put p.vars (tclName n) (some ⟨x, [⟨false, k⟩, ⟨true, k⟩]⟩) } from rfl, hw]
        cases b <;> rfl
      · rw [e5, e6, e7, e9]
        exact hset
    dsimp only at ha
    rw [hl] at ha
    cases t with
    | var a =>
      cases hkind
      cases hpx : parse x with
      | none => exact absurd hpx ha
      | some v =>
        dsimp only
        refine fin { w.view { p with vars := put p.vars (tclName n) (some ⟨x, [⟨false, .var a⟩, ⟨true, .var a⟩]⟩) } with
          vals := put w.vals a v, log := w.log ++ hookCalls (w.view p) n (.val (w.vals a)) (.val v) } false _ ?_ ?_ h.bufs ?_ rfl rfl rfl rfl rfl rfl
        · dsimp only [writeTrace]
          rw [hpx]
          rfl
        · dsimp only; rw [h.vals]
        · dsimp only
          rw [hookCalls_eq (hk := hk) (by exact hhook), h.log, h.vals]
    | const a =>
      cases hkind
      exact fin _ true _ rfl h.vals h.bufs h.log rfl rfl rfl rfl rfl rfl
    | text a =>
      cases hkind
      exact fin _ true _ rfl h.vals h.bufs h.log rfl rfl rfl rfl rfl rfl
    | buf b size =>
      obtain ⟨d, m, rfl, -, -, hd⟩ := hkind
      dsimp only at ha ⊢
      rw [← h.bufs] at ha ⊢
      refine fin { w.view { p with vars := put p.vars (tclName n) (some ⟨x, [⟨false, .buf d⟩, ⟨true, .buf d⟩]⟩) } with
          bufs := put w.bufs b (stored size (w.bufs b) x),
          log := w.log ++ hookCalls (w.view p) n (.bytes ((w.bufs b).take size)) (.bytes (stored size (w.bufs b) x)) } false _ ?_ h.vals rfl ?_ rfl rfl rfl rfl rfl rfl
      · dsimp only [writeTrace, Interps.view]
        rw [hd]
        dsimp only
        rw [storeBuf_eq ha.1 ha.2.1 ha.2.2]
        rfl
      · dsimp only
        rw [hookCalls_eq (hk := hk) (by exact hhook), h.log]

theorem WInv.step (h : WInv tclName live sp w) (op : WorldOp V H) (ha : WorldAllowed tclName name1 toTcl parse live sp op) :
    ∃ w', runWorld tclName name1 toTcl parse w op = some (w', (sp.worldStep toTcl parse (op.meant tclName)).2) ∧
      WInv tclName (liveAfter live op) (sp.worldStep toTcl parse (op.meant tclName)).1 w' := by
  cases op with
  | on op =>
    cases op with
    | link x t hook =>
      obtain ⟨i, n⟩ := x
      obtain ⟨hi, hc, hn, ho⟩ := ha
      rw [show (WorldOp.on (.link (i, n) t hook) : WorldOp V H).meant tclName = .on (.link (i, n) t hook) by simp only [WorldOp.meant, hc]]
      have hn : sp.link (i, n) = none := hn
      obtain ⟨p, hp, hpi⟩ := h.alive hi
      have hh : w.hooks n = none := h.none_of fun j t' h' hj => by
        by_cases e : j = i
        · rw [e, hn] at hj; cases hj
        · exact (ho j t' h' e hj).1
      obtain ⟨s', hs', e1, e2, e3, e4, hq⟩ := hpi.linkTo name1 parse w n t hook (by rw [hc]; exact hn)
      rw [hc] at hq
      rw [given_put hh] at e4
      refine ⟨w.back i s', at_ok (f := fun s => (linkVarAs tclName name1 parse s n t hook).map (·, .nothing)) (g := .nothing) hp (by simp only [hs']; rfl), ?_⟩
      refine h.back hi (e1.trans h.vals) (e2.trans h.bufs) (e3.trans h.log) (fun j m e => ⟨put_pair_ne _ _ _ _ e, put_pair_ne _ _ _ _ e⟩) ?_ ?_ ?_ ?_
      · intro j m t' h' hj
        rw [e4]
        dsimp only [Links.worldStep, WorldOp.meant, Links.step] at hj
        by_cases e : m = n
        · subst e
          rw [put_same]
          by_cases ej : j = i
          · subst ej
            rw [put_same] at hj
            cases hj
            rfl
          · rw [put_pair_ne _ _ _ _ ej] at hj
            obtain ⟨rfl, rfl⟩ := ho j t' h' ej hj
            rfl
        · rw [put_ne _ _ e]
          rw [put_ne _ _ (by intro hx; cases hx; exact e rfl)] at hj
          exact h.hook j m t' h' hj
      · intro m hm
        rw [e4]
        dsimp only [Links.worldStep, WorldOp.meant, Links.step] at hm
        by_cases e : m = n
        · subst e
          have := hm i
          rw [put_same] at this
          cases this
        · rw [put_ne _ _ e]
          refine h.nohook m fun j => ?_
          have := hm j
          rwa [put_ne _ _ (by intro hx; cases hx; exact e rfl)] at this
      · intro m hm
        dsimp only [Links.worldStep, WorldOp.meant, Links.step] at hm
        by_cases e : m = n
        · rw [e]; exact hc
        · rw [put_ne _ _ (by intro hx; cases hx; exact e rfl)] at hm
          exact h.canon i m hm
      · dsimp only [Links.worldStep, WorldOp.meant, Links.step]
        rw [put_pair, put_pair]
        exact hq
    | unlink x =>
      obtain ⟨i, n⟩ := x
      obtain ⟨hi, hc, ho⟩ := ha
      rw [show (WorldOp.on (.unlink (i, n)) : WorldOp V H).meant tclName = .on (.unlink (i, n)) by simp only [WorldOp.meant, hc]]
      obtain ⟨p, hp, hpi⟩ := h.alive hi
      refine ⟨w.back i (unlinkVarAs tclName (w.view p) n), at_ok (f := fun s => some (unlinkVarAs tclName s n, .nothing)) hp rfl, ?_⟩
      refine h.back hi h.vals h.bufs h.log (fun j m e => ⟨put_pair_ne _ _ _ _ e, put_pair_ne _ _ _ _ e⟩) ?_ ?_ ?_ ?_
      · intro j m t' h' hj
        dsimp only [Links.worldStep, WorldOp.meant, Links.step] at hj
        dsimp only [unlinkVarAs, Interps.view]
        by_cases e : m = n
        · subst e
          rw [put_same]
          by_cases ej : j = i
          · subst ej
            rw [put_same] at hj
            cases hj
          · rw [put_pair_ne _ _ _ _ ej] at hj
            exact (ho j t' h' ej hj).symm
        · rw [put_ne _ _ e]
          rw [put_ne _ _ (by intro hx; cases hx; exact e rfl)] at hj
          exact h.hook j m t' h' hj
      · intro m hm
        dsimp only [Links.worldStep, WorldOp.meant, Links.step] at hm
        dsimp only [unlinkVarAs, Interps.view]
        by_cases e : m = n
        · subst e; rw [put_same]
        · rw [put_ne _ _ e]
          refine h.nohook m fun j => ?_
          have := hm j
          rwa [put_ne _ _ (by intro hx; cases hx; exact e rfl)] at this
      · intro m hm
        dsimp only [Links.worldStep, WorldOp.meant, Links.step] at hm
        by_cases e : m = n
        · rw [e]; exact hc
        · rw [put_ne _ _ (by intro hx; cases hx; exact e rfl)] at hm
          exact h.canon i m hm
      · dsimp only [Links.worldStep, WorldOp.meant, Links.step]
        rw [put_pair, put_pair]
        have := hpi.unlink w n
        rw [hc] at this
        exact this
    | read x =>
      obtain ⟨i, n⟩ := x
      exact h.read (tclName n) ha.1 ha.2
    | write x y =>
      obtain ⟨i, n⟩ := x
      exact h.write n y ha.1 ha.2.1 ha.2.2
    | set a v =>
      exact ⟨_, rfl, by dsimp only [Links.worldStep, WorldOp.meant, Links.step]; rw [h.vals], h.bufs, h.log, h.hook, h.nohook, h.canon, h.each⟩
    | fill b x =>
      exact ⟨_, rfl, h.vals, by dsimp only [Links.worldStep, WorldOp.meant, Links.step]; rw [h.bufs], h.log, h.hook, h.nohook, h.canon, h.each⟩
  | unset i n =>
    obtain ⟨hi, ho⟩ := ha
    obtain ⟨p, hp, hpi⟩ := h.alive hi
    refine ⟨w.back i (unsetVar (w.view p) (tclName n)), at_ok (f := fun s => some (unsetVar s (tclName n), .nothing)) hp rfl, ?_⟩
    dsimp only [WorldOp.meant, Links.worldStep]
    generalize tclName n = n at ho ⊢
    refine h.back hi h.vals h.bufs h.log (fun j m e => ⟨put_pair_ne _ _ _ _ e, put_pair_ne _ _ _ _ e⟩) ?_ ?_ ?_ ?_
    · intro j m t' h' hj
      dsimp only at hj
      by_cases e : (j, m) = (i, n)
      · rw [e, put_same] at hj; cases hj
      · rw [put_ne _ _ e] at hj
        exact h.hook j m t' h' hj
    · intro m hm
      dsimp only at hm
      refine h.none_of fun j t' h' hj => ?_
      by_cases e : (j, m) = (i, n)
      · cases e
        exact ho t' h' hj
      · have := hm j
        rw [put_ne _ _ e, hj] at this
        cases this
    · intro m hm
      dsimp only at hm
      by_cases e : (i, m) = (i, n)
      · rw [e, put_same] at hm; exact absurd rfl hm
      · rw [put_ne _ _ e] at hm
        exact h.canon i m hm
    · dsimp only
      rw [put_pair, put_pair]
      exact hpi.unset n
  | create i =>
    have ha : live i = false := ha
    have hi := h.each i
    have hno : ∀ n, sp.link (i, n) = none ∧ sp.plain (i, n) = none := by
      cases hp : w.interp i with
      | none => rw [hp] at hi; exact hi.2
      | some p => rw [hp] at hi; have := hi.1; rw [ha] at this; cases this
    refine ⟨_, rfl, h.vals, h.bufs, h.log, h.hook, h.nohook, h.canon, fun j => ?_⟩
    dsimp only [liveAfter, WorldOp.meant, Links.worldStep]
    by_cases e : j = i
    · subst e
      rw [put_same]
      refine ⟨put_same _ _ _, fun n t hk hn => ?_, fun n _ => ?_, nofun, nofun⟩
      · rw [(hno n).1] at hn; cases hn
      · rw [(hno n).2]; rfl
    · have hj := h.each j
      rw [put_ne _ _ e]
      cases hq : w.interp j with
      | none => rw [hq] at hj; exact ⟨(put_ne _ _ e).trans hj.1, hj.2⟩
      | some q => rw [hq] at hj; exact ⟨(put_ne _ _ e).trans hj.1, hj.2⟩
  | destroy i =>
    obtain ⟨hi, ho⟩ := ha
    obtain ⟨p, hp, hpi⟩ := h.alive hi
    refine ⟨{ w with interp := put w.interp i none, hooks := fun _ => none }, ?_, h.vals, h.bufs, h.log, ?_, fun _ _ => rfl, ?_, ?_⟩
    · dsimp only [runWorld, destroyInterps]
      rw [hp]
      rfl
    · intro j n t hk hj
      dsimp only [WorldOp.meant, Links.worldStep] at hj
      by_cases e : j = i
      · rw [if_pos e] at hj; cases hj
      · rw [if_neg e] at hj
        exact (ho j n t hk e hj).symm
    · intro j n hj
      dsimp only [WorldOp.meant, Links.worldStep] at hj
      by_cases e : j = i
      · rw [if_pos e] at hj; exact absurd rfl hj
      · rw [if_neg e] at hj
        exact h.canon j n hj
    · intro j
      dsimp only [WorldOp.meant, Links.worldStep, liveAfter]
      by_cases e : j = i
      · subst e
        rw [put_same]
        exact ⟨put_same _ _ _, fun n => ⟨if_pos rfl, if_pos rfl⟩⟩
      · rw [put_ne _ _ e]
        have hj := h.each j
        cases hq : w.interp j with
        | none => rw [hq] at hj; exact ⟨(put_ne _ _ e).trans hj.1, fun n => ⟨(if_neg e).trans (hj.2 n).1, (if_neg e).trans (hj.2 n).2⟩⟩
        | some q =>
          rw [hq] at hj
          refine ⟨(put_ne _ _ e).trans hj.1, ?_⟩
          dsimp only
          simp only [if_neg e]
          exact hj.2

end steps

theorem WInv.steps {tclName name1 : Bytes → Bytes} {toTcl : V → Option Bytes} {parse : Bytes → Option V} : ∀ (ops : List (WorldOp V H)) {live : Nat → Bool}
    {sp : Links (Nat × Bytes) V H} {w : Interps V H}, WInv tclName live sp w → AllWorldAllowed tclName name1 toTcl parse live sp ops →
    ∃ w', runWorlds tclName name1 toTcl parse w ops = some (w', (sp.worldSteps tclName toTcl parse ops).2) ∧
      ∃ live', WInv tclName live' (sp.worldSteps tclName toTcl parse ops).1 w'
  | [], live, sp, w, h, _ => ⟨w, rfl, live, h⟩
  | op :: ops, live, sp, w, h, ⟨ha, has⟩ => by
    obtain ⟨w', hw', hi⟩ := h.step op ha
    obtain ⟨w'', hw'', hi'⟩ := WInv.steps ops hi has
    refine ⟨w'', ?_, hi'⟩
    rw [runWorlds, hw']
    dsimp only
    rw [hw'']
    rfl

/-- In every covered history with any number of interpreters: nothing undefined happens, scripts get what the
specification says, the C variables and buffers have the contents it says, and the hooks are called as it
says. -/
theorem c83_history_partial (tclName name1 : Bytes → Bytes) (toTcl : V → Option Bytes) (parse : Bytes → Option V) (vals : Nat → V) (bufs : Nat → Bytes)
    (ops : List (WorldOp V H)) (h : AllWorldAllowed tclName name1 toTcl parse (fun _ => false) (.init vals bufs) ops) :
    ∃ w, runWorlds tclName name1 toTcl parse (.init vals bufs) ops = some (w, ((Links.init vals bufs).worldSteps tclName toTcl parse ops).2) ∧
      w.vals = ((Links.init vals bufs).worldSteps tclName toTcl parse ops).1.vals ∧
      w.bufs = ((Links.init vals bufs).worldSteps tclName toTcl parse ops).1.bufs ∧
      w.log = ((Links.init vals bufs).worldSteps tclName toTcl parse ops).1.log := by
  obtain ⟨w, hw, _, hi⟩ := WInv.steps ops (WInv.init tclName vals bufs) h
  exact ⟨w, hw, hi.vals, hi.bufs, hi.log⟩

/-- A leading `::` does not matter. -/
def global : Bytes → Bytes
  | 58 :: 58 :: n => n
  | n => n

/-- An element of an array is named `a(k)`. -/
def first (n : Bytes) : Bytes := n.takeWhile (· ≠ 40)

/-- Two interpreters: `x` is one variable in the first, another in the second, `y` a buffer with a hook in the
second; a script unsets `x` in the first, it is linked again; the first goes away. -/
def worldSample : List (WorldOp Bytes Nat) :=
  [.create 0, .create 1, .on (.link (0, [120]) (.var 0) none), .on (.link (1, [120]) (.var 1) none), .on (.link (1, [121]) (.buf 0 2) (some 7)),
   .on (.write (0, [58, 58, 120]) [65]), .on (.write (1, [120]) [66]), .on (.write (1, [121]) [67, 68]), .unset 0 [120], .on (.write (0, [120]) [69]),
   .on (.read (0, [120])), .on (.link (0, [122]) (.const 1) none), .on (.read (0, [58, 58, 122])), .on (.unlink (0, [122])), .on (.read (1, [121])), .on (.unlink (1, [121])),
   .destroy 0, .on (.read (1, [120]))]

example : AllWorldAllowed global first strTo some (fun _ => false) (.init (fun _ => []) (fun _ => [0, 0])) worldSample := by
  simp [worldSample, AllWorldAllowed, WorldAllowed, LinkAllowed, Links.worldStep, WorldOp.meant, Links.step, Links.init, put, strTo, stored, liveAfter, global, first]
  grind

example : (runWorlds global first strTo some (.init (fun _ => []) (fun _ => [0, 0])) worldSample).map (fun r => (r.2, r.1.vals 0, r.1.vals 1, r.1.bufs 0, r.1.log)) =
    some ([.nothing, .nothing, .nothing, .nothing, .nothing, .done, .done, .done, .nothing, .done, .value [69], .nothing, .value [66], .nothing,
      .value [67], .nothing, .nothing, .value [66]], [65], [66], [67, 0], [(7, .bytes [0, 0], .bytes [67, 0])]) := by rfl

/-- Refutation: a hook given for `x` of the second interpreter is called when a script of the first sets its `x`,
which has no hook. -/
theorem c83_refuted_other_hook : (runWorlds global first strTo some (.init (fun _ => []) (fun _ => []))
      [.create 0, .create 1, .on (.link (0, [120]) (.var 0) none), .on (.link (1, [120]) (.var 1) (some 7)), .on (.write (0, [120]) [65])]).map (·.1.log) =
    some [(7, .val [], .val [65])] ∧
    ((Links.init (fun _ => []) (fun _ => [])).worldSteps (H := Nat) global strTo some
      [.create 0, .create 1, .on (.link (0, [120]) (.var 0) none), .on (.link (1, [120]) (.var 1) (some 7)), .on (.write (0, [120]) [65])]).1.log = [] := ⟨rfl, rfl⟩

/-- Refutation: unlinking `x` of the second interpreter takes away the hook of the first interpreter's `x`. -/
theorem c83_refuted_other_unlink : (runWorlds global first strTo some (.init (fun _ => []) (fun _ => []))
      [.create 0, .create 1, .on (.link (0, [120]) (.var 0) (some 7)), .on (.unlink (1, [120])), .on (.write (0, [120]) [65])]).map (·.1.log) = some [] ∧
    ((Links.init (fun _ => []) (fun _ => [])).worldSteps (H := Nat) global strTo some
      [.create 0, .create 1, .on (.link (0, [120]) (.var 0) (some 7)), .on (.unlink (1, [120])), .on (.write (0, [120]) [65])]).1.log =
    [(7, .val [], .val [65])] := ⟨rfl, rfl⟩

/-- Refutation: destroying an interpreter takes away all hooks of the others. -/
theorem c83_refuted_destroy : (runWorlds global first strTo some (.init (fun _ => []) (fun _ => []))
      [.create 0, .create 1, .on (.link (0, [120]) (.var 0) (some 7)), .destroy 1, .on (.write (0, [120]) [65])]).map (·.1.log) = some [] ∧
    ((Links.init (fun _ => []) (fun _ => [])).worldSteps (H := Nat) global strTo some
      [.create 0, .create 1, .on (.link (0, [120]) (.var 0) (some 7)), .destroy 1, .on (.write (0, [120]) [65])]).1.log =
    [(7, .val [], .val [65])] := ⟨rfl, rfl⟩

/-- Refutation: a script that sets `::x` changes the variable without the hook being called. -/
theorem c83_refuted_spelling : (runWorlds global first strTo some (.init (fun _ => []) (fun _ => []))
      [.create 0, .on (.link (0, [120]) (.var 0) (some 7)), .on (.write (0, [58, 58, 120]) [65])]).map (fun r => (r.1.vals 0, r.1.log)) = some ([65], []) ∧
    ((Links.init (fun _ => []) (fun _ => [])).worldSteps (H := Nat) global strTo some
      [.create 0, .on (.link (0, [120]) (.var 0) (some 7)), .on (.write (0, [58, 58, 120]) [65])]).1.log = [(7, .val [], .val [65])] := ⟨rfl, rfl⟩

/-- Refutation: after a script unset `x`, linking `x` to another variable without a hook gives it the old hook. -/
theorem c83_refuted_unset : (runWorlds global first strTo some (.init (fun _ => []) (fun _ => []))
      [.create 0, .on (.link (0, [120]) (.var 0) (some 7)), .unset 0 [120], .on (.link (0, [120]) (.var 1) none), .on (.write (0, [120]) [65])]).map (·.1.log) =
    some [(7, .val [], .val [65])] ∧
    ((Links.init (fun _ => []) (fun _ => [])).worldSteps (H := Nat) global strTo some
      [.create 0, .on (.link (0, [120]) (.var 0) (some 7)), .unset 0 [120], .on (.link (0, [120]) (.var 1) none), .on (.write (0, [120]) [65])]).1.log = [] := ⟨rfl, rfl⟩

end Bdlib.Tcl
