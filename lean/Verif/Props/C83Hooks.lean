import Verif.Props.C83
import Verif.Spec.SharedHooks

/-!
# C83: all histories, with hooks as they are

Hooks do not matter to values: in every history within the contract of C63, whatever hooks there are, scripts get, and C variables and
buffers have, what the specification says.  Which hooks are called is what `Spec/SharedHooks.lean` says.
-/

namespace Bdlib.Tcl
open Bdlib Bdlib.Str Bdlib.Spec

variable {V H : Type}

/-- The operations covered: interpreters exist when they are used, and C63's conditions.  Nothing about hooks, or about how names are
spelled. -/
def ValuesAllowed (tclName : Bytes → Bytes) (toTcl : V → Option Bytes) (parse : Bytes → Option V) (live : Nat → Bool) (s : Links (Nat × Bytes) V H) :
    WorldOp V H → Prop
  | .on (.link (i, n) t h) => live i = true ∧ LinkAllowed toTcl parse s (.link (i, tclName n) t h)
  | .on (.unlink (i, _)) => live i = true
  | .on (.read (i, n)) => live i = true ∧ LinkAllowed toTcl parse s (.read (i, tclName n))
  | .on (.write (i, n) x) => live i = true ∧ LinkAllowed toTcl parse s (.write (i, tclName n) x)
  | .on (.set _ _) | .on (.fill _ _) => True
  | .unset i _ => live i = true
  | .create i => live i = false
  | .destroy i => live i = true

def AllValuesAllowed (tclName : Bytes → Bytes) (toTcl : V → Option Bytes) (parse : Bytes → Option V) (live : Nat → Bool) (s : Links (Nat × Bytes) V H) :
    List (WorldOp V H) → Prop
  | [] => True
  | op :: ops => ValuesAllowed tclName toTcl parse live s op ∧
      AllValuesAllowed tclName toTcl parse (liveAfter live op) (s.worldStep toTcl parse (op.meant tclName)).1 ops

/-- The state, the table of hooks and the calls so far. -/
structure SInv (tclName : Bytes → Bytes) (live : Nat → Bool) (sp : Links (Nat × Bytes) V H) (T : Bytes → Option H) (L : List (H × Seen V × Seen V)) (w : Interps V H) : Prop where
  vals : w.vals = sp.vals
  bufs : w.bufs = sp.bufs
  hooks : w.hooks = T
  log : w.log = L
  each : ∀ i, AtInv tclName live sp i (w.interp i)

section
variable {tclName name1 : Bytes → Bytes} {live : Nat → Bool} {sp : Links (Nat × Bytes) V H} {T : Bytes → Option H} {L : List (H × Seen V × Seen V)}
  {w : Interps V H} {toTcl : V → Option Bytes} {parse : Bytes → Option V}

theorem SInv.alive (h : SInv tclName live sp T L w) {i : Nat} (hl : live i = true) :
    ∃ p, w.interp i = some p ∧ PInv tclName (fun n => sp.link (i, n)) (fun n => sp.plain (i, n)) p := by
  have := h.each i
  cases hp : w.interp i with
  | none => rw [hp] at this; rw [this.1] at hl; cases hl
  | some p => rw [hp] at this; exact ⟨p, rfl, this.2⟩

theorem SInv.back (h : SInv tclName live sp T L w) {i : Nat} (hi : live i = true) {sp' : Links (Nat × Bytes) V H} {s : LinkSt V H}
    {T' : Bytes → Option H} {L' : List (H × Seen V × Seen V)}
    (e1 : s.vals = sp'.vals) (e2 : s.bufs = sp'.bufs) (e3 : s.hooks = T') (e5 : s.log = L')
    (e4 : ∀ j n, j ≠ i → sp'.link (j, n) = sp.link (j, n) ∧ sp'.plain (j, n) = sp.plain (j, n))
    (hp : PInv tclName (fun n => sp'.link (i, n)) (fun n => sp'.plain (i, n)) ⟨s.vars, s.ptrs, s.data⟩) : SInv tclName live sp' T' L' (w.back i s) := by
  refine ⟨e1, e2, e3, e5, fun j => ?_⟩
  dsimp only [Interps.back]
  by_cases e : j = i
  · subst e
    rw [put_same]
    exact ⟨hi, hp⟩
  · rw [put_ne _ _ e]
    have hj := h.each j
    cases hq : w.interp j with
    | none =>
      rw [hq] at hj
      refine ⟨hj.1, fun n => ?_⟩
      rw [(e4 j n e).1, (e4 j n e).2]
      exact hj.2 n
    | some q =>
      rw [hq] at hj
      refine ⟨hj.1, ?_⟩
      have f1 : (fun n => sp'.link (j, n)) = fun n => sp.link (j, n) := funext fun n => (e4 j n e).1
      have f2 : (fun n => sp'.plain (j, n)) = fun n => sp.plain (j, n) := funext fun n => (e4 j n e).2
      rw [f1, f2]
      exact hj.2

theorem SInv.read (h : SInv tclName live sp T L w) {i : Nat} (n : Bytes) (hi : live i = true) (ha : LinkAllowed toTcl parse sp (.read (i, n))) :
    ∃ w', (w.at i fun s => readVar toTcl s n) = some (w', (sp.step toTcl parse (.read (i, n))).2) ∧ SInv tclName live sp T L w' := by
  obtain ⟨p, hp, hpi⟩ := h.alive hi
  have same : ∀ (q : TclInterp) (g : Got), readVar toTcl (w.view p) n = some (w.view q, g) → PInv tclName (fun n => sp.link (i, n)) (fun n => sp.plain (i, n)) q →
      ∃ w', (w.at i fun s => readVar toTcl s n) = some (w', g) ∧ SInv tclName live sp T L w' := fun q g hr hq =>
    ⟨_, at_ok hp hr, h.back hi h.vals h.bufs h.hooks h.log (fun _ _ _ => ⟨rfl, rfl⟩) hq⟩
  unfold LinkAllowed at ha
  dsimp only [Links.step]
  cases hl : sp.link (i, n) with
  | none =>
    have hv := hpi.unlinked n hl
    cases hx : sp.plain (i, n) with
    | none =>
      rw [hx] at hv
      refine same p _ ?_ hpi
      unfold readVar Interps.view
      dsimp only
      rw [hv]
      rfl
    | some x =>
      rw [hx] at hv
      refine same ⟨put p.vars n (some ⟨x, []⟩), p.ptrs, p.data⟩ _ ?_ ?_
      · unfold readVar Interps.view
        dsimp only
        rw [hv]
        rfl
      · have := hpi.setPlain hl x
        have e : put (fun n => sp.plain (i, n)) n (some x) = fun n => sp.plain (i, n) := by
          funext m
          unfold put
          split
          · rename_i e; rw [e, hx]
          · rfl
        rw [e] at this
        exact this
  | some lt =>
    obtain ⟨t, hk⟩ := lt
    obtain ⟨-, x, k, hv, hkind⟩ := hpi.linked n t hk hl
    dsimp only at ha
    rw [hl] at ha
    have hne : sp.link (i, n) ≠ none := by rw [hl]; nofun
    have fin : ∀ y, readTrace toTcl (w.view p) x k = some y → ∃ w', (w.at i fun s => readVar toTcl s n) = some (w', .value y) ∧ SInv tclName live sp T L w' := by
      intro y hy
      refine same ⟨put p.vars n (some ⟨y, [⟨false, k⟩, ⟨true, k⟩]⟩), p.ptrs, p.data⟩ _ ?_ (hpi.setValue hv hne y)
      have hv' : (w.view p).vars n = some ⟨x, [⟨false, k⟩, ⟨true, k⟩]⟩ := hv
      unfold readVar
      rw [hv']
      dsimp only [readTraces]
      rw [if_neg Bool.false_ne_true, if_pos rfl, hy]
      rfl
    cases t with
    | var a =>
      cases hkind
      obtain ⟨y, hy, hz⟩ := ha
      dsimp only
      rw [hy]
      refine fin y ?_
      dsimp only [readTrace, Interps.view]
      rw [h.vals, hy]
      dsimp only
      rw [cstr_self hz]
    | const a =>
      cases hkind
      obtain ⟨y, hy, hz⟩ := ha
      dsimp only
      rw [hy]
      refine fin y ?_
      dsimp only [readTrace, Interps.view]
      rw [h.vals, hy]
      dsimp only
      rw [cstr_self hz]
    | text b =>
      cases hkind
      refine fin _ ?_
      dsimp only [readTrace, bufText, Interps.view]
      rw [h.bufs, if_pos ha]
      rfl
    | buf b size =>
      obtain ⟨d, m, rfl, -, -, hd⟩ := hkind
      refine fin _ ?_
      dsimp only [readTrace, bufText, Interps.view]
      rw [hd]
      dsimp only
      rw [h.bufs, if_pos ha]
      rfl

theorem SInv.write (h : SInv tclName live sp T L w) {i : Nat} (n x : Bytes) (hi : live i = true) (ha : LinkAllowed toTcl parse sp (.write (i, tclName n) x)) :
    ∃ w', (w.at i fun s => writeVarAs tclName name1 parse s n x) = some (w', (sp.step toTcl parse (.write (i, tclName n) x)).2) ∧
      SInv tclName live (sp.step toTcl parse (.write (i, tclName n) x)).1 T (L ++ callsOf tclName name1 parse sp T (.on (.write (i, n) x))) w' := by
  obtain ⟨p, hp, hpi⟩ := h.alive hi
  unfold LinkAllowed at ha
  dsimp only [Links.step, callsOf]
  cases hl : sp.link (i, tclName n) with
  | none =>
    dsimp only
    have ht := hpi.traces w hl
    refine ⟨_, at_ok hp (s := w.view { p with vars := put p.vars (tclName n) (some ⟨x, []⟩) }) ?_, ?_⟩
    · unfold writeVarAs
      dsimp only
      rw [ht]
      rfl
    · refine h.back hi h.vals h.bufs h.hooks (h.log.trans (List.append_nil _).symm) (fun j m e => ⟨rfl, put_pair_ne _ _ _ _ e⟩) ?_
      dsimp only
      rw [put_pair]
      exact hpi.setPlain hl x
  | some lt =>
    obtain ⟨t, hk⟩ := lt
    obtain ⟨-, y, k, hv, hkind⟩ := hpi.linked _ t hk hl
    have hne : sp.link (i, tclName n) ≠ none := by rw [hl]; nofun
    have hhook : w.hooks (name1 n) = T (name1 n) := by rw [h.hooks]
    have htr : tracesOf (w.view p) (tclName n) = [⟨false, k⟩, ⟨true, k⟩] := by
      unfold tracesOf Interps.view
      dsimp only
      rw [hv]
    have hset := hpi.setValue hv hne x
    dsimp only at hset
    have fin : ∀ (s' : LinkSt V H) (b : Bool) (sp' : Links (Nat × Bytes) V H) (L' : List (H × Seen V × Seen V)),
        writeTrace parse (w.view { p with vars := put p.vars (tclName n) (some ⟨x, [⟨false, k⟩, ⟨true, k⟩]⟩) }) (name1 n) x k = some (s', b) →
        s'.vals = sp'.vals → s'.bufs = sp'.bufs → s'.log = L' → s'.hooks = w.hooks → s'.vars = put p.vars (tclName n) (some ⟨x, [⟨false, k⟩, ⟨true, k⟩]⟩) →
        s'.ptrs = p.ptrs → s'.data = p.data → sp'.link = sp.link → sp'.plain = sp.plain →
        ∃ w', (w.at i fun s => writeVarAs tclName name1 parse s n x) = some (w', if b then .refused else .done) ∧ SInv tclName live sp' T L' w' := by
      intro s' b sp' L' hw e1 e2 e3 e4 e5 e6 e7 e8 e9
      refine ⟨_, at_ok hp (s := s') ?_, h.back hi e1 e2 (e4.trans h.hooks) e3 (fun j m _ => by rw [e8, e9]; exact ⟨rfl, rfl⟩) ?_⟩
      · unfold writeVarAs
        dsimp only
        rw [htr]
        dsimp only [writeTraces]
        rw [if_neg Bool.false_ne_true]
        simp only [if_true]
        rw [show ({ w.view p with vars := put (w.view p).vars (tclName n) (some ⟨x, [⟨false, k⟩, ⟨true, k⟩]⟩) } : LinkSt V H) =
          w.view { p with vars := put p.vars (tclName n) (some ⟨x, [⟨false, k⟩, ⟨true, k⟩]⟩) } from rfl, hw]
        cases b <;> rfl
      · rw [e5, e6, e7, e8, e9]
        exact hset
    dsimp only at ha
    rw [hl] at ha
    cases t with
    | var a =>
      cases hkind
      cases hpx : parse x with
      | none => exact absurd hpx ha
      | some v =>
        dsimp only
        refine fin { w.view { p with vars := put p.vars (tclName n) (some ⟨x, [⟨false, .var a⟩, ⟨true, .var a⟩]⟩) } with
          vals := put w.vals a v, log := w.log ++ hookCalls (w.view p) (name1 n) (.val (w.vals a)) (.val v) } false _ _ ?_ ?_ h.bufs ?_ rfl rfl rfl rfl rfl rfl
        · dsimp only [writeTrace]
          rw [hpx]
          rfl
        · dsimp only; rw [h.vals]
        · dsimp only
          rw [hookCalls_eq (hk := T (name1 n)) (by exact hhook), h.log, h.vals]
    | const a =>
      cases hkind
      exact fin _ true _ _ rfl h.vals h.bufs (h.log.trans (List.append_nil _).symm) rfl rfl rfl rfl rfl rfl
    | text a =>
      cases hkind
      exact fin _ true _ _ rfl h.vals h.bufs (h.log.trans (List.append_nil _).symm) rfl rfl rfl rfl rfl rfl
    | buf b size =>
      obtain ⟨d, m, rfl, -, -, hd⟩ := hkind
      dsimp only at ha ⊢
      rw [← h.bufs] at ha ⊢
      refine fin { w.view { p with vars := put p.vars (tclName n) (some ⟨x, [⟨false, .buf d⟩, ⟨true, .buf d⟩]⟩) } with
          bufs := put w.bufs b (stored size (w.bufs b) x),
          log := w.log ++ hookCalls (w.view p) (name1 n) (.bytes ((w.bufs b).take size)) (.bytes (stored size (w.bufs b) x)) } false _ _ ?_ h.vals rfl ?_ rfl rfl rfl rfl rfl rfl
      · dsimp only [writeTrace, Interps.view]
        rw [hd]
        dsimp only
        rw [storeBuf_eq ha.1 ha.2.1 ha.2.2]
        rfl
      · dsimp only
        rw [hookCalls_eq (hk := T (name1 n)) (by exact hhook), h.log]

theorem SInv.step (h : SInv tclName live sp T L w) (op : WorldOp V H) (ha : ValuesAllowed tclName toTcl parse live sp op) :
    ∃ w', runWorld tclName name1 toTcl parse w op = some (w', (sp.worldStep toTcl parse (op.meant tclName)).2) ∧
      SInv tclName (liveAfter live op) (sp.worldStep toTcl parse (op.meant tclName)).1 (tableStep T op) (L ++ callsOf tclName name1 parse sp T op) w' := by
  cases op with
  | on op =>
    cases op with
    | link x t hook =>
      obtain ⟨i, n⟩ := x
      obtain ⟨hi, hn⟩ := ha
      have hn : sp.link (i, tclName n) = none := hn
      obtain ⟨p, hp, hpi⟩ := h.alive hi
      obtain ⟨s', hs', e1, e2, e3, e4, hq⟩ := hpi.linkTo name1 parse w n t hook hn
      refine ⟨w.back i s', at_ok (f := fun s => (linkVarAs tclName name1 parse s n t hook).map (·, .nothing)) (g := .nothing) hp (by simp only [hs']; rfl), ?_⟩
      refine h.back hi (e1.trans h.vals) (e2.trans h.bufs) ?_ ((e3.trans h.log).trans (List.append_nil _).symm)
        (fun j m e => ⟨put_pair_ne _ _ _ _ e, put_pair_ne _ _ _ _ e⟩) ?_
      · rw [e4, h.hooks]
        cases hook <;> rfl
      · dsimp only [Links.worldStep, WorldOp.meant, Links.step]
        rw [put_pair, put_pair]
        exact hq
    | unlink x =>
      obtain ⟨i, n⟩ := x
      obtain ⟨p, hp, hpi⟩ := h.alive ha
      refine ⟨w.back i (unlinkVarAs tclName (w.view p) n), at_ok (f := fun s => some (unlinkVarAs tclName s n, .nothing)) hp rfl, ?_⟩
      refine h.back ha h.vals h.bufs ?_ (h.log.trans (List.append_nil _).symm) (fun j m e => ⟨put_pair_ne _ _ _ _ e, put_pair_ne _ _ _ _ e⟩) ?_
      · show put w.hooks n none = put T n none
        rw [h.hooks]
      · dsimp only [Links.worldStep, WorldOp.meant, Links.step]
        rw [put_pair, put_pair]
        exact hpi.unlink w n
    | read x =>
      obtain ⟨i, n⟩ := x
      show ∃ w', _ ∧ SInv tclName live _ T (L ++ []) w'
      rw [List.append_nil]
      exact h.read (tclName n) ha.1 ha.2
    | write x y =>
      obtain ⟨i, n⟩ := x
      exact h.write n y ha.1 ha.2
    | set a v =>
      exact ⟨_, rfl, by dsimp only [Links.worldStep, WorldOp.meant, Links.step]; rw [h.vals], h.bufs, h.hooks, h.log.trans (List.append_nil _).symm, h.each⟩
    | fill b x =>
      exact ⟨_, rfl, h.vals, by dsimp only [Links.worldStep, WorldOp.meant, Links.step]; rw [h.bufs], h.hooks, h.log.trans (List.append_nil _).symm, h.each⟩
  | unset i n =>
    obtain ⟨p, hp, hpi⟩ := h.alive ha
    refine ⟨w.back i (unsetVar (w.view p) (tclName n)), at_ok (f := fun s => some (unsetVar s (tclName n), .nothing)) hp rfl, ?_⟩
    dsimp only [WorldOp.meant, Links.worldStep]
    refine h.back ha h.vals h.bufs h.hooks (h.log.trans (List.append_nil _).symm) (fun j m e => ⟨put_pair_ne _ _ _ _ e, put_pair_ne _ _ _ _ e⟩) ?_
    dsimp only
    rw [put_pair, put_pair]
    exact hpi.unset _
  | create i =>
    have ha : live i = false := ha
    have hi := h.each i
    have hno : ∀ n, sp.link (i, n) = none ∧ sp.plain (i, n) = none := by
      cases hp : w.interp i with
      | none => rw [hp] at hi; exact hi.2
      | some p => rw [hp] at hi; have := hi.1; rw [ha] at this; cases this
    refine ⟨_, rfl, h.vals, h.bufs, h.hooks, h.log.trans (List.append_nil _).symm, fun j => ?_⟩
    dsimp only [liveAfter, WorldOp.meant, Links.worldStep]
    by_cases e : j = i
    · subst e
      rw [put_same]
      refine ⟨put_same _ _ _, fun n t hk hn => ?_, fun n _ => ?_, nofun, nofun⟩
      · rw [(hno n).1] at hn; cases hn
      · rw [(hno n).2]; rfl
    · have hj := h.each j
      rw [put_ne _ _ e]
      cases hq : w.interp j with
      | none => rw [hq] at hj; exact ⟨(put_ne _ _ e).trans hj.1, hj.2⟩
      | some q => rw [hq] at hj; exact ⟨(put_ne _ _ e).trans hj.1, hj.2⟩
  | destroy i =>
    obtain ⟨p, hp, hpi⟩ := h.alive ha
    refine ⟨{ w with interp := put w.interp i none, hooks := fun _ => none }, ?_, h.vals, h.bufs, rfl, h.log.trans (List.append_nil _).symm, ?_⟩
    · dsimp only [runWorld, destroyInterps]
      rw [hp]
      rfl
    · intro j
      dsimp only [WorldOp.meant, Links.worldStep, liveAfter]
      by_cases e : j = i
      · subst e
        rw [put_same]
        exact ⟨put_same _ _ _, fun n => ⟨if_pos rfl, if_pos rfl⟩⟩
      · rw [put_ne _ _ e]
        have hj := h.each j
        cases hq : w.interp j with
        | none => rw [hq] at hj; exact ⟨(put_ne _ _ e).trans hj.1, fun n => ⟨(if_neg e).trans (hj.2 n).1, (if_neg e).trans (hj.2 n).2⟩⟩
        | some q =>
          rw [hq] at hj
          refine ⟨(put_ne _ _ e).trans hj.1, ?_⟩
          dsimp only
          simp only [if_neg e]
          exact hj.2

end

theorem SInv.steps {tclName name1 : Bytes → Bytes} {toTcl : V → Option Bytes} {parse : Bytes → Option V} : ∀ (ops : List (WorldOp V H)) {live : Nat → Bool}
    {sp : Links (Nat × Bytes) V H} {T : Bytes → Option H} {L : List (H × Seen V × Seen V)} {w : Interps V H}, SInv tclName live sp T L w →
    AllValuesAllowed tclName toTcl parse live sp ops →
    ∃ w', runWorlds tclName name1 toTcl parse w ops = some (w', (sp.worldSteps tclName toTcl parse ops).2) ∧
      ∃ live' T', SInv tclName live' (sp.worldSteps tclName toTcl parse ops).1 T' (L ++ sharedCalls tclName name1 toTcl parse sp T ops) w'
  | [], live, sp, T, L, w, h, _ => ⟨w, rfl, live, T, by rw [sharedCalls, List.append_nil]; exact h⟩
  | op :: ops, live, sp, T, L, w, h, ⟨ha, has⟩ => by
    obtain ⟨w', hw', hi⟩ := h.step op ha
    obtain ⟨w'', hw'', live', T', hi'⟩ := SInv.steps ops hi has
    refine ⟨w'', ?_, live', T', ?_⟩
    · rw [runWorlds, hw']
      dsimp only
      rw [hw'']
      rfl
    · rw [List.append_assoc] at hi'
      exact hi'

/-- In every history with any number of interpreters, whatever hooks are given: nothing undefined happens, scripts get what the
specification says, the C variables and buffers have the contents it says; hooks are called as if there were one table of them for
all interpreters. -/
theorem c83_shared_hooks (tclName name1 : Bytes → Bytes) (toTcl : V → Option Bytes) (parse : Bytes → Option V) (vals : Nat → V) (bufs : Nat → Bytes)
    (ops : List (WorldOp V H)) (h : AllValuesAllowed tclName toTcl parse (fun _ => false) (.init vals bufs) ops) :
    ∃ w, runWorlds tclName name1 toTcl parse (.init vals bufs) ops = some (w, ((Links.init vals bufs).worldSteps tclName toTcl parse ops).2) ∧
      w.vals = ((Links.init vals bufs).worldSteps tclName toTcl parse ops).1.vals ∧
      w.bufs = ((Links.init vals bufs).worldSteps tclName toTcl parse ops).1.bufs ∧
      w.log = sharedCalls tclName name1 toTcl parse (.init vals bufs) (fun _ => none) ops := by
  have h0 : SInv (H := H) tclName (fun _ => false) (.init vals bufs) (fun _ => none) [] (.init vals bufs) :=
    ⟨rfl, rfl, rfl, rfl, fun _ => ⟨rfl, fun _ => ⟨rfl, rfl⟩⟩⟩
  obtain ⟨w, hw, _, _, hi⟩ := SInv.steps ops h0 h
  exact ⟨w, hw, hi.vals, hi.bufs, hi.log⟩

-- Non-vacuity: the histories of the refutations of C83, one after the other.
def hooksSample : List (WorldOp Bytes Nat) :=
  [.create 0, .create 1, .on (.link (0, [120]) (.var 0) none), .on (.link (1, [120]) (.var 1) (some 7)), .on (.write (0, [120]) [65]),
   .on (.write (1, [58, 58, 120]) [66]), .on (.link (1, [58, 58, 121]) (.buf 0 2) (some 9)), .on (.write (1, [121]) [71]), .on (.write (1, [58, 58, 121]) [72]),
   .on (.read (1, [121])), .on (.unlink (1, [121])), .on (.link (1, [121]) (.buf 0 1) none), .on (.unlink (1, [58, 58, 121])), .on (.unlink (0, [120])), .on (.write (1, [120]) [67]), .on (.link (0, [120]) (.var 2) (some 8)),
   .on (.write (1, [120]) [68]), .unset 0 [120], .on (.link (0, [120]) (.var 3) none), .on (.write (0, [120]) [69]), .destroy 0, .on (.write (1, [120]) [70])]

example : AllValuesAllowed global strTo some (fun _ => false) (.init (fun _ => []) (fun _ => [0, 0])) hooksSample := by
  simp [hooksSample, AllValuesAllowed, ValuesAllowed, liveAfter, LinkAllowed, Links.worldStep, Links.step, WorldOp.meant, put, global, Links.init, stored]

example : sharedCalls global first strTo some (.init (fun _ => []) (fun _ => [0, 0])) (fun _ => none) hooksSample =
    [(7, .val [], .val [65]), (9, .bytes [71, 0], .bytes [72, 0]), (8, .val [67], .val [68]), (8, .val [], .val [69])] := by decide +kernel

/-! ## Always -/

theorem sharedCalls_append (tclName name1 : Bytes → Bytes) (toTcl : V → Option Bytes) (parse : Bytes → Option V) : ∀ (pre ops : List (WorldOp V H))
    (s : Links (Nat × Bytes) V H) (T : Bytes → Option H), sharedCalls tclName name1 toTcl parse s T (pre ++ ops) = sharedCalls tclName name1 toTcl parse s T pre ++
      sharedCalls tclName name1 toTcl parse (s.worldSteps tclName toTcl parse pre).1 (pre.foldl tableStep T) ops
  | [], _, _, _ => rfl
  | op :: pre, ops, s, T => by
    show _ ++ sharedCalls tclName name1 toTcl parse _ _ (pre ++ ops) = (_ ++ sharedCalls tclName name1 toTcl parse _ _ pre) ++ _
    rw [sharedCalls_append tclName name1 toTcl parse pre ops, List.append_assoc]
    rfl

theorem worldSteps_append (tclName : Bytes → Bytes) (toTcl : V → Option Bytes) (parse : Bytes → Option V) : ∀ (pre ops : List (WorldOp V H))
    (s : Links (Nat × Bytes) V H), (s.worldSteps tclName toTcl parse (pre ++ ops)).1 =
      ((s.worldSteps tclName toTcl parse pre).1.worldSteps tclName toTcl parse ops).1
  | [], _, _ => rfl
  | _ :: pre, ops, _ => worldSteps_append tclName toTcl parse pre ops _

section always
variable (tclName name1 : Bytes → Bytes) (toTcl : V → Option Bytes) (parse : Bytes → Option V) (vals : Nat → V) (bufs : Nat → Bytes)

/-- The specification after a history. -/
abbrev after (pre : List (WorldOp V H)) : Links (Nat × Bytes) V H := ((Links.init vals bufs).worldSteps tclName toTcl parse pre).1

/-- Refutation, after every history: if interpreter `i` has linked `n` without a hook and interpreter `j` now links its own `n`, with
hook `h`, then `h` is called when a script of `i` sets `n`; it should not be. -/
theorem c83_refuted_other_hook_always (pre : List (WorldOp V H)) (i j : Nat) (hij : j ≠ i) (n x : Bytes) (t : Target) (h : H) (a : Nat) (v : V)
    (hl : (after tclName toTcl parse vals bufs pre).link (i, n) = some (.var a, none)) (hn : tclName n = n) (h1 : name1 n = n) (hv : parse x = some v)
    (hok : AllValuesAllowed tclName toTcl parse (fun _ => false) (.init vals bufs) (pre ++ [.on (.link (j, n) t (some h)), .on (.write (i, n) x)])) :
    ∃ w got, runWorlds tclName name1 toTcl parse (.init vals bufs) (pre ++ [.on (.link (j, n) t (some h)), .on (.write (i, n) x)]) = some (w, got) ∧
      w.log = sharedCalls tclName name1 toTcl parse (.init vals bufs) (fun _ => none) pre ++
        [(h, .val ((after tclName toTcl parse vals bufs pre).vals a), .val v)] ∧
      (after tclName toTcl parse vals bufs (pre ++ [.on (.link (j, n) t (some h)), .on (.write (i, n) x)])).log =
        (after tclName toTcl parse vals bufs pre).log := by
  obtain ⟨w, hw, _, _, hlog⟩ := c83_shared_hooks tclName name1 toTcl parse vals bufs _ hok
  have hne : (i, n) ≠ (j, n) := fun e => hij (congrArg Prod.fst e).symm
  refine ⟨w, _, hw, ?_, ?_⟩
  · rw [hlog, sharedCalls_append]
    unfold after at hl
    simp [sharedCalls, callsOf, tableStep, WorldOp.meant, Links.worldStep, Links.step, hn, h1, put, hne, hl, hv, called]
  · unfold after at hl ⊢
    rw [worldSteps_append]
    simp [Links.worldSteps, WorldOp.meant, Links.worldStep, Links.step, hn, put, hne, hl, hv, called]

/-- What takes away the hooks of name `n` of other interpreters than `j`: unlinking `n` in `j`, and the end of `j`. -/
def Takes (j : Nat) (n : Bytes) (op : WorldOp V H) : Prop := op = .on (.unlink (j, n)) ∨ op = .destroy j

/-- Refutation, after every history: if interpreter `i` has linked `n` with a hook `h` and interpreter `j` unlinks its own `n` or ends, no hook
is called when a script of `i` sets `n`; `h` should be. -/
theorem c83_refuted_taken_always (pre : List (WorldOp V H)) (i j : Nat) (hij : j ≠ i) (n x : Bytes) (op : WorldOp V H) (hop : Takes j n op) (h : H) (a : Nat) (v : V)
    (hl : (after tclName toTcl parse vals bufs pre).link (i, n) = some (.var a, some h)) (hn : tclName n = n) (h1 : name1 n = n) (hv : parse x = some v)
    (hok : AllValuesAllowed tclName toTcl parse (fun _ => false) (.init vals bufs) (pre ++ [op, .on (.write (i, n) x)])) :
    ∃ w got, runWorlds tclName name1 toTcl parse (.init vals bufs) (pre ++ [op, .on (.write (i, n) x)]) = some (w, got) ∧ w.vals a = v ∧
      w.log = sharedCalls tclName name1 toTcl parse (.init vals bufs) (fun _ => none) pre ∧
      (after tclName toTcl parse vals bufs (pre ++ [op, .on (.write (i, n) x)])).log =
        (after tclName toTcl parse vals bufs pre).log ++ [(h, .val ((after tclName toTcl parse vals bufs pre).vals a), .val v)] := by
  obtain ⟨w, hw, hvals, _, hlog⟩ := c83_shared_hooks tclName name1 toTcl parse vals bufs _ hok
  have hne : (i, n) ≠ (j, n) := fun e => hij (congrArg Prod.fst e).symm
  refine ⟨w, _, hw, ?_, ?_, ?_⟩
  · rw [hvals, worldSteps_append]
    unfold after at hl
    rcases hop with rfl | rfl <;>
      simp [Links.worldSteps, WorldOp.meant, Links.worldStep, Links.step, hn, put, hne, Ne.symm hij, hl, hv]
  · rw [hlog, sharedCalls_append]
    unfold after at hl
    rcases hop with rfl | rfl <;>
      simp [sharedCalls, callsOf, tableStep, WorldOp.meant, Links.worldStep, Links.step, hn, h1, put, hne, Ne.symm hij, hl, hv, called]
  · unfold after at hl ⊢
    rw [worldSteps_append]
    rcases hop with rfl | rfl <;>
      simp [Links.worldSteps, WorldOp.meant, Links.worldStep, Links.step, hn, put, hne, Ne.symm hij, hl, hv, called]

/-- Refutation, after every history: a script that sets a variable under a spelling for which, as traces are told it, there is no hook
changes the C variable without a call of its hook: another spelling than the program gave, or an element of an array. -/
theorem c83_refuted_spelling_always (pre : List (WorldOp V H)) (i : Nat) (n x : Bytes) (h : H) (a : Nat) (v : V)
    (hl : (after tclName toTcl parse vals bufs pre).link (i, tclName n) = some (.var a, some h)) (hno : pre.foldl tableStep (fun _ => none) (name1 n) = none)
    (hv : parse x = some v) (hok : AllValuesAllowed tclName toTcl parse (fun _ => false) (.init vals bufs) (pre ++ [.on (.write (i, n) x)])) :
    ∃ w got, runWorlds tclName name1 toTcl parse (.init vals bufs) (pre ++ [.on (.write (i, n) x)]) = some (w, got) ∧ w.vals a = v ∧
      w.log = sharedCalls tclName name1 toTcl parse (.init vals bufs) (fun _ => none) pre := by
  obtain ⟨w, hw, hvals, _, hlog⟩ := c83_shared_hooks tclName name1 toTcl parse vals bufs _ hok
  refine ⟨w, _, hw, ?_, ?_⟩
  · rw [hvals, worldSteps_append]
    unfold after at hl
    simp [Links.worldSteps, WorldOp.meant, Links.worldStep, Links.step, put, hl, hv]
  · rw [hlog, sharedCalls_append]
    unfold after at hl
    simp [sharedCalls, callsOf, hl, hv, called, hno]

end always

-- Non-vacuity: histories that meet the hypotheses.
example : AllValuesAllowed (H := Nat) global strTo some (fun _ => false) (.init (fun _ => []) (fun _ => []))
      ([.create 0, .create 1, .on (.link (0, [120]) (.var 0) none)] ++ [.on (.link (1, [120]) (.buf 3 2) (some 7)), .on (.write (0, [120]) [65])]) ∧
    (after (H := Nat) global strTo some (fun _ => []) (fun _ => []) [.create 0, .create 1, .on (.link (0, [120]) (.var 0) none)]).link (0, [120]) = some (.var 0, none) ∧
    AllValuesAllowed (H := Nat) global strTo some (fun _ => false) (.init (fun _ => []) (fun _ => []))
      ([.create 0, .create 1, .on (.link (0, [120]) (.var 0) (some 7))] ++ [.destroy 1, .on (.write (0, [120]) [65])]) ∧
    AllValuesAllowed (H := Nat) global strTo some (fun _ => false) (.init (fun _ => []) (fun _ => []))
      ([.create 0, .on (.link (0, [120]) (.var 0) (some 7))] ++ [.on (.write (0, [58, 58, 120]) [65])]) ∧
    [.create 0, .on (.link (0, [120]) (.var 0) (some 7))].foldl (tableStep (V := Bytes) (H := Nat)) (fun _ => none) [58, 58, 120] = none := by
  refine ⟨?_, rfl, ?_, ?_, rfl⟩ <;>
    simp [AllValuesAllowed, ValuesAllowed, liveAfter, LinkAllowed, Links.worldStep, Links.step, WorldOp.meant, put, global, Links.init]

/-- Refutation: the hook of a variable that is an element of an array, here `a(k)`, is not called, though script and program spell its name
in the same way. -/
theorem c83_refuted_element : (runWorlds global first strTo some (.init (fun _ => []) (fun _ => []))
      [.create 0, .on (.link (0, [97, 40, 107, 41]) (.var 0) (some 7)), .on (.write (0, [97, 40, 107, 41]) [65])]).map (fun r => (r.1.vals 0, r.1.log)) = some ([65], []) ∧
    ((Links.init (fun _ => []) (fun _ => [])).worldSteps (H := Nat) global strTo some
      [.create 0, .on (.link (0, [97, 40, 107, 41]) (.var 0) (some 7)), .on (.write (0, [97, 40, 107, 41]) [65])]).1.log = [(7, .val [], .val [65])] := ⟨rfl, rfl⟩

end Bdlib.Tcl
