import Verif.Props.C63
import Verif.Tcl.Interps
import Verif.Spec.SharedHooks

/-!
# C83: the bookkeeping of linked buffers does not leak

`linkVar` of a buffer makes an object with the buffer's address and size (`trace_ptr_data`).  In every history, with any names, spellings, hooks and
repeated links: at any time there is at most one such object for each name given to `linkVar` for a buffer and not to `unlinkVar` since.
-/

namespace Bdlib.Tcl
open Bdlib Bdlib.Str Bdlib.Spec

variable {V H : Type}

/-- The objects of an interpreter that have not been deleted. -/
def Alive (w : Interps V H) (i d : Nat) : Prop := ∃ p x, w.interp i = some p ∧ p.data[d]? = some (some x)

structure DInv (held : Bytes → Prop) (p : TclInterp) : Prop where
  kept : ∀ d x, p.data[d]? = some (some x) → ∃ m, p.ptrs m = some d
  inj : ∀ n m d, p.ptrs n = some d → p.ptrs m = some d → n = m
  lt : ∀ n d, p.ptrs n = some d → d < p.data.length
  held : ∀ n, p.ptrs n ≠ none → held n

theorem writeTraces_keeps (parse : Bytes → Option V) (n x : Bytes) : ∀ (ts : List Trace) (s s' : LinkSt V H) (b : Bool),
    writeTraces parse n x ts s = some (s', b) → s'.ptrs = s.ptrs ∧ s'.data = s.data
  | [], s, s', b, h => by cases h; exact ⟨rfl, rfl⟩
  | t :: ts, s, s', b, h => by
    unfold writeTraces at h
    split at h
    · exact writeTraces_keeps parse n x ts s s' b h
    · have key : ∀ s1 b1, writeTrace parse s n x t.kind = some (s1, b1) → s1.ptrs = s.ptrs ∧ s1.data = s.data := by
        intro s1 b1 h1
        unfold writeTrace at h1
        split at h1
        · split at h1
          · cases h1
          · cases h1; exact ⟨rfl, rfl⟩
        · split at h1
          · split at h1
            · cases h1
            · cases h1; exact ⟨rfl, rfl⟩
          · cases h1
        · cases h1; exact ⟨rfl, rfl⟩
        · cases h1; exact ⟨rfl, rfl⟩
      split at h
      · cases h
      · rename_i s1 h1
        cases h
        exact key _ _ h1
      · rename_i s1 h1
        obtain ⟨e1, e2⟩ := writeTraces_keeps parse n x ts s1 s' b h
        obtain ⟨e3, e4⟩ := key _ _ h1
        exact ⟨e1.trans e3, e2.trans e4⟩

theorem writeVarAs_keeps {tclName name1 : Bytes → Bytes} {parse : Bytes → Option V} {s s' : LinkSt V H} {n x : Bytes} {g : Got}
    (h : writeVarAs tclName name1 parse s n x = some (s', g)) : s'.ptrs = s.ptrs ∧ s'.data = s.data := by
  unfold writeVarAs at h
  dsimp only at h
  split at h
  · cases h
  · rename_i s1 b h1
    cases h
    obtain ⟨e1, e2⟩ := writeTraces_keeps _ _ _ _ _ _ _ h1
    exact ⟨e1, e2⟩

theorem setupTracesAs_keeps {tclName name1 : Bytes → Bytes} {parse : Bytes → Option V} {s s' : LinkSt V H} {n : Bytes} {k : Kind} {hook : Option H}
    (h : setupTracesAs tclName name1 parse s n k hook = some s') : s'.ptrs = s.ptrs ∧ s'.data = s.data := by
  unfold setupTracesAs at h
  split at h
  · cases h
  · rename_i s1 g h1
    dsimp only at h
    obtain ⟨e1, e2⟩ := writeVarAs_keeps h1
    split at h
    · cases h; exact ⟨e1, e2⟩
    · cases h; exact ⟨e1, e2⟩

theorem DInv.free {held : Bytes → Prop} {p : TclInterp} (h : DInv held p) (s : LinkSt V H) (e1 : s.ptrs = p.ptrs) (e2 : s.data = p.data) (n : Bytes) :
    (freeData s n).length = p.data.length ∧ ∀ d x, (freeData s n)[d]? = some (some x) → p.data[d]? = some (some x) ∧ p.ptrs n ≠ some d := by
  unfold freeData
  rw [e1, e2]
  cases hn : p.ptrs n with
  | none => exact ⟨rfl, fun d x hd => ⟨hd, nofun⟩⟩
  | some d' =>
    dsimp only
    refine ⟨by simp, fun d x hd => ?_⟩
    by_cases e : d' = d
    · subst e
      rw [List.getElem?_set_self (h.lt n _ hn)] at hd
      cases hd
    · rw [List.getElem?_set_ne e] at hd
      exact ⟨hd, fun e' => e (Option.some.inj e')⟩

theorem DInv.unlink {held : Bytes → Prop} {p : TclInterp} (h : DInv held p) (tclName : Bytes → Bytes) (s : LinkSt V H) (e1 : s.ptrs = p.ptrs) (e2 : s.data = p.data) (n : Bytes) :
    DInv (fun m => m ≠ n ∧ held m) ⟨(unlinkVarAs tclName s n).vars, (unlinkVarAs tclName s n).ptrs, (unlinkVarAs tclName s n).data⟩ := by
  obtain ⟨f1, f2⟩ := h.free s e1 e2 n
  have hp : ∀ m d, put s.ptrs n none m = some d → m ≠ n ∧ p.ptrs m = some d := by
    intro m d hm
    by_cases e : m = n
    · rw [e, put_same] at hm; cases hm
    · rw [put_ne _ _ e, e1] at hm; exact ⟨e, hm⟩
  refine ⟨?_, ?_, ?_, ?_⟩
  · intro d x hd
    obtain ⟨g1, g2⟩ := f2 d x hd
    obtain ⟨m, hm⟩ := h.kept d x g1
    refine ⟨m, ?_⟩
    have : m ≠ n := by rintro rfl; exact g2 hm
    exact (put_ne _ _ this).trans (by rw [e1]; exact hm)
  · intro m m' d hm hm'
    exact h.inj m m' d (hp m d hm).2 (hp m' d hm').2
  · intro m d hm
    show d < (freeData s n).length
    rw [f1]
    exact h.lt m d (hp m d hm).2
  · intro m hm
    cases hd : put s.ptrs n none m with
    | none => exact absurd hd hm
    | some d =>
      obtain ⟨g1, g2⟩ := hp m d hd
      exact ⟨g1, h.held m (by rw [g2]; nofun)⟩

theorem DInv.buf {held : Bytes → Prop} {p : TclInterp} (h : DInv held p) (s : LinkSt V H) (b size : Nat) (e1 : s.ptrs = p.ptrs)
    (e2 : s.data = p.data ++ [some (b, size)]) (vars : Bytes → Option TclVar) (n : Bytes) :
    DInv (fun m => m = n ∨ held m) ⟨vars, put s.ptrs n (some p.data.length), freeData s n⟩ := by
  have hd : (freeData s n).length = p.data.length + 1 ∧ ∀ d x, (freeData s n)[d]? = some (some x) →
      d = p.data.length ∨ (p.data[d]? = some (some x) ∧ p.ptrs n ≠ some d) := by
    have hcase : ∀ d x, (p.data ++ [some (b, size)])[d]? = some (some x) → d = p.data.length ∨ p.data[d]? = some (some x) := by
      intro d x hd
      rcases Nat.lt_trichotomy d p.data.length with hl | hl | hl
      · rw [List.getElem?_append_left hl] at hd; exact Or.inr hd
      · exact Or.inl hl
      · rw [List.getElem?_eq_none (by simp; omega)] at hd; cases hd
    unfold freeData
    rw [e1, e2]
    cases hn : p.ptrs n with
    | none => exact ⟨by simp, fun d x hd => (hcase d x hd).imp id fun g => ⟨g, nofun⟩⟩
    | some d' =>
      dsimp only
      refine ⟨by simp, fun d x hd => ?_⟩
      by_cases e : d' = d
      · subst e
        rw [List.getElem?_set_self (by have := h.lt n _ hn; simp; omega)] at hd
        cases hd
      · rw [List.getElem?_set_ne e] at hd
        exact (hcase d x hd).imp id fun g => ⟨g, fun e' => e (Option.some.inj e')⟩
  have hp : ∀ m d, put s.ptrs n (some p.data.length) m = some d → (m = n ∧ d = p.data.length) ∨ (m ≠ n ∧ p.ptrs m = some d) := by
    intro m d hm
    by_cases e : m = n
    · rw [e, put_same] at hm; exact Or.inl ⟨e, (Option.some.inj hm).symm⟩
    · rw [put_ne _ _ e, e1] at hm; exact Or.inr ⟨e, hm⟩
  refine ⟨?_, ?_, ?_, ?_⟩
  · intro d x hx
    rcases hd.2 d x hx with rfl | ⟨g1, g2⟩
    · exact ⟨n, put_same _ _ _⟩
    · obtain ⟨m, hm⟩ := h.kept d x g1
      have : m ≠ n := by rintro rfl; exact g2 hm
      exact ⟨m, (put_ne _ _ this).trans (by rw [e1]; exact hm)⟩
  · intro m m' d hm hm'
    rcases hp m d hm with ⟨a1, a2⟩ | ⟨a1, a2⟩ <;> rcases hp m' d hm' with ⟨b1, b2⟩ | ⟨b1, b2⟩
    · exact a1.trans b1.symm
    · have := h.lt m' d b2; omega
    · have := h.lt m d a2; omega
    · exact h.inj m m' d a2 b2
  · intro m d hm
    show d < (freeData s n).length
    rw [hd.1]
    rcases hp m d hm with ⟨-, a2⟩ | ⟨-, a2⟩
    · omega
    · have := h.lt m d a2; omega
  · intro m hm
    cases hx : put s.ptrs n (some p.data.length) m with
    | none => exact absurd hx hm
    | some d =>
      rcases hp m d hx with ⟨a1, -⟩ | ⟨-, a2⟩
      · exact Or.inl a1
      · exact Or.inr (h.held m (by rw [a2]; nofun))

theorem DInv.same {held : Bytes → Prop} {p q : TclInterp} (h : DInv held p) (e1 : q.ptrs = p.ptrs) (e2 : q.data = p.data) : DInv held q :=
  ⟨by rw [e1, e2]; exact h.kept, by rw [e1]; exact h.inj, by rw [e1, e2]; exact h.lt, by rw [e1]; exact h.held⟩

/-- Every interpreter. -/
def AllD (held : Nat × Bytes → Prop) (w : Interps V H) : Prop := ∀ i p, w.interp i = some p → DInv (fun n => held (i, n)) p

theorem AllD.at {held held' : Nat × Bytes → Prop} {w w' : Interps V H} {g : Got} {i : Nat} {f : LinkSt V H → Option (LinkSt V H × Got)} (h : AllD held w)
    (hw : w.at i f = some (w', g)) (ho : ∀ j n, j ≠ i → held (j, n) → held' (j, n))
    (hf : ∀ p s, w.interp i = some p → f (w.view p) = some (s, g) → DInv (fun n => held' (i, n)) ⟨s.vars, s.ptrs, s.data⟩) : AllD held' w' := by
  unfold Interps.at at hw
  split at hw
  · cases hw
  · rename_i p hp
    split at hw
    · cases hw
    · rename_i s g' hs
      cases hw
      intro j q hq
      dsimp only [Interps.back] at hq
      by_cases e : j = i
      · subst e
        rw [put_same] at hq
        cases hq
        exact hf p s hp hs
      · rw [put_ne _ _ e] at hq
        have := h j q hq
        exact ⟨this.kept, this.inj, this.lt, fun n hn => ho j n e (this.held n hn)⟩

theorem AllD.step {tclName name1 : Bytes → Bytes} {toTcl : V → Option Bytes} {parse : Bytes → Option V} {held : Nat × Bytes → Prop} {w w' : Interps V H} {g : Got}
    (h : AllD held w) (op : WorldOp V H) (hw : runWorld tclName name1 toTcl parse w op = some (w', g)) : AllD (heldStep held op) w' := by
  cases op with
  | on op =>
    cases op with
    | link x t hook =>
      obtain ⟨i, n⟩ := x
      unfold runWorld at hw
      dsimp only at hw
      have plain : (∀ s s' : LinkSt V H, linkVarAs tclName name1 parse s n t hook = some s' → s'.ptrs = s.ptrs ∧ s'.data = s.data) → AllD held w' := fun hk =>
        h.at hw (fun _ _ _ hh => hh) fun p s hp hs => by
          cases hl : linkVarAs tclName name1 parse (w.view p) n t hook with
          | none => rw [hl] at hs; cases hs
          | some s1 =>
            rw [hl] at hs
            cases hs
            obtain ⟨e1, e2⟩ := hk _ _ hl
            exact (h i p hp).same e1 e2
      cases t with
      | var a => exact plain fun s s' hs => setupTracesAs_keeps hs
      | const a => exact plain fun s s' hs => setupTracesAs_keeps hs
      | text a => exact plain fun s s' hs => setupTracesAs_keeps hs
      | buf b size =>
        refine h.at hw (fun j m e hh => Or.inr hh) fun p s hp hs => ?_
        cases hl : linkVarAs tclName name1 parse (w.view p) n (.buf b size) hook with
        | none => rw [hl] at hs; cases hs
        | some s1 =>
          rw [hl] at hs
          cases hs
          unfold linkVarAs at hl
          dsimp only at hl
          split at hl
          · cases hl
          · rename_i s2 h2
            cases hl
            obtain ⟨e1, e2⟩ := setupTracesAs_keeps h2
            have := (h i p hp).buf s2 b size e1 e2 s2.vars n
            refine ⟨this.kept, this.inj, this.lt, fun m hm => ?_⟩
            rcases this.held m hm with rfl | g
            · exact Or.inl rfl
            · exact Or.inr g
    | unlink x =>
      obtain ⟨i, n⟩ := x
      unfold runWorld at hw
      dsimp only at hw
      refine h.at hw (fun j m e hh => ⟨fun hx => e (congrArg Prod.fst hx), hh⟩) fun p s hp hs => ?_
      cases hs
      have := (h i p hp).unlink tclName (w.view p) rfl rfl n
      refine ⟨this.kept, this.inj, this.lt, fun m hm => ?_⟩
      obtain ⟨g1, g2⟩ := this.held m hm
      exact ⟨fun hx => g1 (congrArg Prod.snd hx), g2⟩
    | read x =>
      obtain ⟨i, n⟩ := x
      unfold runWorld at hw
      dsimp only at hw
      refine h.at hw (fun _ _ _ hh => hh) fun p s hp hs => ?_
      unfold readVar at hs
      split at hs
      · cases hs; exact (h i p hp).same rfl rfl
      · split at hs
        · cases hs
        · cases hs; exact (h i p hp).same rfl rfl
    | write x y =>
      obtain ⟨i, n⟩ := x
      unfold runWorld at hw
      dsimp only at hw
      refine h.at hw (fun _ _ _ hh => hh) fun p s hp hs => ?_
      obtain ⟨e1, e2⟩ := writeVarAs_keeps hs
      exact (h i p hp).same e1 e2
    | set a v => cases hw; exact h
    | fill b x => cases hw; exact h
  | unset i n =>
    unfold runWorld at hw
    dsimp only at hw
    refine h.at hw (fun _ _ _ hh => hh) fun p s hp hs => ?_
    cases hs
    exact (h i p hp).same rfl rfl
  | create i =>
    cases hw
    intro j q hq
    dsimp only at hq
    by_cases e : j = i
    · subst e
      rw [put_same] at hq
      cases hq
      exact ⟨nofun, nofun, nofun, fun n hn => absurd rfl hn⟩
    · rw [put_ne _ _ e] at hq
      have := h j q hq
      exact ⟨this.kept, this.inj, this.lt, fun n hn => ⟨e, this.held n hn⟩⟩
  | destroy i =>
    unfold runWorld at hw
    dsimp only at hw
    unfold destroyInterps at hw
    split at hw
    · cases hw
    · cases hw
      intro j q hq
      dsimp only at hq
      by_cases e : j = i
      · subst e
        rw [put_same] at hq
        cases hq
      · rw [put_ne _ _ e] at hq
        have := h j q hq
        exact ⟨this.kept, this.inj, this.lt, fun n hn => ⟨e, this.held n hn⟩⟩

theorem AllD.steps {tclName name1 : Bytes → Bytes} {toTcl : V → Option Bytes} {parse : Bytes → Option V} : ∀ (ops : List (WorldOp V H)) {held : Nat × Bytes → Prop}
    {w w' : Interps V H} {got : List Got}, AllD held w → runWorlds tclName name1 toTcl parse w ops = some (w', got) → AllD (ops.foldl heldStep held) w'
  | [], _, _, _, _, h, e => by cases e; exact h
  | op :: ops, held, w, w', got, h, e => by
    unfold runWorlds at e
    split at e
    · cases e
    · rename_i w1 o h1
      split at e
      · cases e
      · rename_i w2 os h2
        cases e
        exact AllD.steps ops (h.step op h1) h2

/-- In every history, whatever is linked, also repeatedly: each bookkeeping object alive in an interpreter belongs to a name given for a buffer and
not taken back, and no two to the same name. -/
theorem c83_data (tclName name1 : Bytes → Bytes) (toTcl : V → Option Bytes) (parse : Bytes → Option V) (vals : Nat → V) (bufs : Nat → Bytes)
    (ops : List (WorldOp V H)) {w : Interps V H} {got : List Got} (h : runWorlds tclName name1 toTcl parse (.init vals bufs) ops = some (w, got)) (i : Nat) :
    ∃ name : Nat → Bytes, (∀ d, Alive w i d → ops.foldl heldStep (fun _ => False) (i, name d)) ∧
      ∀ d d', Alive w i d → Alive w i d' → name d = name d' → d = d' := by
  have hall : AllD (ops.foldl heldStep fun _ => False) w := AllD.steps ops (fun i p hp => by cases hp) h
  cases hp : w.interp i with
  | none => exact ⟨fun _ => [], fun d ⟨p, x, e, _⟩ => (by rw [hp] at e; cases e), fun d d' ⟨p, x, e, _⟩ => (by rw [hp] at e; cases e)⟩
  | some p =>
    have hd := hall i p hp
    have hx : ∀ d, ∃ m, Alive w i d → p.ptrs m = some d := by
      intro d
      by_cases ha : Alive w i d
      · obtain ⟨q, x, e, hx⟩ := ha
        rw [hp] at e
        cases e
        obtain ⟨m, hm⟩ := hd.kept d x hx
        exact ⟨m, fun _ => hm⟩
      · exact ⟨[], fun h => absurd h ha⟩
    refine ⟨fun d => (hx d).choose, fun d ha => ?_, fun d d' ha ha' e => ?_⟩
    · have := (hx d).choose_spec ha
      exact hd.held _ (by rw [this]; nofun)
    · have h1 := (hx d).choose_spec ha
      have h2 := (hx d').choose_spec ha'
      dsimp only at e
      rw [e, h2] at h1
      exact (Option.some.inj h1).symm

/-- So when all names given for buffers have been taken back, or their interpreters are gone, nothing is left. -/
theorem c83_data_none (tclName name1 : Bytes → Bytes) (toTcl : V → Option Bytes) (parse : Bytes → Option V) (vals : Nat → V) (bufs : Nat → Bytes)
    (ops : List (WorldOp V H)) {w : Interps V H} {got : List Got} (h : runWorlds tclName name1 toTcl parse (.init vals bufs) ops = some (w, got))
    (hnone : ∀ x, ¬ ops.foldl heldStep (fun _ => False) x) (i d : Nat) : ¬ Alive w i d := by
  obtain ⟨name, h1, _⟩ := c83_data tclName name1 toTcl parse vals bufs ops h i
  exact fun ha => hnone _ (h1 d ha)

-- Non-vacuity: two objects for two spellings of one variable, one of them left over from a link that `unlinkVar` ended under the other spelling.
example : ∃ w got, runWorlds (H := Nat) (fun n => if n = [58, 58, 121] then [121] else n) id strTo some (.init (fun _ => []) (fun _ => [0, 0]))
      [.create 0, .on (.link (0, [58, 58, 121]) (.buf 0 2) none), .on (.unlink (0, [121])), .on (.link (0, [121]) (.buf 0 1) none),
        .on (.link (0, [121]) (.buf 1 1) none)] = some (w, got) ∧
    Alive w 0 0 ∧ ¬ Alive w 0 1 ∧ Alive w 0 2 := by
  refine ⟨_, _, rfl, ⟨_, _, rfl, rfl⟩, ?_, ⟨_, _, rfl, rfl⟩⟩
  rintro ⟨p, x, e, h⟩
  cases e
  cases h

end Bdlib.Tcl
