import Verif.Cleanse
import Verif.Rca.Growth
import Verif.Rca.Witness
import Verif.Props.C02

/-!
# C59 Strings are wiped before their memory is released

`St.freed` records what every buffer held when it was given back to the allocator (newest first).
`Wiped` is the independent specification: the bytes are a function of the buffer's identity and the index
alone (`Cfg.wipe`), so they are the same whatever the string held.

Proved: the destructor, in whatever order strings are destroyed, and that copying, moving, slicing, dropping,
clearing, reading, detaching from shared storage and modifying in place release nothing.  Refuted: when a
string outgrows its buffer, and when a string is assigned to, the old buffer is released as it is.
-/

namespace Bdlib.Cleanse

/-- **C59** What `cleanse()` leaves behind, and the counter it continues with, do not depend on what the
buffer held: every byte is overwritten, for all buffers, addresses and counters. -/
theorem c59_cleanse (p : Nat) (ctr : UInt8) (a b : List UInt8) (h : a.length = b.length) :
    cleanse p ctr a = cleanse p ctr b ∧ (cleanse p ctr a).1.length = a.length :=
  ⟨cleanse_indep p ctr h, cleanse_length p ctr a⟩

/-- **C59** Nor do the bytes of any number of buffers wiped one after the other. -/
theorem c59_cleanse_all : ∀ (a b : List (Nat × List UInt8)) (ctr : UInt8),
    a.map Prod.fst = b.map Prod.fst → a.map (fun x => x.2.length) = b.map (fun x => x.2.length) →
    cleanseAll ctr a = cleanseAll ctr b
  | [], [], _, _, _ => rfl
  | (p, x) :: xs, (q, y) :: ys, ctr, h1, h2 => by
    simp only [List.map_cons, List.cons.injEq] at h1 h2
    simp only [cleanseAll]
    rw [h1.1, cleanse_indep q ctr h2.1, c59_cleanse_all xs ys _ h1.2 h2.2]
  | [], _ :: _, _, h, _ => by simp at h
  | _ :: _, [], _, h, _ => by simp at h

-- Non-vacuity: two passwords of the same length at the same address.
example : cleanse 4096 7 [115, 101, 99, 114, 101, 116] = cleanse 4096 7 [104, 117, 110, 116, 101, 114] :=
  (c59_cleanse 4096 7 _ _ rfl).1
example : (cleanse 4096 7 [115, 101, 99, 114, 101, 116]).1 = [7, 25, 44, 64, 85, 107] := by decide

end Bdlib.Cleanse

namespace Bdlib.Rca
open Bdlib Bdlib.Spec St

variable {T : Type} {cfg : Cfg T}

/-- The bytes tell nothing about what was stored: they only depend on the buffer and on how long it is. -/
def Wiped (cfg : Cfg T) (cells : List T) : Prop := ∃ g n, cells = (List.range n).map (cfg.wipe g)

/-- Destroying the last reference. -/
theorem destroy_last_eq (hs : cfg.nul.isSome) {s : St T} {o a : Nat} {ob : Obj} {b : Block T} (ho : s.obj o = some ob)
    (hr : ob.ref = some a) (hb : s.blk a = some b) (h1 : b.refs = 1) :
    ∃ s', destroy cfg o s = .ok () s' ∧
      s'.freed = (List.range b.cells.length).map (cfg.wipe b.gen) :: s.freed ∧ s'.blk a = none := by
  have hlt := blk_lt hb
  unfold destroy dtorBody
  rw [if_pos hs]
  unfold cleanse
  simp only [bind_assoc']
  rw [bind_ok (getObj_eq ho), hr]
  show ∃ s', ((getBlk a >>= _) >>= _) s = _ ∧ _
  simp only [bind_assoc']
  rw [bind_ok (by unfold getBlk; rw [hb] : getBlk a s = .ok b s), if_pos h1]
  rw [bind_ok (by rfl : putBlk a _ s = .ok () _)]
  unfold checkDeallocRef
  simp only [bind_assoc']
  rw [bind_ok (getObj_eq (by rw [obj_setBlk]; exact ho)), hr]
  unfold decRef
  show ∃ s', (((getBlk a >>= _) >>= _) >>= _) _ = _ ∧ _
  simp only [bind_assoc']
  rw [bind_ok (by unfold getBlk; rw [blk_setBlk_self _ hlt] : getBlk a _ = .ok _ _)]
  rw [bind_ok (by rfl : putBlk a _ _ = .ok () _)]
  rw [bind_ok (by unfold getBlk; rw [blk_setBlk_self _ (by simpa [St.setBlk] using hlt)] : getBlk a _ = .ok _ _)]
  rw [if_pos (by simp [h1])]
  simp only [bind_assoc']
  rw [bind_ok (by rfl : freeBuf _ _ = .ok () _)]
  refine ⟨_, rfl, rfl, ?_⟩
  simp [St.blk, St.setBlk, St.setObj, hlt]

/-- Destroying an object while others still use its storage, or that has none. -/
theorem destroy_other_eq {s : St T} {o : Nat} {ob : Obj} (ho : s.obj o = some ob)
    (h : ob.ref = none ∨ ∃ a b, ob.ref = some a ∧ s.blk a = some b ∧ b.refs > 1) :
    ∃ s', destroy cfg o s = .ok () s' ∧ s'.freed = s.freed := by
  rcases h with hr | ⟨a, b, hr, hb, h1⟩
  · refine ⟨s.setObj o none, ?_, rfl⟩
    unfold destroy
    have hd : dtorBody cfg o s = .ok () s := by
      unfold dtorBody
      split
      · unfold cleanse
        rw [bind_ok (getObj_eq ho), hr]; rfl
      · rfl
    rw [bind_ok hd]
    have hc : checkDeallocRef o s = .ok () s := by
      unfold checkDeallocRef
      rw [bind_ok (getObj_eq ho), hr]; rfl
    rw [bind_ok hc]; rfl
  · have hlt := blk_lt hb
    refine ⟨(s.setBlk a (some { b with refs := b.refs - 1 })).setObj o none, ?_, rfl⟩
    unfold destroy
    have hd : dtorBody cfg o s = .ok () s := by
      unfold dtorBody
      split
      · unfold cleanse
        rw [bind_ok (getObj_eq ho), hr]
        show (getBlk a >>= _) s = _
        rw [bind_ok (by unfold getBlk; rw [hb] : getBlk a s = .ok b s), if_neg (by omega)]; rfl
      · rfl
    rw [bind_ok hd]
    have hc : checkDeallocRef o s = .ok () (s.setBlk a (some { b with refs := b.refs - 1 })) := by
      unfold checkDeallocRef decRef
      rw [bind_ok (getObj_eq ho), hr]
      show ((getBlk a >>= _) >>= _) s = _
      simp only [bind_assoc']
      rw [bind_ok (by unfold getBlk; rw [hb] : getBlk a s = .ok b s)]
      rw [bind_ok (by rfl : putBlk a _ _ = .ok () _)]
      rw [bind_ok (by unfold getBlk; rw [blk_setBlk_self _ hlt] : getBlk a _ = .ok _ _)]
      rw [if_neg (by dsimp only; omega)]; rfl
    rw [bind_ok hc]; rfl

theorem refs_cases {s : St T} (hwf : WF cfg s) {o : Nat} {ob : Obj} (ho : s.obj o = some ob) :
    (ob.ref = none ∨ ∃ a b, ob.ref = some a ∧ s.blk a = some b ∧ b.refs > 1) ∨
    (∃ a b, ob.ref = some a ∧ s.blk a = some b ∧ b.refs = 1) := by
  cases hr : ob.ref with
  | none => exact Or.inl (Or.inl rfl)
  | some a =>
    obtain ⟨b, hb, _⟩ := hwf.bounds o ob a ho hr
    have := hwf.refs a b hb
    by_cases h1 : b.refs = 1
    · exact Or.inr ⟨a, b, rfl, hb, h1⟩
    · exact Or.inl (Or.inr ⟨a, b, rfl, hb, by omega⟩)

/-- **C59** When the last String using a buffer is destroyed, exactly that buffer is released, and its
bytes only depend on which buffer it is and how long it is. -/
theorem c59_destroy_partial [DecidableEq T] (hs : cfg.nul.isSome) (hv : cfg.Valid) (hp : cfg.Physical) {s : St T} {env : Env T}
    (h : Reach cfg s env) {o a : Nat} {b : Block T} (hst : storage s o = some a) (hb : s.blk a = some b)
    (hlast : sharers s o = [o]) :
    ∃ s', destroy cfg o s = .ok () s' ∧
      s'.freed = (List.range b.cells.length).map (cfg.wipe b.gen) :: s.freed ∧ s'.blk a = none := by
  obtain ⟨hwf, _, _⟩ := h.inv hv hp
  obtain ⟨ob, ho, hr⟩ := obj_of_storage hst
  refine destroy_last_eq hs ho hr hb ?_
  have := (hwf.refs a b hb).1
  rw [owners_eq, ← hst] at this
  unfold sharers at hlast
  rw [hlast] at this
  simpa using this

/-- Destroy the objects of a list one after the other. -/
def destroyAll (cfg : Cfg T) : List Nat → M T Unit
  | [] => pure ()
  | o :: os => do
    destroy cfg o
    destroyAll cfg os

theorem destroyAll_wf (hs : cfg.nul.isSome) : ∀ (os : List Nat) {s : St T}, WF cfg s → os.Nodup →
    (∀ o ∈ os, ∃ ob, s.obj o = some ob) →
    ∃ s' l, destroyAll cfg os s = .ok () s' ∧ s'.freed = l ++ s.freed ∧ ∀ c ∈ l, Wiped cfg c
  | [], s, _, _, _ => ⟨s, [], rfl, rfl, by simp⟩
  | o :: os, s, hwf, hnd, hl => by
    obtain ⟨ob, ho⟩ := hl o (by simp)
    have hspec := destroy_spec hwf ho
    have hone : ∃ s1 l, destroy cfg o s = .ok () s1 ∧ s1.freed = l ++ s.freed ∧ ∀ c ∈ l, Wiped cfg c := by
      rcases refs_cases hwf ho with h | ⟨a, b, hr, hb, h1⟩
      · obtain ⟨s1, e1, e2⟩ := destroy_other_eq (cfg := cfg) ho h
        exact ⟨s1, [], e1, e2, by simp⟩
      · obtain ⟨s1, e1, e2, _⟩ := destroy_last_eq hs ho hr hb h1
        exact ⟨s1, [_], e1, e2, by rintro c hc; simp at hc; exact ⟨b.gen, b.cells.length, hc⟩⟩
    obtain ⟨s1, l1, e1, e2, e3⟩ := hone
    rw [e1] at hspec
    obtain ⟨hwf1, hfr, _, _⟩ := hspec
    rw [List.nodup_cons] at hnd
    obtain ⟨s2, l2, f1, f2, f3⟩ := destroyAll_wf hs os hwf1 hnd.2 fun p hp => by
      rw [(hfr p (by rintro rfl; exact hnd.1 hp)).1]
      exact hl p (by simp [hp])
    refine ⟨s2, l2 ++ l1, ?_, by rw [f2, e2, List.append_assoc], ?_⟩
    · unfold destroyAll
      rw [bind_ok e1, f1]
    · intro c hc
      rcases List.mem_append.mp hc with h | h
      · exact f3 c h
      · exact e3 c h

/-- **C59** Whatever Strings a program holds, however they share storage, and in whatever order they are
destroyed: every buffer this releases is wiped. -/
theorem c59_scope_partial [DecidableEq T] (hs : cfg.nul.isSome) (hv : cfg.Valid) (hp : cfg.Physical) {s : St T}
    {env : Env T} (h : Reach cfg s env) (os : List Nat) (hnd : os.Nodup) (hl : ∀ o ∈ os, env.Live o) :
    ∃ s' l, destroyAll cfg os s = .ok () s' ∧ s'.freed = l ++ s.freed ∧ ∀ c ∈ l, Wiped cfg c := by
  obtain ⟨hwf, _, hA⟩ := h.inv hv hp
  exact destroyAll_wf hs os hwf hnd fun o ho => hA.obj (hl o ho)

/-! ## Calls that release nothing -/

/-- However the call ends, nothing was given back to the allocator. -/
def Quiet {α : Type} (m : M T α) : Prop := ∀ s,
  match m s with
  | .ok _ s' => s'.freed = s.freed
  | .throw _ s' => s'.freed = s.freed
  | .ub => True

section
variable {α β : Type}

theorem Quiet.bind {m : M T α} {f : α → M T β} (h1 : Quiet m) (h2 : ∀ a, Quiet (f a)) : Quiet (m >>= f) := by
  intro s
  show match M.bind m f s with | .ok _ s' => s'.freed = s.freed | .throw _ s' => s'.freed = s.freed | .ub => True
  unfold M.bind
  have h := h1 s
  cases hm : m s with
  | ok a s1 =>
    rw [hm] at h
    have h' := h2 a s1
    show match f a s1 with | .ok _ s' => s'.freed = s.freed | .throw _ s' => s'.freed = s.freed | .ub => True
    cases hf : f a s1 with
    | ok b s2 => rw [hf] at h'; exact h'.trans h
    | throw e s2 => rw [hf] at h'; exact h'.trans h
    | ub => trivial
  | throw e s' => rw [hm] at h; exact h
  | ub => trivial

theorem Quiet.pure (a : α) : Quiet (Pure.pure a : M T α) := fun _ => rfl
theorem Quiet.raise (e : Exc) : Quiet (M.raise e : M T α) := fun _ => rfl
theorem Quiet.undef : Quiet (M.undef : M T α) := fun _ => trivial
theorem Quiet.ite {c : Prop} [Decidable c] {m1 m2 : M T α} (h1 : Quiet m1) (h2 : Quiet m2) :
    Quiet (if c then m1 else m2) := by
  split <;> assumption
theorem Quiet.getObj (o : Nat) : Quiet (getObj o : M T Obj) := by
  intro s; unfold Bdlib.getObj; cases s.obj o <;> trivial
theorem Quiet.getBlk (a : Nat) : Quiet (getBlk a : M T (Block T)) := by
  intro s; unfold Bdlib.getBlk; cases s.blk a <;> trivial
theorem Quiet.putObj (o : Nat) (ob : Obj) : Quiet (putObj o ob : M T Unit) := fun _ => rfl
theorem Quiet.putBlk (a : Nat) (b : Block T) : Quiet (putBlk a b) := fun _ => rfl
theorem Quiet.newObj (ob : Obj) : Quiet (newObj ob : M T Nat) := fun _ => rfl

theorem Quiet.readRange (o i n : Nat) : Quiet (readRange o i n : M T (List T)) :=
  .bind (.getObj o) fun ob => .ite (.pure _) (by
    cases ob.ref with
    | none => exact .undef
    | some a => exact .bind (.getBlk a) fun b => .ite (.pure _) .undef)

theorem Quiet.writeRange (o i : Nat) (vs : List T) : Quiet (writeRange o i vs) :=
  .bind (.getObj o) fun ob => .ite (.pure _) (by
    cases ob.ref with
    | none => exact .undef
    | some a => exact .bind (.getBlk a) fun b => .ite (.putBlk _ _) .undef)

theorem Quiet.isShared (o : Nat) : Quiet (isShared o : M T Bool) :=
  .bind (.getObj o) fun ob => by
    cases ob.ref with
    | none => exact .pure _
    | some a => exact .bind (.getBlk a) fun b => .pure _

theorem Quiet.length (o : Nat) : Quiet (length o : M T Nat) := .bind (.getObj o) fun _ => .pure _

theorem Quiet.incRef (r : Option Nat) : Quiet (incRef r : M T Unit) := by
  cases r with
  | none => exact .pure _
  | some a => exact .bind (.getBlk a) fun b => .putBlk _ _

theorem Quiet.decRef (r : Option Nat) : Quiet (decRef r : M T Unit) := by
  cases r with
  | none => exact .pure _
  | some a => exact .bind (.getBlk a) fun b => .putBlk _ _

theorem Quiet.doDetach (o : Nat) : Quiet (doDetach o : M T Unit) :=
  .bind (.getObj o) fun _ => .bind (.decRef _) fun _ => .putObj _ _

theorem Quiet.clear (o : Nat) : Quiet (clear o : M T Unit) :=
  .bind (.isShared o) fun _ => .ite (.doDetach o) (.bind (.getObj o) fun _ => .putObj _ _)

theorem Quiet.copyCtor (r : Nat) : Quiet (copyCtor r : M T Nat) :=
  .bind (.getObj r) fun _ => .bind (.newObj _) fun _ => .bind (.incRef _) fun _ => .pure _

theorem Quiet.moveCtor (r : Nat) : Quiet (moveCtor cfg r) :=
  .bind (.getObj r) fun _ => .bind (.newObj _) fun _ => .bind (.putObj _ _) fun _ => .pure _

theorem Quiet.swap (o r : Nat) : Quiet (swap o r : M T Unit) :=
  .bind (.getObj o) fun _ => .bind (.getObj r) fun _ => .bind (.putObj _ _) fun _ => .putObj _ _

theorem Quiet.slice (o : Nat) (start len : Int) : Quiet (slice o start len : M T Unit) :=
  .bind (.getObj o) fun _ => .ite (.putObj _ _) (.ite .undef (.putObj _ _))

theorem Quiet.substring (o : Nat) (start len : Int) : Quiet (substring o start len : M T Nat) :=
  .bind (.copyCtor _) fun _ => .bind (.slice _ _ _) fun _ => .pure _

theorem Quiet.validateIndex (o i : Nat) : Quiet (validateIndex o i : M T Unit) :=
  .bind (.length o) fun _ => .ite (.raise _) (.pure _)

theorem Quiet.validatePos (o i : Nat) : Quiet (validatePos o i : M T Unit) := .ite (.validateIndex _ _) (.pure _)

theorem Quiet.read (o i : Nat) : Quiet (read o i : M T (Option T)) := .bind (.readRange _ _ _) fun _ => .pure _

theorem Quiet.at' (o i : Nat) : Quiet (at' o i : M T (Option T)) := .bind (.validateIndex _ _) fun _ => .read _ _

theorem Quiet.hash (o : Nat) : Quiet (hash cfg o) :=
  .bind (.getObj o) fun _ => .ite (.pure _) (.bind (.readRange _ _ _) fun _ => .bind (.putObj _ _) fun _ => .pure _)

theorem Quiet.popBack (o : Nat) : Quiet (popBack o : M T Unit) := .bind (.getObj o) fun _ => .putObj _ _

theorem Quiet.dropFront (o n : Nat) : Quiet (dropFront o n : M T Unit) :=
  .bind (.getObj o) fun _ => .ite (.pure _) (.ite (.putObj _ _) (.putObj _ _))

theorem Quiet.dropBack (o n : Nat) : Quiet (dropBack o n : M T Unit) :=
  .bind (.getObj o) fun _ => .ite (.pure _) (.ite (.putObj _ _) (.putObj _ _))

theorem Quiet.shiftRight (o pos k : Nat) : Quiet (shiftRight o pos k : M T Unit) :=
  .bind (.getObj o) fun _ => .bind (.readRange _ _ _) fun _ => .writeRange _ _ _

theorem Quiet.bumpLength (o k : Nat) : Quiet (bumpLength o k : M T Unit) := .bind (.getObj o) fun _ => .putObj _ _

end

/-- Calls that only look, copy, move, share, slice, drop or clear. -/
def Gentle : Op T → Prop
  | .ctor | .copyCtor _ | .moveCtor _ | .substring _ _ _ | .swap _ _ | .clear _ | .length _ | .read _ _ | .at _ _
  | .hash _ | .slice _ _ _ | .popBack _ | .dropFront _ _ | .dropBack _ _ => True
  | _ => False

theorem Quiet.mapOut {α : Type} {m : M T α} {f : α → Out T} (h : Quiet m) : Quiet (mapOut m f) :=
  .bind h fun _ => .pure _

/-- **C59** Copying, moving, sharing, slicing, dropping, clearing and reading release nothing, in any state. -/
theorem c59_gentle_partial [DecidableEq T] (op : Op T) (h : Gentle op) : Quiet (run cfg op) := by
  cases op with
  | ctor => exact .mapOut (.newObj _)
  | copyCtor r => exact .mapOut (.copyCtor _)
  | moveCtor r => exact .mapOut (.moveCtor _)
  | substring r a b => exact .mapOut (.substring _ _ _)
  | swap o r => exact .mapOut (.swap _ _)
  | clear o => exact .mapOut (.clear _)
  | length o => exact .mapOut (.length _)
  | read o i => exact .mapOut (.read _ _)
  | «at» o i => exact .mapOut (.at' _ _)
  | hash o => exact .mapOut (.hash _)
  | slice o a b => exact .mapOut (.slice _ _ _)
  | popBack o => exact .mapOut (.popBack _)
  | dropFront o n => exact .mapOut (.dropFront _ _)
  | dropBack o n => exact .mapOut (.dropBack _ _)
  | _ => exact h.elim

/-! ## Modifying in place, and detaching from shared storage -/

/-- What was released is still `l`, however the call ended. -/
def Keeps {α : Type} (l : List (List T)) (r : Res T α) : Prop :=
  match r with
  | .ok _ s' => s'.freed = l
  | .throw _ s' => s'.freed = l
  | .ub => True

theorem Quiet.keeps {α : Type} {m : M T α} (h : Quiet m) {s : St T} {l : List (List T)} (hl : s.freed = l) : Keeps l (m s) := by
  have := h s
  subst hl
  unfold Keeps
  cases hm : m s with
  | ok a s' => rw [hm] at this; exact this
  | throw e s' => rw [hm] at this; exact this
  | ub => trivial

/-- First part tells where we are when it returns, and keeps; the rest is quiet. -/
theorem keeps_bind {α β : Type} {m : M T α} {f : α → M T β} {s : St T} {l : List (List T)} (h : Keeps l (m s))
    (hf : ∀ a s', m s = .ok a s' → s'.freed = l → Keeps l (f a s')) : Keeps l ((m >>= f) s) := by
  show Keeps l (M.bind m f s)
  unfold M.bind
  cases hm : m s with
  | ok a s' => rw [hm] at h; exact hf a s' hm h
  | throw e s' => rw [hm] at h; exact h
  | ub => trivial

theorem keeps_tail {α β : Type} {m : M T α} {f : α → M T β} {s : St T} {l : List (List T)} (h : Keeps l (m s))
    (hf : ∀ a, Quiet (f a)) : Keeps l ((m >>= f) s) := keeps_bind h fun a _ _ hl => (hf a).keeps hl

theorem Quiet.alloc (n : Nat) : Quiet (alloc cfg n) := by
  intro s
  unfold Bdlib.alloc
  dsimp only
  by_cases h : cfg.allocOk (s.gen + 1) n
  · rw [if_pos h]
  · rw [if_neg h]

theorem arefReserve_keeps {a N : Nat} {scale : Nat → Nat} {off len : Nat} {s : St T} {b : Block T} (hb : s.blk a = some b)
    (h : N ≤ b.cells.length ∨ b.cells.length = 0) : Keeps s.freed (arefReserve cfg a N scale off len s) := by
  unfold arefReserve
  rw [bind_ok (by unfold getBlk; rw [hb] : getBlk a s = .ok b s)]
  dsimp only
  split
  · have h0 : b.cells.length = 0 := by omega
    refine (Quiet.bind (.alloc _) fun g => ?_).keeps rfl
    rw [if_pos h0]
    exact .bind (.putBlk _ _) fun _ => .pure _
  · exact (Quiet.ite (.ite (.bind (.putBlk _ _) fun _ => .pure _) .undef) (.pure _)).keeps rfl

/-- The object's storage does not have to grow for `N` cells. -/
def Fits (s : St T) (o N : Nat) : Prop :=
  ∀ ob a b, s.obj o = some ob → ob.ref = some a → s.blk a = some b → N ≤ b.cells.length

theorem rcaReserve_keeps {o N : Nat} {scale : Nat → Nat} {s : St T} (h : Fits s o N) :
    Keeps s.freed (rcaReserve cfg o N scale s) := by
  unfold rcaReserve
  refine keeps_bind ((Quiet.getObj o).keeps rfl) fun ob s1 h1 hl => ?_
  cases ho : s.obj o with
  | none => unfold Bdlib.getObj at h1; rw [ho] at h1; cases h1
  | some ob' =>
    rw [getObj_eq ho] at h1
    cases h1
    have htail : ∀ off, Quiet (Bdlib.getObj o >>= fun ob => Bdlib.putObj o { ob with offset := off } : M T Unit) :=
      fun off => .bind (.getObj o) fun _ => .putObj _ _
    cases hr : ob.ref with
    | some a =>
      dsimp only
      rw [pure_bind']
      cases hb : s.blk a with
      | none =>
        unfold arefReserve
        show Keeps _ (M.bind (M.bind (Bdlib.getBlk a) _) _ s)
        unfold M.bind Bdlib.getBlk
        rw [hb]
        trivial
      | some b => exact keeps_tail (arefReserve_keeps hb (Or.inl (h _ _ _ ho hr hb))) htail
    | none =>
      dsimp only
      refine keeps_bind ((Quiet.bind (.alloc _) fun _ => fun _ => rfl).keeps rfl) fun a s2 h2 hl2 => ?_
      have hb : s2.blk a = some { gen := 0, cells := [], refs := 1 } := by
        unfold newRef at h2
        change M.bind (Bdlib.alloc cfg 1) _ s = _ at h2
        unfold M.bind Bdlib.alloc at h2
        dsimp only at h2
        by_cases hal : cfg.allocOk (s.gen + 1) 1
        · rw [if_pos hal] at h2
          cases h2
          simp [St.blk]
        · rw [if_neg hal] at h2
          cases h2
      rw [bind_ok (by rfl : putObj o _ s2 = .ok () _), pure_bind', ← hl2]
      exact keeps_tail (arefReserve_keeps (s := s2.setObj o _) hb (Or.inr rfl)) htail

theorem reserve_keeps {o n : Nat} {scale : Nat → Nat} {s : St T} (h : Fits s o (room cfg n)) :
    Keeps s.freed (reserve cfg o n scale s) := by
  unfold reserve
  unfold room at h
  cases hc : cfg.nul with
  | none => rw [hc] at h; simp at h; exact rcaReserve_keeps h
  | some c =>
    rw [hc] at h
    simp only [Option.isSome_some, true_and] at h
    show Keeps _ (strReserve cfg c o n scale s)
    unfold strReserve
    refine keeps_tail (rcaReserve_keeps h) fun _ => .bind (.getObj o) fun ob => ?_
    cases ob.ref with
    | none => exact .undef
    | some a => exact .bind (.getBlk a) fun b => .ite (.ite (.pure _) .undef) (.putBlk _ _)

theorem cow_keeps {o n : Nat} {s : St T} : Keeps s.freed (cow cfg o n s) := by
  unfold cow
  refine keeps_bind ((Quiet.getObj o).keeps rfl) fun ob s1 h1 hl => ?_
  cases ho : s.obj o with
  | none => unfold Bdlib.getObj at h1; rw [ho] at h1; cases h1
  | some ob' =>
    rw [getObj_eq ho] at h1
    cases h1
    refine keeps_bind ((Quiet.doDetach o).keeps rfl) fun _ s2 h2 hl2 => ?_
    have hfit : Fits s2 o (room cfg n) := by
      intro ob2 a b e1 e2 _
      have : (doDetach o s).Ok fun _ s' => s'.obj o = some {} := by
        unfold doDetach
        apply ok_getObj
        intro ob3 _
        apply ok_bind
        have hdec : (decRef ob3.ref s).Ok fun _ s' => s'.objs = s.objs := by
          unfold decRef
          cases hr : ob3.ref with
          | none => rfl
          | some a =>
            apply ok_getBlk
            intro b _
            rfl
        refine ok_mono hdec fun _ s' h' => ?_
        exact obj_setObj_self _ (by rw [h']; exact obj_lt ho)
      rw [h2] at this
      have this : s2.obj o = some {} := this
      rw [this] at e1
      cases e1
      cases e2
    rw [← hl2]
    refine keeps_tail (reserve_keeps hfit) fun _ => .bind (.getObj o) fun _ => .bind (.putObj _ _) fun _ =>
      .ite (.pure _) ?_
    cases ob.ref with
    | none => exact .undef
    | some a => exact .bind (.getBlk a) fun b => .ite (.writeRange _ _ _) .undef

/-- Object `o` can be modified to hold `n` elements without giving up a buffer it alone uses: others use it
too, or it is large enough. -/
def InPlace (cfg : Cfg T) (s : St T) (o n : Nat) : Prop :=
  isShared o s = .ok true s ∨ Fits s o (room cfg n)

theorem isShared_setHash {s : St T} {o : Nat} {ob : Obj} (ho : s.obj o = some ob) {r : Bool}
    (h : isShared o s = .ok r s) : ∀ s1, s1 = s.setObj o (some { ob with hash := 0 }) → isShared o s1 = .ok r s1 := by
  rintro s1 rfl
  unfold isShared at h ⊢
  rw [bind_ok (getObj_eq ho)] at h
  rw [bind_ok (getObj_eq (obj_setObj_self _ (obj_lt ho)))]
  dsimp only
  cases hr : ob.ref with
  | none => rw [hr] at h; cases h; rfl
  | some a =>
    rw [hr] at h
    dsimp only at h ⊢
    cases hb : s.blk a with
    | none =>
      change M.bind (Bdlib.getBlk a) _ s = _ at h
      unfold M.bind Bdlib.getBlk at h
      rw [hb] at h; cases h
    | some b =>
      rw [bind_ok (by unfold Bdlib.getBlk; rw [hb] : Bdlib.getBlk a s = .ok b s)] at h
      rw [bind_ok (by unfold Bdlib.getBlk; rw [blk_setObj, hb] : Bdlib.getBlk a (s.setObj o _) = .ok b _)]
      cases h
      rfl

theorem aboutToModify_keeps {o n : Nat} {s : St T} (h : InPlace cfg s o n) :
    Keeps s.freed (aboutToModify cfg o n s) := by
  unfold aboutToModify
  refine keeps_bind ((Quiet.getObj o).keeps rfl) fun ob s1 h1 hl => ?_
  cases ho : s.obj o with
  | none => unfold Bdlib.getObj at h1; rw [ho] at h1; cases h1
  | some ob' =>
    rw [getObj_eq ho] at h1
    cases h1
    rw [bind_ok (by rfl : putObj o _ s = .ok () _)]
    refine keeps_bind ((Quiet.isShared o).keeps rfl) fun sh s2 h2 hl2 => ?_
    have hs2 : s2 = s.setObj o (some { ob with hash := 0 }) := by
      have := isShared_ok (f := fun _ => (pure () : M T Unit)) (o := o) (s := s.setObj o (some { ob with hash := 0 }))
        (Q := fun _ s' => s' = s.setObj o (some { ob with hash := 0 })) (fun b _ => rfl)
      change Res.Ok (M.bind _ _ _) _ at this
      unfold M.bind at this
      rw [h2] at this
      exact this
    have hk : s2.freed = s.freed := hl2
    rw [← hk]
    split
    · exact cow_keeps
    · rename_i hsh
      apply reserve_keeps
      rcases h with h | h
      · have := isShared_setHash ho h _ rfl
        rw [h2] at this
        cases this
        simp at hsh
      · intro ob2 a b e1 e2 e3
        rw [hs2, obj_setObj_self _ (obj_lt ho)] at e1
        cases e1
        rw [hs2, blk_setObj] at e3
        exact h ob a b ho e2 e3

/-- **C59** Appending, inserting, overwriting and writing an element release nothing as long as the string does
not outgrow a buffer of its own. -/
theorem c59_in_place_partial {s : St T} {o : Nat} {v : List T} (hview : s.view o = some v) (pos : Nat) (x : T) :
    (InPlace cfg s o (v.length + 1) → Keeps s.freed (append cfg o x s)) ∧
    (InPlace cfg s o (v.length + 1) → Keeps s.freed (insertItem cfg o pos x s)) ∧
    (InPlace cfg s o v.length → Keeps s.freed (replaceItem cfg o pos x s)) ∧
    (InPlace cfg s o v.length → Keeps s.freed (write cfg o pos x s)) := by
  have hins : ∀ pos, InPlace cfg s o (v.length + 1) → Keeps s.freed (insertItem cfg o pos x s) := by
    intro pos h
    unfold insertItem
    refine keeps_bind ((Quiet.validatePos o pos).keeps rfl) fun _ s1 h1 hl => ?_
    have e : s1 = s := by
      by_cases hp : pos ≤ v.length
      · rw [validatePos_ok hview hp] at h1; cases h1; rfl
      · rw [validatePos_throw hview (by omega)] at h1; cases h1
    subst e
    rw [bind_ok (length_spec hview)]
    exact keeps_tail (aboutToModify_keeps h) fun _ => .bind (.shiftRight _ _ _) fun _ =>
      .bind (.writeRange _ _ _) fun _ => .bumpLength _ _
  refine ⟨?_, hins pos, ?_, ?_⟩
  · intro h
    unfold append
    rw [bind_ok (length_spec hview)]
    exact hins _ h
  · intro h
    unfold replaceItem getOwnCopy
    refine keeps_bind ((Quiet.validatePos o pos).keeps rfl) fun _ s1 h1 hl => ?_
    have e : s1 = s := by
      by_cases hp : pos ≤ v.length
      · rw [validatePos_ok hview hp] at h1; cases h1; rfl
      · rw [validatePos_throw hview (by omega)] at h1; cases h1
    subst e
    simp only [bind_assoc']
    rw [bind_ok (length_spec hview)]
    exact keeps_tail (aboutToModify_keeps h) fun _ => .writeRange _ _ _
  · intro h
    unfold write getOwnCopy
    simp only [bind_assoc']
    rw [bind_ok (length_spec hview)]
    exact keeps_tail (aboutToModify_keeps h) fun _ => .writeRange _ _ _

/-! ## What is refuted, and witnesses -/

/-- A password `5 6 7` in a String, and a second String `1`. -/
def stPw : St Nat := (exec strCfg {} [.strCtor [5, 6, 7], .strCtor [1]]).getD {}
def envPw : Env Nat := (Env.empty.upd 0 (.val [5, 6, 7])).upd 1 (.val [1])

theorem reachPw : Reach strCfg stPw envPw := by
  have h1 : Reach strCfg ((exec strCfg {} [.strCtor [5, 6, 7]]).getD {}) (Env.empty.upd 0 (.val [5, 6, 7])) :=
    Reach.next strCfg_valid strCfg_physical .init (op := .strCtor [5, 6, 7]) (x := .obj 0) rfl rfl (fun h => h)
      (Or.inl ⟨0, rfl, rfl, rfl⟩)
  exact Reach.next strCfg_valid strCfg_physical h1 (op := .strCtor [1]) (x := .obj 1) rfl rfl (fun h => h)
    (Or.inl ⟨1, rfl, rfl, rfl⟩)

/-- The full claim for one call: everything it releases is wiped. -/
def ReleasesWiped (cfg : Cfg T) (s : St T) (r : Res T (Out T)) : Prop :=
  match r with
  | .ok _ s' => ∃ l, s'.freed = l ++ s.freed ∧ ∀ c ∈ l, Wiped cfg c
  | .throw _ s' => ∃ l, s'.freed = l ++ s.freed ∧ ∀ c ∈ l, Wiped cfg c
  | .ub => True

theorem not_wiped : ¬ Wiped strCfg [5, 6, 7, 0] := by
  rintro ⟨g, n, h⟩
  have hn : n = 4 := by simpa using (congrArg List.length h).symm
  subst hn
  exact absurd h (by simp [strCfg, arrCfg]; decide)

/-- **C59 refuted** A String that outgrows its buffer releases the old one with its contents. -/
theorem c59_refuted_growth : ∃ s' : St Nat, run strCfg (.append 0 9) stPw = .ok .unit s' ∧
    s'.freed = [5, 6, 7, 0] :: stPw.freed ∧ ¬ ReleasesWiped strCfg stPw (run strCfg (.append 0 9) stPw) := by
  refine ⟨_, rfl, rfl, ?_⟩
  rintro ⟨l, h1, h2⟩
  refine not_wiped (h2 _ ?_)
  have h0 : stPw.freed = [] := rfl
  rw [h0, List.append_nil] at h1
  rw [← h1]
  exact List.mem_cons_self

/-- **C59 refuted** Assigning another String releases the old buffer with its contents. -/
theorem c59_refuted_assign : ∃ s' : St Nat, run strCfg (.copyAssign 0 1) stPw = .ok .unit s' ∧
    s'.freed = [5, 6, 7, 0] :: stPw.freed := ⟨_, rfl, rfl⟩

/-- **C59 refuted** So does move-assigning. -/
theorem c59_refuted_move : ∃ s' : St Nat, run strCfg (.moveAssign 0 1) stPw = .ok .unit s' ∧
    s'.freed = [5, 6, 7, 0] :: stPw.freed := ⟨_, rfl, rfl⟩

/-- **C59 refuted** So does assigning a C string, the natural way to erase a password. -/
theorem c59_refuted_cstr : ∃ s' : St Nat, run strCfg (.assignCstr 0 []) stPw = .ok .unit s' ∧
    s'.freed = [5, 6, 7, 0] :: stPw.freed := ⟨_, rfl, rfl⟩

-- Non-vacuity.
example : ∃ s' : St Nat, destroy strCfg 0 stPw = .ok () s' ∧ s'.freed = (List.range 4).map (strCfg.wipe 2) :: stPw.freed ∧
    s'.blk 0 = none :=
  c59_destroy_partial (b := { gen := 2, cells := [5, 6, 7, 0], refs := 1 }) rfl strCfg_valid strCfg_physical reachPw rfl rfl
    (by decide)
example : ∃ s' l, destroyAll strCfg [1, 0] stPw = .ok () s' ∧ s'.freed = l ++ stPw.freed ∧ ∀ c ∈ l, Wiped strCfg c :=
  c59_scope_partial rfl strCfg_valid strCfg_physical reachPw [1, 0] (by decide) (by
    intro o ho
    simp at ho
    rcases ho with rfl | rfl
    · exact nofun
    · exact nofun)
example : InPlace strCfg stPw 0 3 := Or.inr (by
  intro ob a b h1 h2 h3
  have : ob = { ref := some 0, offset := 0, sublen := 3, hash := 0 } := by
    have h : stPw.obj 0 = some { ref := some 0, offset := 0, sublen := 3, hash := 0 } := rfl
    rw [h] at h1; exact (Option.some.inj h1).symm
  subst this
  cases h2
  have h : stPw.blk 0 = some { gen := 2, cells := [5, 6, 7, 0], refs := 1 } := rfl
  rw [h] at h3
  cases h3
  decide)

end Bdlib.Rca
