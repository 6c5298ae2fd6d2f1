import Verif.Rca.Ctors
import Verif.Spec.Values

/-!
# Properties of calls that follow from their elementary steps

A `Law` is a relation between states that holds for the elementary steps (object update, block update,
allocation); then it holds for every operation.  Two instances:

* buffer sizes: `std::allocator` refuses requests of `2^63` elements or more, so every buffer is shorter.
  This is what makes the unbounded `Nat` sums of the model faithful: no `offset + length` wraps;
* `bad_alloc` leaves a call only if an allocation attempted in it was refused.
-/

namespace Bdlib.Rca
open Bdlib Bdlib.Spec

variable {T α β : Type} {cfg : Cfg T} {ok : Nat → Nat → Bool}

/-- The ways a live block changes: cells and count in place, or a longer buffer from the allocator. -/
def BlkStep (ok : Nat → Nat → Bool) (b b' : Block T) : Prop :=
  (b'.gen = b.gen ∧ b'.cells.length = b.cells.length) ∨
  (b.cells.length < b'.cells.length ∧ ok b'.gen b'.cells.length = true)

/-- A property of state changes that is checked on the elementary steps: `R` relates the states before
and after a call that returned, `E` those of a call that threw. -/
structure Law (T : Type) (ok : Nat → Nat → Bool) where
  R : St T → St T → Prop
  E : Exc → St T → St T → Prop
  refl : ∀ s, R s s
  trans : ∀ s s1 s2, R s s1 → R s1 s2 → R s s2
  transE : ∀ e s s1 s2, R s s1 → E e s1 s2 → E e s s2
  thenE : ∀ e s s1 s2, E e s s1 → R s1 s2 → E e s s2
  range : ∀ s, E .outOfRange s s
  objs : ∀ s l, R s { s with objs := l }
  freed : ∀ s l, R s { s with freed := l }
  putBlk : ∀ s a b b', s.blk a = some b → BlkStep ok b b' → R s (s.setBlk a (some b'))
  delBlk : ∀ s a, R s (s.setBlk a none)
  newBlk : ∀ s, R s { s with heap := s.heap ++ [some { gen := 0, cells := [], refs := 1 }] }
  alloc : ∀ s n, ok (s.gen + 1) n = true → R s { s with gen := s.gen + 1 }
  refuse : ∀ s n, ok (s.gen + 1) n = false → E .badAlloc s { s with gen := s.gen + 1 }

/-- Running `m` respects the law. -/
def Pres (L : Law T ok) (m : M T α) : Prop := ∀ s,
  match m s with
  | .ok _ s' => L.R s s'
  | .throw e s' => L.E e s s'
  | .ub => True

theorem Pres.bind {L : Law T ok} {m : M T α} {f : α → M T β} (h1 : Pres L m) (h2 : ∀ a, Pres L (f a)) :
    Pres L (m >>= f) := by
  intro s
  show match M.bind m f s with | .ok _ s' => L.R s s' | .throw e s' => L.E e s s' | .ub => True
  unfold M.bind
  have h := h1 s
  cases hm : m s with
  | ok a s1 =>
    rw [hm] at h
    have h' := h2 a s1
    show match f a s1 with | .ok _ s' => L.R s s' | .throw e s' => L.E e s s' | .ub => True
    cases hf : f a s1 with
    | ok b s2 => rw [hf] at h'; exact L.trans _ _ _ h h'
    | throw e s2 => rw [hf] at h'; exact L.transE _ _ _ _ h h'
    | ub => trivial
  | throw e s' => rw [hm] at h; exact h
  | ub => trivial

theorem Pres.pure {L : Law T ok} (a : α) : Pres L (Pure.pure a) := fun s => L.refl s
theorem Pres.raise {L : Law T ok} : Pres L (M.raise .outOfRange : M T α) := fun s => L.range s
theorem Pres.undef {L : Law T ok} : Pres L (M.undef : M T α) := fun _ => trivial
theorem Pres.ite {L : Law T ok} {c : Prop} [Decidable c] {m1 m2 : M T α} (h1 : c → Pres L m1) (h2 : ¬ c → Pres L m2) :
    Pres L (if c then m1 else m2) := by
  split
  · exact h1 ‹_›
  · exact h2 ‹_›

theorem Pres.getObj {L : Law T ok} (o : Nat) : Pres L (getObj o) := by
  intro s
  unfold Bdlib.getObj
  cases s.obj o with
  | none => trivial
  | some ob => exact L.refl s

theorem Pres.putObj {L : Law T ok} (o : Nat) (ob : Obj) : Pres L (putObj o ob) := fun s => L.objs s _

/-- Running `m` respects the law in states where block `a` is `b`. -/
def PresK (L : Law T ok) (a : Nat) (b : Block T) (m : M T α) : Prop := ∀ s, s.blk a = some b →
  match m s with
  | .ok _ s' => L.R s s'
  | .throw e s' => L.E e s s'
  | .ub => True

theorem Pres.k {L : Law T ok} {a : Nat} {b : Block T} {m : M T α} (h : Pres L m) : PresK L a b m := fun s _ => h s

theorem PresK.ite {L : Law T ok} {a : Nat} {b : Block T} {c : Prop} [Decidable c] {m1 m2 : M T α}
    (h1 : c → PresK L a b m1) (h2 : ¬ c → PresK L a b m2) : PresK L a b (if c then m1 else m2) := by
  split
  · exact h1 ‹_›
  · exact h2 ‹_›

theorem PresK.bind {L : Law T ok} {a : Nat} {b : Block T} {m : M T α} {f : α → M T β} (h1 : PresK L a b m)
    (h2 : ∀ x, Pres L (f x)) : PresK L a b (m >>= f) := by
  intro s hb
  show match M.bind m f s with | .ok _ s' => L.R s s' | .throw e s' => L.E e s s' | .ub => True
  unfold M.bind
  have h := h1 s hb
  cases hm : m s with
  | ok x s1 =>
    rw [hm] at h
    have h' := h2 x s1
    show match f x s1 with | .ok _ s' => L.R s s' | .throw e s' => L.E e s s' | .ub => True
    cases hf : f x s1 with
    | ok y s2 => rw [hf] at h'; exact L.trans _ _ _ h h'
    | throw e s2 => rw [hf] at h'; exact L.transE _ _ _ _ h h'
    | ub => trivial
  | throw e s' => rw [hm] at h; exact h
  | ub => trivial

theorem Pres.getBlk {L : Law T ok} {a : Nat} {f : Block T → M T β} (h : ∀ b, PresK L a b (f b)) :
    Pres L (getBlk a >>= f) := by
  intro s
  show match M.bind (Bdlib.getBlk a) f s with | .ok _ s' => L.R s s' | .throw e s' => L.E e s s' | .ub => True
  unfold M.bind Bdlib.getBlk
  cases hb : s.blk a with
  | none => trivial
  | some b => exact h b s hb

theorem PresK.putBlk {L : Law T ok} {a : Nat} {b b' : Block T} (h : BlkStep ok b b') : PresK L a b (putBlk a b') :=
  fun s hb => L.putBlk s a b b' hb h

theorem PresK.same {L : Law T ok} {a : Nat} {b b' : Block T} (hg : b'.gen = b.gen)
    (h : b'.cells.length = b.cells.length) : PresK L a b (Bdlib.putBlk a b') := PresK.putBlk (Or.inl ⟨hg, h⟩)

theorem Pres.delBlk {L : Law T ok} {a : Nat} : Pres L (fun s => .ok () (s.setBlk a none)) := fun s => L.delBlk s a

theorem PresK.alloc {L : Law T cfg.allocOk} {a : Nat} {b : Block T} {n : Nat} {f : Nat → M T β}
    (h : ∀ g, cfg.allocOk g n = true → PresK L a b (f g)) : PresK L a b (alloc cfg n >>= f) := by
  intro s hb
  show match M.bind (Bdlib.alloc cfg n) f s with | .ok _ s' => L.R s s' | .throw e s' => L.E e s s' | .ub => True
  unfold M.bind Bdlib.alloc
  cases hok : cfg.allocOk (s.gen + 1) n with
  | false => simp only [Bool.false_eq_true, if_false, hok]; exact L.refuse s n hok
  | true =>
    simp only [hok, if_true]
    have h' := h (s.gen + 1) hok { s with gen := s.gen + 1 } hb
    have h0 := L.alloc s n hok
    cases hf : f (s.gen + 1) { s with gen := s.gen + 1 } with
    | ok b s2 => rw [hf] at h'; exact L.trans _ _ _ h0 h'
    | throw e s2 => rw [hf] at h'; exact L.transE _ _ _ _ h0 h'
    | ub => trivial

theorem PresK.freeBuf {L : Law T ok} {a : Nat} {b : Block T} {c : List T} {f : Unit → M T β}
    (h : PresK L a b (f ())) : PresK L a b (freeBuf c >>= f) := by
  intro s hb
  have h' := h { s with freed := c :: s.freed } hb
  have h0 := L.freed s (c :: s.freed)
  show match f () { s with freed := c :: s.freed } with
    | .ok _ s' => L.R s s' | .throw e s' => L.E e s s' | .ub => True
  cases hf : f () { s with freed := c :: s.freed } with
  | ok b s2 => rw [hf] at h'; exact L.trans _ _ _ h0 h'
  | throw e s2 => rw [hf] at h'; exact L.transE _ _ _ _ h0 h'
  | ub => trivial

theorem Pres.alloc {L : Law T cfg.allocOk} {n : Nat} {f : Nat → M T β} (h : ∀ g, Pres L (f g)) :
    Pres L (alloc cfg n >>= f) := by
  intro s
  show match M.bind (Bdlib.alloc cfg n) f s with | .ok _ s' => L.R s s' | .throw e s' => L.E e s s' | .ub => True
  unfold M.bind Bdlib.alloc
  cases hok : cfg.allocOk (s.gen + 1) n with
  | false => simp only [Bool.false_eq_true, if_false, hok]; exact L.refuse s n hok
  | true =>
    simp only [hok, if_true]
    have h' := h (s.gen + 1) { s with gen := s.gen + 1 }
    have h0 := L.alloc s n hok
    cases hf : f (s.gen + 1) { s with gen := s.gen + 1 } with
    | ok b s2 => rw [hf] at h'; exact L.trans _ _ _ h0 h'
    | throw e s2 => rw [hf] at h'; exact L.transE _ _ _ _ h0 h'
    | ub => trivial

theorem Pres.freeBuf {L : Law T ok} (c : List T) : Pres L (freeBuf c) := fun s => L.freed s _
theorem Pres.newObj {L : Law T ok} (ob : Obj) : Pres L (newObj ob) := fun s => L.objs s _
theorem Pres.dropObj {L : Law T ok} (o : Nat) : Pres L (dropObj o) := fun s => L.objs s _

theorem Pres.onThrow {L : Law T ok} {m : M T α} {c : M T Unit} (h1 : Pres L m) (h2 : Pres L c) :
    Pres L (m.onThrow c) := by
  intro s
  unfold M.onThrow
  have h := h1 s
  cases hm : m s with
  | ok a s' => rw [hm] at h; exact h
  | ub => trivial
  | throw e s' =>
    rw [hm] at h
    have h' := h2 s'
    show match (match c s' with
      | .ok _ s'' => Res.throw e s''
      | .throw _ _ => .ub
      | .ub => .ub : Res T α) with | .ok _ s' => L.R s s' | .throw e s' => L.E e s s' | .ub => True
    cases hc : c s' with
    | ok a s'' => rw [hc] at h'; exact L.thenE _ _ _ _ h h'
    | throw _ _ => trivial
    | ub => trivial

theorem Pres.readRange {L : Law T ok} (o i n : Nat) : Pres L (readRange o i n) := by
  unfold Bdlib.readRange
  refine Pres.bind (Pres.getObj o) fun ob => Pres.ite (fun _ => Pres.pure _) fun _ => ?_
  cases ob.ref with
  | none => exact Pres.undef
  | some a => exact Pres.getBlk fun b => (Pres.ite (fun _ => Pres.pure _) fun _ => Pres.undef).k

theorem Pres.writeRange {L : Law T ok} (o i : Nat) (vs : List T) : Pres L (writeRange o i vs) := by
  unfold Bdlib.writeRange
  refine Pres.bind (Pres.getObj o) fun ob => Pres.ite (fun _ => Pres.pure _) fun _ => ?_
  cases ob.ref with
  | none => exact Pres.undef
  | some a =>
    exact Pres.getBlk fun b => PresK.ite (fun h => PresK.same rfl (overwrite_length h)) fun _ => Pres.undef.k

theorem Pres.arefReserve {L : Law T cfg.allocOk} (a n : Nat) (scale : Nat → Nat) (off sl : Nat) :
    Pres L (arefReserve cfg a n scale off sl) := by
  unfold Rca.arefReserve
  refine Pres.getBlk fun b => PresK.ite (fun hlt => ?_) fun _ => PresK.ite (fun _ => ?_) fun _ => (Pres.pure _).k
  · refine PresK.alloc fun g hg => PresK.ite (fun h0 => ?_) fun _ => PresK.ite (fun hle => ?_) fun _ => Pres.undef.k
    · refine PresK.bind (PresK.putBlk (Or.inr ?_)) fun _ => Pres.pure _
      show _ < (junkFrom cfg g 0 _).length ∧ _
      rw [junkFrom_length]
      exact ⟨by omega, by simpa [junkFrom_length] using hg⟩
    · refine PresK.freeBuf (PresK.bind (PresK.putBlk (Or.inr ?_)) fun _ => Pres.pure _)
      have hlen : (window b.cells off sl ++ junkFrom cfg g sl (max (scale b.cells.length) n)).length =
          max (scale b.cells.length) n := by
        rw [List.length_append, junkFrom_length, window_len hle]; omega
      refine ⟨?_, ?_⟩
      · show _ < (window b.cells off sl ++ _).length
        rw [hlen]; omega
      · show cfg.allocOk g (window b.cells off sl ++ _).length = true
        rw [hlen]; exact hg
  · refine PresK.ite (fun hle => ?_) fun _ => Pres.undef.k
    refine PresK.bind (PresK.same rfl ?_) fun _ => Pres.pure _
    have hwl : (window b.cells off sl).length = sl := window_len hle
    have h1 : (overwrite b.cells off ((window b.cells off sl).map cfg.moved)).length = b.cells.length :=
      overwrite_length (by rw [List.length_map, hwl]; exact hle)
    show (overwrite (overwrite b.cells off ((window b.cells off sl).map cfg.moved)) 0 _).length = _
    rw [overwrite_length (by rw [hwl, h1]; omega), h1]

theorem Pres.newRef {L : Law T cfg.allocOk} : Pres L (newRef cfg) := by
  unfold Rca.newRef
  exact Pres.alloc fun _ => fun s => L.newBlk s

theorem Pres.rcaReserve {L : Law T cfg.allocOk} (o n : Nat) (scale : Nat → Nat) : Pres L (rcaReserve cfg o n scale) := by
  unfold Rca.rcaReserve
  refine Pres.bind (Pres.getObj o) fun ob => ?_
  cases ob.ref with
  | none =>
    refine Pres.bind (Pres.newRef) fun a => Pres.bind (Pres.putObj _ _) fun _ => ?_
    refine Pres.bind (Pres.pure _) fun _ => ?_
    exact Pres.bind (Pres.arefReserve _ _ _ _ _) fun _ => Pres.bind (Pres.getObj o) fun _ => Pres.putObj _ _
  | some a =>
    refine Pres.bind (Pres.pure _) fun _ => ?_
    exact Pres.bind (Pres.arefReserve _ _ _ _ _) fun _ => Pres.bind (Pres.getObj o) fun _ => Pres.putObj _ _

theorem Pres.strReserve {L : Law T cfg.allocOk} (c : T) (o n : Nat) (scale : Nat → Nat) :
    Pres L (strReserve cfg c o n scale) := by
  unfold Rca.strReserve
  refine Pres.bind (Pres.rcaReserve _ _ _) fun _ => Pres.bind (Pres.getObj o) fun ob => ?_
  cases ob.ref with
  | none => exact Pres.undef
  | some a =>
    refine Pres.getBlk fun b => PresK.ite (fun _ => (Pres.ite (fun _ => Pres.pure _) fun _ => Pres.undef).k)
      fun h0 => PresK.same rfl (overwrite_length ?_)
    simp only [List.length_singleton]; omega

theorem Pres.reserve {L : Law T cfg.allocOk} (o n : Nat) (scale : Nat → Nat) : Pres L (reserve cfg o n scale) := by
  unfold Rca.reserve
  split
  · exact Pres.strReserve _ _ _ _
  · exact Pres.rcaReserve _ _ _

theorem Pres.isShared {L : Law T ok} (o : Nat) : Pres L (isShared o) := by
  unfold Rca.isShared
  refine Pres.bind (Pres.getObj o) fun ob => ?_
  cases ob.ref with
  | none => exact Pres.pure _
  | some a => exact Pres.getBlk fun _ => (Pres.pure _).k

theorem Pres.length {L : Law T ok} (o : Nat) : Pres L (length o) :=
  Pres.bind (Pres.getObj o) fun _ => Pres.pure _

theorem Pres.incRef {L : Law T ok} (r : Option Nat) : Pres L (incRef r) := by
  cases r with
  | none => exact Pres.pure _
  | some a => exact Pres.getBlk fun b => PresK.same rfl rfl

theorem Pres.decRef {L : Law T ok} (r : Option Nat) : Pres L (decRef r) := by
  cases r with
  | none => exact Pres.pure _
  | some a => exact Pres.getBlk fun b => PresK.same rfl rfl

theorem Pres.doDetach {L : Law T ok} (o : Nat) : Pres L (doDetach o) :=
  Pres.bind (Pres.getObj o) fun _ => Pres.bind (Pres.decRef _) fun _ => Pres.putObj _ _

theorem Pres.clear {L : Law T ok} (o : Nat) : Pres L (clear o) :=
  Pres.bind (Pres.isShared o) fun _ => Pres.ite (fun _ => Pres.doDetach o)
    fun _ => Pres.bind (Pres.getObj o) fun _ => Pres.putObj _ _

theorem Pres.checkDeallocRef {L : Law T ok} (o : Nat) : Pres L (checkDeallocRef o) := by
  unfold Rca.checkDeallocRef
  refine Pres.bind (Pres.getObj o) fun ob => ?_
  cases ob.ref with
  | none => exact Pres.pure _
  | some a =>
    refine Pres.bind (Pres.decRef _) fun _ => Pres.getBlk fun b => Pres.k (Pres.ite (fun _ => ?_) fun _ => Pres.pure _)
    exact Pres.bind (Pres.freeBuf _) fun _ => Pres.bind Pres.delBlk fun _ => Pres.putObj _ _

theorem Pres.cow {L : Law T cfg.allocOk} (o n : Nat) : Pres L (cow cfg o n) := by
  unfold Rca.cow
  refine Pres.bind (Pres.getObj o) fun ob => Pres.bind (Pres.doDetach o) fun _ =>
    Pres.bind (Pres.reserve _ _ _) fun _ => Pres.bind (Pres.getObj o) fun _ =>
    Pres.bind (Pres.putObj _ _) fun _ => Pres.ite (fun _ => Pres.pure _) fun _ => ?_
  cases ob.ref with
  | none => exact Pres.undef
  | some a => exact Pres.getBlk fun _ => (Pres.ite (fun _ => Pres.writeRange _ _ _) fun _ => Pres.undef).k

theorem Pres.aboutToModify {L : Law T cfg.allocOk} (o n : Nat) : Pres L (aboutToModify cfg o n) :=
  Pres.bind (Pres.getObj o) fun _ => Pres.bind (Pres.putObj _ _) fun _ => Pres.bind (Pres.isShared o)
    fun _ => Pres.ite (fun _ => Pres.cow _ _) fun _ => Pres.reserve _ _ _

theorem Pres.getOwnCopy {L : Law T cfg.allocOk} (o : Nat) : Pres L (getOwnCopy cfg o) :=
  Pres.bind (Pres.length o) fun _ => Pres.aboutToModify _ _

theorem Pres.validateIndex {L : Law T ok} (o i : Nat) : Pres L (validateIndex o i) :=
  Pres.bind (Pres.length o) fun _ => Pres.ite (fun _ => Pres.raise) fun _ => Pres.pure _

theorem Pres.validatePos {L : Law T ok} (o i : Nat) : Pres L (validatePos o i) :=
  Pres.ite (fun _ => Pres.validateIndex _ _) fun _ => Pres.pure _

theorem Pres.cleanse {L : Law T ok} (cfg : Cfg T) (o : Nat) : Pres L (cleanse cfg o) := by
  unfold Rca.cleanse
  refine Pres.bind (Pres.getObj o) fun ob => ?_
  cases ob.ref with
  | none => exact Pres.pure _
  | some a =>
    refine Pres.getBlk fun b => PresK.ite (fun _ => PresK.same rfl ?_) fun _ => (Pres.pure _).k
    simp

theorem Pres.destroy {L : Law T ok} (cfg : Cfg T) (o : Nat) : Pres L (destroy cfg o) :=
  Pres.bind (Pres.ite (fun _ => Pres.cleanse _ _) fun _ => Pres.pure _) fun _ =>
    Pres.bind (Pres.checkDeallocRef o) fun _ => Pres.dropObj o

theorem Pres.copyCtor {L : Law T ok} (r : Nat) : Pres L (copyCtor r) :=
  Pres.bind (Pres.getObj r) fun _ => Pres.bind (Pres.newObj _) fun _ => Pres.bind (Pres.incRef _) fun _ => Pres.pure _

theorem Pres.moveCtor {L : Law T ok} (r : Nat) : Pres L (moveCtor cfg r) :=
  Pres.bind (Pres.getObj r) fun _ => Pres.bind (Pres.newObj _) fun _ => Pres.bind (Pres.putObj _ _) fun _ => Pres.pure _

theorem Pres.copyAssign {L : Law T ok} (o r : Nat) : Pres L (copyAssign o r) :=
  Pres.bind (Pres.getObj r) fun _ => Pres.bind (Pres.incRef _) fun _ => Pres.bind (Pres.getObj o) fun _ =>
    Pres.bind (Pres.putObj _ _) fun _ => Pres.bind (Pres.checkDeallocRef o) fun _ => Pres.bind (Pres.getObj r) fun _ =>
    Pres.bind (Pres.getObj o) fun _ => Pres.putObj _ _

theorem Pres.moveAssign {L : Law T ok} (o r : Nat) : Pres L (moveAssign cfg o r) :=
  Pres.ite (fun _ => Pres.pure _) fun _ => Pres.bind (Pres.checkDeallocRef o) fun _ =>
    Pres.bind (Pres.getObj r) fun _ => Pres.bind (Pres.putObj _ _) fun _ => Pres.putObj _ _

theorem Pres.swap {L : Law T ok} (o r : Nat) : Pres L (swap o r) :=
  Pres.bind (Pres.getObj o) fun _ => Pres.bind (Pres.getObj r) fun _ => Pres.bind (Pres.putObj _ _)
    fun _ => Pres.putObj _ _

theorem Pres.updObj {L : Law T ok} {o : Nat} {f : Obj → Obj} : Pres L (do let ob ← Bdlib.getObj o; Bdlib.putObj o (f ob)) :=
  Pres.bind (Pres.getObj o) fun _ => Pres.putObj _ _

theorem Pres.growTo {L : Law T cfg.allocOk} (o n : Nat) : Pres L (growTo cfg o n) := by
  unfold Rca.growTo
  refine Pres.ite (fun _ => Pres.aboutToModify _ _) fun _ => ?_
  refine Pres.bind (Pres.getObj o) fun ob => Pres.bind (Pres.putObj _ _) fun _ => Pres.bind (Pres.isShared o) fun sh => ?_
  refine Pres.ite (fun _ => ?_) fun _ => Pres.reserve _ _ _
  refine Pres.bind (Pres.doDetach o) fun _ => Pres.bind (Pres.reserve _ _ _) fun _ => Pres.bind (Pres.getObj o) fun _ =>
    Pres.bind (Pres.putObj _ _) fun _ => Pres.ite (fun _ => Pres.pure _) fun _ => ?_
  cases ob.ref with
  | none => exact Pres.undef
  | some a => exact Pres.getBlk fun _ => (Pres.ite (fun _ => Pres.writeRange _ _ _) fun _ => Pres.undef).k

theorem Pres.resize {L : Law T cfg.allocOk} (o n : Nat) : Pres L (resize cfg o n) :=
  Pres.bind (Pres.length o) fun _ => Pres.ite (fun _ => Pres.updObj) fun _ =>
    Pres.bind (Pres.growTo _ _) fun _ => Pres.updObj

theorem Pres.resizeFill {L : Law T cfg.allocOk} (o n : Nat) (x : T) : Pres L (resizeFill cfg o n x) :=
  Pres.bind (Pres.length o) fun _ => Pres.ite (fun _ => Pres.updObj) fun _ =>
    Pres.bind (Pres.growTo _ _) fun _ => Pres.bind (Pres.getObj _) fun _ =>
    Pres.bind (Pres.writeRange _ _ _) fun _ => Pres.updObj

theorem Pres.sizeCtor {L : Law T cfg.allocOk} (n : Nat) : Pres L (sizeCtor cfg n) :=
  Pres.bind (Pres.newObj _) fun _ => Pres.bind
    (Pres.onThrow (Pres.ite (fun _ => Pres.reserve (cfg := cfg.base) _ _ _) fun _ => Pres.pure _) (Pres.destroy _ _))
    fun _ => Pres.pure _

theorem Pres.fillCtor {L : Law T cfg.allocOk} (n : Nat) (x : T) : Pres L (fillCtor cfg n x) :=
  Pres.bind (Pres.newObj _) fun _ => Pres.bind
    (Pres.onThrow (Pres.resizeFill (cfg := cfg.base) _ _ _) (Pres.destroy _ _)) fun _ => Pres.pure _

theorem Pres.listCtor {L : Law T cfg.allocOk} (xs : List T) : Pres L (listCtor cfg xs) :=
  Pres.bind (Pres.sizeCtor _) fun _ => Pres.bind
    (Pres.onThrow (Pres.bind (Pres.writeRange _ _ _) fun _ => Pres.updObj) (Pres.destroy _ _)) fun _ => Pres.pure _

theorem Pres.strCtor {L : Law T cfg.allocOk} (c : T) (xs : List T) : Pres L (strCtor cfg c xs) :=
  Pres.bind (Pres.sizeCtor _) fun _ => Pres.bind (Pres.writeRange _ _ _) fun _ =>
    Pres.bind (Pres.writeRange _ _ _) fun _ => Pres.bind (Pres.getObj _) fun _ => Pres.bind (Pres.putObj _ _)
    fun _ => Pres.pure _

theorem Pres.cstrCtor {L : Law T cfg.allocOk} (c : T) (xs : List T) : Pres L (cstrCtor cfg c xs) :=
  Pres.bind (Pres.newObj _) fun _ => Pres.ite (fun _ => Pres.pure _) fun _ => Pres.bind (Pres.getObj _) fun _ =>
    Pres.bind (Pres.putObj _ _) fun _ => Pres.bind (Pres.onThrow (Pres.rcaReserve _ _ _) (Pres.destroy _ _)) fun _ =>
    Pres.bind (Pres.writeRange _ _ _) fun _ => Pres.pure _

theorem Pres.charCtor {L : Law T cfg.allocOk} (c x : T) : Pres L (charCtor cfg c x) :=
  Pres.bind (Pres.newObj _) fun _ => Pres.bind (Pres.onThrow (Pres.rcaReserve _ _ _) (Pres.destroy _ _)) fun _ =>
    Pres.bind (Pres.writeRange _ _ _) fun _ => Pres.bind (Pres.getObj _) fun _ => Pres.bind (Pres.putObj _ _) fun _ =>
    Pres.bind (Pres.writeRange _ _ _) fun _ => Pres.pure _

theorem Pres.assignList {L : Law T cfg.allocOk} (o : Nat) (xs : List T) : Pres L (assignList cfg o xs) :=
  Pres.bind (Pres.clear o) fun _ => Pres.bind (Pres.reserve _ _ _) fun _ => Pres.bind (Pres.writeRange _ _ _)
    fun _ => Pres.updObj

theorem Pres.assignStd {L : Law T cfg.allocOk} (c : T) (o : Nat) (xs : List T) : Pres L (assignStd cfg c o xs) :=
  Pres.bind (Pres.clear o) fun _ => Pres.bind (Pres.rcaReserve _ _ _) fun _ => Pres.bind (Pres.getObj _) fun _ =>
    Pres.bind (Pres.putObj _ _) fun _ => Pres.writeRange _ _ _

theorem Pres.assignCstr {L : Law T cfg.allocOk} (c : T) (o : Nat) (xs : List T) : Pres L (assignCstr cfg c o xs) :=
  Pres.bind (Pres.strCtor _ _) fun _ => Pres.bind (Pres.moveAssign _ _) fun _ => Pres.destroy _ _

theorem Pres.read {L : Law T ok} (o i : Nat) : Pres L (read o i) :=
  Pres.bind (Pres.readRange _ _ _) fun _ => Pres.pure _

theorem Pres.at' {L : Law T ok} (o i : Nat) : Pres L (at' o i) :=
  Pres.bind (Pres.validateIndex _ _) fun _ => Pres.read _ _

theorem Pres.write {L : Law T cfg.allocOk} (o i : Nat) (x : T) : Pres L (write cfg o i x) :=
  Pres.bind (Pres.getOwnCopy _) fun _ => Pres.writeRange _ _ _

theorem Pres.hash {L : Law T ok} (cfg : Cfg T) (o : Nat) : Pres L (hash cfg o) :=
  Pres.bind (Pres.getObj o) fun _ => Pres.ite (fun _ => Pres.pure _) fun _ => Pres.bind (Pres.readRange _ _ _)
    fun _ => Pres.bind (Pres.putObj _ _) fun _ => Pres.pure _

theorem Pres.slice {L : Law T ok} (o : Nat) (start len : Int) : Pres L (slice o start len) :=
  Pres.bind (Pres.getObj o) fun _ => Pres.ite (fun _ => Pres.putObj _ _) fun _ =>
    Pres.ite (fun _ => Pres.undef) fun _ => Pres.putObj _ _

theorem Pres.substring {L : Law T ok} (o : Nat) (start len : Int) : Pres L (substring o start len) :=
  Pres.bind (Pres.copyCtor o) fun _ => Pres.bind (Pres.slice _ _ _) fun _ => Pres.pure _

theorem Pres.shiftRight {L : Law T ok} (o pos k : Nat) : Pres L (shiftRight o pos k) :=
  Pres.bind (Pres.getObj o) fun _ => Pres.bind (Pres.readRange _ _ _) fun _ => Pres.writeRange _ _ _

theorem Pres.copyRange {L : Law T ok} (r n o pos : Nat) : Pres L (copyRange r n o pos) :=
  Pres.bind (Pres.getObj r) fun _ => Pres.bind (Pres.getObj o) fun _ => Pres.ite (fun _ => Pres.undef)
    fun _ => Pres.bind (Pres.readRange _ _ _) fun _ => Pres.writeRange _ _ _

theorem Pres.insertItem {L : Law T cfg.allocOk} (o pos : Nat) (x : T) : Pres L (insertItem cfg o pos x) :=
  Pres.bind (Pres.validatePos _ _) fun _ => Pres.bind (Pres.length o) fun _ => Pres.bind (Pres.aboutToModify _ _)
    fun _ => Pres.bind (Pres.shiftRight _ _ _) fun _ => Pres.bind (Pres.writeRange _ _ _) fun _ => Pres.updObj

theorem Pres.append {L : Law T cfg.allocOk} (o : Nat) (x : T) : Pres L (append cfg o x) :=
  Pres.bind (Pres.length o) fun _ => Pres.insertItem _ _ _

theorem Pres.insertBody {L : Law T cfg.allocOk} (o pos r k : Nat) : Pres L (insertBody cfg o pos r k) :=
  Pres.bind (Pres.length o) fun _ => Pres.bind (Pres.aboutToModify _ _) fun _ =>
    Pres.bind (Pres.shiftRight _ _ _) fun _ => Pres.bind (Pres.copyRange _ _ _ _) fun _ => Pres.updObj

theorem Pres.insertRcaN {L : Law T cfg.allocOk} (o pos r n : Nat) : Pres L (insertRcaN cfg o pos r n) :=
  Pres.ite (fun _ => Pres.pure _) fun _ => Pres.bind (Pres.validatePos _ _) fun _ => Pres.bind (Pres.length r) fun _ =>
    Pres.bind (Pres.length o) fun _ => Pres.ite (fun _ => Pres.copyAssign _ _) fun _ => Pres.insertBody _ _ _ _

theorem Pres.insertRca {L : Law T cfg.allocOk} (o pos r : Nat) : Pres L (insertRca cfg o pos r) :=
  Pres.bind (Pres.validatePos _ _) fun _ => Pres.bind (Pres.length r) fun _ =>
    Pres.bind (Pres.length o) fun _ => Pres.ite (fun _ => Pres.copyAssign _ _) fun _ => Pres.insertBody _ _ _ _

theorem Pres.insertMoveN {L : Law T cfg.allocOk} (o pos r n : Nat) : Pres L (insertMoveN cfg o pos r n) :=
  Pres.ite (fun _ => Pres.pure _) fun _ => Pres.bind (Pres.validatePos _ _) fun _ => Pres.bind (Pres.length r) fun _ =>
    Pres.bind (Pres.length o) fun _ => Pres.ite (fun _ => Pres.moveAssign _ _) fun _ => Pres.insertBody _ _ _ _

theorem Pres.insertMove {L : Law T cfg.allocOk} (o pos r : Nat) : Pres L (insertMove cfg o pos r) :=
  Pres.bind (Pres.validatePos _ _) fun _ => Pres.bind (Pres.length r) fun _ =>
    Pres.bind (Pres.length o) fun _ => Pres.ite (fun _ => Pres.moveAssign _ _) fun _ => Pres.insertBody _ _ _ _

theorem Pres.insertLoop {L : Law T cfg.allocOk} (o : Nat) (xs : List T) : ∀ i, Pres L (insertLoop cfg o i xs) := by
  induction xs with
  | nil => exact fun i => Pres.pure _
  | cons x xs ih =>
    exact fun i => Pres.bind (Pres.bind (Pres.getOwnCopy _) fun _ => Pres.bind (Pres.insertItem _ _ _) fun _ =>
      Pres.getOwnCopy _) fun _ => ih _

theorem Pres.insertRange {L : Law T cfg.allocOk} (o i : Nat) (xs : List T) : Pres L (insertRange cfg o i xs) :=
  Pres.bind (Pres.length o) fun _ => Pres.bind (Pres.aboutToModify _ _) fun _ =>
    Pres.bind (Pres.insertLoop _ _ _) fun _ => Pres.getOwnCopy _

theorem Pres.rangeCtor {L : Law T cfg.allocOk} (xs : List T) : Pres L (rangeCtor cfg xs) :=
  Pres.bind (Pres.sizeCtor _) fun _ => Pres.bind
    (Pres.onThrow (Pres.insertRange (cfg := cfg.base) _ _ _) (Pres.destroy _ _)) fun _ => Pres.pure _

theorem Pres.insertC {L : Law T cfg.allocOk} (o pos : Nat) (xs : List T) (e : Bool) : Pres L (insertC cfg o pos xs e) :=
  Pres.ite (fun _ => Pres.pure _) fun _ => Pres.bind (Pres.validatePos _ _) fun _ => Pres.bind (Pres.length o) fun _ =>
    Pres.bind (Pres.aboutToModify _ _) fun _ => Pres.bind (Pres.shiftRight _ _ _) fun _ =>
    Pres.bind Pres.updObj fun _ => Pres.writeRange _ _ _

theorem Pres.replaceItem {L : Law T cfg.allocOk} (o pos : Nat) (x : T) : Pres L (replaceItem cfg o pos x) :=
  Pres.bind (Pres.validatePos _ _) fun _ => Pres.bind (Pres.getOwnCopy _) fun _ => Pres.writeRange _ _ _

theorem Pres.replaceBody {L : Law T cfg.allocOk} (o pos r k : Nat) : Pres L (replaceBody cfg o pos r k) :=
  Pres.bind (Pres.length o) fun _ => Pres.bind (Pres.aboutToModify _ _) fun _ =>
    Pres.bind (Pres.copyRange _ _ _ _) fun _ => Pres.updObj

theorem Pres.replaceRca {L : Law T cfg.allocOk} (o pos r n : Nat) : Pres L (replaceRca cfg o pos r n) :=
  Pres.ite (fun _ => Pres.pure _) fun _ => Pres.bind (Pres.validatePos _ _) fun _ => Pres.bind (Pres.length r) fun _ =>
    Pres.bind (Pres.length o) fun _ => Pres.ite (fun _ => Pres.copyAssign _ _) fun _ => Pres.replaceBody _ _ _ _

theorem Pres.replaceMove {L : Law T cfg.allocOk} (o pos r n : Nat) : Pres L (replaceMove cfg o pos r n) :=
  Pres.ite (fun _ => Pres.pure _) fun _ => Pres.bind (Pres.validatePos _ _) fun _ => Pres.bind (Pres.length r) fun _ =>
    Pres.bind (Pres.length o) fun _ => Pres.ite (fun _ => Pres.moveAssign _ _) fun _ => Pres.replaceBody _ _ _ _

theorem Pres.replaceC {L : Law T cfg.allocOk} (o pos : Nat) (xs : List T) (e : Bool) : Pres L (replaceC cfg o pos xs e) :=
  Pres.ite (fun _ => Pres.pure _) fun _ => Pres.bind (Pres.validatePos _ _) fun _ => Pres.bind (Pres.length o) fun _ =>
    Pres.bind (Pres.aboutToModify _ _) fun _ => Pres.bind (Pres.getObj _) fun _ => Pres.bind (Pres.putObj _ _) fun _ =>
    Pres.writeRange _ _ _

theorem Pres.popBack {L : Law T ok} (o : Nat) : Pres L (popBack o) := Pres.updObj

theorem Pres.dropFront {L : Law T ok} (o n : Nat) : Pres L (dropFront o n) :=
  Pres.bind (Pres.getObj o) fun _ => Pres.ite (fun _ => Pres.pure _) fun _ => Pres.ite (fun _ => Pres.putObj _ _)
    fun _ => Pres.putObj _ _

theorem Pres.dropBack {L : Law T ok} (o n : Nat) : Pres L (dropBack o n) :=
  Pres.bind (Pres.getObj o) fun _ => Pres.ite (fun _ => Pres.pure _) fun _ => Pres.ite (fun _ => Pres.putObj _ _)
    fun _ => Pres.putObj _ _

theorem Pres.arrDropFront {L : Law T ok} (o : Nat) (n : Int) : Pres L (arrDropFront o n) :=
  Pres.bind (Pres.getObj o) fun _ => Pres.ite (fun _ => Pres.pure _) fun _ => Pres.ite (fun _ => Pres.putObj _ _)
    fun _ => Pres.putObj _ _

theorem Pres.arrDropBack {L : Law T ok} (o : Nat) (n : Int) : Pres L (arrDropBack o n) :=
  Pres.bind (Pres.getObj o) fun _ => Pres.ite (fun _ => Pres.pure _) fun _ => Pres.ite (fun _ => Pres.putObj _ _)
    fun _ => Pres.putObj _ _

theorem Pres.shift {L : Law T ok} (cfg : Cfg T) (o : Nat) : Pres L (shift cfg o) :=
  Pres.bind (Pres.readRange _ _ _) fun _ => Pres.bind (Pres.isShared _) fun _ =>
    Pres.ite (fun _ => Pres.bind (Pres.getObj _) fun _ => Pres.bind (Pres.putObj _ _) fun _ => Pres.pure _)
      fun _ => Pres.bind (Pres.writeRange _ _ _) fun _ => Pres.bind (Pres.getObj _) fun _ =>
        Pres.bind (Pres.putObj _ _) fun _ => Pres.pure _

theorem Pres.pop {L : Law T ok} (cfg : Cfg T) (o : Nat) : Pres L (pop cfg o) :=
  Pres.bind (Pres.getObj _) fun _ => Pres.bind (Pres.readRange _ _ _) fun _ => Pres.bind (Pres.isShared _) fun _ =>
    Pres.ite (fun _ => Pres.bind (Pres.popBack _) fun _ => Pres.pure _)
      fun _ => Pres.bind (Pres.writeRange _ _ _) fun _ => Pres.bind (Pres.popBack _) fun _ => Pres.pure _

theorem Pres.cStr {L : Law T cfg.allocOk} [DecidableEq T] (c : T) (o : Nat) : Pres L (cStr cfg c o) :=
  Pres.bind (Pres.getObj _) fun _ => Pres.ite (fun _ => Pres.pure _) fun _ => Pres.bind (Pres.readRange _ _ _) fun _ =>
    Pres.ite (fun _ => Pres.bind (Pres.aboutToModify _ _) fun _ => Pres.bind (Pres.writeRange _ _ _) fun _ =>
      Pres.readRange _ _ _) fun _ => Pres.readRange _ _ _


/-! ## Instance: buffer sizes -/

/-- Longest possible buffer (exclusive). -/
def maxCells : Nat := 9223372036854775808

/-- Allocations that cannot be satisfied on any machine are refused. -/
def _root_.Bdlib.Cfg.Physical (cfg : Cfg T) : Prop := ∀ g n, maxCells ≤ n → cfg.allocOk g n = false

def Caps (s : St T) : Prop := ∀ a b, s.blk a = some b → b.cells.length < maxCells

theorem blk_setBlk_cases {s : St T} {a a1 : Nat} {x : Option (Block T)} {b : Block T}
    (h : (s.setBlk a x).blk a1 = some b) : x = some b ∨ s.blk a1 = some b := by
  by_cases he : a1 = a
  · subst he
    have hl : a1 < s.heap.length := by
      have := St.blk_lt h
      simpa [St.setBlk] using this
    rw [St.blk_setBlk_self _ hl] at h
    exact Or.inl h
  · rw [St.blk_setBlk_ne _ he] at h
    exact Or.inr h

/-- Buffers stay below the size limit. -/
def capsLaw (hp : cfg.Physical) : Law T cfg.allocOk where
  R s s' := Caps s → Caps s'
  E _ s s' := Caps s → Caps s'
  refl _ h := h
  trans _ _ _ h1 h2 h := h2 (h1 h)
  transE _ _ _ _ h1 h2 h := h2 (h1 h)
  thenE _ _ _ _ h1 h2 h := h2 (h1 h)
  range _ h := h
  objs _ _ h := h
  freed _ _ h := h
  putBlk s a b b' hb hs hc a1 b1 h1 := by
    rcases blk_setBlk_cases h1 with h | h
    · cases h
      rcases hs with ⟨_, hs⟩ | ⟨_, hs⟩
      · rw [hs]; exact hc a b hb
      · rcases Nat.lt_or_ge b'.cells.length maxCells with h2 | h2
        · exact h2
        · rw [hp _ _ h2] at hs; cases hs
    · exact hc a1 b1 h
  delBlk s a hc a1 b1 h1 := by
    rcases blk_setBlk_cases h1 with h | h
    · cases h
    · exact hc a1 b1 h
  newBlk s hc a b h := by
    by_cases hl : a < s.heap.length
    · refine hc a b ?_
      unfold St.blk at h ⊢
      simp only [List.getElem?_append_left hl] at h
      exact h
    · by_cases he : a = s.heap.length
      · subst he
        simp [St.blk] at h
        rw [← h]
        show 0 < maxCells
        decide
      · exfalso
        have := St.blk_lt h
        simp at this
        omega
  alloc _ _ _ h := h
  refuse _ _ _ h := h

/-! ## Instance: `bad_alloc` only if the allocator refused -/

/-- An allocation attempted between the two states was refused. -/
def Refused (ok : Nat → Nat → Bool) (s s' : St T) : Prop := ∃ g n, s.gen < g ∧ g ≤ s'.gen ∧ ok g n = false

def refuseLaw (T : Type) (ok : Nat → Nat → Bool) : Law T ok where
  R s s' := s.gen ≤ s'.gen
  E e s s' := s.gen ≤ s'.gen ∧ (e = .badAlloc → Refused ok s s')
  refl _ := Nat.le_refl _
  trans _ _ _ h1 h2 := Nat.le_trans h1 h2
  transE _ _ _ _ h1 h2 := ⟨Nat.le_trans h1 h2.1, fun he => by
    obtain ⟨g, n, ha, hb, hc⟩ := h2.2 he; exact ⟨g, n, by omega, hb, hc⟩⟩
  thenE _ _ _ _ h1 h2 := ⟨Nat.le_trans h1.1 h2, fun he => by
    obtain ⟨g, n, ha, hb, hc⟩ := h1.2 he; exact ⟨g, n, ha, by omega, hc⟩⟩
  range s := ⟨Nat.le_refl _, fun h => by cases h⟩
  objs _ _ := Nat.le_refl _
  freed _ _ := Nat.le_refl _
  putBlk _ _ _ _ _ _ := Nat.le_refl _
  delBlk _ _ := Nat.le_refl _
  newBlk _ := Nat.le_refl _
  alloc s _ _ := Nat.le_succ _
  refuse s n h := ⟨Nat.le_succ _, fun _ => ⟨s.gen + 1, n, Nat.lt_succ_self _, Nat.le_refl _, h⟩⟩

/-! ## Instance: capacities do not shrink -/

/-- Every block that existed before and still exists has at least the cells it had; addresses are not
reused. -/
def Grows (s s' : St T) : Prop := s.heap.length ≤ s'.heap.length ∧ ∀ a b', a < s.heap.length → s'.blk a = some b' →
  ∃ b, s.blk a = some b ∧ b.cells.length ≤ b'.cells.length

theorem Grows.refl (s : St T) : Grows s s := ⟨Nat.le_refl _, fun _ b' _ h => ⟨b', h, Nat.le_refl _⟩⟩

theorem Grows.trans {s s1 s2 : St T} (h1 : Grows s s1) (h2 : Grows s1 s2) : Grows s s2 := by
  refine ⟨Nat.le_trans h1.1 h2.1, fun a b2 hl hb2 => ?_⟩
  obtain ⟨b1, hb1, hle1⟩ := h2.2 a b2 (Nat.lt_of_lt_of_le hl h1.1) hb2
  obtain ⟨b, hb, hle⟩ := h1.2 a b1 hl hb1
  exact ⟨b, hb, Nat.le_trans hle hle1⟩

def growLaw (T : Type) (ok : Nat → Nat → Bool) : Law T ok where
  R := Grows
  E _ := Grows
  refl := Grows.refl
  trans _ _ _ h1 h2 := h1.trans h2
  transE _ _ _ _ h1 h2 := h1.trans h2
  thenE _ _ _ _ h1 h2 := h1.trans h2
  range := Grows.refl
  objs _ _ := ⟨Nat.le_refl _, fun _ b' _ h => ⟨b', h, Nat.le_refl _⟩⟩
  freed _ _ := ⟨Nat.le_refl _, fun _ b' _ h => ⟨b', h, Nat.le_refl _⟩⟩
  putBlk s a b b' hb hs := by
    refine ⟨by simp [St.setBlk], fun a1 b1 _ h1 => ?_⟩
    by_cases he : a1 = a
    · subst he
      rw [St.blk_setBlk_self _ (St.blk_lt hb)] at h1
      cases h1
      refine ⟨b, hb, ?_⟩
      rcases hs with ⟨_, hs⟩ | ⟨hs, _⟩ <;> omega
    · rw [St.blk_setBlk_ne _ he] at h1
      exact ⟨b1, h1, Nat.le_refl _⟩
  delBlk s a := by
    refine ⟨by simp [St.setBlk], fun a1 b1 _ h1 => ?_⟩
    rcases blk_setBlk_cases h1 with h | h
    · cases h
    · exact ⟨b1, h, Nat.le_refl _⟩
  newBlk s := by
    refine ⟨by simp, fun a b hl h => ⟨b, ?_, Nat.le_refl _⟩⟩
    unfold St.blk at h ⊢
    simp only [List.getElem?_append_left hl] at h
    exact h
  alloc _ _ _ := ⟨Nat.le_refl _, fun _ b' _ h => ⟨b', h, Nat.le_refl _⟩⟩
  refuse _ _ _ := ⟨Nat.le_refl _, fun _ b' _ h => ⟨b', h, Nat.le_refl _⟩⟩

end Bdlib.Rca
