import Verif.Rca.Counter

/-!
# The two counters agree while no buffer has 2^31 - 1 owners

`AgreeAt P k m' m`: from a state with `P` in which every counter is between 1 and `B`, the function `m'` of the 32-bit machine does
the same as the function `m` of the machine with unbounded counters, and leaves every counter between 1 and `B + k`, if that is still
an `int`.
-/

namespace Bdlib.Rca32
open Bdlib Bdlib.Spec Bdlib.Rca

variable {T α β : Type} {cfg : Cfg T}

/-- Every counter is between 1 and `B`. -/
def Within (B : Int) (s : St T) : Prop := ∀ a b, s.blk a = some b → 1 ≤ b.refs ∧ b.refs ≤ B

theorem Within.mono {B C : Int} {s : St T} (h : Within B s) (hc : B ≤ C) : Within C s :=
  fun a b hb => ⟨(h a b hb).1, Int.le_trans (h a b hb).2 hc⟩

theorem Within.setBlk {B : Int} {s : St T} (h : Within B s) {a : Nat} {x : Option (Block T)}
    (hx : ∀ b, x = some b → 1 ≤ b.refs ∧ b.refs ≤ B) : Within B (s.setBlk a x) := by
  intro a' b' hb'
  by_cases e : a' = a
  · subst e
    by_cases hl : a' < s.heap.length
    · rw [St.blk_setBlk_self _ hl] at hb'; exact hx _ hb'
    · have := St.blk_lt hb'
      simp [St.setBlk] at this
      omega
  · rw [St.blk_setBlk_ne _ e] at hb'
    exact h _ _ hb'

/-- The state left behind is within the bound. -/
def Stays (B : Int) (r : Res T α) : Prop :=
  match r with
  | .ok _ s' => Within B s'
  | .throw _ s' => Within B s'
  | .ub => True

theorem Stays.mono {B C : Int} {r : Res T α} (h : Stays B r) (hc : B ≤ C) : Stays C r := by
  cases r with
  | ok a s => exact Within.mono h hc
  | throw e s => exact Within.mono h hc
  | ub => trivial

def AgreeAt (P : St T → Prop) (k : Int) (m' m : M T α) : Prop :=
  ∀ B s, P s → Within B s → 1 ≤ B → 0 ≤ k → B + k ≤ 2147483647 → m' s = m s ∧ Stays (B + k) (m s)

def Agree (k : Int) (m' m : M T α) : Prop := AgreeAt (fun _ => True) k m' m

theorem Agree.at {P : St T → Prop} {k : Int} {m' m : M T α} (h : Agree k m' m) : AgreeAt P k m' m :=
  fun B s _ => h B s trivial

theorem AgreeAt.mono {P : St T → Prop} {k j : Int} {m' m : M T α} (h : AgreeAt P k m' m) (hk : 0 ≤ k) (hj : k ≤ j) :
    AgreeAt P j m' m := by
  intro B s hp hw hB hj0 hle
  obtain ⟨h1, h2⟩ := h B s hp hw hB hk (by omega)
  exact ⟨h1, h2.mono (by omega)⟩

/-- Sequence; the counters may grow in the second part. -/
theorem AgreeAt.bind {P : St T → Prop} {k : Int} {m' m : M T α} {f' f : α → M T β} (h : AgreeAt P 0 m' m)
    (hf : ∀ a, Agree k (f' a) (f a)) : AgreeAt P k (m' >>= f') (m >>= f) := by
  intro B s hp hw hB hk hle
  obtain ⟨h1, h2⟩ := h B s hp hw hB (Int.le_refl 0) (by omega)
  show M.bind m' f' s = M.bind m f s ∧ Stays _ (M.bind m f s)
  unfold M.bind
  rw [h1]
  cases hm : m s with
  | ok a s' =>
    rw [hm] at h2
    exact hf a B s' trivial (by simpa using (show Within (B + 0) s' from h2)) hB hk hle
  | throw e s' => rw [hm] at h2; exact ⟨rfl, (show Within (B + 0) s' from h2).mono (by omega)⟩
  | ub => exact ⟨rfl, trivial⟩

/-- Sequence; the counters may grow in the first part. -/
theorem AgreeAt.then {P : St T → Prop} {k : Int} {m' m : M T α} {f' f : α → M T β} (h : AgreeAt P k m' m)
    (hf : ∀ a, Agree 0 (f' a) (f a)) : AgreeAt P k (m' >>= f') (m >>= f) := by
  intro B s hp hw hB hk hle
  obtain ⟨h1, h2⟩ := h B s hp hw hB hk hle
  show M.bind m' f' s = M.bind m f s ∧ Stays _ (M.bind m f s)
  unfold M.bind
  rw [h1]
  cases hm : m s with
  | ok a s' =>
    rw [hm] at h2
    have := hf a (B + k) s' trivial h2 (by omega) (Int.le_refl 0) (by omega)
    exact ⟨this.1, this.2.mono (by omega)⟩
  | throw e s' => rw [hm] at h2; exact ⟨rfl, h2⟩
  | ub => exact ⟨rfl, trivial⟩

theorem Agree.bind {k : Int} {m' m : M T α} {f' f : α → M T β} (h : Agree 0 m' m) (hf : ∀ a, Agree k (f' a) (f a)) :
    Agree k (m' >>= f') (m >>= f) := AgreeAt.bind h hf

theorem AgreeAt.ite {P : St T → Prop} {k : Int} {c : Prop} [Decidable c] {m1' m1 m2' m2 : M T α} (h1 : AgreeAt P k m1' m1)
    (h2 : AgreeAt P k m2' m2) : AgreeAt P k (if c then m1' else m2') (if c then m1 else m2) := by
  split
  · exact h1
  · exact h2

theorem Agree.ite {k : Int} {c : Prop} [Decidable c] {m1' m1 m2' m2 : M T α} (h1 : Agree k m1' m1)
    (h2 : Agree k m2' m2) : Agree k (if c then m1' else m2') (if c then m1 else m2) := AgreeAt.ite h1 h2

theorem Agree.pure (k : Int) (a : α) : Agree k (Pure.pure a : M T α) (Pure.pure a) :=
  fun B s _ hw _ _ _ => ⟨rfl, hw.mono (by omega)⟩
theorem Agree.raise (k : Int) (e : Exc) : Agree k (M.raise e : M T α) (M.raise e) :=
  fun B s _ hw _ _ _ => ⟨rfl, hw.mono (by omega)⟩
theorem Agree.undef (k : Int) : Agree k (M.undef : M T α) M.undef := fun _ _ _ _ _ _ _ => ⟨rfl, trivial⟩

theorem Agree.getObj (o : Nat) : Agree 0 (getObj o : M T Obj) (getObj o) := by
  intro B s _ hw _ _ _
  refine ⟨rfl, ?_⟩
  unfold Bdlib.getObj
  cases s.obj o with
  | none => trivial
  | some ob => exact hw.mono (by omega)

theorem Agree.putObj (o : Nat) (ob : Obj) : Agree 0 (putObj o ob : M T Unit) (putObj o ob) :=
  fun B s _ hw _ _ _ => ⟨rfl, show Within _ s from hw.mono (by omega)⟩

theorem Agree.newObj (ob : Obj) : Agree 0 (newObj ob : M T Nat) (newObj ob) :=
  fun B s _ hw _ _ _ => ⟨rfl, show Within _ s from hw.mono (by omega)⟩

theorem Agree.dropObj (o : Nat) : Agree 0 (dropObj o : M T Unit) (dropObj o) :=
  fun B s _ hw _ _ _ => ⟨rfl, show Within _ s from hw.mono (by omega)⟩

theorem Agree.freeBuf (c : List T) : Agree 0 (freeBuf c) (freeBuf c) :=
  fun B s _ hw _ _ _ => ⟨rfl, show Within _ s from hw.mono (by omega)⟩

theorem Agree.delBlk (a : Nat) :
    Agree 0 (fun s : St T => .ok () (s.setBlk a none)) (fun s => .ok () (s.setBlk a none)) :=
  fun B s _ hw _ _ _ => ⟨rfl, (show Within B _ from hw.setBlk fun b (h : none = some b) => (nomatch h)).mono (by omega)⟩

theorem Agree.alloc (n : Nat) : Agree 0 (alloc cfg n) (alloc cfg n) := by
  intro B s _ hw _ _ _
  refine ⟨rfl, ?_⟩
  unfold Bdlib.alloc
  dsimp only
  split
  · exact show Within _ s from hw.mono (by omega)
  · exact show Within _ s from hw.mono (by omega)

theorem Agree.newRef : Agree 0 (newRef cfg) (newRef cfg) := by
  unfold Rca.newRef
  refine Agree.bind (Agree.alloc 1) fun _ B s _ hw hB _ _ => ⟨rfl, ?_⟩
  intro a b hb
  unfold St.blk at hb
  dsimp only at hb
  rw [List.getElem?_append] at hb
  split at hb
  · have := hw a b hb
    omega
  · rcases hn : a - s.heap.length with _ | n
    · rw [hn] at hb
      cases hb
      exact ⟨Int.le_refl 1, by show (1 : Int) ≤ B + 0; omega⟩
    · rw [hn] at hb
      cases hb

theorem Agree.getBlk {k : Int} {a : Nat} {f' f : Block T → M T β} (h : ∀ b, AgreeAt (fun s => s.blk a = some b) k (f' b) (f b)) :
    Agree k (getBlk a >>= f') (getBlk a >>= f) := by
  intro B s _ hw hB hk hle
  show M.bind (Bdlib.getBlk a) f' s = M.bind (Bdlib.getBlk a) f s ∧ Stays _ (M.bind (Bdlib.getBlk a) f s)
  unfold M.bind Bdlib.getBlk
  cases hb : s.blk a with
  | none => exact ⟨rfl, trivial⟩
  | some b => exact h b B s hb hw hB hk hle

theorem AgreeAt.putBlk {a : Nat} {b b' : Block T} (h : b'.refs = b.refs) :
    AgreeAt (fun s => s.blk a = some b) 0 (putBlk a b') (putBlk a b') := by
  intro B s hb hw hB _ _
  refine ⟨rfl, (show Within B _ from hw.setBlk ?_).mono (by omega)⟩
  rintro _ ⟨⟩
  rw [h]
  exact hw a b hb

/-- An allocation before the block is used. -/
theorem AgreeAt.alloc {a : Nat} {b : Block T} {n : Nat} {f' f : Nat → M T β}
    (h : ∀ g, AgreeAt (fun s => s.blk a = some b) 0 (f' g) (f g)) :
    AgreeAt (fun s => s.blk a = some b) 0 (alloc cfg n >>= f') (alloc cfg n >>= f) := by
  intro B s hb hw hB hk hle
  show M.bind (Bdlib.alloc cfg n) f' s = M.bind (Bdlib.alloc cfg n) f s ∧ Stays _ (M.bind (Bdlib.alloc cfg n) f s)
  unfold M.bind Bdlib.alloc
  dsimp only
  cases cfg.allocOk (s.gen + 1) n with
  | false => exact ⟨rfl, show Within _ s from hw.mono (by omega)⟩
  | true => exact h (s.gen + 1) B { s with gen := s.gen + 1 } hb hw hB hk hle

theorem AgreeAt.freeBuf {a : Nat} {b : Block T} {c : List T} {f' f : Unit → M T β}
    (h : AgreeAt (fun s => s.blk a = some b) 0 (f' ()) (f ())) :
    AgreeAt (fun s => s.blk a = some b) 0 (freeBuf c >>= f') (freeBuf c >>= f) :=
  fun B s hb hw hB hk hle => h B { s with freed := c :: s.freed } hb hw hB hk hle

theorem Agree.onThrow {k : Int} {m' m : M T α} {c' c : M T Unit} (h : Agree k m' m) (hc : Agree 0 c' c) :
    Agree k (m'.onThrow c') (m.onThrow c) := by
  intro B s _ hw hB hk hle
  obtain ⟨h1, h2⟩ := h B s trivial hw hB hk hle
  unfold M.onThrow
  rw [h1]
  cases hm : m s with
  | ok a s' => rw [hm] at h2; exact ⟨rfl, h2⟩
  | throw e s' =>
    rw [hm] at h2
    obtain ⟨h3, h4⟩ := hc (B + k) s' trivial h2 (by omega) (Int.le_refl 0) (by omega)
    dsimp only
    rw [h3]
    cases hcs : c s' with
    | ok u s'' => rw [hcs] at h4; exact ⟨rfl, (show Within (B + k + 0) s'' from h4).mono (by omega)⟩
    | throw e' s'' => exact ⟨rfl, trivial⟩
    | ub => exact ⟨rfl, trivial⟩
  | ub => exact ⟨rfl, trivial⟩

/-! ## Functions that do not touch the counters -/

theorem Agree.readRange (o i n : Nat) : Agree 0 (readRange o i n : M T (List T)) (readRange o i n) := by
  unfold Bdlib.readRange
  refine Agree.bind (Agree.getObj o) fun ob => Agree.ite (Agree.pure _ _) ?_
  cases ob.ref with
  | none => exact Agree.undef 0
  | some a => exact Agree.getBlk fun b => (Agree.ite (Agree.pure _ _) (Agree.undef 0)).at

theorem Agree.writeRange (o i : Nat) (vs : List T) : Agree 0 (writeRange o i vs) (writeRange o i vs) := by
  unfold Bdlib.writeRange
  refine Agree.bind (Agree.getObj o) fun ob => Agree.ite (Agree.pure _ _) ?_
  cases ob.ref with
  | none => exact Agree.undef 0
  | some a => exact Agree.getBlk fun b => AgreeAt.ite (AgreeAt.putBlk rfl) (Agree.undef 0).at

theorem Agree.arefReserve (a n : Nat) (scale : Nat → Nat) (off sl : Nat) :
    Agree 0 (arefReserve cfg a n scale off sl) (arefReserve cfg a n scale off sl) := by
  unfold Rca.arefReserve
  refine Agree.getBlk fun b => AgreeAt.ite ?_ (AgreeAt.ite ?_ (Agree.pure _ _).at)
  · refine AgreeAt.alloc fun g => AgreeAt.ite ?_ (AgreeAt.ite ?_ (Agree.undef 0).at)
    · exact AgreeAt.bind (AgreeAt.putBlk rfl) fun _ => Agree.pure _ _
    · exact AgreeAt.freeBuf (AgreeAt.bind (AgreeAt.putBlk rfl) fun _ => Agree.pure _ _)
  · exact AgreeAt.ite (AgreeAt.bind (AgreeAt.putBlk rfl) fun _ => Agree.pure _ _) (Agree.undef 0).at

theorem Agree.rcaReserve (o n : Nat) (scale : Nat → Nat) : Agree 0 (rcaReserve cfg o n scale) (rcaReserve cfg o n scale) := by
  unfold Rca.rcaReserve
  refine Agree.bind (Agree.getObj o) fun ob => ?_
  cases ob.ref with
  | none =>
    refine Agree.bind Agree.newRef fun a => Agree.bind (Agree.putObj _ _) fun _ => Agree.bind (Agree.pure _ _) fun _ => ?_
    exact Agree.bind (Agree.arefReserve _ _ _ _ _) fun _ => Agree.bind (Agree.getObj o) fun _ => Agree.putObj _ _
  | some a =>
    refine Agree.bind (Agree.pure _ _) fun _ => ?_
    exact Agree.bind (Agree.arefReserve _ _ _ _ _) fun _ => Agree.bind (Agree.getObj o) fun _ => Agree.putObj _ _

theorem Agree.strReserve (c : T) (o n : Nat) (scale : Nat → Nat) :
    Agree 0 (strReserve cfg c o n scale) (strReserve cfg c o n scale) := by
  unfold Rca.strReserve
  refine Agree.bind (Agree.rcaReserve _ _ _) fun _ => Agree.bind (Agree.getObj o) fun ob => ?_
  cases ob.ref with
  | none => exact Agree.undef 0
  | some a =>
    exact Agree.getBlk fun b => AgreeAt.ite (Agree.ite (Agree.pure _ _) (Agree.undef 0)).at (AgreeAt.putBlk rfl)

theorem Agree.reserve (o n : Nat) (scale : Nat → Nat) : Agree 0 (reserve cfg o n scale) (reserve cfg o n scale) := by
  unfold Rca.reserve
  split
  · exact Agree.strReserve _ _ _ _
  · exact Agree.rcaReserve _ _ _

theorem Agree.isShared (o : Nat) : Agree 0 (isShared o : M T Bool) (isShared o) := by
  unfold Rca.isShared
  refine Agree.bind (Agree.getObj o) fun ob => ?_
  cases ob.ref with
  | none => exact Agree.pure _ _
  | some a => exact Agree.getBlk fun _ => (Agree.pure _ _).at

theorem Agree.length (o : Nat) : Agree 0 (length o : M T Nat) (length o) :=
  Agree.bind (Agree.getObj o) fun _ => Agree.pure _ _

theorem Agree.cleanse (o : Nat) : Agree 0 (cleanse cfg o) (cleanse cfg o) := by
  unfold Rca.cleanse
  refine Agree.bind (Agree.getObj o) fun ob => ?_
  cases ob.ref with
  | none => exact Agree.pure _ _
  | some a => exact Agree.getBlk fun b => AgreeAt.ite (AgreeAt.putBlk rfl) (Agree.pure _ _).at

theorem Agree.dtorBody (o : Nat) : Agree 0 (dtorBody cfg o) (dtorBody cfg o) :=
  Agree.ite (Agree.cleanse o) (Agree.pure _ _)

theorem Agree.validateIndex (o i : Nat) : Agree 0 (validateIndex o i : M T Unit) (validateIndex o i) :=
  Agree.bind (Agree.length o) fun _ => Agree.ite (Agree.raise _ _) (Agree.pure _ _)

theorem Agree.validatePos (o i : Nat) : Agree 0 (validatePos o i : M T Unit) (validatePos o i) :=
  Agree.ite (Agree.validateIndex _ _) (Agree.pure _ _)

theorem Agree.shiftRight (o pos k : Nat) : Agree 0 (shiftRight o pos k : M T Unit) (shiftRight o pos k) :=
  Agree.bind (Agree.getObj o) fun _ => Agree.bind (Agree.readRange _ _ _) fun _ => Agree.writeRange _ _ _

theorem Agree.copyRange (r n o pos : Nat) : Agree 0 (copyRange r n o pos : M T Unit) (copyRange r n o pos) :=
  Agree.bind (Agree.getObj r) fun _ => Agree.bind (Agree.getObj o) fun _ => Agree.ite (Agree.undef 0)
    (Agree.bind (Agree.readRange _ _ _) fun _ => Agree.writeRange _ _ _)

theorem Agree.bumpLength (o k : Nat) : Agree 0 (bumpLength o k : M T Unit) (bumpLength o k) :=
  Agree.bind (Agree.getObj o) fun _ => Agree.putObj _ _

theorem Agree.setLength (o k : Nat) : Agree 0 (setLength o k : M T Unit) (setLength o k) :=
  Agree.bind (Agree.getObj o) fun _ => Agree.putObj _ _

theorem Agree.slice (o : Nat) (start len : Int) : Agree 0 (slice o start len : M T Unit) (slice o start len) :=
  Agree.bind (Agree.getObj o) fun _ => Agree.ite (Agree.putObj _ _) (Agree.ite (Agree.undef 0) (Agree.putObj _ _))

theorem Agree.swap (o r : Nat) : Agree 0 (swap o r : M T Unit) (swap o r) :=
  Agree.bind (Agree.getObj o) fun _ => Agree.bind (Agree.getObj r) fun _ => Agree.bind (Agree.putObj _ _) fun _ => Agree.putObj _ _

theorem Agree.moveCtor (r : Nat) : Agree 0 (moveCtor cfg r) (moveCtor cfg r) :=
  Agree.bind (Agree.getObj r) fun _ => Agree.bind (Agree.newObj _) fun _ => Agree.bind (Agree.putObj _ _) fun _ => Agree.pure _ _

theorem Agree.read (o i : Nat) : Agree 0 (read o i : M T (Option T)) (read o i) :=
  Agree.bind (Agree.readRange _ _ _) fun _ => Agree.pure _ _

theorem Agree.at' (o i : Nat) : Agree 0 (at' o i : M T (Option T)) (at' o i) :=
  Agree.bind (Agree.validateIndex _ _) fun _ => Agree.read _ _

theorem Agree.hash (o : Nat) : Agree 0 (hash cfg o) (hash cfg o) :=
  Agree.bind (Agree.getObj o) fun _ => Agree.ite (Agree.pure _ _)
    (Agree.bind (Agree.readRange _ _ _) fun _ => Agree.bind (Agree.putObj _ _) fun _ => Agree.pure _ _)

theorem Agree.popBack (o : Nat) : Agree 0 (popBack o : M T Unit) (popBack o) :=
  Agree.bind (Agree.getObj o) fun _ => Agree.putObj _ _

theorem Agree.dropFront (o n : Nat) : Agree 0 (dropFront o n : M T Unit) (dropFront o n) :=
  Agree.bind (Agree.getObj o) fun _ => Agree.ite (Agree.pure _ _) (Agree.ite (Agree.putObj _ _) (Agree.putObj _ _))

theorem Agree.dropBack (o n : Nat) : Agree 0 (dropBack o n : M T Unit) (dropBack o n) :=
  Agree.bind (Agree.getObj o) fun _ => Agree.ite (Agree.pure _ _) (Agree.ite (Agree.putObj _ _) (Agree.putObj _ _))

theorem Agree.arrDropFront (o : Nat) (n : Int) : Agree 0 (arrDropFront o n : M T Unit) (arrDropFront o n) :=
  Agree.bind (Agree.getObj o) fun _ => Agree.ite (Agree.pure _ _) (Agree.ite (Agree.putObj _ _) (Agree.putObj _ _))

theorem Agree.arrDropBack (o : Nat) (n : Int) : Agree 0 (arrDropBack o n : M T Unit) (arrDropBack o n) :=
  Agree.bind (Agree.getObj o) fun _ => Agree.ite (Agree.pure _ _) (Agree.ite (Agree.putObj _ _) (Agree.putObj _ _))

theorem Agree.shift (o : Nat) : Agree 0 (shift cfg o) (shift cfg o) :=
  Agree.bind (Agree.readRange _ _ _) fun _ => Agree.bind (Agree.isShared o) fun _ =>
    Agree.ite (Agree.bind (Agree.getObj o) fun _ => Agree.bind (Agree.putObj _ _) fun _ => Agree.pure _ _)
      (Agree.bind (Agree.writeRange _ _ _) fun _ => Agree.bind (Agree.getObj o) fun _ => Agree.bind (Agree.putObj _ _) fun _ => Agree.pure _ _)

theorem Agree.pop (o : Nat) : Agree 0 (pop cfg o) (pop cfg o) :=
  Agree.bind (Agree.getObj o) fun _ => Agree.bind (Agree.readRange _ _ _) fun _ => Agree.bind (Agree.isShared o) fun _ =>
    Agree.ite (Agree.bind (Agree.popBack o) fun _ => Agree.pure _ _)
      (Agree.bind (Agree.writeRange _ _ _) fun _ => Agree.bind (Agree.popBack o) fun _ => Agree.pure _ _)

/-! ## The counters -/

theorem wrap32_id {n : Int} (h : -2147483648 ≤ n) (h' : n ≤ 2147483647) : wrap32 n = n := by
  unfold wrap32
  omega

/-- `++` on a counter below the maximum. -/
theorem Agree.incRef (r : Option Nat) : Agree 1 (incRef r : M T Unit) (Rca.incRef r) := by
  unfold Rca32.incRef Rca.incRef
  cases r with
  | none => exact Agree.pure _ _
  | some a =>
    refine Agree.getBlk fun b B s hb hw hB _ hle => ?_
    have := hw a b hb
    rw [wrap32_id (by omega) (by omega)]
    refine ⟨rfl, (hw.mono (by omega)).setBlk ?_⟩
    rintro _ ⟨⟩
    dsimp only
    omega

/-- The storage of `o` has another owner (or there is none). -/
def Sh (o : Nat) (s : St T) : Prop := ∀ ob a b, s.obj o = some ob → ob.ref = some a → s.blk a = some b → 1 < b.refs

theorem doDetach_agree (o : Nat) : AgreeAt (Sh o) 0 (doDetach o : M T Unit) (Rca.doDetach o) := by
  intro B s hsh hw hB _ hle
  unfold Rca32.doDetach Rca.doDetach
  show M.bind (Bdlib.getObj o) _ s = M.bind (Bdlib.getObj o) _ s ∧ Stays _ (M.bind (Bdlib.getObj o) _ s)
  unfold M.bind Bdlib.getObj
  cases ho : s.obj o with
  | none => exact ⟨rfl, trivial⟩
  | some ob =>
    dsimp only
    cases hr : ob.ref with
    | none =>
      exact (Agree.bind (Agree.pure 0 ()) fun _ => Agree.putObj o {}) B s trivial hw hB (Int.le_refl 0) hle
    | some a =>
      unfold Rca32.decRef Rca.decRef
      dsimp only
      show M.bind (M.bind (Bdlib.getBlk a) _) _ s = M.bind (M.bind (Bdlib.getBlk a) _) _ s ∧
        Stays _ (M.bind (M.bind (Bdlib.getBlk a) _) _ s)
      unfold M.bind Bdlib.getBlk
      cases hb : s.blk a with
      | none => exact ⟨rfl, trivial⟩
      | some b =>
        have h1 := hsh ob a b ho hr hb
        have h2 := hw a b hb
        dsimp only
        rw [wrap32_id (by omega) (by omega)]
        refine ⟨rfl, show Within _ (s.setBlk a _) from (hw.mono (by omega)).setBlk ?_⟩
        rintro _ ⟨⟩
        dsimp only
        omega

/-- What `isShared` answered. -/
theorem isShared_agree {k : Int} {o : Nat} {m1' m1 m2' m2 : M T α} (h1 : AgreeAt (Sh o) k m1' m1) (h2 : Agree k m2' m2) :
    Agree k (isShared o >>= fun c => if c then m1' else m2') (isShared o >>= fun c => if c then m1 else m2) := by
  intro B s _ hw hB hk hle
  have hc : isShared o s = .ub ∨ ∃ c, isShared o s = .ok c s ∧ (c = true → Sh o s) := by
    unfold Rca.isShared
    show M.bind (Bdlib.getObj o) _ s = .ub ∨ ∃ c, M.bind (Bdlib.getObj o) _ s = .ok c s ∧ _
    unfold M.bind Bdlib.getObj
    cases ho : s.obj o with
    | none => exact Or.inl rfl
    | some ob =>
      dsimp only
      cases hr : ob.ref with
      | none => exact Or.inr ⟨false, rfl, fun h => (nomatch h)⟩
      | some a =>
        dsimp only
        show M.bind (Bdlib.getBlk a) _ s = .ub ∨ ∃ c, M.bind (Bdlib.getBlk a) _ s = .ok c s ∧ _
        unfold M.bind Bdlib.getBlk
        cases hb : s.blk a with
        | none => exact Or.inl rfl
        | some b =>
          refine Or.inr ⟨decide (b.refs > 1), rfl, fun h ob' a' b' ho' hr' hb' => ?_⟩
          cases ho.symm.trans ho'
          cases hr.symm.trans hr'
          cases hb.symm.trans hb'
          exact of_decide_eq_true h
  show M.bind (Rca.isShared o) _ s = M.bind (Rca.isShared o) _ s ∧ Stays _ (M.bind (Rca.isShared o) _ s)
  unfold M.bind
  rcases hc with hc | ⟨c, hc, hsh⟩
  · rw [hc]; exact ⟨rfl, trivial⟩
  · rw [hc]
    dsimp only
    cases c with
    | true => exact h1 B s (hsh rfl) hw hB hk hle
    | false => exact h2 B s trivial hw hB hk hle

theorem Agree.clear (o : Nat) : Agree 0 (clear o : M T Unit) (Rca.clear o) :=
  isShared_agree (doDetach_agree o) (Agree.bind (Agree.getObj o) fun _ => Agree.putObj _ _)

theorem Agree.checkDeallocRef (o : Nat) : Agree 0 (checkDeallocRef o : M T Unit) (Rca.checkDeallocRef o) := by
  unfold Rca32.checkDeallocRef Rca.checkDeallocRef
  refine Agree.bind (Agree.getObj o) fun ob => ?_
  cases ob.ref with
  | none => exact Agree.pure _ _
  | some a =>
    dsimp only
    intro B s _ hw hB hk hle
    unfold Rca32.decRef Rca.decRef
    dsimp only
    cases hb : s.blk a with
    | none =>
      have e : (Bdlib.getBlk a : M T (Block T)) s = .ub := by unfold Bdlib.getBlk; rw [hb]
      show M.bind (M.bind (Bdlib.getBlk a) _) _ s = M.bind (M.bind (Bdlib.getBlk a) _) _ s ∧
        Stays _ (M.bind (M.bind (Bdlib.getBlk a) _) _ s)
      unfold M.bind
      rw [e]
      exact ⟨rfl, trivial⟩
    | some b =>
      have h2 := hw a b hb
      have e : (Bdlib.getBlk a : M T (Block T)) s = .ok b s := by unfold Bdlib.getBlk; rw [hb]
      have hl : a < s.heap.length := St.blk_lt hb
      have e2 : ∀ x, (Bdlib.getBlk a : M T (Block T)) (s.setBlk a (some x)) = .ok x (s.setBlk a (some x)) := by
        intro x; unfold Bdlib.getBlk; rw [St.blk_setBlk_self _ hl]
      show M.bind (M.bind (Bdlib.getBlk a) _) _ s = M.bind (M.bind (Bdlib.getBlk a) _) _ s ∧
        Stays _ (M.bind (M.bind (Bdlib.getBlk a) _) _ s)
      unfold M.bind
      rw [e]
      dsimp only
      rw [wrap32_id (by omega) (by omega)]
      refine ⟨rfl, ?_⟩
      show Stays _ (M.bind (Bdlib.getBlk a) _ (s.setBlk a (some { b with refs := b.refs - 1 })))
      unfold M.bind
      rw [e2]
      dsimp only
      split
      · next h =>
        show Within _ ((s.setBlk a _).setBlk a none)
        intro a' b' hb'
        by_cases ea : a' = a
        · subst ea
          rw [St.blk_setBlk_self _ (by simpa [St.setBlk] using hl)] at hb'
          cases hb'
        · rw [St.blk_setBlk_ne _ ea, St.blk_setBlk_ne _ ea] at hb'
          have := hw a' b' hb'
          omega
      · next h =>
        refine (hw.mono (by omega)).setBlk ?_
        rintro _ ⟨⟩
        dsimp only at h ⊢
        omega

theorem cow_agree (o n : Nat) : AgreeAt (Sh o) 0 (cow cfg o n) (Rca.cow cfg o n) := by
  have hget : ∀ (f' f : Obj → M T Unit), (∀ ob, AgreeAt (Sh o) 0 (f' ob) (f ob)) →
      AgreeAt (Sh o) 0 (Bdlib.getObj o >>= f') (Bdlib.getObj o >>= f) := by
    intro f' f h B s hsh hw hB hk hle
    show M.bind (Bdlib.getObj o) _ s = M.bind (Bdlib.getObj o) _ s ∧ Stays _ (M.bind (Bdlib.getObj o) _ s)
    unfold M.bind Bdlib.getObj
    cases s.obj o with
    | none => exact ⟨rfl, trivial⟩
    | some ob => exact h ob B s hsh hw hB hk hle
  unfold Rca32.cow Rca.cow
  refine hget _ _ fun ob => AgreeAt.bind (doDetach_agree o) fun _ => Agree.bind (Agree.reserve _ _ _) fun _ =>
    Agree.bind (Agree.getObj o) fun _ => Agree.bind (Agree.putObj _ _) fun _ => Agree.ite (Agree.pure _ _) ?_
  cases ob.ref with
  | none => exact Agree.undef 0
  | some a => exact Agree.getBlk fun _ => (Agree.ite (Agree.writeRange _ _ _) (Agree.undef 0)).at

theorem Agree.aboutToModify (o n : Nat) : Agree 0 (aboutToModify cfg o n) (Rca.aboutToModify cfg o n) :=
  Agree.bind (Agree.getObj o) fun _ => Agree.bind (Agree.putObj _ _) fun _ => isShared_agree (cow_agree o n) (Agree.reserve _ _ _)

theorem Agree.growTo (o n : Nat) : Agree 0 (growTo cfg o n) (Rca.growTo cfg o n) := by
  unfold Rca32.growTo Rca.growTo
  refine Agree.ite (Agree.aboutToModify o n) (Agree.bind (Agree.getObj o) fun ob => Agree.bind (Agree.putObj _ _) fun _ =>
    isShared_agree (AgreeAt.bind (doDetach_agree o) fun _ => Agree.bind (Agree.reserve _ _ _) fun _ =>
      Agree.bind (Agree.getObj o) fun _ => Agree.bind (Agree.putObj _ _) fun _ => Agree.ite (Agree.pure _ _) ?_)
      (Agree.reserve _ _ _))
  cases ob.ref with
  | none => exact Agree.undef 0
  | some a => exact Agree.getBlk fun _ => (Agree.ite (Agree.writeRange _ _ _) (Agree.undef 0)).at

theorem Agree.getOwnCopy (o : Nat) : Agree 0 (getOwnCopy cfg o) (Rca.getOwnCopy cfg o) :=
  Agree.bind (Agree.length o) fun _ => Agree.aboutToModify _ _

theorem Agree.destroy (cfg : Cfg T) (o : Nat) : Agree 0 (destroy cfg o) (Rca.destroy cfg o) :=
  Agree.bind (Agree.dtorBody o) fun _ => Agree.bind (Agree.checkDeallocRef o) fun _ => Agree.dropObj o

theorem Agree.then {k : Int} {m' m : M T α} {f' f : α → M T β} (h : Agree k m' m) (hf : ∀ a, Agree 0 (f' a) (f a)) :
    Agree k (m' >>= f') (m >>= f) := AgreeAt.then h hf

theorem Agree.copyCtor (r : Nat) : Agree 1 (copyCtor r : M T Nat) (Rca.copyCtor r) :=
  Agree.bind (Agree.getObj r) fun _ => Agree.bind (Agree.newObj _) fun _ => Agree.then (Agree.incRef _) fun _ => Agree.pure _ _

theorem Agree.copyAssign (o r : Nat) : Agree 1 (copyAssign o r : M T Unit) (Rca.copyAssign o r) :=
  Agree.bind (Agree.getObj r) fun _ => Agree.then (Agree.incRef _) fun _ => Agree.bind (Agree.getObj o) fun _ =>
    Agree.bind (Agree.putObj _ _) fun _ => Agree.bind (Agree.checkDeallocRef o) fun _ => Agree.bind (Agree.getObj r) fun _ =>
    Agree.bind (Agree.getObj o) fun _ => Agree.putObj _ _

theorem Agree.moveAssign (o r : Nat) : Agree 0 (moveAssign cfg o r) (Rca.moveAssign cfg o r) :=
  Agree.ite (Agree.pure _ _) (Agree.bind (Agree.checkDeallocRef o) fun _ => Agree.bind (Agree.getObj r) fun _ =>
    Agree.bind (Agree.putObj _ _) fun _ => Agree.putObj _ _)

theorem Agree.resize (o n : Nat) : Agree 0 (resize cfg o n) (Rca.resize cfg o n) :=
  Agree.bind (Agree.length o) fun _ => Agree.ite (Agree.setLength _ _) (Agree.bind (Agree.growTo _ _) fun _ =>
    Agree.bind (Agree.getObj o) fun _ => Agree.putObj _ _)

theorem Agree.resizeFill (cfg : Cfg T) (o n : Nat) (x : T) : Agree 0 (resizeFill cfg o n x) (Rca.resizeFill cfg o n x) :=
  Agree.bind (Agree.length o) fun _ => Agree.ite (Agree.setLength _ _) (Agree.bind (Agree.growTo _ _) fun _ =>
    Agree.bind (Agree.getObj o) fun _ => Agree.bind (Agree.writeRange _ _ _) fun _ => Agree.bind (Agree.getObj o) fun _ =>
    Agree.putObj _ _)

theorem Agree.sizeCtor (n : Nat) : Agree 0 (sizeCtor cfg n) (Rca.sizeCtor cfg n) :=
  Agree.bind (Agree.newObj _) fun _ => Agree.bind
    (Agree.onThrow (Agree.ite (Agree.reserve _ _ _) (Agree.pure _ _)) (Agree.destroy _ _)) fun _ => Agree.pure _ _

theorem Agree.fillCtor (n : Nat) (x : T) : Agree 0 (fillCtor cfg n x) (Rca.fillCtor cfg n x) :=
  Agree.bind (Agree.newObj _) fun _ => Agree.bind (Agree.onThrow (Agree.resizeFill _ _ _ _) (Agree.destroy _ _)) fun _ =>
    Agree.pure _ _

theorem Agree.listCtor (xs : List T) : Agree 0 (listCtor cfg xs) (Rca.listCtor cfg xs) :=
  Agree.bind (Agree.sizeCtor _) fun _ => Agree.bind (Agree.onThrow (Agree.bind (Agree.writeRange _ _ _) fun _ =>
    Agree.bind (Agree.getObj _) fun _ => Agree.putObj _ _) (Agree.destroy _ _)) fun _ => Agree.pure _ _

theorem Agree.strCtor (c : T) (xs : List T) : Agree 0 (strCtor cfg c xs) (Rca.strCtor cfg c xs) :=
  Agree.bind (Agree.sizeCtor _) fun _ => Agree.bind (Agree.writeRange _ _ _) fun _ => Agree.bind (Agree.writeRange _ _ _) fun _ =>
    Agree.bind (Agree.getObj _) fun _ => Agree.bind (Agree.putObj _ _) fun _ => Agree.pure _ _

theorem Agree.cstrCtor (c : T) (xs : List T) : Agree 0 (cstrCtor cfg c xs) (Rca.cstrCtor cfg c xs) :=
  Agree.bind (Agree.newObj _) fun _ => Agree.ite (Agree.pure _ _) (Agree.bind (Agree.getObj _) fun _ =>
    Agree.bind (Agree.putObj _ _) fun _ => Agree.bind (Agree.onThrow (Agree.rcaReserve _ _ _) (Agree.destroy _ _)) fun _ =>
    Agree.bind (Agree.writeRange _ _ _) fun _ => Agree.pure _ _)

theorem Agree.charCtor (c x : T) : Agree 0 (charCtor cfg c x) (Rca.charCtor cfg c x) :=
  Agree.bind (Agree.newObj _) fun _ => Agree.bind (Agree.onThrow (Agree.rcaReserve _ _ _) (Agree.destroy _ _)) fun _ =>
    Agree.bind (Agree.writeRange _ _ _) fun _ => Agree.bind (Agree.getObj _) fun _ => Agree.bind (Agree.putObj _ _) fun _ =>
    Agree.bind (Agree.writeRange _ _ _) fun _ => Agree.pure _ _

theorem Agree.assignList (o : Nat) (xs : List T) : Agree 0 (assignList cfg o xs) (Rca.assignList cfg o xs) :=
  Agree.bind (Agree.clear o) fun _ => Agree.bind (Agree.reserve _ _ _) fun _ => Agree.bind (Agree.writeRange _ _ _) fun _ =>
    Agree.bind (Agree.getObj o) fun _ => Agree.putObj _ _

theorem Agree.assignStd (c : T) (o : Nat) (xs : List T) : Agree 0 (assignStd cfg c o xs) (Rca.assignStd cfg c o xs) :=
  Agree.bind (Agree.clear o) fun _ => Agree.bind (Agree.rcaReserve _ _ _) fun _ => Agree.bind (Agree.getObj o) fun _ =>
    Agree.bind (Agree.putObj _ _) fun _ => Agree.writeRange _ _ _

theorem Agree.assignCstr (c : T) (o : Nat) (xs : List T) : Agree 0 (assignCstr cfg c o xs) (Rca.assignCstr cfg c o xs) :=
  Agree.bind (Agree.strCtor _ _) fun _ => Agree.bind (Agree.moveAssign _ _) fun _ => Agree.destroy _ _

theorem Agree.write (o i : Nat) (x : T) : Agree 0 (write cfg o i x) (Rca.write cfg o i x) :=
  Agree.bind (Agree.getOwnCopy o) fun _ => Agree.writeRange _ _ _

theorem Agree.substring (r : Nat) (start len : Int) : Agree 1 (substring r start len : M T Nat) (Rca.substring r start len) :=
  Agree.then (Agree.copyCtor r) fun _ => Agree.bind (Agree.slice _ _ _) fun _ => Agree.pure _ _

theorem Agree.insertItem (o pos : Nat) (x : T) : Agree 0 (insertItem cfg o pos x) (Rca.insertItem cfg o pos x) :=
  Agree.bind (Agree.validatePos _ _) fun _ => Agree.bind (Agree.length o) fun _ => Agree.bind (Agree.aboutToModify _ _) fun _ =>
    Agree.bind (Agree.shiftRight _ _ _) fun _ => Agree.bind (Agree.writeRange _ _ _) fun _ => Agree.bumpLength _ _

theorem Agree.append (o : Nat) (x : T) : Agree 0 (append cfg o x) (Rca.append cfg o x) :=
  Agree.bind (Agree.length o) fun _ => Agree.insertItem _ _ _

theorem Agree.insertBody (o pos r n : Nat) : Agree 0 (insertBody cfg o pos r n) (Rca.insertBody cfg o pos r n) :=
  Agree.bind (Agree.length o) fun _ => Agree.bind (Agree.aboutToModify _ _) fun _ => Agree.bind (Agree.shiftRight _ _ _) fun _ =>
    Agree.bind (Agree.copyRange _ _ _ _) fun _ => Agree.bumpLength _ _

theorem Agree.up {m' m : M T α} (h : Agree 0 m' m) : Agree 1 m' m := AgreeAt.mono h (Int.le_refl 0) (by omega)

theorem Agree.insertRcaN (o pos r n : Nat) : Agree 1 (insertRcaN cfg o pos r n) (Rca.insertRcaN cfg o pos r n) :=
  Agree.ite (Agree.pure _ _) (Agree.bind (Agree.validatePos _ _) fun _ => Agree.bind (Agree.length r) fun _ =>
    Agree.bind (Agree.length o) fun _ => Agree.ite (Agree.copyAssign _ _) (Agree.insertBody _ _ _ _).up)

theorem Agree.insertRca (o pos r : Nat) : Agree 1 (insertRca cfg o pos r) (Rca.insertRca cfg o pos r) :=
  Agree.bind (Agree.validatePos _ _) fun _ => Agree.bind (Agree.length r) fun _ =>
    Agree.bind (Agree.length o) fun _ => Agree.ite (Agree.copyAssign _ _) (Agree.insertBody _ _ _ _).up

theorem Agree.insertMoveN (o pos r n : Nat) : Agree 0 (insertMoveN cfg o pos r n) (Rca.insertMoveN cfg o pos r n) :=
  Agree.ite (Agree.pure _ _) (Agree.bind (Agree.validatePos _ _) fun _ => Agree.bind (Agree.length r) fun _ =>
    Agree.bind (Agree.length o) fun _ => Agree.ite (Agree.moveAssign _ _) (Agree.insertBody _ _ _ _))

theorem Agree.insertMove (o pos r : Nat) : Agree 0 (insertMove cfg o pos r) (Rca.insertMove cfg o pos r) :=
  Agree.bind (Agree.validatePos _ _) fun _ => Agree.bind (Agree.length r) fun _ =>
    Agree.bind (Agree.length o) fun _ => Agree.ite (Agree.moveAssign _ _) (Agree.insertBody _ _ _ _)

theorem Agree.appendRca (o r n : Nat) : Agree 1 (appendRca cfg o r n) (Rca.appendRca cfg o r n) :=
  Agree.bind (Agree.length o) fun _ => Agree.insertRcaN _ _ _ _

theorem Agree.appendMove (o r n : Nat) : Agree 0 (appendMove cfg o r n) (Rca.appendMove cfg o r n) :=
  Agree.bind (Agree.length o) fun _ => Agree.insertMoveN _ _ _ _

theorem Agree.insertIter (o i : Nat) (x : T) : Agree 0 (insertIter cfg o i x) (Rca.insertIter cfg o i x) :=
  Agree.bind (Agree.getOwnCopy o) fun _ => Agree.bind (Agree.insertItem _ _ _) fun _ => Agree.getOwnCopy o

theorem Agree.insertLoop (o : Nat) : ∀ (xs : List T) (i : Nat), Agree 0 (insertLoop cfg o i xs) (Rca.insertLoop cfg o i xs)
  | [], _ => Agree.pure _ _
  | _ :: xs, _ => Agree.bind (Agree.insertIter _ _ _) fun _ => Agree.insertLoop o xs _

theorem Agree.insertRange (cfg : Cfg T) (o i : Nat) (xs : List T) : Agree 0 (insertRange cfg o i xs) (Rca.insertRange cfg o i xs) :=
  Agree.bind (Agree.length o) fun _ => Agree.bind (Agree.aboutToModify _ _) fun _ => Agree.bind (Agree.insertLoop o xs _) fun _ =>
    Agree.getOwnCopy o

theorem Agree.rangeCtor (xs : List T) : Agree 0 (rangeCtor cfg xs) (Rca.rangeCtor cfg xs) :=
  Agree.bind (Agree.sizeCtor _) fun _ => Agree.bind (Agree.onThrow (Agree.insertRange _ _ _ _) (Agree.destroy _ _)) fun _ =>
    Agree.pure _ _

theorem Agree.insertC (o pos : Nat) (xs : List T) (e : Bool) : Agree 0 (insertC cfg o pos xs e) (Rca.insertC cfg o pos xs e) :=
  Agree.ite (Agree.pure _ _) (Agree.bind (Agree.validatePos _ _) fun _ => Agree.bind (Agree.length o) fun _ =>
    Agree.bind (Agree.aboutToModify _ _) fun _ => Agree.bind (Agree.shiftRight _ _ _) fun _ =>
    Agree.bind (Agree.bumpLength _ _) fun _ => Agree.writeRange _ _ _)

theorem Agree.replaceItem (o pos : Nat) (x : T) : Agree 0 (replaceItem cfg o pos x) (Rca.replaceItem cfg o pos x) :=
  Agree.bind (Agree.validatePos _ _) fun _ => Agree.bind (Agree.getOwnCopy o) fun _ => Agree.writeRange _ _ _

theorem Agree.replaceBody (o pos r n : Nat) : Agree 0 (replaceBody cfg o pos r n) (Rca.replaceBody cfg o pos r n) :=
  Agree.bind (Agree.length o) fun _ => Agree.bind (Agree.aboutToModify _ _) fun _ => Agree.bind (Agree.copyRange _ _ _ _) fun _ =>
    Agree.bind (Agree.getObj o) fun _ => Agree.putObj _ _

theorem Agree.replaceRca (o pos r n : Nat) : Agree 1 (replaceRca cfg o pos r n) (Rca.replaceRca cfg o pos r n) :=
  Agree.ite (Agree.pure _ _) (Agree.bind (Agree.validatePos _ _) fun _ => Agree.bind (Agree.length r) fun _ =>
    Agree.bind (Agree.length o) fun _ => Agree.ite (Agree.copyAssign _ _) (Agree.replaceBody _ _ _ _).up)

theorem Agree.replaceMove (o pos r n : Nat) : Agree 0 (replaceMove cfg o pos r n) (Rca.replaceMove cfg o pos r n) :=
  Agree.ite (Agree.pure _ _) (Agree.bind (Agree.validatePos _ _) fun _ => Agree.bind (Agree.length r) fun _ =>
    Agree.bind (Agree.length o) fun _ => Agree.ite (Agree.moveAssign _ _) (Agree.replaceBody _ _ _ _))

theorem Agree.replaceC (o pos : Nat) (xs : List T) (e : Bool) : Agree 0 (replaceC cfg o pos xs e) (Rca.replaceC cfg o pos xs e) :=
  Agree.ite (Agree.pure _ _) (Agree.bind (Agree.validatePos _ _) fun _ => Agree.bind (Agree.length o) fun _ =>
    Agree.bind (Agree.aboutToModify _ _) fun _ => Agree.bind (Agree.getObj o) fun _ => Agree.bind (Agree.putObj _ _) fun _ =>
    Agree.writeRange _ _ _)

theorem Agree.cStr [DecidableEq T] (c : T) (o : Nat) : Agree 0 (cStr cfg c o) (Rca.cStr cfg c o) :=
  Agree.bind (Agree.getObj o) fun _ => Agree.ite (Agree.pure _ _) (Agree.bind (Agree.readRange _ _ _) fun _ =>
    Agree.ite (Agree.bind (Agree.aboutToModify _ _) fun _ => Agree.bind (Agree.writeRange _ _ _) fun _ => Agree.readRange _ _ _)
      (Agree.readRange _ _ _))

theorem Agree.mapOut {k : Int} {m' m : M T α} {f : α → Out T} (h : Agree k m' m) : Agree k (mapOut m' f) (mapOut m f) :=
  Agree.then h fun _ => Agree.pure _ _

/-- Every call. -/
theorem agree_run [DecidableEq T] (op : Op T) : Agree 1 (run cfg op) (Rca.run cfg op) := by
  cases op with
  | strCtor xs => simp only [run, Rca.run]; cases cfg.nul; exact .undef 1; exact (Agree.mapOut (.strCtor _ _)).up
  | cstrCtor xs => simp only [run, Rca.run]; cases cfg.nul; exact .undef 1; exact (Agree.mapOut (.cstrCtor _ _)).up
  | charCtor x => simp only [run, Rca.run]; cases cfg.nul; exact .undef 1; exact (Agree.mapOut (.charCtor _ _)).up
  | assignStd o xs => simp only [run, Rca.run]; cases cfg.nul; exact .undef 1; exact (Agree.mapOut (.assignStd _ _ _)).up
  | assignCstr o xs => simp only [run, Rca.run]; cases cfg.nul; exact .undef 1; exact (Agree.mapOut (.assignCstr _ _ _)).up
  | cStr o => simp only [run, Rca.run]; cases cfg.nul; exact .undef 1; exact (Agree.mapOut (.cStr _ _)).up
  | ctor => exact (Agree.mapOut (.newObj _)).up
  | copyCtor r => exact .mapOut (.copyCtor _)
  | moveCtor r => exact (Agree.mapOut (.moveCtor _)).up
  | sizeCtor n => exact (Agree.mapOut (.sizeCtor _)).up
  | fillCtor n x => exact (Agree.mapOut (.fillCtor _ _)).up
  | listCtor xs => exact (Agree.mapOut (.listCtor _)).up
  | rangeCtor xs => exact (Agree.mapOut (.rangeCtor _)).up
  | substring r a b => exact .mapOut (.substring _ _ _)
  | destroy o => exact (Agree.mapOut (.destroy _ _)).up
  | copyAssign o r => exact .mapOut (.copyAssign _ _)
  | moveAssign o r => exact (Agree.mapOut (.moveAssign _ _)).up
  | swap o r => exact (Agree.mapOut (.swap _ _)).up
  | clear o => exact (Agree.mapOut (.clear _)).up
  | assignList o xs => exact (Agree.mapOut (.assignList _ _)).up
  | length o => exact (Agree.mapOut (.length _)).up
  | read o i => exact (Agree.mapOut (.read _ _)).up
  | «at» o i => exact (Agree.mapOut (.at' _ _)).up
  | hash o => exact (Agree.mapOut (.hash _)).up
  | begin o => exact (Agree.mapOut (.getOwnCopy _)).up
  | reserve o n => exact (Agree.mapOut (.reserve _ _ _)).up
  | resize o n => exact (Agree.mapOut (.resize _ _)).up
  | resizeFill o n x => exact (Agree.mapOut (.resizeFill _ _ _ _)).up
  | write o i x => exact (Agree.mapOut (.write _ _ _)).up
  | slice o a b => exact (Agree.mapOut (.slice _ _ _)).up
  | append o x => exact (Agree.mapOut (.append _ _)).up
  | appendRca o r n => exact .mapOut (.appendRca _ _ _)
  | appendMove o r n => exact (Agree.mapOut (.appendMove _ _ _)).up
  | insertItem o p x => exact (Agree.mapOut (.insertItem _ _ _)).up
  | insertRca o p r => exact .mapOut (.insertRca _ _ _)
  | insertRcaN o p r n => exact .mapOut (.insertRcaN _ _ _ _)
  | insertMove o p r => exact (Agree.mapOut (.insertMove _ _ _)).up
  | insertMoveN o p r n => exact (Agree.mapOut (.insertMoveN _ _ _ _)).up
  | insertRange o p xs => exact (Agree.mapOut (.insertRange _ _ _ _)).up
  | insertC o p xs => exact (Agree.mapOut (.insertC _ _ _ _)).up
  | replaceItem o p x => exact (Agree.mapOut (.replaceItem _ _ _)).up
  | replaceRca o p r n => exact .mapOut (.replaceRca _ _ _ _)
  | replaceMove o p r n => exact (Agree.mapOut (.replaceMove _ _ _ _)).up
  | replaceC o p xs => exact (Agree.mapOut (.replaceC _ _ _ _)).up
  | popBack o => exact (Agree.mapOut (.popBack _)).up
  | dropFront o n => exact (Agree.mapOut (.dropFront _ _)).up
  | dropBack o n => exact (Agree.mapOut (.dropBack _ _)).up
  | arrDropFront o n => exact (Agree.mapOut (.arrDropFront _ _)).up
  | arrDropBack o n => exact (Agree.mapOut (.arrDropBack _ _)).up
  | shift o => exact (Agree.mapOut (.shift _)).up
  | pop o => exact (Agree.mapOut (.pop _)).up

end Bdlib.Rca32
