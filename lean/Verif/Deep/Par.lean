import Verif.Deep.Elem


/-!
# Array code that does not touch elements

`Like f s σ`: the array memory `σ` over values is the array memory `s` over handles with every handle `h`
replaced by the value `f h`.  `Par m m'`: the same code run on both memories stays in step.
-/

namespace Bdlib.Deep
open Bdlib Bdlib.Spec Bdlib.Rca

variable {T : Type}

def mapBlk (f : Nat → Slot T) (b : Block Nat) : Block (Slot T) := { gen := b.gen, cells := b.cells.map f, refs := b.refs }

structure Like (f : Nat → Slot T) (s : St Nat) (σ : St (Slot T)) : Prop where
  blk : ∀ a, σ.blk a = (s.blk a).map (mapBlk f)
  len : σ.heap.length = s.heap.length
  objs : σ.objs = s.objs
  gen : σ.gen = s.gen

/-- The handles in the buffer of block `a`. -/
def cellsAt (s : St Nat) (a : Nat) : List Nat :=
  match s.blk a with
  | some b => b.cells
  | none => []

def SameCells (s s' : St Nat) : Prop := ∀ a, cellsAt s' a = cellsAt s a

theorem SameCells.refl (s : St Nat) : SameCells s s := fun _ => rfl
theorem SameCells.trans {s s' s'' : St Nat} (h : SameCells s s') (h' : SameCells s' s'') : SameCells s s'' :=
  fun a => (h' a).trans (h a)

theorem cellsAt_some {s : St Nat} {a : Nat} {b : Block Nat} (h : s.blk a = some b) : cellsAt s a = b.cells := by
  simp [cellsAt, h]

/-- The outcome on handles matches the outcome on values, unless that is undefined. -/
def InStep {α : Type} (f : Nat → Slot T) (s : St Nat) (r : Bdlib.Res Nat α) (r' : Bdlib.Res (Slot T) α) : Prop :=
  match r' with
  | .ok a σ' => ∃ s', r = .ok a s' ∧ Like f s' σ' ∧ SameCells s s'
  | .throw e σ' => ∃ s', r = .throw e s' ∧ Like f s' σ' ∧ SameCells s s'
  | .ub => True

/-- The code `m` on handles stays in step with the code `m'` on values. -/
def Par {α : Type} (m : M Nat α) (m' : M (Slot T) α) : Prop := ∀ f s σ, Like f s σ → InStep f s (m s) (m' σ)

section
variable {α β : Type}

theorem Par.pure (a : α) : Par (T := T) (pure a) (pure a) := fun _ s _ h => ⟨s, rfl, h, .refl s⟩
theorem Par.raise (e : Exc) : Par (T := T) (α := α) (M.raise e) (M.raise e) := fun _ s _ h => ⟨s, rfl, h, .refl s⟩
theorem Par.undef {m : M Nat α} : Par (T := T) m M.undef := fun _ _ _ _ => trivial

theorem Par.bind {m : M Nat α} {m' : M (Slot T) α} {f : α → M Nat β} {f' : α → M (Slot T) β} (h : Par m m')
    (hf : ∀ a, Par (f a) (f' a)) : Par (m >>= f) (m' >>= f') := by
  intro g s σ hl
  have h1 := h g s σ hl
  show InStep g s _ (M.bind m' f' σ)
  unfold M.bind
  cases hm : m' σ with
  | ub => trivial
  | throw e σ' =>
    rw [hm] at h1
    obtain ⟨s', h2, h3, h4⟩ := h1
    exact ⟨s', by show M.bind m f s = _; simp only [M.bind, h2], h3, h4⟩
  | ok a σ' =>
    rw [hm] at h1
    obtain ⟨s', h2, h3, h4⟩ := h1
    have h5 := hf a g s' σ' h3
    have h6 : (m >>= f) s = f a s' := by show M.bind m f s = _; simp only [M.bind, h2]
    show InStep g s _ (f' a σ')
    rw [h6]
    cases hf' : f' a σ' with
    | ub => trivial
    | ok b σ'' =>
      rw [hf'] at h5
      obtain ⟨s'', h7, h8, h9⟩ := h5
      exact ⟨s'', h7, h8, h4.trans h9⟩
    | throw e σ'' =>
      rw [hf'] at h5
      obtain ⟨s'', h7, h8, h9⟩ := h5
      exact ⟨s'', h7, h8, h4.trans h9⟩

theorem Par.ite {p : Prop} [Decidable p] {m n : M Nat α} {m' n' : M (Slot T) α} (h1 : Par m m') (h2 : Par n n') :
    Par (T := T) (if p then m else n) (if p then m' else n') := by
  split
  · exact h1
  · exact h2

theorem Like.obj {f : Nat → Slot T} {s : St Nat} {σ : St (Slot T)} (h : Like f s σ) (o : Nat) : σ.obj o = s.obj o := by
  unfold St.obj; rw [h.objs]

theorem Par.getObj (o : Nat) : Par (T := T) (getObj o) (getObj o) := by
  intro f s σ h
  unfold Bdlib.getObj
  simp only [h.obj]
  cases s.obj o with
  | none => trivial
  | some ob => exact ⟨s, rfl, h, .refl s⟩

theorem Like.setObj {f : Nat → Slot T} {s : St Nat} {σ : St (Slot T)} (h : Like f s σ) (o : Nat) (x : Option Obj) :
    Like f (s.setObj o x) (σ.setObj o x) :=
  ⟨h.blk, h.len, by show σ.objs.set o x = s.objs.set o x; rw [h.objs], h.gen⟩

theorem Par.putObj (o : Nat) (ob : Obj) : Par (T := T) (putObj o ob) (putObj o ob) :=
  fun _ s _ h => ⟨s.setObj o (some ob), rfl, h.setObj o (some ob), fun _ => rfl⟩

theorem Par.dropObj (o : Nat) : Par (T := T) (dropObj o) (dropObj o) :=
  fun _ s _ h => ⟨s.setObj o none, rfl, h.setObj o none, fun _ => rfl⟩

theorem Par.newObj (ob : Obj) : Par (T := T) (newObj ob) (newObj ob) := by
  intro f s σ h
  refine ⟨{ s with objs := s.objs ++ [some ob] }, ?_, ⟨h.blk, h.len, ?_, h.gen⟩, fun _ => rfl⟩
  · unfold Rca.newObj; rw [h.objs]
  · show σ.objs ++ _ = s.objs ++ _; rw [h.objs]

theorem Like.setBlk {f : Nat → Slot T} {s : St Nat} {σ : St (Slot T)} (h : Like f s σ) (a : Nat) (x : Option (Block Nat)) :
    Like f (s.setBlk a x) (σ.setBlk a (x.map (mapBlk f))) := by
  refine ⟨fun a' => ?_, ?_, h.objs, h.gen⟩
  · by_cases he : a' = a
    · subst he
      by_cases hl : a' < s.heap.length
      · rw [St.blk_setBlk_self _ hl, St.blk_setBlk_self _ (by rw [h.len]; exact hl)]
      · have e1 : (s.setBlk a' x).blk a' = none := by
          unfold St.blk St.setBlk
          rw [List.getElem?_eq_none (by simp; omega)]
          rfl
        have e2 : (σ.setBlk a' (x.map (mapBlk f))).blk a' = none := by
          have := h.len
          unfold St.blk St.setBlk
          rw [List.getElem?_eq_none (by simp; omega)]
          rfl
        rw [e1, e2]; rfl
    · rw [St.blk_setBlk_ne _ he, St.blk_setBlk_ne _ he]; exact h.blk a'
  · simp [St.setBlk, h.len]

theorem sameCells_setBlk {s : St Nat} {a : Nat} {b b' : Block Nat} (hb : s.blk a = some b) (hc : b'.cells = b.cells) :
    SameCells s (s.setBlk a (some b')) := by
  intro a'
  by_cases he : a' = a
  · subst he
    rw [cellsAt_some (St.blk_setBlk_self _ (St.blk_lt hb)), cellsAt_some hb, hc]
  · unfold cellsAt
    rw [St.blk_setBlk_ne _ he]

theorem Like.blk_some {f : Nat → Slot T} {s : St Nat} {σ : St (Slot T)} (h : Like f s σ) {a : Nat} {b : Block Nat}
    (hb : s.blk a = some b) : σ.blk a = some (mapBlk f b) := by
  rw [h.blk, hb]; rfl

theorem Par.setRefs (a : Nat) (g : Int → Int) :
    Par (T := T) (do let b ← getBlk a; putBlk a { b with refs := g b.refs }) (do let b ← getBlk a; putBlk a { b with refs := g b.refs }) := by
  intro f s σ h
  show InStep f s (M.bind _ _ s) (M.bind _ _ σ)
  cases hb : s.blk a with
  | none =>
    have : σ.blk a = none := by rw [h.blk, hb]; rfl
    simp only [M.bind, getBlk, this]
    trivial
  | some b =>
    simp only [M.bind, getBlk, h.blk_some hb]
    refine ⟨s.setBlk a (some { b with refs := g b.refs }), ?_, h.setBlk a (some { b with refs := g b.refs }),
      sameCells_setBlk hb rfl⟩
    simp only [M.bind, getBlk, hb]
    rfl

theorem Par.incRef (r : Option Nat) : Par (T := T) (incRef r) (incRef r) := by
  cases r with
  | none => exact .pure _
  | some a => exact .setRefs a (· + 1)

theorem Par.decRef (r : Option Nat) : Par (T := T) (decRef r) (decRef r) := by
  cases r with
  | none => exact .pure _
  | some a => exact .setRefs a (· - 1)

/-- Looking at something of a block that does not depend on the contents of its cells. -/
theorem Par.lookBlk {γ : Type} (a : Nat) {k : Block Nat → M Nat γ} {k' : Block (Slot T) → M (Slot T) γ}
    (h : ∀ f b, Par (k b) (k' (mapBlk f b))) : Par (getBlk a >>= k) (getBlk a >>= k') := by
  intro f s σ hl
  cases hb : s.blk a with
  | none =>
    have : (getBlk a >>= k') σ = .ub := by
      show M.bind _ _ σ = _
      simp only [M.bind, getBlk, hl.blk, hb, Option.map_none]
    rw [this]; trivial
  | some b =>
    have e1 : (getBlk a >>= k) s = k b s := by
      show M.bind _ _ s = _
      simp only [M.bind, getBlk, hb]
    have e2 : (getBlk a >>= k') σ = k' (mapBlk f b) σ := by
      show M.bind _ _ σ = _
      simp only [M.bind, getBlk, hl.blk_some hb]
    rw [e1, e2]
    exact h f b f s σ hl

theorem Par.isShared (o : Nat) : Par (T := T) (isShared o) (isShared o) := by
  refine .bind (.getObj o) fun ob => ?_
  cases ob.ref with
  | none => exact .pure _
  | some a => exact .lookBlk a fun f b => .pure _

theorem Par.length (o : Nat) : Par (T := T) (length o) (length o) := .bind (.getObj o) fun _ => .pure _

theorem Par.doDetach (o : Nat) : Par (T := T) (doDetach o) (doDetach o) :=
  .bind (.getObj o) fun ob => .bind (.decRef _) fun _ => .putObj _ _

theorem Par.clear (o : Nat) : Par (T := T) (clear o) (clear o) :=
  .bind (.isShared o) fun b => .ite (.doDetach o) (.bind (.getObj o) fun _ => .putObj _ _)

theorem Par.alloc {cfg : Cfg Nat} {cfg' : Cfg (Slot T)} (h : cfg.allocOk = cfg'.allocOk) (n : Nat) :
    Par (T := T) (alloc cfg n) (alloc cfg' n) := by
  intro f s σ hl
  have hl' : Like f { s with gen := s.gen + 1 } { σ with gen := s.gen + 1 } := ⟨hl.blk, hl.len, hl.objs, rfl⟩
  simp only [Bdlib.alloc, h, hl.gen]
  cases cfg'.allocOk (s.gen + 1) n with
  | true => exact ⟨_, rfl, hl', fun _ => rfl⟩
  | false => exact ⟨_, rfl, hl', fun _ => rfl⟩

theorem blk_snoc {T : Type} (s : St T) (x : Option (Block T)) (a : Nat) :
    ({ s with heap := s.heap ++ [x] } : St T).blk a = if a = s.heap.length then x else s.blk a := by
  unfold St.blk
  simp only
  by_cases h : a < s.heap.length
  · rw [List.getElem?_append_left h, if_neg (by omega)]
  · rw [List.getElem?_append_right (by omega)]
    by_cases he : a = s.heap.length
    · subst he; rw [if_pos rfl]; simp
    · rw [if_neg he]
      have : a - s.heap.length ≠ 0 := by omega
      rw [List.getElem?_eq_none (by simp; omega), List.getElem?_eq_none (by omega)]

theorem blk_length {T : Type} (s : St T) : s.blk s.heap.length = none := by simp [St.blk]

theorem Par.newRef {cfg : Cfg Nat} {cfg' : Cfg (Slot T)} (h : cfg.allocOk = cfg'.allocOk) :
    Par (T := T) (newRef cfg) (newRef cfg') := by
  refine .bind (.alloc h 1) fun _ => ?_
  intro f s σ hl
  refine ⟨{ s with heap := s.heap ++ [some { gen := 0, cells := [], refs := 1 }] }, by rw [hl.len],
    ⟨fun a => ?_, ?_, hl.objs, hl.gen⟩, fun a => ?_⟩
  · rw [blk_snoc, blk_snoc, hl.len]
    split
    · rfl
    · exact hl.blk a
  · simp [hl.len]
  · unfold cellsAt
    rw [blk_snoc]
    by_cases he : a = s.heap.length
    · subst he; rw [if_pos rfl, blk_length]
    · rw [if_neg he]

theorem Par.validateIndex (o i : Nat) : Par (T := T) (validateIndex o i) (validateIndex o i) :=
  .bind (.length o) fun _ => .ite (.raise _) (.pure _)

theorem Par.validatePos (o i : Nat) : Par (T := T) (validatePos o i) (validatePos o i) :=
  .ite (.validateIndex o _) (.pure _)

theorem Par.copyCtor (r : Nat) : Par (T := T) (copyCtor r) (copyCtor r) :=
  .bind (.getObj r) fun _ => .bind (.newObj _) fun _ => .bind (.incRef _) fun _ => .pure _

theorem Par.moveCtor {cfg : Cfg Nat} {cfg' : Cfg (Slot T)} (h : cfg.resetMoved = cfg'.resetMoved) (r : Nat) :
    Par (T := T) (moveCtor cfg r) (moveCtor cfg' r) := by
  have e : ∀ rb, movedFrom cfg rb = movedFrom cfg' rb := fun rb => by unfold movedFrom; rw [h]
  refine .bind (.getObj r) fun rb => .bind (.newObj _) fun _ => .bind ?_ fun _ => .pure _
  rw [e]
  exact .putObj _ _

theorem Par.swap (o r : Nat) : Par (T := T) (Rca.swap o r) (Rca.swap o r) :=
  .bind (.getObj o) fun _ => .bind (.getObj r) fun _ => .bind (.putObj _ _) fun _ => .putObj _ _

theorem Par.setLength (o n : Nat) : Par (T := T) (setLength o n) (setLength o n) := .bind (.getObj o) fun _ => .putObj _ _

theorem Par.slice (o : Nat) (start len : Int) : Par (T := T) (slice o start len) (slice o start len) :=
  .bind (.getObj o) fun _ => .ite (.putObj _ _) (.ite .undef (.putObj _ _))

theorem Par.substring (o : Nat) (start len : Int) : Par (T := T) (substring o start len) (substring o start len) :=
  .bind (.copyCtor o) fun _ => .bind (.slice _ _ _) fun _ => .pure _

theorem Par.bumpLength (o k : Nat) : Par (T := T) (bumpLength o k) (bumpLength o k) := .bind (.getObj o) fun _ => .putObj _ _

theorem Par.popBack (o : Nat) : Par (T := T) (popBack o) (popBack o) := .bind (.getObj o) fun _ => .putObj _ _

theorem Par.arrDropFront (o : Nat) (n : Int) : Par (T := T) (arrDropFront o n) (arrDropFront o n) :=
  .bind (.getObj o) fun _ => .ite (.pure _) (.ite (.putObj _ _) (.putObj _ _))

theorem Par.arrDropBack (o : Nat) (n : Int) : Par (T := T) (arrDropBack o n) (arrDropBack o n) :=
  .bind (.getObj o) fun _ => .ite (.pure _) (.ite (.putObj _ _) (.putObj _ _))

end

end Bdlib.Deep
