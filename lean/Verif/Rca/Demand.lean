import Verif.Rca.Growth

/-!
# How much memory a call asks for

`Modest ok B m s`: whatever `m` does in state `s`, every request it makes of the allocator is for at most `B` elements.  What
can be seen of that: a refused request was that small, and every buffer that is not as long as before is that short.
-/

namespace Bdlib.Rca
open Bdlib Bdlib.Spec St

variable {T α β : Type} {cfg : Cfg T} {ok : Nat → Nat → Bool}

/-- Every buffer has at most `B` cells or as many as before. -/
def Sized (B : Nat) (s s' : St T) : Prop := ∀ a b', s'.blk a = some b' → b'.cells.length ≤ B ∨
  ∃ b, s.blk a = some b ∧ b'.cells.length = b.cells.length

/-- A request for at most `B` elements made between the two states was refused. -/
def RefusedAt (B : Nat) (ok : Nat → Nat → Bool) (s s' : St T) : Prop :=
  ∃ g n, s.gen < g ∧ g ≤ s'.gen ∧ n ≤ B ∧ ok g n = false

def Modest (ok : Nat → Nat → Bool) (B : Nat) (m : M T α) (s : St T) : Prop :=
  match m s with
  | .ok _ s' => s.gen ≤ s'.gen ∧ Sized B s s'
  | .throw e s' => s.gen ≤ s'.gen ∧ Sized B s s' ∧ (e = .badAlloc → RefusedAt B ok s s')
  | .ub => True

theorem Sized.refl (B : Nat) (s : St T) : Sized B s s := fun _ b h => .inr ⟨b, h, rfl⟩

theorem Sized.trans {B : Nat} {s s1 s2 : St T} (h1 : Sized B s s1) (h2 : Sized B s1 s2) : Sized B s s2 := by
  intro a b2 hb2
  rcases h2 a b2 hb2 with h | ⟨b1, hb1, he⟩
  · exact .inl h
  · rcases h1 a b1 hb1 with h | ⟨b, hb, he'⟩
    · exact .inl (by omega)
    · exact .inr ⟨b, hb, by omega⟩

theorem RefusedAt.before {B : Nat} {s s1 s2 : St T} (h : s.gen ≤ s1.gen) (hr : RefusedAt B ok s1 s2) : RefusedAt B ok s s2 := by
  obtain ⟨g, n, h1, h2, h3⟩ := hr
  exact ⟨g, n, by omega, h2, h3⟩

theorem RefusedAt.after {B : Nat} {s s1 s2 : St T} (h : s1.gen ≤ s2.gen) (hr : RefusedAt B ok s s1) : RefusedAt B ok s s2 := by
  obtain ⟨g, n, h1, h2, h3⟩ := hr
  exact ⟨g, n, h1, by omega, h3⟩

theorem Modest.bind {B : Nat} {m : M T α} {f : α → M T β} {s : St T} (h1 : Modest ok B m s)
    (h2 : ∀ a s1, m s = .ok a s1 → Modest ok B (f a) s1) : Modest ok B (m >>= f) s := by
  unfold Modest at h1 ⊢
  show match M.bind m f s with
    | .ok _ s' => _ | .throw e s' => _ | .ub => _
  unfold M.bind
  cases hm : m s with
  | ub => trivial
  | throw e s1 => rw [hm] at h1; exact h1
  | ok a s1 =>
    rw [hm] at h1
    have h := h2 a s1 hm
    unfold Modest at h
    dsimp only
    cases hf : f a s1 with
    | ub => trivial
    | ok b s2 => rw [hf] at h; exact ⟨Nat.le_trans h1.1 h.1, h1.2.trans h.2⟩
    | throw e s2 =>
      rw [hf] at h
      exact ⟨Nat.le_trans h1.1 h.1, h1.2.trans h.2.1, fun he => (h.2.2 he).before h1.1⟩

/-- Calls that make no request: they obey every law, whatever the allocator does. -/
def Calm (m : M T α) : Prop := ∀ ok (L : Law T ok), Pres L m

/-- With an allocator that never refuses, no `bad_alloc`. -/
def noBadLaw (T : Type) : Law T (fun _ _ => true) where
  R _ _ := True
  E e _ _ := e ≠ .badAlloc
  refl _ := trivial
  trans _ _ _ _ _ := trivial
  transE _ _ _ _ _ h := h
  thenE _ _ _ _ h _ := h
  range _ h := by cases h
  objs _ _ := trivial
  freed _ _ := trivial
  putBlk _ _ _ _ _ _ := trivial
  delBlk _ _ := trivial
  newBlk _ := trivial
  alloc _ _ _ := trivial
  refuse _ _ h := by cases h

theorem Sized.newBlk {B : Nat} (s : St T) :
    Sized B s { s with heap := s.heap ++ [some { gen := 0, cells := [], refs := 1 }] } := by
  intro a b hb
  by_cases hl : a < s.heap.length
  · refine .inr ⟨b, ?_, rfl⟩
    unfold St.blk at hb ⊢
    simp only [List.getElem?_append_left hl] at hb
    exact hb
  · have := St.blk_lt hb
    have he : a = s.heap.length := by simp at this; omega
    subst he
    simp [St.blk] at hb
    rw [← hb]
    exact .inl (Nat.zero_le _)

theorem Sized.delBlk {B : Nat} (s : St T) (a : Nat) : Sized B s (s.setBlk a none) := by
  intro a1 b1 h1
  rcases blk_setBlk_cases h1 with h | h
  · cases h
  · exact .inr ⟨b1, h, rfl⟩

theorem Sized.putBlk {B : Nat} {s : St T} {a : Nat} {b b' : Block T} (hb : s.blk a = some b)
    (h : b'.cells.length ≤ B ∨ b'.cells.length = b.cells.length) : Sized B s (s.setBlk a (some b')) := by
  intro a1 b1 h1
  by_cases he : a1 = a
  · subst he
    rw [St.blk_setBlk_self _ (St.blk_lt hb)] at h1
    cases h1
    exact h.imp id fun h => ⟨b, hb, h⟩
  · rw [St.blk_setBlk_ne _ he] at h1
    exact .inr ⟨b1, h1, rfl⟩

/-- With an allocator that never grants anything, no buffer changes its length and the count of requests stands still as long
as the call returns. -/
def calmLaw (T : Type) : Law T (fun _ _ => false) where
  R s s' := s.gen ≤ s'.gen ∧ Sized 0 s s'
  E _ s s' := s.gen ≤ s'.gen ∧ Sized 0 s s'
  refl s := ⟨Nat.le_refl _, Sized.refl _ _⟩
  trans _ _ _ h1 h2 := ⟨Nat.le_trans h1.1 h2.1, h1.2.trans h2.2⟩
  transE _ _ _ _ h1 h2 := ⟨Nat.le_trans h1.1 h2.1, h1.2.trans h2.2⟩
  thenE _ _ _ _ h1 h2 := ⟨Nat.le_trans h1.1 h2.1, h1.2.trans h2.2⟩
  range s := ⟨Nat.le_refl _, Sized.refl _ _⟩
  objs _ _ := ⟨Nat.le_refl _, fun _ b h => .inr ⟨b, h, rfl⟩⟩
  freed _ _ := ⟨Nat.le_refl _, fun _ b h => .inr ⟨b, h, rfl⟩⟩
  putBlk s a b b' hb hs := by
    refine ⟨Nat.le_refl _, Sized.putBlk hb ?_⟩
    rcases hs with ⟨_, h⟩ | ⟨_, h⟩
    · exact .inr h
    · cases h
  delBlk s a := ⟨Nat.le_refl _, Sized.delBlk s a⟩
  newBlk s := ⟨Nat.le_refl _, Sized.newBlk s⟩
  alloc _ _ h := by cases h
  refuse _ _ _ := ⟨Nat.le_succ _, fun _ b h => .inr ⟨b, h, rfl⟩⟩

theorem Sized.mono {B B' : Nat} {s s' : St T} (h : Sized B s s') (hle : B ≤ B') : Sized B' s s' :=
  fun a b hb => (h a b hb).imp (fun h => Nat.le_trans h hle) id

theorem Calm.modest {m : M T α} (h : Calm m) (ok : Nat → Nat → Bool) (B : Nat) (s : St T) : Modest ok B m s := by
  have h1 := h _ (noBadLaw T) s
  have h2 := h _ (calmLaw T) s
  unfold Modest
  cases hm : m s with
  | ub => trivial
  | ok a s' => rw [hm] at h2; exact ⟨h2.1, h2.2.mono (Nat.zero_le _)⟩
  | throw e s' => rw [hm] at h1 h2; exact ⟨h2.1, h2.2.mono (Nat.zero_le _), fun he => (h1 he).elim⟩

theorem Modest.onThrow {B : Nat} {m : M T α} {c : M T Unit} {s : St T} (h1 : Modest ok B m s) (h2 : Calm c) :
    Modest ok B (m.onThrow c) s := by
  unfold Modest at h1 ⊢
  unfold M.onThrow
  cases hm : m s with
  | ok a s' => rw [hm] at h1; exact h1
  | ub => trivial
  | throw e s' =>
    rw [hm] at h1
    have h := h2.modest ok B s'
    unfold Modest at h
    dsimp only
    cases hc : c s' with
    | ok a s'' => rw [hc] at h; exact ⟨Nat.le_trans h1.1 h.1, h1.2.1.trans h.2, fun he => (h1.2.2 he).after h.1⟩
    | throw _ _ => trivial
    | ub => trivial

theorem Modest.pure {B : Nat} {a : α} {s : St T} : Modest ok B (Pure.pure a) s := ⟨Nat.le_refl _, Sized.refl _ _⟩

theorem Modest.getObj {B : Nat} {o : Nat} {f : Obj → M T β} {s : St T}
    (h : ∀ ob, s.obj o = some ob → Modest ok B (f ob) s) : Modest ok B (getObj o >>= f) s := by
  refine Modest.bind ((show Calm (Bdlib.getObj o) from fun _ _ => Pres.getObj o).modest ok B s) fun a s1 he => ?_
  unfold Bdlib.getObj at he
  cases ho : s.obj o with
  | none => rw [ho] at he; cases he
  | some ob => rw [ho] at he; cases he; exact h _ ho

theorem Modest.getBlk {B : Nat} {a : Nat} {f : Block T → M T β} {s : St T}
    (h : ∀ b, s.blk a = some b → Modest ok B (f b) s) : Modest ok B (getBlk a >>= f) s := by
  have he : (Bdlib.getBlk a >>= f) s = match s.blk a with | some b => f b s | none => .ub := by
    show M.bind (Bdlib.getBlk a) f s = _
    unfold M.bind Bdlib.getBlk
    cases s.blk a <;> rfl
  unfold Modest
  rw [he]
  cases hb : s.blk a with
  | none => trivial
  | some b => exact h b hb

theorem Modest.putObj {B : Nat} {o : Nat} {ob : Obj} {f : Unit → M T β} {s : St T}
    (h : Modest ok B (f ()) (s.setObj o (some ob))) : Modest ok B (putObj o ob >>= f) s :=
  Modest.bind ((show Calm (Bdlib.putObj o ob) from fun _ _ => Pres.putObj o ob).modest ok B s) fun a s1 he => by
    cases he; exact h

theorem Modest.alloc {B n : Nat} {s : St T} (hn : n ≤ B) : Modest cfg.allocOk B (alloc cfg n) s := by
  unfold Modest Bdlib.alloc
  dsimp only
  cases hok : cfg.allocOk (s.gen + 1) n with
  | true => exact ⟨Nat.le_succ _, fun _ b h => .inr ⟨b, h, rfl⟩⟩
  | false =>
    exact ⟨Nat.le_succ _, fun _ b h => .inr ⟨b, h, rfl⟩, fun _ => ⟨s.gen + 1, n, Nat.lt_succ_self _, Nat.le_refl _, hn, hok⟩⟩

theorem Modest.arefReserve {B a n off len : Nat} {scale : Nat → Nat} {s : St T} {b : Block T} (hb : s.blk a = some b)
    (hB : b.cells.length < n → max (scale b.cells.length) n ≤ B) :
    Modest cfg.allocOk B (arefReserve cfg a n scale off len) s := by
  by_cases hlt : b.cells.length < n
  · have hB := hB hlt
    unfold Rca.arefReserve
    refine Modest.getBlk fun b1 hb1 => ?_
    rw [hb] at hb1; cases hb1
    dsimp only
    rw [if_pos hlt]
    refine Modest.bind (Modest.alloc hB) fun g s1 he => ?_
    have hs1 : s1.blk a = some b := by
      unfold Bdlib.alloc at he
      dsimp only at he
      split at he
      · cases he; exact hb
      · cases he
    split
    · refine ⟨Nat.le_refl _, Sized.putBlk hs1 (.inl ?_)⟩
      show (junkFrom cfg g 0 _).length ≤ B
      rw [junkFrom_length]; omega
    · split
      · rename_i hle
        have hlen : (window b.cells off len ++ junkFrom cfg g len (max (scale b.cells.length) n)).length =
            max (scale b.cells.length) n := by
          rw [List.length_append, junkFrom_length, window_len hle]; omega
        refine Modest.bind ((show Calm (freeBuf _) from fun _ _ => Pres.freeBuf _).modest _ B s1) fun _ s2 he2 => ?_
        cases he2
        refine ⟨Nat.le_refl _, Sized.putBlk (b := b) hs1 (.inl ?_)⟩
        show (window b.cells off len ++ _).length ≤ B
        rw [hlen]; exact hB
      · trivial
  · -- no request
    have h := Pres.arefReserve (cfg := { cfg with allocOk := fun _ _ => true }) (L := noBadLaw T) a n scale off len s
    have h' := Pres.arefReserve (cfg := { cfg with allocOk := fun _ _ => false }) (L := calmLaw T) a n scale off len s
    have e : ∀ ok, Rca.arefReserve { cfg with allocOk := ok } a n scale off len s = Rca.arefReserve cfg a n scale off len s := by
      intro ok
      unfold Rca.arefReserve
      rw [bind_ok (by unfold Bdlib.getBlk; rw [hb] : Bdlib.getBlk a s = .ok b s),
        bind_ok (by unfold Bdlib.getBlk; rw [hb] : Bdlib.getBlk a s = .ok b s)]
      dsimp only
      rw [if_neg hlt, if_neg hlt]
    rw [e] at h h'
    unfold Modest
    cases hm : Rca.arefReserve cfg a n scale off len s with
    | ub => trivial
    | ok x s' => rw [hm] at h'; exact ⟨h'.1, h'.2.mono (Nat.zero_le _)⟩
    | throw e s' => rw [hm] at h h'; exact ⟨h'.1, h'.2.mono (Nat.zero_le _), fun he => (h he).elim⟩

theorem modest_ub {B : Nat} {m : M T α} {f : α → M T β} {s : St T} (h : m s = .ub) : Modest ok B (m >>= f) s := by
  have : (m >>= f) s = .ub := by
    show M.bind m f s = _
    unfold M.bind
    rw [h]
  unfold Modest
  rw [this]
  trivial

/-- The buffer of `o`, if it has one. -/
def HasBuf (s : St T) (o : Nat) (b : Block T) : Prop := ∃ ob a, s.obj o = some ob ∧ ob.ref = some a ∧ s.blk a = some b

theorem Modest.rcaReserve {B o n : Nat} {scale : Nat → Nat} {s : St T} (h1 : 1 ≤ B) (hn : n ≤ B) (h0 : scale 0 ≤ B)
    (hB : ∀ b, HasBuf s o b → b.cells.length < n → scale b.cells.length ≤ B) :
    Modest cfg.allocOk B (rcaReserve cfg o n scale) s := by
  unfold Rca.rcaReserve
  refine Modest.getObj fun ob ho => ?_
  have htail : ∀ f, Calm (do let ob ← Bdlib.getObj o; Bdlib.putObj o { ob with offset := f } : M T Unit) := fun f _ _ =>
    Pres.bind (Pres.getObj o) fun _ => Pres.putObj _ _
  cases hr : ob.ref with
  | some a =>
    refine Modest.bind Modest.pure fun a' s1 he => ?_
    cases he
    cases hb : s.blk a with
    | none =>
      refine modest_ub ?_
      unfold Rca.arefReserve
      show M.bind (Bdlib.getBlk a) _ s = _
      unfold M.bind Bdlib.getBlk
      rw [hb]
    | some b =>
      refine Modest.bind (Modest.arefReserve hb fun hlt => ?_) fun f s1 _ => (htail f).modest _ _ _
      have := hB b ⟨ob, a, ho, hr, hb⟩ hlt
      omega
  | none =>
    have hnew : ∀ s1 a, Rca.newRef cfg s = .ok a s1 → s1.blk a = some { gen := 0, cells := [], refs := 1 } := by
      intro s1 a he
      unfold Rca.newRef at he
      change M.bind (Bdlib.alloc cfg 1) _ s = _ at he
      unfold M.bind Bdlib.alloc at he
      dsimp only at he
      cases hok : cfg.allocOk (s.gen + 1) 1 with
      | false => rw [hok] at he; simp at he
      | true =>
        rw [hok] at he
        simp only [if_true] at he
        cases he
        simp [St.blk]
    have hmod : Modest cfg.allocOk B (Rca.newRef cfg) s := by
      unfold Rca.newRef
      exact Modest.bind (Modest.alloc h1) fun _ s1 _ => ⟨Nat.le_refl _, Sized.newBlk _⟩
    refine Modest.bind hmod fun a s1 he => Modest.putObj (Modest.bind Modest.pure fun a' s2 he2 => ?_)
    cases he2
    have hb : (s1.setObj o (some { ob with ref := some a })).blk a = some { gen := 0, cells := [], refs := 1 } := hnew s1 a he
    refine Modest.bind (Modest.arefReserve hb fun hlt => ?_) fun f s1 _ => (htail f).modest _ _ _
    show max (scale 0) n ≤ B
    omega

theorem Modest.reserve {B o n : Nat} {scale : Nat → Nat} {s : St T} (h1 : 1 ≤ B) (hn : room cfg n ≤ B) (h0 : scale 0 ≤ B)
    (hB : ∀ b, HasBuf s o b → b.cells.length < room cfg n → scale b.cells.length ≤ B) :
    Modest cfg.allocOk B (reserve cfg o n scale) s := by
  unfold Rca.reserve
  unfold room at hn hB
  cases hc : cfg.nul with
  | none =>
    rw [hc] at hn hB
    simp at hn hB
    exact Modest.rcaReserve h1 hn h0 hB
  | some c =>
    rw [hc] at hn hB
    simp at hn hB
    show Modest _ B (strReserve cfg c o n scale) s
    unfold strReserve
    refine Modest.bind (Modest.rcaReserve h1 hn h0 hB) fun _ s1 _ => ?_
    refine Calm.modest (m := do
      let ob ← Bdlib.getObj o
      match ob.ref with
      | none => M.undef
      | some a =>
        let b ← Bdlib.getBlk a
        if b.cells.length = 0 then
          if ob.offset = 0 then return () else M.undef
        else Bdlib.putBlk a { b with cells := overwrite b.cells (b.cells.length - 1) [c] }) ?_ _ _ _
    intro ok L
    refine Pres.bind (Pres.getObj o) fun ob => ?_
    cases ob.ref with
    | none => exact Pres.undef
    | some a =>
      refine Pres.getBlk fun b => PresK.ite (fun _ => (Pres.ite (fun _ => Pres.pure _) fun _ => Pres.undef).k) fun h => ?_
      exact PresK.same rfl (overwrite_length (by simp; omega))

theorem calm_doDetach (o : Nat) : Calm (doDetach o : M T Unit) := fun _ _ => Pres.doDetach o

theorem Modest.cow {B o n : Nat} {s : St T} (h1 : 1 ≤ B) (hn : room cfg n ≤ B) (h0 : cfg.scale 0 ≤ B) :
    Modest cfg.allocOk B (cow cfg o n) s := by
  unfold Rca.cow
  refine Modest.getObj fun ob ho => ?_
  refine Modest.bind ((calm_doDetach o).modest _ _ _) fun _ s1 he => ?_
  have hdet : s1.obj o = some {} := by
    unfold doDetach at he
    rw [bind_ok (getObj_eq ho)] at he
    change M.bind (decRef ob.ref) _ s = _ at he
    unfold M.bind at he
    have hobjs : ∀ s2, decRef ob.ref s = .ok () s2 → s2.objs = s.objs := by
      intro s2 h2
      unfold decRef at h2
      cases hr : ob.ref with
      | none => rw [hr] at h2; cases h2; rfl
      | some a =>
        rw [hr] at h2
        change M.bind (Bdlib.getBlk a) _ s = _ at h2
        unfold M.bind Bdlib.getBlk at h2
        cases hb : s.blk a with
        | none => rw [hb] at h2; cases h2
        | some b => rw [hb] at h2; cases h2; rfl
    cases hm : decRef ob.ref s with
    | ub => rw [hm] at he; cases he
    | throw e s2 => rw [hm] at he; cases he
    | ok u s2 =>
      rw [hm] at he
      cases he
      exact obj_setObj_self _ (by rw [hobjs _ hm]; exact obj_lt ho)
  refine Modest.bind (Modest.reserve h1 hn h0 fun b ⟨ob1, a, ho1, hr1, _⟩ => ?_) fun _ s2 _ => ?_
  · rw [hdet] at ho1; cases ho1; cases hr1
  refine Calm.modest (m := do
    let ob' ← Bdlib.getObj o
    Bdlib.putObj o { ob' with sublen := min ob.sublen n }
    if min ob.sublen n = 0 then return ()
    match ob.ref with
    | none => M.undef
    | some a =>
      let b ← Bdlib.getBlk a
      if ob.offset + min ob.sublen n ≤ b.cells.length then
        Bdlib.writeRange o 0 (window b.cells ob.offset (min ob.sublen n))
      else M.undef) ?_ _ _ _
  intro ok L
  refine Pres.bind (Pres.getObj o) fun ob' => Pres.bind (Pres.putObj _ _) fun _ => Pres.ite (fun _ => Pres.pure _) fun _ => ?_
  cases ob.ref with
  | none => exact Pres.undef
  | some a => exact Pres.getBlk fun b => (Pres.ite (fun _ => Pres.writeRange _ _ _) fun _ => Pres.undef).k

/-- Room the object has of its own: the capacity of its buffer, nothing if it shares it or has none. -/
def ownRoom (s : St T) (o : Nat) : Nat :=
  match isShared o s, capacity o s with
  | .ok false _, .ok c _ => c
  | _, _ => 0

theorem ownRoom_eq {s : St T} {o a : Nat} {ob : Obj} {b : Block T} (ho : s.obj o = some ob) (hr : ob.ref = some a)
    (hb : s.blk a = some b) (hrefs : ¬ b.refs > 1) : ownRoom s o = b.cells.length := by
  have h1 : isShared o s = .ok false s := by
    unfold isShared
    rw [bind_ok (getObj_eq ho), hr]
    dsimp only
    rw [bind_ok (by unfold Bdlib.getBlk; rw [hb] : Bdlib.getBlk a s = .ok b s)]
    simp only [hrefs, decide_false]
    rfl
  have h2 : capacity o s = .ok b.cells.length s := by
    unfold capacity
    rw [bind_ok (getObj_eq ho), hr]
    dsimp only
    rw [bind_ok (by unfold Bdlib.getBlk; rw [hb] : Bdlib.getBlk a s = .ok b s)]
    rfl
  unfold ownRoom
  rw [h1, h2]

theorem Modest.aboutToModify {B o n : Nat} {s : St T} (h1 : 1 ≤ B) (hn : room cfg n ≤ B) (h0 : cfg.scale 0 ≤ B)
    (hB : cfg.scale (ownRoom s o) ≤ B ∨ room cfg n ≤ ownRoom s o) : Modest cfg.allocOk B (aboutToModify cfg o n) s := by
  unfold Rca.aboutToModify
  refine Modest.getObj fun ob ho => Modest.putObj ?_
  have ho' := obj_setObj_self (some { ob with hash := 0 }) (obj_lt ho)
  refine Modest.bind ((show Calm (isShared o) from fun _ _ => Pres.isShared o).modest _ _ _) fun sh s1 he => ?_
  cases sh with
  | true => exact Modest.cow h1 hn h0
  | false =>
    refine Modest.reserve h1 hn h0 fun b ⟨ob1, a, ho1, hr1, hb1⟩ hlt => ?_
    have hfact : s1 = s.setObj o (some { ob with hash := 0 }) ∧ (∀ a b, ob.ref = some a → s.blk a = some b → ¬ b.refs > 1) := by
      unfold isShared at he
      rw [bind_ok (getObj_eq ho')] at he
      dsimp only at he
      cases hr : ob.ref with
      | none => rw [hr] at he; cases he; exact ⟨rfl, fun _ _ h => by cases h⟩
      | some a1 =>
        rw [hr] at he
        dsimp only at he
        cases hb : s.blk a1 with
        | none =>
          change M.bind (Bdlib.getBlk a1) _ _ = _ at he
          unfold M.bind Bdlib.getBlk at he
          simp only [blk_setObj, hb] at he
          cases he
        | some b1 =>
          rw [bind_ok (by unfold Bdlib.getBlk; rw [blk_setObj, hb] : Bdlib.getBlk a1 (s.setObj o _) = .ok b1 _)] at he
          change Res.ok _ _ = _ at he
          simp only [Res.ok.injEq, decide_eq_false_iff_not] at he
          refine ⟨he.2.symm, fun a b h h' => ?_⟩
          cases h
          rw [hb] at h'; cases h'
          exact he.1
    obtain ⟨rfl, hf⟩ := hfact
    rw [ho'] at ho1; cases ho1
    rw [blk_setObj] at hb1
    have := ownRoom_eq ho hr1 hb1 (hf _ _ hr1 hb1)
    rw [this] at hB
    rcases hB with h | h
    · exact h
    · omega

/-! ## The calls -/

theorem Modest.seq {B : Nat} {m : M T α} {f : α → M T β} {s : St T} (h1 : Modest ok B m s)
    (h2 : (m s).Sat (fun a s1 => Modest ok B (f a) s1) (fun _ _ => True)) : Modest ok B (m >>= f) s :=
  h1.bind fun a s1 he => by rw [he] at h2; exact h2

theorem Modest.calm {B : Nat} {m : M T α} {f : α → M T β} {s : St T} (h1 : Modest ok B m s) (h2 : ∀ a, Calm (f a)) :
    Modest ok B (m >>= f) s := h1.bind fun a s1 _ => (h2 a).modest _ _ _

theorem Modest.eq {B : Nat} {m : M T α} {f : α → M T β} {s : St T} {a : α} (h1 : m s = .ok a s) (h2 : Modest ok B (f a) s) :
    Modest ok B (m >>= f) s := by
  unfold Modest at h2 ⊢
  rw [bind_ok h1]
  exact h2

theorem Modest.mono {B B' : Nat} {m : M T α} {s : St T} (h : Modest ok B m s) (hle : B ≤ B') : Modest ok B' m s := by
  unfold Modest at h ⊢
  cases hm : m s with
  | ub => trivial
  | ok a s' => rw [hm] at h; exact ⟨h.1, h.2.mono hle⟩
  | throw e s' =>
    rw [hm] at h
    refine ⟨h.1, h.2.1.mono hle, fun he => ?_⟩
    obtain ⟨g, n, h1, h2, h3, h4⟩ := h.2.2 he
    exact ⟨g, n, h1, h2, by omega, h4⟩

/-- `B` covers a request for `n` elements of object `o`. -/
structure Covers (cfg : Cfg T) (B : Nat) (s : St T) (o n : Nat) : Prop where
  one : 1 ≤ B
  room : room cfg n ≤ B
  zero : cfg.scale 0 ≤ B
  own : cfg.scale (ownRoom s o) ≤ B ∨ Rca.room cfg n ≤ ownRoom s o

theorem Covers.modest {B o n : Nat} {s : St T} (h : Covers cfg B s o n) : Modest cfg.allocOk B (aboutToModify cfg o n) s :=
  Modest.aboutToModify h.one h.room h.zero h.own

theorem ownRoom_own {s0 s : St T} {o a : Nat} {ob : Obj} {b : Block T} (h : Own cfg s0 s o ob a b) :
    ownRoom s o = b.cells.length := ownRoom_eq h.obj h.ref h.blk (by rw [h.refs]; decide)

theorem Covers.later {B o m n a : Nat} {s s0 s1 : St T} {ob : Obj} {b : Block T} (h : Covers cfg B s o n) (hm : m ≤ n)
    (how : Own cfg s0 s1 o ob a b) (hroom : ob.offset + Rca.room cfg m ≤ b.cells.length) : Covers cfg B s1 o m :=
  ⟨h.one, Nat.le_trans (room_mono cfg hm) h.room, h.zero, .inr (by rw [ownRoom_own how]; omega)⟩

theorem calm_writeRange (o i : Nat) (vs : List T) : Calm (writeRange o i vs) := fun _ _ => Pres.writeRange _ _ _
theorem calm_shiftRight (o pos k : Nat) : Calm (shiftRight o pos k : M T Unit) := fun _ _ => Pres.shiftRight _ _ _
theorem calm_copyRange (r n o pos : Nat) : Calm (copyRange r n o pos : M T Unit) := fun _ _ => Pres.copyRange _ _ _ _
theorem calm_upd (o : Nat) (f : Obj → Obj) : Calm (do let ob ← getObj o; putObj o (f ob) : M T Unit) := fun _ _ => Pres.updObj
theorem calm_bump (o k : Nat) : Calm (bumpLength o k : M T Unit) := calm_upd o _
theorem calm_validatePos (o i : Nat) : Calm (validatePos o i : M T Unit) := fun _ _ => Pres.validatePos _ _
theorem calm_length (o : Nat) : Calm (length o : M T Nat) := fun _ _ => Pres.length _
theorem calm_destroy (cfg : Cfg T) (o : Nat) : Calm (destroy cfg o) := fun _ _ => Pres.destroy _ _
theorem calm_pure (a : α) : Calm (pure a : M T α) := fun _ _ => Pres.pure _

theorem Calm.bind {m : M T α} {f : α → M T β} (h1 : Calm m) (h2 : ∀ a, Calm (f a)) : Calm (m >>= f) :=
  fun ok L => Pres.bind (h1 ok L) fun a => h2 a ok L

theorem Modest.getOwnCopy {B o : Nat} {s : St T} {v : List T} (hv : s.view o = some v) (h : Covers cfg B s o v.length) :
    Modest cfg.allocOk B (getOwnCopy cfg o) s := by
  unfold Rca.getOwnCopy
  exact Modest.eq (length_spec hv) h.modest

theorem Modest.insertItem {B o pos : Nat} {s : St T} {v : List T} {x : T} (hv : s.view o = some v)
    (h : Covers cfg B s o (v.length + 1)) : Modest cfg.allocOk B (insertItem cfg o pos x) s := by
  unfold Rca.insertItem
  by_cases hp : pos ≤ v.length
  · refine Modest.eq (validatePos_ok hv hp) (Modest.eq (length_spec hv) (h.modest.calm fun _ => ?_))
    exact (calm_shiftRight _ _ _).bind fun _ => (calm_writeRange _ _ _).bind fun _ => calm_bump _ _
  · refine Modest.bind ((calm_validatePos o pos).modest _ _ _) fun _ s1 he => ?_
    rw [validatePos_throw hv (by omega)] at he
    cases he

theorem Modest.insertBody {B o pos r k : Nat} {s : St T} {v : List T} (hv : s.view o = some v)
    (h : Covers cfg B s o (v.length + k)) : Modest cfg.allocOk B (insertBody cfg o pos r k) s := by
  unfold Rca.insertBody
  refine Modest.eq (length_spec hv) (h.modest.calm fun _ => ?_)
  exact (calm_shiftRight _ _ _).bind fun _ => (calm_copyRange _ _ _ _).bind fun _ => calm_bump _ _

theorem Modest.replaceBody {B o pos r k : Nat} {s : St T} {v : List T} (hv : s.view o = some v)
    (h : Covers cfg B s o (max v.length (pos + k))) : Modest cfg.allocOk B (replaceBody cfg o pos r k) s := by
  unfold Rca.replaceBody
  refine Modest.eq (length_spec hv) ?_
  have e : (if pos + k < v.length then v.length else pos + k) = max v.length (pos + k) := by split <;> omega
  dsimp only
  rw [e]
  refine h.modest.calm fun _ => ?_
  exact (calm_copyRange _ _ _ _).bind fun _ => calm_upd _ _

theorem Modest.checkPos {B o pos : Nat} {s : St T} {v : List T} {f : Unit → M T β} (hv : s.view o = some v)
    (h : Modest ok B (f ()) s) : Modest ok B (validatePos o pos >>= f) s := by
  by_cases hp : pos ≤ v.length
  · exact Modest.eq (validatePos_ok hv hp) h
  · refine Modest.bind ((calm_validatePos o pos).modest _ _ _) fun _ s1 he => ?_
    rw [validatePos_throw hv (by omega)] at he
    cases he

theorem Modest.insertRcaN {B o pos r n : Nat} {s : St T} {v w : List T} (hv : s.view o = some v) (hw : s.view r = some w)
    (h : Covers cfg B s o (v.length + min n w.length)) : Modest cfg.allocOk B (insertRcaN cfg o pos r n) s := by
  unfold Rca.insertRcaN
  split
  · exact Modest.pure
  · refine Modest.checkPos hv (Modest.eq (length_spec hw) (Modest.eq (length_spec hv) ?_))
    split
    · exact Calm.modest (fun _ _ => Pres.copyAssign _ _) _ _ _
    · exact Modest.insertBody hv h

theorem Modest.insertMoveN {B o pos r n : Nat} {s : St T} {v w : List T} (hv : s.view o = some v) (hw : s.view r = some w)
    (h : Covers cfg B s o (v.length + min n w.length)) : Modest cfg.allocOk B (insertMoveN cfg o pos r n) s := by
  unfold Rca.insertMoveN
  split
  · exact Modest.pure
  · refine Modest.checkPos hv (Modest.eq (length_spec hw) (Modest.eq (length_spec hv) ?_))
    split
    · exact Calm.modest (fun _ _ => Pres.moveAssign _ _) _ _ _
    · exact Modest.insertBody hv h

theorem Modest.insertRca {B o pos r : Nat} {s : St T} {v w : List T} (hv : s.view o = some v) (hw : s.view r = some w)
    (h : Covers cfg B s o (v.length + w.length)) : Modest cfg.allocOk B (insertRca cfg o pos r) s := by
  unfold Rca.insertRca
  refine Modest.checkPos hv (Modest.eq (length_spec hw) (Modest.eq (length_spec hv) ?_))
  split
  · exact Calm.modest (fun _ _ => Pres.copyAssign _ _) _ _ _
  · exact Modest.insertBody hv h

theorem Modest.insertMove {B o pos r : Nat} {s : St T} {v w : List T} (hv : s.view o = some v) (hw : s.view r = some w)
    (h : Covers cfg B s o (v.length + w.length)) : Modest cfg.allocOk B (insertMove cfg o pos r) s := by
  unfold Rca.insertMove
  refine Modest.checkPos hv (Modest.eq (length_spec hw) (Modest.eq (length_spec hv) ?_))
  split
  · exact Calm.modest (fun _ _ => Pres.moveAssign _ _) _ _ _
  · exact Modest.insertBody hv h

theorem clip_eq (n m : Nat) (hm : m ≤ npos) : (if n = npos ∨ n > m then m else n) = min n m := by
  split <;> omega

theorem Modest.replaceRca {B o pos r n : Nat} {s : St T} {v w : List T} (hv : s.view o = some v) (hw : s.view r = some w)
    (hm : w.length ≤ npos) (h : Covers cfg B s o (max v.length (pos + min n w.length))) :
    Modest cfg.allocOk B (replaceRca cfg o pos r n) s := by
  unfold Rca.replaceRca
  split
  · exact Modest.pure
  · refine Modest.checkPos hv (Modest.eq (length_spec hw) (Modest.eq (length_spec hv) ?_))
    split
    · exact Calm.modest (fun _ _ => Pres.copyAssign _ _) _ _ _
    · rw [clip_eq _ _ hm]; exact Modest.replaceBody hv h

theorem Modest.replaceMove {B o pos r n : Nat} {s : St T} {v w : List T} (hv : s.view o = some v) (hw : s.view r = some w)
    (hm : w.length ≤ npos) (h : Covers cfg B s o (max v.length (pos + min n w.length))) :
    Modest cfg.allocOk B (replaceMove cfg o pos r n) s := by
  unfold Rca.replaceMove
  split
  · exact Modest.pure
  · refine Modest.checkPos hv (Modest.eq (length_spec hw) (Modest.eq (length_spec hv) ?_))
    split
    · exact Calm.modest (fun _ _ => Pres.moveAssign _ _) _ _ _
    · rw [clip_eq _ _ hm]; exact Modest.replaceBody hv h

theorem Modest.insertC {B o pos : Nat} {s : St T} {v xs : List T} {early : Bool} (hv : s.view o = some v)
    (h : Covers cfg B s o (v.length + xs.length)) : Modest cfg.allocOk B (insertC cfg o pos xs early) s := by
  unfold Rca.insertC
  split
  · exact Modest.pure
  · refine Modest.checkPos hv (Modest.eq (length_spec hv) (h.modest.calm fun _ => ?_))
    exact (calm_shiftRight _ _ _).bind fun _ => (calm_bump _ _).bind fun _ => calm_writeRange _ _ _

theorem Modest.replaceC {B o pos : Nat} {s : St T} {v xs : List T} {early : Bool} (hv : s.view o = some v)
    (h : Covers cfg B s o (max v.length (pos + xs.length))) : Modest cfg.allocOk B (replaceC cfg o pos xs early) s := by
  unfold Rca.replaceC
  split
  · exact Modest.pure
  · refine Modest.checkPos hv (Modest.eq (length_spec hv) ?_)
    have e : (if pos + xs.length < v.length then v.length else pos + xs.length) = max v.length (pos + xs.length) := by
      split <;> omega
    dsimp only
    rw [e]
    refine h.modest.calm fun _ => ?_
    exact Calm.bind (m := Bdlib.getObj o) (fun _ _ => Pres.getObj _) fun _ =>
      Calm.bind (fun _ _ => Pres.putObj _ _) fun _ => calm_writeRange _ _ _

theorem Modest.insertLoop {B o a N : Nat} {s0 st : St T} (hB : Covers cfg B st o N) (xs : List T) :
    ∀ {s : St T} {index : Nat} {ob : Obj} {b : Block T} {v : List T}, Own cfg s0 s o ob a b → ob.sublen = v.length →
      window b.cells ob.offset v.length = v → index ≤ v.length → v.length + xs.length = N →
      ob.offset + room cfg N ≤ b.cells.length → Modest cfg.allocOk B (insertLoop cfg o index xs) s := by
  induction xs with
  | nil => intro s index ob b v h hsl hw hi hN hroom; exact Modest.pure
  | cons x xs ih =>
    intro s index ob b v h hsl hw hi hN hroom
    simp only [List.length_cons] at hN
    have hm1 := room_mono cfg (m := v.length) (n := N) (by omega)
    have hm2 := room_mono cfg (m := v.length + 1) (n := N) (by omega)
    have hlen : (v.take index ++ [x] ++ v.drop index).length = v.length + 1 := by
      simp; omega
    unfold Rca.insertLoop
    have hview : ∀ {s : St T} {ob : Obj} {b : Block T} {v : List T}, Own cfg s0 s o ob a b → ob.sublen = v.length →
        window b.cells ob.offset v.length = v → s.view o = some v := fun h hsl hw => by rw [h.view, hsl, hw]
    have hiter : Modest cfg.allocOk B (Rca.insertIter cfg o index x) s := by
      unfold Rca.insertIter
      refine Modest.seq (Modest.getOwnCopy (hview h hsl hw) (hB.later (by omega) h (by omega)))
        (getOwnCopy_room h hsl hw (by omega) fun s1 b1 how1 hl1 hw1 => ?_)
      refine Modest.seq (Modest.insertItem (hview how1 hsl hw1) (hB.later (by omega) how1 (by omega)))
        (insertItem_room how1 hsl hw1 hi (by omega) fun s2 ob2 b2 how2 hsl2 hoff2 hl2 hw2 => ?_)
      refine Modest.getOwnCopy (v := v.take index ++ [x] ++ v.drop index)
        (hview how2 (by rw [hlen, hsl2]) (by rw [hlen]; exact hw2)) ?_
      rw [hlen]
      exact hB.later (by omega) how2 (by omega)
    refine Modest.seq hiter ?_
    unfold Rca.insertIter
    refine sat_bind (getOwnCopy_room h hsl hw (by omega) ?_)
    intro s1 b1 how1 hl1 hw1
    refine sat_bind (insertItem_room how1 hsl hw1 hi (by omega) ?_)
    intro s2 ob2 b2 how2 hsl2 hoff2 hl2 hw2
    refine getOwnCopy_room (v := v.take index ++ [x] ++ v.drop index) how2 (by rw [hlen, hsl2])
      (by rw [hlen]; exact hw2) (by rw [hlen]; omega) ?_
    intro s3 b3 how3 hl3 hw3
    exact ih (v := v.take index ++ [x] ++ v.drop index) how3 (by rw [hlen, hsl2]) hw3
      (by rw [hlen]; omega) (by rw [hlen]; omega) (by omega)

theorem Modest.insertRange {B o index : Nat} {s : St T} {v xs : List T} (hwf : WF cfg s) (hv : s.view o = some v)
    (hi : index ≤ v.length) (h : Covers cfg B s o (v.length + xs.length)) :
    Modest cfg.allocOk B (insertRange cfg o index xs) s := by
  unfold Rca.insertRange
  refine Modest.eq (length_spec hv) (Modest.seq h.modest
    (aboutToModify_spec hwf hv (Nat.le_add_right _ _) ?_ fun _ _ _ _ _ _ => trivial))
  intro s1 ob a b how hsl hw hroom
  have hlen : (v.take index ++ xs ++ v.drop index).length = v.length + xs.length := by
    simp; omega
  refine Modest.seq (Modest.insertLoop h xs how hsl hw hi rfl hroom) (insertLoop_room xs how hsl hw hi hroom ?_)
  intro s2 ob2 b2 how2 hsl2 hw2 hroom2
  refine Modest.getOwnCopy (v := v.take index ++ xs ++ v.drop index) (by rw [how2.view, hsl2, hw2]) ?_
  rw [hlen]
  exact h.later (Nat.le_refl _) how2 hroom2

theorem Modest.growTo {B o n : Nat} {s : St T} (h : Covers cfg B s o n) (hs : cfg.nul.isSome → n ≠ npos) :
    Modest cfg.allocOk B (growTo cfg o n) s := by
  unfold Rca.growTo
  rw [if_pos (fun ⟨h1, h2⟩ => hs h1 h2)]
  exact h.modest

theorem Modest.resize {B o n : Nat} {s : St T} (h : Covers cfg B s o n) (hs : cfg.nul.isSome → n ≠ npos) :
    Modest cfg.allocOk B (resize cfg o n) s := by
  unfold Rca.resize
  refine Modest.bind ((calm_length o).modest _ _ _) fun k s1 he => ?_
  have : s1 = s := by
    unfold length at he
    change M.bind (Bdlib.getObj o) _ s = _ at he
    unfold M.bind Bdlib.getObj at he
    cases ho : s.obj o with
    | none => rw [ho] at he; cases he
    | some ob => rw [ho] at he; cases he; rfl
  subst this
  split
  · exact (calm_upd _ _).modest _ _ _
  · exact (Modest.growTo h hs).calm fun _ => calm_upd _ _

theorem Modest.resizeFill {B o n : Nat} {s : St T} {x : T} (h : Covers cfg B s o n) (hs : cfg.nul.isSome → n ≠ npos) :
    Modest cfg.allocOk B (resizeFill cfg o n x) s := by
  unfold Rca.resizeFill
  refine Modest.bind ((calm_length o).modest _ _ _) fun k s1 he => ?_
  have : s1 = s := by
    unfold length at he
    change M.bind (Bdlib.getObj o) _ s = _ at he
    unfold M.bind Bdlib.getObj at he
    cases ho : s.obj o with
    | none => rw [ho] at he; cases he
    | some ob => rw [ho] at he; cases he; rfl
  subst this
  split
  · exact (calm_upd _ _).modest _ _ _
  · refine (Modest.growTo h hs).calm fun _ => ?_
    exact Calm.bind (m := Bdlib.getObj o) (fun _ _ => Pres.getObj _) fun _ => (calm_writeRange _ _ _).bind fun _ => calm_upd _ _

theorem Modest.newObj {B : Nat} {ob : Obj} {f : Nat → M T β} {s : St T}
    (h : Modest ok B (f s.objs.length) { s with objs := s.objs ++ [some ob] }) : Modest ok B (newObj ob >>= f) s :=
  Modest.bind ((show Calm (Rca.newObj ob) from fun _ _ => Pres.newObj ob).modest ok B s) fun a s1 he => by
    cases he; exact h

theorem Modest.rcaReserve_id {B o n : Nat} {s : St T} (h1 : 1 ≤ B) (hn : n ≤ B) : Modest cfg.allocOk B (Rca.rcaReserve cfg o n id) s :=
  Modest.rcaReserve h1 hn (Nat.zero_le _) fun b _ h => by simp only [id]; omega

theorem Modest.sizeCtor {B n : Nat} {s : St T} (h1 : 1 ≤ B) (hn : n ≤ B) : Modest cfg.allocOk B (sizeCtor cfg n) s := by
  unfold Rca.sizeCtor
  refine Modest.newObj (Modest.calm (Modest.onThrow ?_ (calm_destroy _ _)) fun _ => calm_pure _)
  split
  · show Modest cfg.base.allocOk B (Rca.reserve cfg.base _ _ id) _
    exact Modest.rcaReserve_id (cfg := cfg.base) h1 (by
      show (if cfg.base.nul.isSome = true ∧ _ then _ else _) ≤ B
      rw [if_neg (fun h => by cases h.1)]; exact hn)
  · exact Modest.pure

theorem room_base (n : Nat) : room cfg.base n = n := by
  unfold room
  rw [if_neg (fun h => by cases h.1)]

theorem ownRoom_bare {s : St T} {o : Nat} {ob : Obj} (ho : s.obj o = some ob) (hr : ob.ref = none) : ownRoom s o = 0 := by
  have h2 : capacity o s = .ok 0 s := by
    unfold capacity
    rw [bind_ok (getObj_eq ho), hr]
    rfl
  unfold ownRoom
  rw [h2]
  cases isShared o s with
  | ok b s' => cases b <;> rfl
  | throw e s' => rfl
  | ub => rfl

theorem Modest.fillCtor {B n : Nat} {x : T} {s : St T} (h1 : 1 ≤ B) (hn : n ≤ B) (h0 : cfg.scale 0 ≤ B) :
    Modest cfg.allocOk B (fillCtor cfg n x) s := by
  unfold Rca.fillCtor
  refine Modest.newObj (Modest.calm (Modest.onThrow ?_ (calm_destroy _ _)) fun _ => calm_pure _)
  refine Modest.resizeFill (cfg := cfg.base) ⟨h1, by rw [room_base]; exact hn, h0, .inl ?_⟩ (fun h => by cases h)
  rw [ownRoom_bare (ob := {}) (by simp [St.obj]) rfl]
  exact h0

theorem Modest.listCtor {B : Nat} {xs : List T} {s : St T} (h1 : 1 ≤ B) (hn : xs.length ≤ B) :
    Modest cfg.allocOk B (listCtor cfg xs) s := by
  unfold Rca.listCtor
  refine (Modest.sizeCtor h1 hn).calm fun o => ?_
  refine Calm.bind (fun ok L => Pres.onThrow (?_ : Pres L _) (Pres.destroy _ _)) fun _ => calm_pure _
  exact Pres.bind (Pres.writeRange _ _ _) fun _ => Pres.updObj

theorem Modest.strCtor {B : Nat} {c : T} {xs : List T} {s : St T} (h1 : 1 ≤ B) (hn : xs.length + 1 ≤ B) :
    Modest cfg.allocOk B (strCtor cfg c xs) s := by
  unfold Rca.strCtor
  refine (Modest.sizeCtor h1 hn).calm fun o => ?_
  exact (calm_writeRange _ _ _).bind fun _ => (calm_writeRange _ _ _).bind fun _ =>
    Calm.bind (fun _ _ => Pres.getObj _) fun _ => Calm.bind (fun _ _ => Pres.putObj _ _) fun _ => calm_pure _

theorem Modest.cstrCtor {B : Nat} {c : T} {xs : List T} {s : St T} (h1 : 1 ≤ B) (hn : xs.length + 1 ≤ B) :
    Modest cfg.allocOk B (cstrCtor cfg c xs) s := by
  unfold Rca.cstrCtor
  refine Modest.newObj ?_
  split
  · exact Modest.pure
  · refine Modest.getObj fun ob _ => Modest.putObj (Modest.calm (Modest.onThrow ?_ (calm_destroy _ _)) fun _ => ?_)
    · exact Modest.rcaReserve_id h1 hn
    · exact (calm_writeRange _ _ _).bind fun _ => calm_pure _

theorem Modest.charCtor {B : Nat} {c x : T} {s : St T} (h2 : 2 ≤ B) : Modest cfg.allocOk B (charCtor cfg c x) s := by
  unfold Rca.charCtor
  refine Modest.newObj (Modest.calm (Modest.onThrow (Modest.rcaReserve_id (by omega) h2) (calm_destroy _ _)) fun _ => ?_)
  exact (calm_writeRange _ _ _).bind fun _ => Calm.bind (fun _ _ => Pres.getObj _) fun _ =>
    Calm.bind (fun _ _ => Pres.putObj _ _) fun _ => (calm_writeRange _ _ _).bind fun _ => calm_pure _

theorem Modest.rangeCtor {B : Nat} {xs : List T} {s : St T} (hwf : WF cfg s) (h1 : 1 ≤ B) (hn : xs.length ≤ B)
    (h0 : cfg.scale 0 ≤ B) : Modest cfg.allocOk B (rangeCtor cfg xs) s := by
  unfold Rca.rangeCtor
  have hcov : ∀ {s1 : St T} {o : Nat}, (cfg.scale (ownRoom s1 o) ≤ B ∨ xs.length ≤ ownRoom s1 o) →
      Covers cfg.base B s1 o (([] : List T).length + xs.length) := by
    intro s1 o h
    refine ⟨h1, ?_, h0, ?_⟩
    · rw [room_base]; simpa using hn
    · rw [room_base, List.length_nil, Nat.zero_add]; exact h
  have htail : ∀ {s1 : St T} {o : Nat}, Modest cfg.allocOk B (Rca.insertRange cfg.base o 0 xs) s1 →
      Modest cfg.allocOk B ((Rca.insertRange cfg.base o 0 xs).onThrow (destroy cfg.base o) >>= fun _ => Pure.pure o) s1 :=
    fun h => Modest.calm (Modest.onThrow h (calm_destroy _ _)) fun _ => calm_pure _
  refine Modest.seq (Modest.sizeCtor h1 hn) (sizeCtor_sat hwf (fun _ s' h => ?_) (fun _ s' ob a b h hsl hle => ?_)
    fun _ _ _ _ => trivial)
  · refine htail (Modest.insertRange (cfg := cfg.base) (v := []) (wf_base h.wf) (by rw [view_eq h.obj]; rfl) (Nat.le_refl _) (hcov ?_))
    rw [ownRoom_bare h.obj rfl]
    exact .inl h0
  · refine htail (Modest.insertRange (cfg := cfg.base) (v := []) (wf_base h.wf) (by rw [h.view, hsl, window_zero]) (Nat.le_refl _)
      (hcov ?_))
    rw [ownRoom_own h]
    exact .inr (by omega)

theorem Modest.assignList {B o : Nat} {xs : List T} {s : St T} (h1 : 1 ≤ B) (hn : room cfg xs.length ≤ B) :
    Modest cfg.allocOk B (assignList cfg o xs) s := by
  unfold Rca.assignList
  refine Modest.bind (Calm.modest (fun _ _ => Pres.clear o) _ _ _) fun _ s1 _ => ?_
  refine Modest.calm (Modest.reserve h1 hn (Nat.zero_le _) fun b _ h => by simp only [id]; omega) fun _ => ?_
  exact (calm_writeRange _ _ _).bind fun _ => calm_upd _ _

theorem Modest.assignStd {B o : Nat} {c : T} {xs : List T} {s : St T} (h1 : 1 ≤ B) (hn : xs.length + 1 ≤ B) :
    Modest cfg.allocOk B (assignStd cfg c o xs) s := by
  unfold Rca.assignStd
  refine Modest.bind (Calm.modest (fun _ _ => Pres.clear o) _ _ _) fun _ s1 _ => ?_
  refine Modest.calm (Modest.rcaReserve_id h1 hn) fun _ => ?_
  exact Calm.bind (m := Bdlib.getObj o) (fun _ _ => Pres.getObj _) fun _ =>
    Calm.bind (fun _ _ => Pres.putObj _ _) fun _ => calm_writeRange _ _ _

theorem Modest.assignCstr {B o : Nat} {c : T} {xs : List T} {s : St T} (h1 : 1 ≤ B) (hn : xs.length + 1 ≤ B) :
    Modest cfg.allocOk B (assignCstr cfg c o xs) s := by
  unfold Rca.assignCstr
  exact (Modest.strCtor h1 hn).calm fun _ => Calm.bind (fun _ _ => Pres.moveAssign _ _) fun _ => calm_destroy _ _

theorem Modest.cStr [DecidableEq T] {B o : Nat} {c : T} {s : St T} {v : List T} (hv : s.view o = some v)
    (h : Covers cfg B s o (v.length + 1)) : Modest cfg.allocOk B (cStr cfg c o) s := by
  unfold Rca.cStr
  refine Modest.getObj fun ob ho => ?_
  have hl : ob.sublen = v.length := by
    have := length_spec hv
    unfold length at this
    rw [bind_ok (getObj_eq ho)] at this
    injection this
  split
  · exact Modest.pure
  · refine Modest.bind (Calm.modest (fun _ _ => Pres.readRange _ _ _) _ _ _) fun t s1 he => ?_
    have hs := readRange_same o ob.sublen 1 s
    rw [he] at hs
    obtain rfl : s1 = s := hs
    split
    · rw [hl]
      refine h.modest.calm fun _ => (calm_writeRange _ _ _).bind fun _ => ?_
      exact fun _ _ => Pres.readRange _ _ _
    · exact Calm.modest (fun _ _ => Pres.readRange _ _ _) _ _ _

end Bdlib.Rca
