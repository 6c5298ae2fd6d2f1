import Verif.Deep.Step
import Verif.Rca.ElemRef

/-!
# Elements as arguments of calls on arrays

The calls that take a `const T&` with an object that lives in a cell of an array, possibly of the receiver: they stay in
step with the code on values that is given a reference to the cell.
-/

namespace Bdlib.Deep
open Bdlib Bdlib.Spec Bdlib.Rca
open Pg (undef)

variable {c : Conf} {T : Type} {mv : Slot T} {θ : Slot T → UInt64} {R : c.elt.Mem → Env T → Prop} {us : Env T} {env : Env T} {σ : St (Slot T)} {w : World c} {α β γ δ : Type}

/-! ## Buffers that were there before keep their objects -/

/-- Every block that still has the buffer it had in `s` still has the same objects in it. -/
structure Kept (s s' : St Nat) : Prop where
  gen : s.gen ≤ s'.gen
  len : s.heap.length ≤ s'.heap.length
  blk : ∀ a b', a < s.heap.length → s'.blk a = some b' → b'.gen ≤ s.gen →
    ∃ b, s.blk a = some b ∧ b.gen = b'.gen ∧ b.cells = b'.cells

theorem Kept.refl (s : St Nat) : Kept s s := ⟨Nat.le_refl _, Nat.le_refl _, fun _ b' _ h _ => ⟨b', h, rfl, rfl⟩⟩

theorem Kept.trans {s s' s'' : St Nat} (h : Kept s s') (h' : Kept s' s'') : Kept s s'' := by
  refine ⟨Nat.le_trans h.gen h'.gen, Nat.le_trans h.len h'.len, fun a b'' ha hb hg => ?_⟩
  obtain ⟨b', h1, h2, h3⟩ := h'.blk a b'' (Nat.lt_of_lt_of_le ha h.len) hb (Nat.le_trans hg h.gen)
  obtain ⟨b, h4, h5, h6⟩ := h.blk a b' ha h1 (by rw [h2]; exact hg)
  exact ⟨b, h4, h5.trans h2, h6.trans h3⟩

theorem pbind_inv {m : P c α} {f : α → P c β} {w w' : World c} {b : β} (h : (m >>= f) w = .ok b w') :
    ∃ a w1, m w = .ok a w1 ∧ f a w1 = .ok b w' := by
  change Pg.bind m f w = _ at h
  unfold Pg.bind at h
  cases hm : m w with
  | ub => rw [hm] at h; cases h
  | throw e s => rw [hm] at h; cases h
  | ok a s => rw [hm] at h; exact ⟨a, s, rfl, h⟩

theorem arrs_inv {m : M Nat α} {w w' : World c} {a : α} (h : arrs m w = .ok a w') : m w.arrs = .ok a w'.arrs := by
  unfold arrs at h
  cases hm : m w.arrs with
  | ub => rw [hm] at h; cases h
  | throw e s => rw [hm] at h; cases h
  | ok a s => rw [hm] at h; cases h; rfl

/-- Code that only touches elements. -/
def Still (m : P c α) : Prop := ∀ w a w', m w = .ok a w' → w'.arrs = w.arrs

theorem still_elts (m : Pg c.elt.Mem α) : Still (c := c) (elts m) := by
  intro w a w' h
  unfold elts at h
  cases hm : m w.elts with
  | ub => rw [hm] at h; cases h
  | throw e s => rw [hm] at h; cases h
  | ok a s => rw [hm] at h; cases h; rfl

theorem still_pure (a : α) : Still (c := c) (pure a) := by
  intro w a w' h; cases h; rfl

theorem still_bind {m : P c α} {f : α → P c β} (h : Still m) (hf : ∀ a, Still (f a)) : Still (m >>= f) := by
  intro w b w' hb
  obtain ⟨a, w1, h1, h2⟩ := pbind_inv hb
  exact (hf a w1 b w' h2).trans (h w a w1 h1)

theorem still_copies (t : Nat) : ∀ k, Still (copies c t k)
  | 0 => still_pure _
  | k + 1 => still_bind (still_elts _) fun _ => still_bind (still_copies t k) fun _ => still_pure _

theorem still_fresh (k : Nat) : Still (fresh c k) :=
  still_bind (still_elts _) fun _ => still_bind (still_copies _ k) fun _ => still_bind (still_elts _) fun _ => still_pure _

theorem still_newMoves : ∀ hs, Still (newMoves c hs)
  | [] => still_pure _
  | h :: hs => still_bind (still_elts _) fun _ => still_bind (still_newMoves hs) fun _ => still_pure _

theorem still_deletes : ∀ hs, Still (deletes c hs)
  | [] => still_pure _
  | h :: hs => still_bind (still_elts _) fun _ => still_deletes hs

theorem still_assigns : ∀ ds ss, Still (assigns c ds ss)
  | [], _ => still_pure _
  | _ :: _, [] => still_pure _
  | d :: ds, s :: ss => still_bind (still_elts _) fun _ => still_assigns ds ss

theorem still_assignMoves : ∀ ds ss, Still (assignMoves c ds ss)
  | [], _ => still_pure _
  | _ :: _, [] => still_pure _
  | d :: ds, s :: ss => still_bind (still_elts _) fun _ => still_assignMoves ds ss

theorem kept_setObj (s : St Nat) (o : Nat) (x : Option Obj) : Kept s (s.setObj o x) :=
  ⟨Nat.le_refl _, Nat.le_refl _, fun _ b' _ h _ => ⟨b', h, rfl, rfl⟩⟩

theorem kept_doDetach {o : Nat} {s s' : St Nat} (h : doDetach o s = .ok () s') : Kept s s' := by
  unfold doDetach at h
  obtain ⟨ob, s1, h1, h2⟩ := bind_inv h
  obtain ⟨rfl, ho⟩ := getObj_inv h1
  obtain ⟨_, s2, h3, h4⟩ := bind_inv h2
  have hs2 : Kept s1 s2 := by
    cases hr : ob.ref with
    | none => rw [hr] at h3; cases h3; exact .refl _
    | some a =>
      rw [hr] at h3
      obtain ⟨b, s3, h5, h6⟩ := bind_inv h3
      obtain ⟨rfl, hb⟩ := getBlk_inv h5
      cases h6
      refine ⟨Nat.le_refl _, by simp [St.setBlk], fun a' b' _ hb' _ => ?_⟩
      by_cases he : a' = a
      · subst he
        rw [St.blk_setBlk_self _ (St.blk_lt hb)] at hb'
        cases hb'
        exact ⟨b, hb, rfl, rfl⟩
      · rw [St.blk_setBlk_ne _ he] at hb'
        exact ⟨b', hb', rfl, rfl⟩
  cases h4
  exact hs2.trans (kept_setObj _ _ _)

theorem kept_newRef {a : Nat} {cfg : Cfg Nat} {s s' : St Nat} (h : newRef cfg s = .ok a s') : Kept s s' := by
  unfold newRef at h
  obtain ⟨g, s1, h1, h2⟩ := bind_inv h
  unfold alloc at h1
  simp only at h1
  split at h1 <;> cases h1
  cases h2
  refine ⟨Nat.le_succ _, by simp, fun a b' ha hb _ => ⟨b', ?_, rfl, rfl⟩⟩
  unfold St.blk at hb ⊢
  rw [List.getElem?_append_left ha] at hb
  exact hb

/-- A block got a new buffer. -/
theorem kept_grown {s s' : St Nat} {a g : Nat} {b : Block Nat} (hs : Kept s s') (hg : s.gen < g) (hb : b.gen = g) :
    Kept s (s'.setBlk a (some b)) := by
  refine ⟨hs.gen, by simp only [St.setBlk, List.length_set]; exact hs.len, fun a' b' ha hb' hle => ?_⟩
  by_cases he : a' = a
  · subst he
    rw [St.blk_setBlk_self _ (Nat.lt_of_lt_of_le ha hs.len)] at hb'
    cases hb'
    omega
  · rw [St.blk_setBlk_ne _ he] at hb'
    exact hs.blk a' b' ha hb' hle

theorem kept_freeBuf {s s' : St Nat} {cs : List Nat} (h : Rca.freeBuf cs s = .ok () s') : Kept s s' := by
  unfold Rca.freeBuf at h
  cases h
  exact ⟨Nat.le_refl _, Nat.le_refl _, fun _ b' _ h _ => ⟨b', h, rfl, rfl⟩⟩

theorem kept_arefReserve {a n off len x : Nat} {sc : Nat → Nat} {w w' : World c}
    (h : arefReserve c a n sc off len w = .ok x w') : Kept w.arrs w'.arrs := by
  unfold arefReserve at h
  obtain ⟨b, w1, h1, h2⟩ := pbind_inv h
  obtain ⟨e1, hb⟩ := getBlk_inv (arrs_inv h1)
  rw [← e1]
  simp only at h2
  split at h2
  · obtain ⟨g, w2, h3, h4⟩ := pbind_inv h2
    have h3 := arrs_inv h3
    obtain ⟨fs, w3, h5, h6⟩ := pbind_inv h4
    have e3 := still_fresh _ _ _ _ h5
    have hk : Kept w1.arrs w3.arrs ∧ w1.arrs.gen < g := by
      rw [e3]
      unfold alloc at h3
      simp only at h3
      split at h3
      · injection h3 with h3 h3'
        rw [← h3', ← h3]
        exact ⟨⟨Nat.le_succ _, Nat.le_refl _, fun _ b' _ h _ => ⟨b', h, rfl, rfl⟩⟩, Nat.lt_succ_self _⟩
      · cases h3
    split at h6
    · split at h6
      · obtain ⟨_, w4, h7, h8⟩ := pbind_inv h6
        cases h8
        have h7 := arrs_inv h7
        unfold putBlk at h7
        injection h7 with _ h7
        rw [← h7]
        exact kept_grown hk.1 hk.2 rfl
      · cases h6
    · split at h6
      · obtain ⟨ms, w4, h7, h8⟩ := pbind_inv h6
        have e4 := still_newMoves _ _ _ _ h7
        obtain ⟨_, w5, h9, h10⟩ := pbind_inv h8
        have e5 := still_deletes _ _ _ _ h9
        obtain ⟨_, w6, h11, h12⟩ := pbind_inv h10
        have hk6 := kept_freeBuf (arrs_inv h11)
        rw [e5, e4] at hk6
        obtain ⟨_, w7, h13, h14⟩ := pbind_inv h12
        cases h14
        have h13 := arrs_inv h13
        unfold putBlk at h13
        injection h13 with _ h13
        rw [← h13]
        exact kept_grown (hk.1.trans hk6) hk.2 rfl
      · cases h6
  · split at h2
    · split at h2
      · obtain ⟨_, w2, h3, h4⟩ := pbind_inv h2
        cases h4
        rw [still_assignMoves _ _ _ _ _ h3]
        exact .refl _
      · cases h2
    · cases h2; exact .refl _

theorem kept_getObj {o : Nat} {ob : Obj} {w w' : World c} (h : arrs (getObj o) w = .ok ob w') : w'.arrs = w.arrs :=
  (getObj_inv (arrs_inv h)).1

theorem kept_putObj {o : Nat} {ob : Obj} {u : Unit} {w w' : World c} (h : arrs (putObj o ob) w = .ok u w') : Kept w.arrs w'.arrs := by
  have h := arrs_inv h
  unfold putObj at h
  injection h with _ h
  rw [← h]
  exact kept_setObj _ _ _

theorem kept_reserve {o n : Nat} {sc : Nat → Nat} {w w' : World c} (h : reserve c o n sc w = .ok () w') : Kept w.arrs w'.arrs := by
  unfold reserve at h
  obtain ⟨ob, w1, h1, h2⟩ := pbind_inv h
  have e1 := kept_getObj h1
  rw [← e1]
  have key : ∀ {a w2}, Kept w1.arrs w2.arrs → (do
      let off ← arefReserve c a n sc ob.offset ob.sublen
      let ob ← arrs (getObj o)
      arrs (putObj o { ob with offset := off }) : P c Unit) w2 = .ok () w' → Kept w1.arrs w'.arrs := by
    intro a w2 hk h4
    obtain ⟨off, w3, h5, h6⟩ := pbind_inv h4
    obtain ⟨ob', w4, h7, h8⟩ := pbind_inv h6
    have e4 := kept_getObj h7
    have := kept_putObj h8
    rw [e4] at this
    exact (hk.trans (kept_arefReserve h5)).trans this
  cases hr : ob.ref with
  | some a =>
    rw [hr] at h2
    obtain ⟨a, w2, h3, h4⟩ := pbind_inv h2
    cases h3
    exact key (.refl _) h4
  | none =>
    rw [hr] at h2
    obtain ⟨a, w2, h3, h4⟩ := pbind_inv h2
    obtain ⟨_, w3, h5, h6⟩ := pbind_inv h4
    obtain ⟨a', w4, h7, h8⟩ := pbind_inv h6
    cases h7
    exact key ((kept_newRef (arrs_inv h3)).trans (kept_putObj h5)) h8

theorem kept_cow {o n : Nat} {w w' : World c} (h : cow c o n w = .ok () w') : Kept w.arrs w'.arrs := by
  unfold cow at h
  obtain ⟨ob, w1, h1, h2⟩ := pbind_inv h
  have e1 := kept_getObj h1
  rw [← e1]
  obtain ⟨_, w2, h3, h4⟩ := pbind_inv h2
  obtain ⟨_, w3, h5, h6⟩ := pbind_inv h4
  obtain ⟨ob', w4, h7, h8⟩ := pbind_inv h6
  have e4 := kept_getObj h7
  obtain ⟨_, w5, h9, h10⟩ := pbind_inv h8
  have hk5 := kept_putObj h9
  rw [e4] at hk5
  have hk : Kept w1.arrs w5.arrs := ((kept_doDetach (arrs_inv h3)).trans (kept_reserve h5)).trans hk5
  split at h10
  · cases h10; exact hk
  · cases hr : ob.ref with
    | none => rw [hr] at h10; cases h10
    | some a =>
      rw [hr] at h10
      simp only at h10
      obtain ⟨b, w6, h11, h12⟩ := pbind_inv h10
      have e6 := (getBlk_inv (arrs_inv h11)).1
      split at h12
      · obtain ⟨ds, w7, h13, h14⟩ := pbind_inv h12
        have e7 := (readRange_inv (arrs_inv h13)).1
        rw [still_assigns _ _ _ _ _ h14, e7, e6]
        exact hk
      · cases h12

theorem kept_aboutToModify {o n : Nat} {w w' : World c} (h : aboutToModify c o n w = .ok () w') : Kept w.arrs w'.arrs := by
  unfold aboutToModify at h
  obtain ⟨ob, w1, h1, h2⟩ := pbind_inv h
  have e1 := kept_getObj h1
  rw [← e1]
  obtain ⟨_, w2, h3, h4⟩ := pbind_inv h2
  obtain ⟨b, w3, h5, h6⟩ := pbind_inv h4
  have e3 := isShared_inv (arrs_inv h5)
  have hk2 := kept_putObj h3
  rw [← e3] at hk2
  split at h6
  · exact hk2.trans (kept_cow h6)
  · exact hk2.trans (kept_reserve h6)

theorem kept_getOwnCopy {o : Nat} {w w' : World c} (h : getOwnCopy c o w = .ok () w') : Kept w.arrs w'.arrs := by
  unfold getOwnCopy at h
  obtain ⟨n, w1, h1, h2⟩ := pbind_inv h
  rw [← length_inv (arrs_inv h1)]
  exact kept_aboutToModify h2

theorem kept_shiftRight {o pos k : Nat} {w w' : World c} (h : shiftRight c o pos k w = .ok () w') : Kept w.arrs w'.arrs := by
  unfold shiftRight at h
  obtain ⟨ob, w1, h1, h2⟩ := pbind_inv h
  obtain ⟨ss, w2, h3, h4⟩ := pbind_inv h2
  obtain ⟨ds, w3, h5, h6⟩ := pbind_inv h4
  rw [still_assigns _ _ _ _ _ h6, (readRange_inv (arrs_inv h5)).1, (readRange_inv (arrs_inv h3)).1, kept_getObj h1]
  exact .refl _

/-! ## References to cells -/

/-- Object `x` lives in the cell `q` refers to. -/
def PointsTo (s : St Nat) (q : Ptr) (x : Nat) : Prop :=
  ∃ b, s.blk q.addr = some b ∧ b.gen = q.gen ∧ b.cells[q.idx]? = some x ∧ b.gen ≤ s.gen

/-- While the reference can be read it refers to the same object. -/
theorem PointsTo.load {s : St Nat} {q : Ptr} {x : Nat} (hx : PointsTo s q x) (hk : Kept s w.arrs) (h : RelE R env us σ w) {y : Slot T}
    {σ' : St (Slot T)} (hl : loadPtr q σ = .ok y σ') : σ' = σ ∧ y = env x ∧ env x ≠ .dead := by
  obtain ⟨b, hb, hg, hc, hle⟩ := hx
  unfold loadPtr at hl
  cases hB : σ.blk q.addr with
  | none => rw [bind_ub (getBlk_ub hB)] at hl; cases hl
  | some B =>
    rw [bind_ok (getBlk_eq hB)] at hl
    split at hl
    · rename_i hgen
      obtain ⟨b', hb', rfl⟩ := h.like.blk_inv hB
      obtain ⟨b0, h0, h1, h2⟩ := hk.blk _ b' (St.blk_lt hb) hb' (by show b'.gen ≤ _; rw [show b'.gen = q.gen from hgen, ← hg]; exact hle)
      rw [hb] at h0; cases h0
      rw [h2] at hc
      have hm : (mapBlk env b').cells[q.idx]? = some (env x) := by
        show (b'.cells.map env)[q.idx]? = _
        rw [List.getElem?_map, hc]; rfl
      rw [hm] at hl
      cases hl
      exact ⟨rfl, rfl, h.live hb' (List.mem_of_getElem? hc)⟩
    · cases hl

theorem match_bind' {m : P c α} {f : α → P c γ} {m' : M (Slot T) β} {f' : β → M (Slot T) δ}
    {Q : α → β → Env T → World c → St (Slot T) → Prop} {Q' : γ → δ → Env T → World c → St (Slot T) → Prop}
    (h : Match R us (m w) (m' σ) Q)
    (hf : ∀ a b us' w' σ', m w = .ok a w' → m' σ = .ok b σ' → Rel R us' σ' w' → Q a b us' w' σ' → Match R us (f a w') (f' b σ') Q') :
    Match R us ((m >>= f) w) ((m' >>= f') σ) Q' := by
  show Match R us (Pg.bind m f w) (M.bind m' f' σ) Q'
  unfold M.bind
  cases hm : m' σ with
  | ub => trivial
  | throw e σ' =>
    rw [hm] at h
    obtain ⟨w', h1, h2⟩ := h
    exact ⟨w', by simp only [Pg.bind, h1], h2⟩
  | ok b σ' =>
    rw [hm] at h
    obtain ⟨a, w', us', h1, h2, h3⟩ := h
    have := hf a b us' w' σ' h1 hm h2 h3
    simp only [Pg.bind, h1]
    exact this

/-- `*(Buf(i)) = item` with an item that may live in a cell, even in the same one. -/
theorem match_assignCell (hc : Good mv R) (h : RelE R env us σ w) {o i x : Nat} (hx : env x ≠ .dead) :
    Match R us (assignCells c o i [x] w) (writeRange o i [env x] σ) fun _ _ us' w' _ => us' = us ∧ w'.arrs = w.arrs := by
  rcases writeRange_inv (o := o) (i := i) (s := σ) (xs := [env x]) with he | ⟨hnil, _, _⟩ | ⟨ob, a, B, ho, hr, hB, hle, he⟩
  · rw [he]; trivial
  · cases hnil
  · rw [he]
    obtain ⟨b, hb, rfl⟩ := h.like.blk_inv hB
    rw [h.like.obj] at ho
    have hle' : ob.offset + i + 1 ≤ b.cells.length := by simpa [mapBlk] using hle
    obtain ⟨s', env', h1, hR, hm, hout⟩ := assigns_ok hc (window b.cells (ob.offset + i) 1) [x] h.reach
      (fun y hy => h.live hb (mem_window hy)) (fun y hy => by rw [List.mem_singleton] at hy; rw [hy]; exact hx)
      (nodup_window (h.nodup_blk hb) _ _) (window_len hle')
      (later_of _ _ fun k j hkj hj => by simp at hj; omega)
    refine ⟨(), { w with elts := s' }, us, ?_, ⟨env', ?_⟩, rfl, rfl⟩
    · unfold assignCells
      rw [show [x].length = 1 from rfl, pbind_ok (arrs_ok (readRange_do ho hr hb hle'))]
      exact h1
    · refine h.wrote hR hb hle' hm ?_ hout
      intro y hy
      rw [List.mem_singleton] at hy
      rw [hy]; exact hx

/-- Storing the object `x` that lives where `q` refers to. -/
theorem match_store (hc : Good mv R) {s : St Nat} {q : Ptr} {x o i : Nat} (hx : PointsTo s q x) (hk : Kept s w.arrs) (h : Rel R us σ w)
    {f : P c γ} {f' : M (Slot T) δ} {Q : γ → δ → Env T → World c → St (Slot T) → Prop}
    (hf : ∀ w' σ', Rel R us σ' w' → Match R us (f w') (f' σ') Q) :
    Match R us ((assignCells c o i [x] >>= fun _ => f) w) ((do
      let v ← loadPtr q
      writeRange o i [v]
      f' : M (Slot T) δ) σ) Q := by
  obtain ⟨env, h⟩ := h
  have hnt : ∀ e σ', loadPtr q σ ≠ .throw e σ' := by
    intro e σ' hh
    unfold loadPtr at hh
    cases hB : σ.blk q.addr with
    | none => rw [bind_ub (getBlk_ub hB)] at hh; cases hh
    | some B =>
      rw [bind_ok (getBlk_eq hB)] at hh
      split at hh
      · cases hm : B.cells[q.idx]? with
        | none => rw [hm] at hh; cases hh
        | some y => rw [hm] at hh; cases hh
      · cases hh
  cases hl : loadPtr q σ with
  | ub => rw [bind_ub hl]; trivial
  | throw e σ' => exact (hnt e σ' hl).elim
  | ok y σ' =>
    rw [bind_ok hl]
    obtain ⟨rfl, rfl, hlive⟩ := hx.load hk h hl
    refine match_bind (match_assignCell hc h hlive) ?_
    rintro _ _ us' w2 σ2 _ hR2 ⟨rfl, _⟩
    exact hf _ _ hR2

theorem match_insertRef (hc : Good mv R) (h : Rel R us σ w) {o pos x : Nat} {q : Ptr} (hf : Fit σ o) (hx : PointsTo w.arrs q x) :
    Match R us (insertItem c o pos x w) (Rca.insertRef (c.val θ mv) o pos q σ) fun _ _ us' _ _ => us' = us := by
  unfold insertItem Rca.insertRef makeRoom
  simp only [pbind_assoc]
  refine match_bind' (match_arrs (.validatePos o pos) h) ?_
  rintro _ _ us' w1 σ1 _ h1 hR1 ⟨_, rfl, _, e1⟩
  have e1 := validatePos_inv e1
  have e2 := validatePos_inv h1
  subst e2
  refine match_bind' (match_arrs (.length o) hR1) ?_
  rintro n _ us' w2 σ2 _ h2 hR2 ⟨rfl, rfl, _, e3⟩
  have e3 := length_inv e3
  have e4 := length_inv h2
  subst e4
  refine match_bind' (match_aboutToModify hc hR2 hf) ?_
  rintro _ _ us' w3 σ3 h3 _ hR3 rfl
  refine match_bind' (match_shiftRight hc hR3) ?_
  rintro _ _ us' w4 σ4 h4 _ hR4 ⟨rfl, _⟩
  have hk : Kept w.arrs w4.arrs := by
    have := (kept_aboutToModify h3).trans (kept_shiftRight h4)
    rw [e3, e1] at this
    exact this
  exact match_store hc hx hk hR4 fun w' σ' hR' => match_bumpLength hR'

theorem match_writeRef (hc : Good mv R) (h : Rel R us σ w) {o i x : Nat} {q : Ptr} (hf : Fit σ o) (hx : PointsTo w.arrs q x) :
    Match R us (write c o i x w) (Rca.writeRef (c.val θ mv) o i q σ) fun _ _ us' _ _ => us' = us := by
  unfold write Rca.writeRef
  refine match_bind' (match_getOwnCopy hc h hf) ?_
  rintro _ _ us' w1 σ1 h1 _ hR1 rfl
  have := match_store hc (i := i) (o := o) hx (kept_getOwnCopy h1) hR1 (f := (pure () : P c Unit)) (f' := (pure () : M (Slot T) Unit))
    (Q := fun _ _ us'' _ _ => us'' = us') fun w' σ' hR' => match_pure hR' rfl
  have e1 : (assignCells c o i [x] >>= fun _ => (pure () : P c Unit)) = assignCells c o i [x] := by
    funext w
    show Pg.bind _ _ w = _
    unfold Pg.bind
    cases assignCells c o i [x] w <;> rfl
  have e2 : ∀ v : Slot T, (writeRange o i [v] >>= fun _ => (pure () : M (Slot T) Unit)) = writeRange o i [v] := by
    intro v
    funext s
    show M.bind _ _ s = _
    unfold M.bind
    cases writeRange o i [v] s <;> rfl
  rw [e1] at this
  simp only [e2] at this
  exact this

theorem match_replaceRef (hc : Good mv R) (h : Rel R us σ w) {o pos x : Nat} {q : Ptr} (hf : Fit σ o) (hx : PointsTo w.arrs q x) :
    Match R us (replaceItem c o pos x w) (Rca.replaceRef (c.val θ mv) o pos q σ) fun _ _ us' _ _ => us' = us := by
  unfold replaceItem Rca.replaceRef
  refine match_bind' (match_arrs (.validatePos o pos) h) ?_
  rintro _ _ us' w1 σ1 _ h1 hR1 ⟨_, rfl, _, e1⟩
  have e1 := validatePos_inv e1
  have e2 := validatePos_inv h1
  subst e2
  exact match_writeRef hc hR1 hf (by rw [e1]; exact hx)

theorem isShared_of {s : St (Slot T)} {o : Nat} {ob : Obj} (ho : s.obj o = some ob)
    (hb : ∀ a, ob.ref = some a → ∃ b, s.blk a = some b) : isShared o s = .ok (shared s o) s := by
  unfold isShared shared
  rw [bind_ok (getObj_eq ho), ho]
  cases hr : ob.ref with
  | none => simp only [hr]; rfl
  | some a =>
    obtain ⟨b, hb⟩ := hb a hr
    simp only [hr]
    rw [bind_ok (getBlk_eq hb), hb]
    rfl

/-- Inserting an element that no growing or shifting can reach is inserting its value. -/
theorem insertRef_element [DecidableEq T] (hc : Good mv R) (hR : Rel R us σ w) {ea : Env (Slot T)} (hA : Reach (c.val θ mv) σ ea)
    {o r pos i : Nat} {u v : List (Slot T)} {y : Slot T} (hu : ea o = .val u) (hr : ea r = .val v) (hi : v[i]? = some y) {q : Ptr}
    (hptr : ptrTo r i σ = .ok q σ) (hsh : r ≠ o ∨ shared w.arrs o = true) :
    Rca.insertRef (c.val θ mv) o pos q σ = Rca.insertItem (c.val θ mv) o pos y σ := by
  by_cases hne : r = o
  · subst hne
    have hs : shared σ r = true := by rw [hR.shared]; exact hsh.resolve_left fun h => h rfl
    have hwf := (hA.inv (val_valid c θ mv) (val_phys hc)).1
    obtain ⟨ob, _, ho, href, hb, _⟩ := ptrTo_inv hptr
    have := isShared_of ho fun a ha => (hwf.le ho ha).imp fun _ h => h.1
    rw [hs] at this
    exact c16_own_shared (val_valid c θ mv) (val_phys hc) hA hr this hi hptr
  · exact c16_element_of_other (val_valid c θ mv) (val_phys hc) hA hu hr hne hi hptr

theorem match_appendAs (h : Rel R us σ w) {o x : Nat} {y : Slot T}
    (hm : ∀ pos, Match R us (insertItem c o pos x w) (Rca.insertItem (c.val θ mv) o pos y σ) fun _ _ us' _ _ => us' = us) :
    Match R us (append c o x w) (Rca.append (c.val θ mv) o y σ) fun _ _ us' _ _ => us' = us := by
  unfold append Rca.append
  refine match_bind' (match_arrs (.length o) h) ?_
  rintro n _ us' w1 σ1 h0 h1 hR1 ⟨rfl, rfl, e0, e1⟩
  have e1 := length_inv e1
  have e2 := length_inv h1
  subst e2
  have : w1 = w := by cases w; cases w1; cases e0; cases e1; rfl
  rw [this]
  exact hm n

end Bdlib.Deep
