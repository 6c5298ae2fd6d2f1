import Verif.Props.C16

/-!
# C16 Characters of the receiver itself

`s.insert(pos, s.c_str() + i, k)` and `s.replace(pos, s.c_str() + i, k)`, where the characters belong to the receiver and nobody
shares its storage: exactly when they work, and what they do where they do not.  (With shared storage the receiver gets its own
copy first and the pointer stays good: `c16_chars_of_other`, `c16_replace_chars_of_other`.)
-/

namespace Bdlib.Rca
open Bdlib Bdlib.Spec

variable {T : Type} [DecidableEq T] {cfg : Cfg T}

theorem own_cell (hv : cfg.Valid) (hp : cfg.Physical) {s : St T} {env : Env T} (h : Reach cfg s env) {o a : Nat} {v : List T}
    (ho : env o = .val v) {ob : Obj} {b : Block T} (hob : s.obj o = some ob) (href : ob.ref = some a) (hb : s.blk a = some b)
    (j : Nat) (hj : j < v.length) : b.cells[ob.offset + j]? = v[j]? := by
  have hpk : ptrTo o j s = .ok { addr := a, gen := b.gen, idx := ob.offset + j } s := by
    unfold ptrTo
    rw [bind_ok (getObj_eq hob)]
    simp only [href]
    rw [bind_ok (by unfold getBlk; rw [hb] : getBlk a s = .ok b s)]
    rfl
  obtain ⟨b0, hb0, _, hc⟩ := loadPtr_inv (loadPtr_elem hv hp h ho (List.getElem?_eq_getElem hj) hpk)
  rw [show s.blk a = some b from hb] at hb0; cases hb0
  rw [List.getElem?_eq_getElem hj]
  exact hc

theorem overwrite_get_inside {cells vs : List T} {i j : Nat} (hi : i ≤ cells.length) (h : j < vs.length) :
    (overwrite cells i vs)[i + j]? = vs[j]? := by
  unfold overwrite
  rw [List.append_assoc, List.getElem?_append_right (by simp; omega), List.getElem?_append_left (by simp; omega)]
  congr 1
  simp
  omega

/-- Shifting right by `k`, cell by cell: the cells before `pos + k` stay, those from `pos` on are copied `k` cells up. -/
theorem shiftRight_cells {s : St T} {o a pos k : Nat} {ob : Obj} {b : Block T} (ho : s.obj o = some ob) (hr : ob.ref = some a)
    (hb : s.blk a = some b) (hle : ob.offset + ob.sublen + k ≤ b.cells.length) (hpos : pos ≤ ob.sublen) :
    ∃ s2 b2, shiftRight o pos k s = .ok () s2 ∧ s2.obj o = some ob ∧ s2.blk a = some b2 ∧ b2.gen = b.gen ∧
      b2.cells.length = b.cells.length ∧ (∀ j, j < ob.offset + pos + k → b2.cells[j]? = b.cells[j]?) ∧
      ∀ j, pos ≤ j → j < ob.sublen → b2.cells[ob.offset + j + k]? = b.cells[ob.offset + j]? := by
  have hgb : getBlk a s = .ok b s := by unfold getBlk; rw [hb]
  have hbl := St.blk_lt hb
  have hrr : readRange o pos (ob.sublen - pos) s = .ok (window b.cells (ob.offset + pos) (ob.sublen - pos)) s := by
    unfold readRange
    rw [bind_ok (getObj_eq ho)]
    by_cases h0 : ob.sublen - pos = 0
    · rw [if_pos h0, h0]
      simp [window]
      rfl
    · rw [if_neg h0]
      simp only [hr]
      rw [bind_ok hgb, if_pos (by omega)]
      rfl
  generalize hxs : window b.cells (ob.offset + pos) (ob.sublen - pos) = xs at hrr
  have hxl : xs.length = ob.sublen - pos := by rw [← hxs]; exact window_len (by omega)
  have hxk : ∀ j, j < ob.sublen - pos → xs[j]? = b.cells[ob.offset + pos + j]? := by
    intro j hj
    rw [← hxs]
    unfold window
    rw [List.getElem?_take, if_pos hj, List.getElem?_drop]
  unfold shiftRight
  rw [bind_ok (getObj_eq ho)]
  rw [bind_ok hrr]
  unfold writeRange
  rw [bind_ok (getObj_eq ho)]
  cases hx : xs with
  | nil =>
    refine ⟨s, b, rfl, ho, hb, rfl, rfl, fun _ _ => rfl, fun j h1 h2 => ?_⟩
    rw [hx] at hxl; simp at hxl; omega
  | cons z zs =>
    have hzl : (z :: zs).length = ob.sublen - pos := by rw [← hx]; exact hxl
    simp only [List.isEmpty_cons, Bool.false_eq_true, if_false, hr]
    rw [bind_ok hgb, if_pos (by omega)]
    refine ⟨_, _, rfl, by rw [St.obj_setBlk]; exact ho, St.blk_setBlk_self _ hbl, rfl, overwrite_length (by omega), ?_, ?_⟩
    · intro j hj
      exact overwrite_get_before (by omega) (by omega)
    · intro j h1 h2
      have := overwrite_get_inside (cells := b.cells) (vs := z :: zs) (i := ob.offset + (pos + k)) (j := j - pos) (by omega) (by omega)
      rw [show ob.offset + (pos + k) + (j - pos) = ob.offset + j + k by omega] at this
      rw [this, ← hx, hxk _ (by omega)]
      congr 1
      omega

theorem window_ext {cells : List T} {v : List T} {i j k : Nat} (hv : j + k ≤ v.length)
    (h : ∀ m, m < k → cells[i + m]? = v[j + m]?) : window cells i k = (v.drop j).take k := by
  refine List.ext_getElem? fun m => ?_
  unfold window
  rw [List.getElem?_take, List.getElem?_take]
  split
  · rw [List.getElem?_drop, List.getElem?_drop]
    exact h m ‹_›
  · rfl

/-- `s.insert(pos, s.c_str() + i, k)` when nobody shares the storage and there is room, exactly:

* if the characters lie before `pos`, or start at `pos`, they are inserted;
* if they lie behind `pos + k`, the `k` characters in front of them are inserted instead (everything behind `pos` was moved);
* else the call is undefined: source and destination of the `memcpy` overlap. -/
theorem c16_own_chars (hv : cfg.Valid) (hp : cfg.Physical) {s : St T} {env : Env T} (h : Reach cfg s env)
    {o pos i k : Nat} {v : List T} (ho : env o = .val v) (hsh : isShared o s = .ok false s) (hk : 0 < k)
    (hroom : HasRoom cfg s o (v.length + k)) (hik : i + k ≤ v.length) (hpos : pos ≤ v.length) {p : Ptr}
    (hptr : ptrTo o i s = .ok p s) :
    ((i + k ≤ pos ∨ i = pos) → insertPtrC cfg o pos p k s = insertC cfg o pos ((v.drop i).take k) false s) ∧
    (pos + k ≤ i → insertPtrC cfg o pos p k s = insertC cfg o pos ((v.drop (i - k)).take k) false s) ∧
    (i ≠ pos → pos < i + k → i < pos + k → NeverOk (insertPtrC cfg o pos p k s)) := by
  have hview := h.view_eq hv hp ho
  obtain ⟨ob, b, hob, href, hb, hg, hidx⟩ := ptrTo_inv hptr
  obtain ⟨ob', a', b', hob', href', hb', hle⟩ := hroom
  rw [hob] at hob'; cases hob'
  rw [href] at href'; cases href'
  rw [hb] at hb'; cases hb'
  have hl : ob.sublen = v.length := by
    obtain ⟨ob1, h1, _, h2⟩ := obj_of_view hview
    rw [hob] at h1; cases h1; exact h2
  have hcell := own_cell hv hp h ho hob href hb
  have hrm := le_room cfg (v.length + k)
  -- the state in which the characters are copied
  have hat : (aboutToModify cfg o (v.length + k) s).Sat (fun _ s1 => (shiftRight o pos k s1).Sat (fun _ s2 =>
      ∃ b2, s2.obj o = some { ob with hash := 0 } ∧ s2.blk p.addr = some b2 ∧ b2.gen = p.gen ∧ b2.cells.length = b.cells.length ∧
        (∀ j, j < pos + k → j < v.length → b2.cells[ob.offset + j]? = v[j]?) ∧
        ∀ j, pos ≤ j → j < v.length → b2.cells[ob.offset + j + k]? = v[j]?) fun _ _ => False) (fun _ _ => False) := by
    refine sat_mono (aboutToModify_spare hob href hb (isShared_run hsh) hle (by omega)) ?_ fun _ _ h => h.elim
    rintro _ s1 ⟨ho1, b1, hb1, hg1, hl1, hsame⟩
    obtain ⟨s2, b2, hrun, ho2, hb2, hg2, hl2, hlow, hhigh⟩ := shiftRight_cells (pos := pos) (k := k) ho1 href hb1
      (by show ob.offset + ob.sublen + k ≤ _; omega) (by show pos ≤ ob.sublen; omega)
    dsimp only at hlow hhigh
    rw [hrun]
    refine ⟨b2, ho2, hb2, hg2.trans (hg1.trans hg), hl2.trans hl1, fun j h1 h2 => ?_, fun j h1 h2 => ?_⟩
    · rw [hlow _ (by omega), hsame _ (by omega)]
      exact hcell j h2
    · rw [hhigh j h1 (by omega), hsame _ (by omega)]
      exact hcell j h2
  have hins : ∀ j, j + k ≤ v.length → (¬ (i ≠ pos ∧ pos < i + k ∧ i < pos + k)) →
      (∀ (s2 : St T) (b2 : Block T), b2.cells.length = b.cells.length →
        (∀ j, j < pos + k → j < v.length → b2.cells[ob.offset + j]? = v[j]?) →
        (∀ j, pos ≤ j → j < v.length → b2.cells[ob.offset + j + k]? = v[j]?) →
        window b2.cells p.idx k = (v.drop j).take k) →
      insertPtrC cfg o pos p k s = insertC cfg o pos ((v.drop j).take k) false s := by
    intro j hj hno hwin
    have hlen : ((v.drop j).take k).length = k := by simp; omega
    unfold insertPtrC insertC
    rw [hlen]
    simp only [Bool.false_eq_true, if_false]
    rw [bind_ok (validatePos_ok hview hpos), bind_ok (validatePos_ok hview hpos), bind_ok (length_spec hview),
      bind_ok (length_spec hview)]
    refine bind_res (sat_mono hat (fun _ s1 h1 => ?_) fun _ _ h => h)
    refine bind_res (sat_mono h1 (fun _ s2 h2 => ?_) fun _ _ h => h)
    obtain ⟨b2, ho2, hb2, hg2, hl2, hlow, hhigh⟩ := h2
    refine bind_res (E := fun _ _ => True) ?_
    unfold bumpLength
    apply sat_getObj ho2
    apply sat_putObj_last
    refine memcpyPtr_eq (St.obj_setObj_self _ (St.obj_lt ho2)) ?_ ?_
    · rintro ⟨_, h1, h2, h3⟩
      dsimp only at h1 h2 h3
      exact hno ⟨by omega, by omega, by omega⟩
    · rw [loadPtrs_of (s := s2.setObj o _) (p := p) (k := k) hb2 hg2 (by omega), hwin s2 b2 hl2 hlow hhigh]
  refine ⟨fun hc => ?_, fun hc => ?_, fun h1 h2 h3 => ?_⟩
  · refine hins i hik (by omega) fun s2 b2 _ hlow _ => window_ext hik fun m hm => ?_
    rw [hidx, Nat.add_assoc]
    exact hlow _ (by omega) (by omega)
  · refine hins (i - k) (by omega) (by omega) fun s2 b2 _ _ hhigh => window_ext (by omega) fun m hm => ?_
    rw [← hhigh (i - k + m) (by omega) (by omega)]
    congr 1
    omega
  · unfold insertPtrC
    rw [bind_ok (validatePos_ok hview hpos), bind_ok (length_spec hview)]
    refine fails_bind (sat_mono hat (fun _ s1 hs1 => ?_) fun _ _ h => h.elim)
    refine fails_bind (sat_mono hs1 (fun _ s2 hs2 => ?_) fun _ _ h => h.elim)
    obtain ⟨b2, ho2, _⟩ := hs2
    refine fails_bind ?_
    unfold bumpLength
    apply sat_getObj ho2
    apply sat_putObj_last
    refine .inl ?_
    unfold memcpyPtr
    rw [bind_ok (getObj_eq (St.obj_setObj_self _ (St.obj_lt ho2)))]
    rw [if_pos ⟨href, by dsimp only; omega, by dsimp only; omega, by dsimp only; omega⟩]
    rfl

/-- `s.replace(pos, s.c_str() + i, k)` when nobody shares the storage and there is room, exactly: the characters replace those
from `pos` on if the two ranges are apart or the same; else the call is undefined. -/
theorem c16_own_replace_chars (hv : cfg.Valid) (hp : cfg.Physical) {s : St T} {env : Env T} (h : Reach cfg s env)
    {o pos i k : Nat} {v : List T} (ho : env o = .val v) (hsh : isShared o s = .ok false s) (hk : 0 < k)
    (hroom : HasRoom cfg s o (max v.length (pos + k))) (hik : i + k ≤ v.length) (hpos : pos ≤ v.length) {p : Ptr}
    (hptr : ptrTo o i s = .ok p s) :
    ((i + k ≤ pos ∨ i = pos ∨ pos + k ≤ i) → replacePtrC cfg o pos p k s = replaceC cfg o pos ((v.drop i).take k) false s) ∧
    (i ≠ pos → pos < i + k → i < pos + k → NeverOk (replacePtrC cfg o pos p k s)) := by
  have hview := h.view_eq hv hp ho
  obtain ⟨ob, b, hob, href, hb, hg, hidx⟩ := ptrTo_inv hptr
  obtain ⟨ob', a', b', hob', href', hb', hle⟩ := hroom
  rw [hob] at hob'; cases hob'
  rw [href] at href'; cases href'
  rw [hb] at hb'; cases hb'
  have hl : ob.sublen = v.length := by
    obtain ⟨ob1, h1, _, h2⟩ := obj_of_view hview
    rw [hob] at h1; cases h1; exact h2
  have hcell := own_cell hv hp h ho hob href hb
  have hm : (if pos + k < v.length then v.length else pos + k) = max v.length (pos + k) := by split <;> omega
  have hrm := le_room cfg (max v.length (pos + k))
  have hat : (aboutToModify cfg o (max v.length (pos + k)) s).Sat (fun _ s1 =>
      ∃ b1, s1.obj o = some { ob with hash := 0 } ∧ s1.blk p.addr = some b1 ∧ b1.gen = p.gen ∧ b1.cells.length = b.cells.length ∧
        ∀ j, j < v.length → b1.cells[ob.offset + j]? = v[j]?) (fun _ _ => False) := by
    refine sat_mono (aboutToModify_spare hob href hb (isShared_run hsh) hle (by omega)) ?_ fun _ _ h => h.elim
    rintro _ s1 ⟨ho1, b1, hb1, hg1, hl1, hsame⟩
    refine ⟨b1, ho1, hb1, hg1.trans hg, hl1, fun j hj => ?_⟩
    rw [hsame _ (by omega)]
    exact hcell j hj
  have hlen : ((v.drop i).take k).length = k := by simp; omega
  refine ⟨fun hc => ?_, fun h1 h2 h3 => ?_⟩
  · unfold replacePtrC replaceC
    rw [hlen]
    simp only [Bool.false_eq_true, if_false]
    rw [bind_ok (validatePos_ok hview hpos), bind_ok (validatePos_ok hview hpos), bind_ok (length_spec hview),
      bind_ok (length_spec hview), hm]
    refine bind_res (sat_mono hat (fun _ s1 h1 => ?_) fun _ _ h => h)
    obtain ⟨b1, ho1, hb1, hg1, hl1, hsame⟩ := h1
    rw [bind_ok (getObj_eq ho1), bind_ok (getObj_eq ho1)]
    generalize max v.length (pos + k) = m
    have hput : ∀ ob1 : Obj, putObj o ob1 s1 = .ok () (s1.setObj o (some ob1)) := fun _ => rfl
    rw [bind_ok (hput _), bind_ok (hput _)]
    refine memcpyPtr_eq (St.obj_setObj_self _ (St.obj_lt ho1)) ?_ ?_
    · rintro ⟨_, h1, h2, h3⟩
      dsimp only at h1 h2 h3
      omega
    · rw [loadPtrs_of (s := s1.setObj o _) (p := p) (k := k) hb1 hg1 (by omega)]
      rw [window_ext (v := v) (j := i) hik fun m hm => by rw [hidx, Nat.add_assoc]; exact hsame _ (by omega)]
  · unfold replacePtrC
    rw [bind_ok (validatePos_ok hview hpos), bind_ok (length_spec hview), hm]
    refine fails_bind (sat_mono hat (fun _ s1 hs1 => ?_) fun _ _ h => h.elim)
    obtain ⟨b1, ho1, _⟩ := hs1
    rw [bind_ok (getObj_eq ho1)]
    have hput : ∀ ob1 : Obj, putObj o ob1 s1 = .ok () (s1.setObj o (some ob1)) := fun _ => rfl
    rw [bind_ok (hput _)]
    refine .inl ?_
    unfold memcpyPtr
    rw [bind_ok (getObj_eq (St.obj_setObj_self _ (St.obj_lt ho1)))]
    rw [if_pos ⟨href, by dsimp only; omega, by dsimp only; omega, by dsimp only; omega⟩]
    rfl

theorem memcpyPtr_dangling {s : St T} {o pos k : Nat} {p : Ptr} {ob : Obj} {b : Block T} (ho : s.obj o = some ob)
    (hb : s.blk p.addr = some b) (hg : b.gen ≠ p.gen) : memcpyPtr o pos p k s = .ub := by
  unfold memcpyPtr
  rw [bind_ok (getObj_eq ho)]
  split
  · rfl
  · have : loadPtrs p k s = .ub := by
      unfold loadPtrs
      rw [bind_ok (by unfold getBlk; rw [hb] : getBlk p.addr s = .ok b s), if_neg (fun hc => hg hc.1)]
      rfl
    show M.bind _ _ _ = _
    unfold M.bind
    rw [this]

/-- If nobody shares the storage and the call has to get a larger buffer, the pointer into the old one dangles when the
characters are copied: neither call ever works. -/
theorem c16_own_chars_grown (hv : cfg.Valid) (hp : cfg.Physical) {s : St T} {env : Env T} (h : Reach cfg s env)
    {o pos i k cap : Nat} {v : List T} (ho : env o = .val v) (hpos : pos ≤ v.length) (hsh : isShared o s = .ok false s)
    (hcap : capacity o s = .ok cap s) {p : Ptr} (hptr : ptrTo o i s = .ok p s) :
    (cap < room cfg (v.length + k) → NeverOk (insertPtrC cfg o pos p k s)) ∧
    (cap < room cfg (max v.length (pos + k)) → NeverOk (replacePtrC cfg o pos p k s)) := by
  have hview := h.view_eq hv hp ho
  obtain ⟨hwf, -, -⟩ := h.inv hv hp
  obtain ⟨ob, b, hob, href, hb, hg, hidx⟩ := ptrTo_inv hptr
  have hcap' : b.cells.length = cap := by
    unfold capacity at hcap
    rw [bind_ok (getObj_eq hob)] at hcap
    simp only [href] at hcap
    rw [bind_ok (by unfold getBlk; rw [hb] : getBlk p.addr s = .ok b s)] at hcap
    cases hcap; rfl
  have hgs := hwf.gens _ _ hb
  refine ⟨fun hfull => ?_, fun hfull => ?_⟩
  · unfold insertPtrC
    rw [bind_ok (validatePos_ok hview hpos), bind_ok (length_spec hview)]
    have hsat : (aboutToModify cfg o (v.length + k) s).Sat (fun _ s1 => (shiftRight o pos k s1).Sat (fun _ s2 => ∃ ob2, s2.obj o = some ob2)
        fun _ _ => False) (fun e _ => e = .badAlloc) := by
      refine aboutToModify_spec hwf hview (by omega) ?_ fun _ _ _ _ _ _ => rfl
      intro s1 ob1 a b1 hown hsl hw hroom
      have := le_room cfg (v.length + k)
      rw [← pure_tail (shiftRight o pos k)]
      exact shiftRight_own hown hsl hw hpos (by omega) fun s2 b2 hown2 _ _ _ => ⟨_, hown2.obj⟩
    have hok := aboutToModify_grown hob href hb hsh (show b.cells.length < room cfg (v.length + k) by omega)
    refine fails_bind ?_
    cases hm : aboutToModify cfg o (v.length + k) s with
    | ub => rw [hm] at hsat; exact hsat
    | throw e s' => rw [hm] at hsat; exact hsat
    | ok u s1 =>
      rw [hm] at hsat hok
      obtain ⟨b', hb', hg'⟩ := hok
      show NeverOk _
      refine fails_bind ?_
      have hal := shiftRight_alike o pos k s1
      replace hsat : (shiftRight o pos k s1).Sat (fun _ s2 => ∃ ob2, s2.obj o = some ob2) fun _ _ => False := hsat
      cases hm2 : shiftRight o pos k s1 with
      | ub => rw [hm2] at hsat; exact hsat
      | throw e s' => rw [hm2] at hsat; exact hsat.elim
      | ok u s2 =>
        rw [hm2] at hal hsat
        obtain ⟨b2, hb2, hg2, _⟩ := hal.2 _ _ hb'
        obtain ⟨ob2, ho2⟩ := hsat
        show NeverOk _
        refine fails_bind ?_
        unfold bumpLength
        apply sat_getObj ho2
        apply sat_putObj_last
        exact .inl (memcpyPtr_dangling (St.obj_setObj_self _ (St.obj_lt ho2)) (by rw [St.blk_setObj]; exact hb2) (by omega))
  · unfold replacePtrC
    have hm : (if pos + k < v.length then v.length else pos + k) = max v.length (pos + k) := by split <;> omega
    rw [bind_ok (validatePos_ok hview hpos), bind_ok (length_spec hview), hm]
    have hsat : (aboutToModify cfg o (max v.length (pos + k)) s).Sat (fun _ s1 => ∃ ob1, s1.obj o = some ob1)
        (fun e _ => e = .badAlloc) :=
      aboutToModify_spec hwf hview (by omega) (fun s1 ob1 a b1 hown _ _ _ => ⟨_, hown.obj⟩) fun _ _ _ _ _ _ => rfl
    have hok := aboutToModify_grown hob href hb hsh (show b.cells.length < room cfg (max v.length (pos + k)) by omega)
    refine fails_bind ?_
    cases hm : aboutToModify cfg o (max v.length (pos + k)) s with
    | ub => rw [hm] at hsat; exact hsat
    | throw e s' => rw [hm] at hsat; exact hsat
    | ok u s1 =>
      rw [hm] at hsat hok
      obtain ⟨b', hb', hg'⟩ := hok
      obtain ⟨ob1, ho1⟩ := hsat
      show NeverOk _
      rw [bind_ok (getObj_eq ho1)]
      have hput : ∀ ob1 : Obj, putObj o ob1 s1 = .ok () (s1.setObj o (some ob1)) := fun _ => rfl
      rw [bind_ok (hput _)]
      exact .inl (memcpyPtr_dangling (St.obj_setObj_self _ (St.obj_lt ho1)) (by rw [St.blk_setObj]; exact hb') (by omega))

/-! ## The hypotheses are met -/

/-- The String `abcdef` (1 2 3 4 5 6) with room for more. -/
def stLetters : St Nat := (exec strCfg {} [.cstrCtor [1, 2, 3, 4, 5, 6], .reserve 0 20]).getD {}
theorem reachLetters : Reach strCfg stLetters (Env.empty.upd 0 (.val [1, 2, 3, 4, 5, 6])) :=
  Reach.next strCfg_valid strCfg_physical
    (Reach.next strCfg_valid strCfg_physical .init (op := .cstrCtor [1, 2, 3, 4, 5, 6]) (x := .obj 0) (by simp [Pre, IsStr, strCfg]) rfl
      (fun h => h) (Or.inl ⟨0, rfl, rfl, rfl⟩))
    (op := .reserve 0 20) (x := .unit) ⟨⟨_, rfl⟩, rfl, fun _ => .inr rfl⟩ rfl (fun h => h) (Or.inl ⟨rfl, rfl⟩)

/-- `s.insert(6, s.c_str() + 1, 2)` inserts `bc`; `s.insert(1, s.c_str() + 3, 2)` inserts `bc`, not `de`;
`s.insert(2, s.c_str() + 1, 3)` is undefined. -/
example : ∃ p p', ptrTo 0 1 stLetters = .ok p stLetters ∧ ptrTo 0 3 stLetters = .ok p' stLetters ∧
    insertPtrC strCfg 0 6 p 2 stLetters = insertC strCfg 0 6 [2, 3] false stLetters ∧
    insertPtrC strCfg 0 1 p' 2 stLetters = insertC strCfg 0 1 [2, 3] false stLetters ∧
    NeverOk (insertPtrC strCfg 0 2 p 3 stLetters) :=
  ⟨_, _, rfl, rfl,
    (c16_own_chars strCfg_valid strCfg_physical reachLetters (o := 0) (v := [1, 2, 3, 4, 5, 6]) (i := 1) (k := 2) (pos := 6) rfl rfl (by decide)
      ⟨_, _, _, rfl, rfl, rfl, by decide⟩ (by decide) (by decide) rfl).1 (by decide),
    (c16_own_chars strCfg_valid strCfg_physical reachLetters (o := 0) (v := [1, 2, 3, 4, 5, 6]) (i := 3) (k := 2) (pos := 1) rfl rfl (by decide)
      ⟨_, _, _, rfl, rfl, rfl, by decide⟩ (by decide) (by decide) rfl).2.1 (by decide),
    (c16_own_chars strCfg_valid strCfg_physical reachLetters (o := 0) (v := [1, 2, 3, 4, 5, 6]) (i := 1) (k := 3) (pos := 2) rfl rfl (by decide)
      ⟨_, _, _, rfl, rfl, rfl, by decide⟩ (by decide) (by decide) rfl).2.2 (by decide) (by decide) (by decide)⟩

/-- `s.replace(0, s.c_str() + 3, 3)` gives `defdef`; `s.replace(0, s.c_str() + 1, 3)` is undefined. -/
example : ∃ p p', ptrTo 0 3 stLetters = .ok p stLetters ∧ ptrTo 0 1 stLetters = .ok p' stLetters ∧
    replacePtrC strCfg 0 0 p 3 stLetters = replaceC strCfg 0 0 [4, 5, 6] false stLetters ∧
    NeverOk (replacePtrC strCfg 0 0 p' 3 stLetters) :=
  ⟨_, _, rfl, rfl,
    (c16_own_replace_chars strCfg_valid strCfg_physical reachLetters (o := 0) (v := [1, 2, 3, 4, 5, 6]) (i := 3) (k := 3) (pos := 0) rfl rfl (by decide)
      ⟨_, _, _, rfl, rfl, rfl, by decide⟩ (by decide) (by decide) rfl).1 (by decide),
    (c16_own_replace_chars strCfg_valid strCfg_physical reachLetters (o := 0) (v := [1, 2, 3, 4, 5, 6]) (i := 1) (k := 3) (pos := 0) rfl rfl (by decide)
      ⟨_, _, _, rfl, rfl, rfl, by decide⟩ (by decide) (by decide) rfl).2 (by decide) (by decide) (by decide)⟩

/-- `abc` in a buffer of four cells: `s.append(s.c_str())` does not work. -/
example : ∃ p, ptrTo 0 0 stAbc = .ok p stAbc ∧ NeverOk (insertPtrC strCfg 0 3 p 3 stAbc) ∧ NeverOk (replacePtrC strCfg 0 3 p 3 stAbc) :=
  ⟨_, rfl,
    (c16_own_chars_grown strCfg_valid strCfg_physical reachAbc (cap := 4) (pos := 3) (k := 3) rfl (by decide) rfl rfl rfl).1 (by decide),
    (c16_own_chars_grown strCfg_valid strCfg_physical reachAbc (cap := 4) (pos := 3) (k := 3) rfl (by decide) rfl rfl rfl).2 (by decide)⟩

/-- A replacement from a String that shares the receiver's storage. -/
example : ∃ p, ptrTo 1 0 stA = .ok p stA ∧ replacePtrC arrCfg 0 2 p 2 stA = replaceC arrCfg 0 2 [2, 3] false stA :=
  ⟨_, rfl, c16_replace_chars_of_other arrCfg_valid arrCfg_physical reachA rfl (q := 1) rfl (by decide) rfl⟩

end Bdlib.Rca
