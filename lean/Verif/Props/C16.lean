import Verif.Props.C12
import Verif.Props.C06
import Verif.Rca.Growth

/-!
# C16 Passing an element of the container to its own insert/append

`insertRef cfg o pos p` (`Rca/Model.lean`) is `insert(pos, const T& item)` where `item` is the reference
`p`: like the code, it reads the item only after the receiver was grown and its tail shifted.  The
property says it equals `insertItem cfg o pos x` with the value `x` the item had before the call.
-/

namespace Bdlib.Rca
open Bdlib Bdlib.Spec

variable {T : Type} [DecidableEq T] {cfg : Cfg T}

theorem bind_res {α β : Type} {m : M T α} {f g : α → M T β} {s : St T} {E : Exc → St T → Prop}
    (h : (m s).Sat (fun a s' => f a s' = g a s') E) : (m >>= f) s = (m >>= g) s := by
  show M.bind m f s = M.bind m g s
  unfold M.bind
  cases hm : m s with
  | ok a s' => rw [hm] at h; exact h
  | throw e s' => rfl
  | ub => rfl

theorem loadPtr_inv {s : St T} {p : Ptr} {x : T} {s' : St T} (h : loadPtr p s = .ok x s') :
    ∃ b, s.blk p.addr = some b ∧ b.gen = p.gen ∧ b.cells[p.idx]? = some x := by
  unfold loadPtr at h
  cases hb : s.blk p.addr with
  | none =>
    change M.bind (getBlk p.addr) _ s = _ at h
    unfold M.bind getBlk at h
    rw [hb] at h; cases h
  | some b =>
    rw [bind_ok (by unfold getBlk; rw [hb] : getBlk p.addr s = .ok b s)] at h
    split at h
    · rename_i hg
      cases hx : b.cells[p.idx]? with
      | none => rw [hx] at h; cases h
      | some y =>
        rw [hx] at h
        cases h
        exact ⟨b, rfl, hg, hx⟩
    · cases h

theorem loadPtr_of {s : St T} {p : Ptr} {x : T} {b : Block T} (hb : s.blk p.addr = some b) (hg : b.gen = p.gen)
    (hx : b.cells[p.idx]? = some x) : loadPtr p s = .ok x s := by
  unfold loadPtr
  rw [bind_ok (by unfold getBlk; rw [hb] : getBlk p.addr s = .ok b s), if_pos hg, hx]
  rfl

/-- The reference survives growing and shifting ⇒ the call equals inserting a copy. -/
theorem insertRef_eq {s : St T} {o pos : Nat} {p : Ptr} {x : T} {v : List T} (hv : s.view o = some v)
    {E : Exc → St T → Prop}
    (h : (aboutToModify cfg o (v.length + 1) s).Sat (fun _ s1 => (shiftRight o pos 1 s1).Sat
      (fun _ s' => loadPtr p s' = Res.ok x s') E) E) :
    insertRef cfg o pos p s = insertItem cfg o pos x s := by
  unfold insertRef insertItem
  by_cases hp : pos ≤ v.length
  · rw [bind_ok (validatePos_ok hv hp), bind_ok (validatePos_ok hv hp), bind_ok (length_spec hv), bind_ok (length_spec hv)]
    refine bind_res (sat_mono h (fun _ s1 h1 => ?_) fun _ _ h => h)
    refine bind_res (sat_mono h1 (fun _ s' hl => ?_) fun _ _ h => h)
    rw [bind_ok hl]
  · rw [bind_throw (validatePos_throw hv (by omega)), bind_throw (validatePos_throw hv (by omega))]

/-- If another object keeps the referenced storage alive — the item is an element of a different object,
or the receiver shares its storage — the call inserts the value the item had, for every position. -/
theorem c16_pinned (hv : cfg.Valid) (hp : cfg.Physical) {s : St T} {env : Env T} (h : Reach cfg s env) {o pos : Nat}
    {v : List T} (ho : env o = .val v) {p : Ptr} {x : T} (hx : loadPtr p s = .ok x s) {q : Nat} (hq : q ≠ o)
    (hst : storage s q = some p.addr) : insertRef cfg o pos p s = insertItem cfg o pos x s := by
  obtain ⟨hwf, _, _⟩ := h.inv hv hp
  have hview := h.view_eq hv hp ho
  obtain ⟨b, hb, hg, hc⟩ := loadPtr_inv hx
  obtain ⟨qb, hqo, hqr⟩ := obj_of_storage hst
  by_cases hpos : pos ≤ v.length
  · refine insertRef_eq (E := fun _ _ => True) hview ?_
    refine aboutToModify_spec hwf hview (Nat.le_succ _) ?_ fun _ _ _ _ _ _ => trivial
    intro s1 ob a b1 how hsl hw hroom
    have hr := le_room cfg (v.length + 1)
    rw [show shiftRight o pos 1 = (shiftRight o pos 1 >>= fun u => pure u) from by
      funext t
      show _ = M.bind _ _ _
      unfold M.bind
      cases shiftRight o pos 1 t <;> rfl]
    apply shiftRight_own how hsl hw hpos (by omega)
    intro s2 b2 how2 _ _ _
    have hvis := (how2.frame q hq).2 qb p.addr hqo hqr
    rw [hb] at hvis
    cases hb2 : s2.blk p.addr with
    | none => rw [hb2] at hvis; simp at hvis
    | some bb =>
      rw [hb2] at hvis
      simp only [Option.map_some, Block.vis, Option.some.injEq, Prod.mk.injEq] at hvis
      exact loadPtr_of hb2 (hvis.1.trans hg) (by rw [hvis.2]; exact hc)
  · unfold insertRef insertItem
    rw [bind_throw (validatePos_throw hview (by omega)), bind_throw (validatePos_throw hview (by omega))]

theorem ptrTo_inv {s : St T} {r i : Nat} {p : Ptr} (h : ptrTo r i s = .ok p s) :
    ∃ ob b, s.obj r = some ob ∧ ob.ref = some p.addr ∧ s.blk p.addr = some b ∧ b.gen = p.gen ∧ p.idx = ob.offset + i := by
  unfold ptrTo at h
  cases ho : s.obj r with
  | none =>
    change M.bind (getObj r) _ s = _ at h
    unfold M.bind getObj at h
    rw [ho] at h; cases h
  | some ob =>
    rw [bind_ok (getObj_eq ho)] at h
    have hcase : ob.ref = none ∨ ∃ a, ob.ref = some a := by cases ob.ref <;> simp
    rcases hcase with hr | ⟨a, hr⟩
    · rw [hr] at h; cases h
    · rw [hr] at h
      cases hb : s.blk a with
      | none =>
        change M.bind (getBlk a) _ s = _ at h
        unfold M.bind getBlk at h
        rw [hb] at h; cases h
      | some b =>
        change (getBlk a >>= _) s = _ at h
        rw [bind_ok (by unfold getBlk; rw [hb] : getBlk a s = .ok b s)] at h
        cases h
        exact ⟨ob, b, rfl, hr, hb, rfl, rfl⟩

/-- Dereferencing `&r[i]` gives element `i`. -/
theorem loadPtr_elem (hv : cfg.Valid) (hp : cfg.Physical) {s : St T} {env : Env T} (h : Reach cfg s env) {r i : Nat}
    {w : List T} {x : T} (hr : env r = .val w) (hi : w[i]? = some x) {p : Ptr} (hptr : ptrTo r i s = .ok p s) :
    loadPtr p s = .ok x s := by
  obtain ⟨hwf, _, _⟩ := h.inv hv hp
  obtain ⟨ob, b, ho, href, hb, hg, hidx⟩ := ptrTo_inv hptr
  have hview := h.view_eq hv hp hr
  obtain ⟨b', hb', hle⟩ := hwf.le ho href
  rw [hb] at hb'; cases hb'
  rw [view_eq ho, St.viewOf_some href hb hle] at hview
  refine loadPtr_of hb hg ?_
  injection hview with hview
  rw [← hview] at hi
  unfold window at hi
  rw [List.getElem?_take] at hi
  split at hi
  · rw [List.getElem?_drop] at hi
    rw [hidx]; exact hi
  · cases hi

/-- `a.insert(pos, b[i])` with `b` another array (whether or not it shares storage with `a`): as if a copy
of the element had been passed. -/
theorem c16_element_of_other (hv : cfg.Valid) (hp : cfg.Physical) {s : St T} {env : Env T} (h : Reach cfg s env)
    {o r pos i : Nat} {v w : List T} {x : T} (ho : env o = .val v) (hr : env r = .val w) (hne : r ≠ o)
    (hi : w[i]? = some x) {p : Ptr} (hptr : ptrTo r i s = .ok p s) :
    insertRef cfg o pos p s = insertItem cfg o pos x s := by
  obtain ⟨ob, b, hob, href, _⟩ := ptrTo_inv hptr
  exact c16_pinned hv hp h ho (loadPtr_elem hv hp h hr hi hptr) hne (by simp [storage, hob, href])

/-- `a.insert(pos, a[i])` while `a` shares its storage with another object. -/
theorem c16_own_shared (hv : cfg.Valid) (hp : cfg.Physical) {s : St T} {env : Env T} (h : Reach cfg s env)
    {o pos i : Nat} {v : List T} {x : T} (ho : env o = .val v) (hsh : isShared o s = .ok true s)
    (hi : v[i]? = some x) {p : Ptr} (hptr : ptrTo o i s = .ok p s) :
    insertRef cfg o pos p s = insertItem cfg o pos x s := by
  obtain ⟨b, hb, hiff⟩ := c02_isShared hv hp h (live_val ho)
  rw [hsh] at hb
  cases hb
  obtain ⟨q, a, hq, h1, h2⟩ := hiff.mp rfl
  obtain ⟨ob, _, hob, href, _⟩ := ptrTo_inv hptr
  have : a = p.addr := by
    simp [storage, hob, href] at h1
    exact h1.symm
  exact c16_pinned hv hp h ho (loadPtr_elem hv hp h ho hi hptr) hq (this ▸ h2)

theorem pure_tail {α : Type} (m : M T α) : (m >>= fun u => pure u) = m := by
  funext t
  show M.bind _ _ _ = _
  unfold M.bind
  cases m t <;> rfl

theorem memcpyPtr_eq {s : St T} {o pos k : Nat} {p : Ptr} {xs : List T} {ob : Obj} (ho : s.obj o = some ob)
    (hd : ¬ (ob.ref = some p.addr ∧ p.idx ≠ ob.offset + pos ∧ p.idx < ob.offset + pos + k ∧ ob.offset + pos < p.idx + k))
    (hl : loadPtrs p k s = .ok xs s) : memcpyPtr o pos p k s = writeRange o pos xs s := by
  unfold memcpyPtr
  rw [bind_ok (getObj_eq ho), if_neg hd, bind_ok hl]

theorem loadPtrs_inv {s : St T} {p : Ptr} {k : Nat} {xs : List T} (hx : loadPtrs p k s = .ok xs s) :
    ∃ b, s.blk p.addr = some b ∧ b.gen = p.gen ∧ p.idx + k ≤ b.cells.length ∧ xs = window b.cells p.idx k := by
  unfold loadPtrs at hx
  cases hb : s.blk p.addr with
  | none =>
    change M.bind (getBlk p.addr) _ s = _ at hx
    unfold M.bind getBlk at hx
    rw [hb] at hx; cases hx
  | some b =>
    rw [bind_ok (by unfold getBlk; rw [hb] : getBlk p.addr s = .ok b s)] at hx
    split at hx
    · rename_i hc
      cases hx
      exact ⟨b, rfl, hc.1, hc.2, rfl⟩
    · cases hx

theorem loadPtrs_of {s : St T} {p : Ptr} {k : Nat} {b : Block T} (hb : s.blk p.addr = some b) (hg : b.gen = p.gen)
    (hle : p.idx + k ≤ b.cells.length) : loadPtrs p k s = .ok (window b.cells p.idx k) s := by
  unfold loadPtrs
  rw [bind_ok (by unfold getBlk; rw [hb] : getBlk p.addr s = .ok b s), if_pos ⟨hg, hle⟩]
  rfl

/-- The characters a pointer into another object's storage names are still there while the receiver is being edited. -/
theorem pinned_chars {s s2 s3 : St T} {o a q : Nat} {ob qb : Obj} {b2 b : Block T} {p : Ptr} {k : Nat} (how : Own cfg s s2 o ob a b2)
    (hq : q ≠ o) (hqo : s.obj q = some qb) (hqr : qb.ref = some p.addr) (hb : s.blk p.addr = some b) (hg : b.gen = p.gen)
    (hle : p.idx + k ≤ b.cells.length) (h3 : ∀ a, s3.blk a = s2.blk a) :
    loadPtrs p k s3 = .ok (window b.cells p.idx k) s3 ∧ ob.ref ≠ some p.addr := by
  obtain ⟨hqs, hvis⟩ := how.frame q hq
  have hvis := hvis qb p.addr hqo hqr
  rw [hb] at hvis
  refine ⟨?_, fun hc => ?_⟩
  · cases hb2 : s2.blk p.addr with
    | none => rw [hb2] at hvis; simp at hvis
    | some bb =>
      rw [hb2] at hvis
      simp only [Option.map_some, Block.vis, Option.some.injEq, Prod.mk.injEq] at hvis
      have := loadPtrs_of (s := s3) (p := p) (k := k) ((h3 _).trans hb2) (hvis.1.trans hg) (by rw [hvis.2]; exact hle)
      rw [this, hvis.2]
  · have h1 := how.ref
    rw [hc] at h1; cases h1
    have := St.owners_two (hqs.trans hqo) hqr how.obj hc hq
    have := (how.wf.refs _ _ how.blk).1
    have := how.refs
    omega

/-- The same for characters: `s.insert(pos, t.c_str())` with `t` another String, or with the receiver
sharing its storage, inserts the characters the pointer named before the call. -/
theorem c16_chars_of_other (hv : cfg.Valid) (hp : cfg.Physical) {s : St T} {env : Env T} (h : Reach cfg s env)
    {o pos k : Nat} {v : List T} (ho : env o = .val v) {p : Ptr} {xs : List T} (hx : loadPtrs p k s = .ok xs s)
    {q : Nat} (hq : q ≠ o) (hst : storage s q = some p.addr) :
    insertPtrC cfg o pos p k s = insertC cfg o pos xs false s := by
  obtain ⟨hwf, _, _⟩ := h.inv hv hp
  have hview := h.view_eq hv hp ho
  obtain ⟨qb, hqo, hqr⟩ := obj_of_storage hst
  obtain ⟨b, hb, hg, hle, rfl⟩ := loadPtrs_inv hx
  have hlen : (window b.cells p.idx k).length = k := window_len hle
  unfold insertPtrC insertC
  rw [hlen]
  simp only [Bool.false_eq_true, if_false]
  by_cases hpos : pos ≤ v.length
  · rw [bind_ok (validatePos_ok hview hpos), bind_ok (validatePos_ok hview hpos), bind_ok (length_spec hview),
      bind_ok (length_spec hview)]
    refine bind_res (E := fun _ _ => True) ?_
    refine aboutToModify_spec hwf hview (Nat.le_add_right _ _) ?_ fun _ _ _ _ _ _ => trivial
    intro s1 ob a b1 how hsl hw hroom
    have hr := le_room cfg (v.length + k)
    refine bind_res (E := fun _ _ => True) ?_
    rw [← pure_tail (shiftRight o pos k)]
    apply shiftRight_own how hsl hw hpos (by omega)
    intro s2 b2 how2 hl2 _ hr2
    refine bind_res (E := fun _ _ => True) ?_
    unfold bumpLength
    apply sat_getObj how2.obj
    apply sat_putObj_last
    obtain ⟨hld, hne⟩ := pinned_chars (s3 := s2.setObj o (some { ob with sublen := ob.sublen + k })) how2 hq hqo hqr hb hg hle
      fun _ => rfl
    exact memcpyPtr_eq (St.obj_setObj_self _ (St.obj_lt how2.obj)) (fun hc => hne hc.1) hld
  · rw [bind_throw (validatePos_throw hview (by omega)), bind_throw (validatePos_throw hview (by omega))]

/-- ... and `s.replace(pos, t.c_str())` replaces by them. -/
theorem c16_replace_chars_of_other (hv : cfg.Valid) (hp : cfg.Physical) {s : St T} {env : Env T} (h : Reach cfg s env)
    {o pos k : Nat} {v : List T} (ho : env o = .val v) {p : Ptr} {xs : List T} (hx : loadPtrs p k s = .ok xs s)
    {q : Nat} (hq : q ≠ o) (hst : storage s q = some p.addr) :
    replacePtrC cfg o pos p k s = replaceC cfg o pos xs false s := by
  obtain ⟨hwf, _, _⟩ := h.inv hv hp
  have hview := h.view_eq hv hp ho
  obtain ⟨qb, hqo, hqr⟩ := obj_of_storage hst
  obtain ⟨b, hb, hg, hle, rfl⟩ := loadPtrs_inv hx
  have hlen : (window b.cells p.idx k).length = k := window_len hle
  unfold replacePtrC replaceC
  rw [hlen]
  simp only [Bool.false_eq_true, if_false]
  by_cases hpos : pos ≤ v.length
  · rw [bind_ok (validatePos_ok hview hpos), bind_ok (validatePos_ok hview hpos), bind_ok (length_spec hview),
      bind_ok (length_spec hview)]
    refine bind_res (E := fun _ _ => True) ?_
    refine aboutToModify_spec hwf hview (by split <;> omega) ?_ fun _ _ _ _ _ _ => trivial
    intro s1 ob a b1 how hsl hw hroom
    rw [bind_ok (getObj_eq how.obj), bind_ok (getObj_eq how.obj)]
    generalize (if pos + k < v.length then v.length else pos + k) = m
    obtain ⟨hld, hne⟩ := pinned_chars (s3 := s1.setObj o (some { ob with sublen := m })) how hq hqo hqr hb hg hle
      fun _ => rfl
    have hput : putObj o { ob with sublen := m } s1 = .ok () (s1.setObj o (some { ob with sublen := m })) := rfl
    rw [bind_ok hput, bind_ok hput]
    exact memcpyPtr_eq (St.obj_setObj_self _ (St.obj_lt how.obj)) (fun hc => hne hc.1) hld
  · rw [bind_throw (validatePos_throw hview (by omega)), bind_throw (validatePos_throw hview (by omega))]

/-- The buffer has a free cell behind the elements (two for a String), so the call neither reallocates
nor moves the elements to the front. -/
def HasRoom (cfg : Cfg T) (s : St T) (o n : Nat) : Prop := ∃ ob a b, s.obj o = some ob ∧ ob.ref = some a ∧
  s.blk a = some b ∧ ob.offset + room cfg n ≤ b.cells.length

theorem overwrite_get_before {cells vs : List T} {i j : Nat} (h : j < i) (hi : i ≤ cells.length) :
    (overwrite cells i vs)[j]? = cells[j]? := by
  unfold overwrite
  rw [List.append_assoc, List.getElem?_append_left (by simp; omega), List.getElem?_take, if_pos h]

/-- `AboutToModify` on an unshared object with room: only the cell after the last usable one may change. -/
theorem aboutToModify_spare {s : St T} {o n a : Nat} {ob : Obj} {b : Block T} (ho : s.obj o = some ob)
    (hr : ob.ref = some a) (hb : s.blk a = some b) (hsh : shared s o = false)
    (hroom : ob.offset + room cfg n ≤ b.cells.length) (hn : 0 < n) :
    (aboutToModify cfg o n s).Sat (fun _ s' => s'.obj o = some { ob with hash := 0 } ∧ ∃ b', s'.blk a = some b' ∧
      b'.gen = b.gen ∧ b'.cells.length = b.cells.length ∧
      ∀ j, j < ob.offset + n → b'.cells[j]? = b.cells[j]?) (fun _ _ => False) := by
  have hlt := St.obj_lt ho
  unfold aboutToModify
  apply sat_getObj ho
  apply sat_putObj
  generalize hs1 : s.setObj o (some { ob with hash := 0 }) = s1
  have ho1 : s1.obj o = some { ob with hash := 0 } := by rw [← hs1]; exact St.obj_setObj_self _ hlt
  have hb1 : s1.blk a = some b := by rw [← hs1]; exact hb
  have hbl := St.blk_lt hb1
  have hshr : isShared o s1 = .ok false s1 := by
    unfold isShared
    rw [bind_ok (getObj_eq ho1)]
    simp only [hr]
    rw [bind_ok (by unfold getBlk; rw [hb1] : getBlk a s1 = .ok b s1)]
    rw [shared_eq ho hr hb] at hsh
    rw [hsh]
    rfl
  apply sat_of_eq_ok hshr
  simp only [Bool.false_eq_true, if_false]
  have hgb : getBlk a s1 = .ok b s1 := by unfold getBlk; rw [hb1]
  have hno : ∀ k, ob.offset + k ≤ b.cells.length → rcaReserve cfg o k cfg.scale s1 = .ok () s1 := by
    intro k hk
    unfold rcaReserve
    rw [bind_ok (getObj_eq ho1)]
    simp only [hr, pure_bind']
    have har : arefReserve cfg a k cfg.scale ob.offset ob.sublen s1 = .ok ob.offset s1 := by
      unfold arefReserve
      rw [bind_ok hgb]
      simp only
      rw [if_neg (by omega), if_neg (by unfold sub64; split <;> omega)]
      rfl
    rw [bind_ok har, bind_ok (getObj_eq ho1)]
    show Res.ok () (s1.setObj o (some { ob with hash := 0 })) = _
    rw [setObj_self ho1]
  unfold reserve
  cases hnul : cfg.nul with
  | none =>
    have hrm : room cfg n = n := by unfold room; rw [hnul]; simp
    rw [hrm] at hroom
    show (rcaReserve cfg o n cfg.scale s1).Sat _ _
    rw [hno n hroom]
    exact ⟨ho1, b, hb1, rfl, rfl, fun _ _ => rfl⟩
  | some c =>
    have hrm : room cfg n = n + 1 := by unfold room; rw [hnul]; simp [hn]
    rw [hrm] at hroom
    show (strReserve cfg c o n cfg.scale s1).Sat _ _
    unfold strReserve
    simp only [if_pos hn]
    apply sat_of_eq_ok (hno (n + 1) hroom)
    apply sat_getObj ho1
    simp only [hr]
    apply sat_getBlk hb1
    apply sat_ite
    · intro h0; omega
    · intro h0
      rw [hr] at ho1
      refine ⟨ho1, _, St.blk_setBlk_self _ hbl, rfl, overwrite_length (by simp; omega), fun j hj => ?_⟩
      exact overwrite_get_before (by omega) (by omega)

/-- What the reference to element `i` names when it is read: the elements from `pos` on were copied one cell up, so the cells
behind `pos` hold the element before. -/
theorem own_spare (hv : cfg.Valid) (hp : cfg.Physical) {s : St T} {env : Env T} (h : Reach cfg s env)
    {o pos i : Nat} {v : List T} {x y : T} (ho : env o = .val v) (hsh : isShared o s = .ok false s)
    (hroom : HasRoom cfg s o (v.length + 1)) (hi : v[i]? = some x) (hy : v[if i ≤ pos then i else i - 1]? = some y) {p : Ptr}
    (hptr : ptrTo o i s = .ok p s) : insertRef cfg o pos p s = insertItem cfg o pos y s := by
  have hview := h.view_eq hv hp ho
  by_cases hpos : pos ≤ v.length
  case neg =>
    unfold insertRef insertItem
    rw [bind_throw (validatePos_throw hview (by omega)), bind_throw (validatePos_throw hview (by omega))]
  have hil : i < v.length := (List.getElem?_eq_some_iff.mp hi).1
  obtain ⟨ob, b, hob, href, hb, hg, hidx⟩ := ptrTo_inv hptr
  obtain ⟨ob', a', b', hob', href', hb', hle⟩ := hroom
  rw [hob] at hob'; cases hob'
  rw [href] at href'; cases href'
  rw [hb] at hb'; cases hb'
  have hl : ob.sublen = v.length := by
    obtain ⟨ob1, h1, _, h2⟩ := obj_of_view hview
    rw [hob] at h1; cases h1; exact h2
  -- every element is where it should be
  have hcell : ∀ k z, v[k]? = some z → b.cells[ob.offset + k]? = some z := by
    intro k z hz
    have hpk : ptrTo o k s = .ok { p with idx := ob.offset + k } s := by
      unfold ptrTo
      rw [bind_ok (getObj_eq hob)]
      simp only [href]
      rw [bind_ok (by unfold getBlk; rw [hb] : getBlk p.addr s = .ok b s), hg]
      rfl
    obtain ⟨b0, hb0, _, hc⟩ := loadPtr_inv (loadPtr_elem hv hp h ho hz hpk)
    rw [show s.blk p.addr = some b from hb] at hb0; cases hb0
    exact hc
  have hrm := le_room cfg (v.length + 1)
  refine insertRef_eq (E := fun _ _ => True) hview ?_
  refine sat_mono (aboutToModify_spare hob href hb (isShared_run hsh) hle (Nat.succ_pos _)) ?_
    fun _ _ h => h.elim
  rintro _ s1 ⟨ho1, b1, hb1, hg1, hl1, hsame⟩
  unfold shiftRight
  apply sat_getObj ho1
  have hbl := St.blk_lt hb1
  have hrr : readRange o pos (ob.sublen - pos) s1 = .ok (window b1.cells (ob.offset + pos) (ob.sublen - pos)) s1 := by
    unfold readRange
    rw [bind_ok (getObj_eq ho1)]
    by_cases h0 : ob.sublen - pos = 0
    · rw [if_pos h0, h0]
      simp [window]
      rfl
    · rw [if_neg h0]
      simp only [href]
      rw [bind_ok (by unfold getBlk; rw [hb1] : getBlk p.addr s1 = .ok b1 s1), if_pos (by omega)]
      rfl
  show ((readRange o pos (ob.sublen - pos) >>= _) s1).Sat _ _
  apply sat_of_eq_ok hrr
  generalize hxs : window b1.cells (ob.offset + pos) (ob.sublen - pos) = xs
  have hxl : xs.length = ob.sublen - pos := by rw [← hxs]; exact window_len (by omega)
  have hxk : ∀ k, k < ob.sublen - pos → xs[k]? = b1.cells[ob.offset + pos + k]? := by
    intro k hk
    rw [← hxs]
    unfold window
    rw [List.getElem?_take, if_pos hk, List.getElem?_drop]
  have h1 : ∀ k z, v[k]? = some z → b1.cells[ob.offset + k]? = some z := by
    intro k z hz
    have := (List.getElem?_eq_some_iff.mp hz).1
    rw [hsame _ (by omega)]
    exact hcell k z hz
  unfold writeRange
  apply sat_getObj ho1
  cases hx : xs with
  | nil =>
    have hle2 : v.length ≤ pos := by rw [hx] at hxl; simp at hxl; omega
    rw [if_pos (by omega)] at hy
    have hld := loadPtr_of (p := p) hb1 (hg1.trans hg) (by rw [hidx]; exact h1 i y hy)
    exact hld
  | cons z zs =>
    simp only [List.isEmpty_cons, Bool.false_eq_true, if_false, href]
    have hzl : (z :: zs).length = ob.sublen - pos := by rw [← hx]; exact hxl
    apply sat_of_eq_ok (by unfold getBlk; rw [hb1] : getBlk p.addr s1 = .ok b1 s1)
    rw [if_pos (by omega)]
    show loadPtr p _ = _
    refine loadPtr_of (St.blk_setBlk_self _ hbl) (hg1.trans hg) ?_
    show (overwrite b1.cells (ob.offset + (pos + 1)) (z :: zs))[p.idx]? = some y
    rw [hidx]
    by_cases hip : i ≤ pos
    · rw [if_pos hip] at hy
      rw [overwrite_get_before (by omega) (by omega)]
      exact h1 i y hy
    · rw [if_neg hip] at hy
      unfold overwrite
      rw [List.append_assoc, List.getElem?_append_right (by simp; omega), List.getElem?_append_left (by simp at hzl ⊢; omega),
        ← hx, hxk _ (by simp; omega)]
      have : ob.offset + pos + (ob.offset + i - (b1.cells.take (ob.offset + (pos + 1))).length) = ob.offset + (i - 1) := by
        simp; omega
      rw [this]
      exact h1 _ y hy

/-- `a.insert(pos, a[i])` with `i ≤ pos`, in particular `a.append(a[i])`, when nobody shares the storage
and there is room.

Partial: without room the reference dangles (`c16_own_grown`), with `i > pos` it names the element before
(`c16_own_behind`). -/
theorem c16_own_partial (hv : cfg.Valid) (hp : cfg.Physical) {s : St T} {env : Env T} (h : Reach cfg s env)
    {o pos i : Nat} {v : List T} {x : T} (ho : env o = .val v) (hsh : isShared o s = .ok false s)
    (hroom : HasRoom cfg s o (v.length + 1)) (hip : i ≤ pos) (hi : v[i]? = some x) {p : Ptr}
    (hptr : ptrTo o i s = .ok p s) : insertRef cfg o pos p s = insertItem cfg o pos x s :=
  own_spare hv hp h ho hsh hroom hi (by rw [if_pos hip]; exact hi) hptr

/-- With `i > pos` the element before the named one is inserted, in every such state: right only if the two are equal. -/
theorem c16_own_behind (hv : cfg.Valid) (hp : cfg.Physical) {s : St T} {env : Env T} (h : Reach cfg s env)
    {o pos i : Nat} {v : List T} {x y : T} (ho : env o = .val v) (hsh : isShared o s = .ok false s)
    (hroom : HasRoom cfg s o (v.length + 1)) (hip : pos ≤ i) (hi : v[i + 1]? = some x) (hy : v[i]? = some y) {p : Ptr}
    (hptr : ptrTo o (i + 1) s = .ok p s) : insertRef cfg o pos p s = insertItem cfg o pos y s :=
  own_spare hv hp h ho hsh hroom hi (by rw [if_neg (by omega)]; exact hy) hptr

theorem arefReserve_grown {s : St T} {a n off len : Nat} {scale : Nat → Nat} {b : Block T} (hb : s.blk a = some b)
    (hn : b.cells.length < n) : (arefReserve cfg a n scale off len s).Ok fun _ s' => s'.objs = s.objs ∧
      ∃ b', s'.blk a = some b' ∧ b'.gen = s.gen + 1 := by
  have hbl := St.blk_lt hb
  unfold arefReserve
  apply ok_getBlk
  intro b1 hb1
  rw [hb] at hb1; cases hb1
  dsimp only
  rw [if_pos hn]
  apply ok_alloc
  split
  · exact ⟨rfl, _, St.blk_setBlk_self _ hbl, rfl⟩
  · split
    · exact ⟨rfl, _, St.blk_setBlk_self _ hbl, rfl⟩
    · trivial

theorem reserve_grown {s : St T} {o a n : Nat} {scale : Nat → Nat} {ob : Obj} {b : Block T} (ho : s.obj o = some ob)
    (hr : ob.ref = some a) (hb : s.blk a = some b) (hn : b.cells.length < room cfg n) :
    (reserve cfg o n scale s).Ok fun _ s' => ∃ b', s'.blk a = some b' ∧ b'.gen = s.gen + 1 := by
  have hrca : ∀ k, b.cells.length < k → (rcaReserve cfg o k scale s).Ok fun _ s' => ∃ b', s'.blk a = some b' ∧ b'.gen = s.gen + 1 := by
    intro k hk
    unfold rcaReserve
    apply ok_getObj
    intro ob1 ho1
    rw [ho] at ho1; cases ho1
    simp only [hr, pure_bind']
    apply ok_bind
    refine ok_mono (arefReserve_grown hb hk) ?_
    rintro off s1 ⟨hobjs, b', hb', hg'⟩
    apply ok_getObj
    intro ob1 ho1
    exact ⟨b', hb', hg'⟩
  unfold reserve
  cases hc : cfg.nul with
  | none =>
    have : room cfg n = n := by unfold room; rw [hc]; simp
    exact hrca n (by omega)
  | some c =>
    show (strReserve cfg c o n scale s).Ok _
    have : room cfg n = if n > 0 then n + 1 else n := by unfold room; rw [hc]; simp
    unfold strReserve
    apply ok_bind
    refine ok_mono (hrca _ (by omega)) ?_
    rintro _ s1 ⟨b1, hb1, hg1⟩
    refine ok_mono (strTail_alike c o s1) fun _ s2 h3 => ?_
    obtain ⟨b2, h1, h2, _⟩ := h3.2 _ _ hb1
    exact ⟨b2, h1, h2.trans hg1⟩

/-- Getting a larger buffer gives the block a new one. -/
theorem aboutToModify_grown {s : St T} {o a n : Nat} {ob : Obj} {b : Block T} (hob : s.obj o = some ob) (href : ob.ref = some a)
    (hb : s.blk a = some b) (hsh : isShared o s = .ok false s) (hfull : b.cells.length < room cfg n) :
    (aboutToModify cfg o n s).Ok fun _ s1 => ∃ b', s1.blk a = some b' ∧ b'.gen = s.gen + 1 := by
  unfold aboutToModify
  apply ok_getObj
  intro ob1 ho1
  rw [hob] at ho1; cases ho1
  rw [bind_ok (by rfl : putObj o _ s = .ok () _)]
  have ho' := St.obj_setObj_self (some { ob with hash := 0 }) (St.obj_lt hob)
  have hshr : isShared o (s.setObj o (some { ob with hash := 0 })) = .ok false (s.setObj o (some { ob with hash := 0 })) := by
    have hsh' := isShared_run hsh
    unfold isShared
    rw [bind_ok (getObj_eq ho')]
    simp only [href]
    rw [bind_ok (by unfold getBlk; rw [St.blk_setObj, hb] : getBlk a (s.setObj o _) = .ok b _)]
    rw [shared_eq hob href hb] at hsh'
    rw [hsh']
    rfl
  rw [bind_ok hshr]
  exact reserve_grown (s := s.setObj o (some { ob with hash := 0 })) ho' href hb (by omega)

/-- If the call has to get a larger buffer, the reference dangles when it is read: undefined (or memory runs out), in every
such state. -/
theorem c16_own_grown (hv : cfg.Valid) (hp : cfg.Physical) {s : St T} {env : Env T} (h : Reach cfg s env)
    {o pos i cap : Nat} {v : List T} (ho : env o = .val v) (hpos : pos ≤ v.length) (hsh : isShared o s = .ok false s)
    (hcap : capacity o s = .ok cap s) (hfull : cap < room cfg (v.length + 1)) {p : Ptr} (hptr : ptrTo o i s = .ok p s) :
    NeverOk (insertRef cfg o pos p s) := by
  have hview := h.view_eq hv hp ho
  obtain ⟨hwf, -, -⟩ := h.inv hv hp
  obtain ⟨ob, b, hob, href, hb, hg, hidx⟩ := ptrTo_inv hptr
  have hcap' : b.cells.length = cap := by
    unfold capacity at hcap
    rw [bind_ok (getObj_eq hob)] at hcap
    simp only [href] at hcap
    rw [bind_ok (by unfold getBlk; rw [hb] : getBlk p.addr s = .ok b s)] at hcap
    cases hcap; rfl
  have hgs := hwf.gens _ _ hb
  unfold insertRef
  rw [bind_ok (validatePos_ok hview hpos), bind_ok (length_spec hview)]
  have hsat : (aboutToModify cfg o (v.length + 1) s).Sat (fun _ s1 => (shiftRight o pos 1 s1).Sat (fun _ _ => True) fun _ _ => False)
      (fun e _ => e = .badAlloc) := by
    refine aboutToModify_spec hwf hview (by omega) ?_ fun _ _ _ _ _ _ => rfl
    intro s1 ob1 a b1 hown hsl hw hroom
    have := le_room cfg (v.length + 1)
    rw [← pure_tail (shiftRight o pos 1)]
    exact shiftRight_own hown hsl hw hpos (by omega) fun s2 b2 hown2 _ _ _ => trivial
  have hok := aboutToModify_grown hob href hb hsh (show b.cells.length < room cfg (v.length + 1) by omega)
  refine fails_bind ?_
  cases hm : aboutToModify cfg o (v.length + 1) s with
  | ub => rw [hm] at hsat; exact hsat
  | throw e s' => rw [hm] at hsat; exact hsat
  | ok u s1 =>
    rw [hm] at hsat hok
    obtain ⟨b', hb', hg'⟩ := hok
    show NeverOk _
    refine fails_bind ?_
    have hal := shiftRight_alike o pos 1 s1
    have hsat : (shiftRight o pos 1 s1).Sat (fun _ _ => True) fun _ _ => False := hsat
    cases hm2 : shiftRight o pos 1 s1 with
    | ub => rw [hm2] at hsat; exact hsat
    | throw e s' => rw [hm2] at hsat; exact hsat.elim
    | ok u s2 =>
      rw [hm2] at hal
      obtain ⟨b2, hb2, hg2, _⟩ := hal.2 _ _ hb'
      have hl : loadPtr p s2 = .ub := by
        unfold loadPtr
        rw [bind_ok (by unfold getBlk; rw [hb2] : getBlk p.addr s2 = .ok b2 s2), if_neg (by omega)]
        rfl
      exact .inl (by simp only [bind, M.bind, hl])

/-- `{1,2,3,4,5}` with a sharing subarray: `a.insert(2, a[4])`. -/
example : ∃ p, ptrTo 0 4 stA = .ok p stA ∧ isShared 0 stA = .ok true stA ∧
    insertRef arrCfg 0 2 p stA = insertItem arrCfg 0 2 5 stA :=
  ⟨_, rfl, rfl, c16_own_shared arrCfg_valid arrCfg_physical reachA (x := 5) rfl rfl rfl rfl⟩

/-- `{1,2,3}` alone with exact capacity, and after one more append with spare capacity. -/
def stSolo : St Nat := (exec arrCfg {} [.listCtor [1, 2, 3]]).getD {}
def stSpare : St Nat := (exec arrCfg {} [.listCtor [1, 2, 3], .reserve 0 10]).getD {}

theorem reachSolo : Reach arrCfg stSolo (Env.empty.upd 0 (.val [1, 2, 3])) :=
  Reach.next arrCfg_valid arrCfg_physical .init (op := .listCtor [1, 2, 3]) (x := .obj 0) rfl rfl (fun h => h)
    (Or.inl ⟨0, rfl, rfl, rfl⟩)
theorem reachSpare : Reach arrCfg stSpare (Env.empty.upd 0 (.val [1, 2, 3])) :=
  Reach.next arrCfg_valid arrCfg_physical reachSolo (op := .reserve 0 10) (x := .unit)
    ⟨⟨_, rfl⟩, rfl, by intro h; cases h⟩ rfl (fun h => h) (Or.inl ⟨rfl, rfl⟩)

example : ∃ p, ptrTo 0 0 stSpare = .ok p stSpare ∧ HasRoom arrCfg stSpare 0 4 ∧
    insertRef arrCfg 0 3 p stSpare = insertItem arrCfg 0 3 1 stSpare :=
  ⟨_, rfl, ⟨_, _, _, rfl, rfl, rfl, by decide⟩, c16_own_partial arrCfg_valid arrCfg_physical reachSpare (x := 1) rfl rfl
    ⟨_, _, _, rfl, rfl, rfl, by decide⟩ (by decide) rfl rfl⟩

/-- `a.append(a[0])` on an array whose capacity is used up: the reference dangles, undefined. -/
theorem c16_refuted_dangling : ∃ p, Reach arrCfg stSolo (Env.empty.upd 0 (.val [1, 2, 3])) ∧
    ptrTo 0 0 stSolo = .ok p stSolo ∧ insertRef arrCfg 0 3 p stSolo = .ub := ⟨_, reachSolo, rfl, rfl⟩

/-- `a.insert(0, a[2])` with spare capacity inserts what was shifted into the referenced cell: 2 instead
of 3. -/
theorem c16_refuted_shifted : ∃ p s', Reach arrCfg stSpare (Env.empty.upd 0 (.val [1, 2, 3])) ∧
    ptrTo 0 2 stSpare = .ok p stSpare ∧ insertRef arrCfg 0 0 p stSpare = .ok () s' ∧ Shows s' 0 [2, 1, 2, 3] := by
  refine ⟨_, _, reachSpare, rfl, rfl, rfl, fun i hi => ?_⟩
  match i, hi with
  | 0, _ => rfl
  | 1, _ => rfl
  | 2, _ => rfl
  | 3, _ => rfl

/-- A String `abc` (1 2 3) from a character constructor. -/
def stAbc : St Nat := (exec strCfg {} [.cstrCtor [1, 2, 3]]).getD {}
theorem reachAbc : Reach strCfg stAbc (Env.empty.upd 0 (.val [1, 2, 3])) :=
  Reach.next strCfg_valid strCfg_physical .init (op := .cstrCtor [1, 2, 3]) (x := .obj 0) (by simp [Pre, IsStr, strCfg]) rfl
    (fun h => h) (Or.inl ⟨0, rfl, rfl, rfl⟩)

/-- `s.insert(0, s.c_str())` with `s == "abc"`: the pointer dangles when the characters are copied. -/
theorem c16_refuted_cstr : ∃ p s', Reach strCfg stAbc (Env.empty.upd 0 (.val [1, 2, 3])) ∧
    cStr strCfg 0 0 stAbc = .ok [1, 2, 3, 0] s' ∧ ptrTo 0 0 s' = .ok p s' ∧ insertPtrC strCfg 0 0 p 3 s' = .ub :=
  ⟨_, _, reachAbc, rfl, rfl, rfl⟩

/-- `{1,2,3,4,5}` and its subarray `{2,3,4}`: insert two items of the second into the first. -/
example : ∃ p, ptrTo 1 0 stA = .ok p stA ∧ insertPtrC arrCfg 0 2 p 2 stA = insertC arrCfg 0 2 [2, 3] false stA :=
  ⟨_, rfl, c16_chars_of_other arrCfg_valid arrCfg_physical reachA rfl (q := 1) rfl (by decide) rfl⟩

/-- `a.insert(0, a[2])` on `{1,2,3}` with room inserts `2`. -/
example : ∃ p, ptrTo 0 2 stSpare = .ok p stSpare ∧ insertRef arrCfg 0 0 p stSpare = insertItem arrCfg 0 0 2 stSpare :=
  ⟨_, rfl, c16_own_behind arrCfg_valid arrCfg_physical reachSpare (i := 1) (x := 3) (y := 2) rfl rfl
    ⟨_, _, _, rfl, rfl, rfl, by decide⟩ (by decide) rfl rfl rfl⟩

/-- `a.insert(1, a[0])` on `{1,2,3}` without room. -/
example : ∃ p, ptrTo 0 0 stSolo = .ok p stSolo ∧ NeverOk (insertRef arrCfg 0 1 p stSolo) :=
  ⟨_, rfl, c16_own_grown arrCfg_valid arrCfg_physical reachSolo (cap := 3) rfl (by decide) rfl rfl (by decide) rfl⟩

end Bdlib.Rca
