import Verif.Props.C59

/-!
# C59, for every history: what assignments and growth leave in released memory

The witnesses of `Props/C59.lean` are one state each.  Here the same calls from every reachable state: which
buffer an assignment or an append gives back, with which bytes, and when it gives back none.
-/

namespace Bdlib.Rca
open Bdlib Bdlib.Spec St

variable {T : Type} [DecidableEq T] {cfg : Cfg T}

theorem alone_refs {s : St T} (hwf : WF cfg s) {o a : Nat} {b : Block T} (hst : storage s o = some a)
    (hb : s.blk a = some b) (hlast : sharers s o = [o]) : b.refs = 1 := by
  have := (hwf.refs a b hb).1
  rw [owners_eq, ← hst] at this
  unfold sharers at hlast
  rw [hlast] at this
  simpa using this

theorem shared_refs {s : St T} (hwf : WF cfg s) {o a q : Nat} {b : Block T} (hst : storage s o = some a)
    (hb : s.blk a = some b) (hq : q ≠ o) (hsq : storage s q = some a) : b.refs > 1 := by
  obtain ⟨ob, ho, hr⟩ := obj_of_storage hst
  obtain ⟨qb, hqo, hqr⟩ := obj_of_storage hsq
  have := owners_two ho hr hqo hqr (Ne.symm hq)
  have := (hwf.refs a b hb).1
  omega

theorem getBlk_eq {s : St T} {a : Nat} {b : Block T} (h : s.blk a = some b) : getBlk a s = .ok b s := by
  unfold getBlk; rw [h]

/-- Giving up the last reference to a buffer: its bytes go back as they are. -/
theorem checkDeallocRef_last {s : St T} {o a : Nat} {ob : Obj} {b : Block T} (ho : s.obj o = some ob)
    (hr : ob.ref = some a) (hb : s.blk a = some b) (h1 : b.refs = 1) :
    ∃ s', checkDeallocRef o s = .ok () s' ∧ s'.freed = b.cells :: s.freed ∧
      s'.obj o = some { ob with ref := none } ∧ ∀ p, p ≠ o → s'.obj p = s.obj p := by
  have hlt := blk_lt hb
  refine ⟨{ ((s.setBlk a (some { b with refs := b.refs - 1 })).setBlk a none).setObj o (some { ob with ref := none }) with
    freed := b.cells :: s.freed }, ?_, rfl, ?_, ?_⟩
  · unfold checkDeallocRef decRef
    rw [bind_ok (getObj_eq ho), hr]
    show ((getBlk a >>= _) >>= _) s = _
    simp only [bind_assoc']
    rw [bind_ok (getBlk_eq hb), bind_ok (by rfl : putBlk a _ _ = .ok () _)]
    rw [bind_ok (getBlk_eq (blk_setBlk_self _ hlt)), if_pos (by dsimp only; omega)]
    rfl
  · exact obj_setObj_self (s := (s.setBlk a (some { b with refs := b.refs - 1 })).setBlk a none) _ (obj_lt ho)
  · intro p hp
    exact obj_setObj_ne (s := (s.setBlk a (some { b with refs := b.refs - 1 })).setBlk a none) _ hp

/-- Giving up a reference while others use the buffer: nothing goes back. -/
theorem checkDeallocRef_other {s : St T} {o a : Nat} {ob : Obj} {b : Block T} (ho : s.obj o = some ob)
    (hr : ob.ref = some a) (hb : s.blk a = some b) (h1 : b.refs > 1) :
    ∃ s', checkDeallocRef o s = .ok () s' ∧ s'.freed = s.freed ∧ ∀ p, s'.obj p = s.obj p := by
  have hlt := blk_lt hb
  refine ⟨s.setBlk a (some { b with refs := b.refs - 1 }), ?_, rfl, fun p => obj_setBlk _⟩
  unfold checkDeallocRef decRef
  rw [bind_ok (getObj_eq ho), hr]
  show ((getBlk a >>= _) >>= _) s = _
  simp only [bind_assoc']
  rw [bind_ok (getBlk_eq hb), bind_ok (by rfl : putBlk a _ _ = .ok () _)]
  rw [bind_ok (getBlk_eq (blk_setBlk_self _ hlt)), if_neg (by dsimp only; omega)]
  rfl

theorem incRef_eq {s : St T} (hwf : WF cfg s) {r : Nat} {rb : Obj} (hr : s.obj r = some rb) :
    ∃ s', incRef rb.ref s = .ok () s' ∧ s'.freed = s.freed ∧ (∀ p, s'.obj p = s.obj p) ∧
      ∀ a b, s.blk a = some b → rb.ref ≠ some a → s'.blk a = some b := by
  cases hrr : rb.ref with
  | none => exact ⟨s, rfl, rfl, fun _ => rfl, fun _ _ h _ => h⟩
  | some c =>
    obtain ⟨b', hb', _⟩ := hwf.bounds r rb c hr hrr
    refine ⟨s.setBlk c (some { b' with refs := b'.refs + 1 }), ?_, rfl, fun p => obj_setBlk _, ?_⟩
    · unfold incRef
      show (getBlk c >>= _) s = _
      rw [bind_ok (getBlk_eq hb')]
      rfl
    · intro a b hb hne
      rw [blk_setBlk_ne _ (fun h => hne (by rw [h]))]
      exact hb

/-- **C59 refuted, in general** In every state a program can reach: assigning another String to a String that
alone uses its buffer releases that buffer with the bytes it holds, by copy and by move. -/
theorem c59_assign_refuted (hv : cfg.Valid) (hp : cfg.Physical) {s : St T} {env : Env T} (h : Reach cfg s env)
    {o r a : Nat} {b : Block T} (hst : storage s o = some a) (hb : s.blk a = some b) (hlast : sharers s o = [o])
    (hne : r ≠ o) (hr : env.Live r) :
    (∃ s', run cfg (.copyAssign o r) s = .ok .unit s' ∧ s'.freed = b.cells :: s.freed) ∧
    (∃ s', run cfg (.moveAssign o r) s = .ok .unit s' ∧ s'.freed = b.cells :: s.freed) := by
  obtain ⟨hwf, _, hA⟩ := h.inv hv hp
  obtain ⟨ob, ho, hor⟩ := obj_of_storage hst
  obtain ⟨rb, hrb⟩ := hA.obj hr
  have h1 := alone_refs hwf hst hb hlast
  have hrn : rb.ref ≠ some a := by
    intro he
    have hsr : storage s r = some a := by unfold storage; rw [hrb]; exact he
    have hmem : r ∈ sharers s o := by
      unfold sharers
      simp only [List.mem_filter, List.mem_range, decide_eq_true_eq]
      exact ⟨obj_lt hrb, by rw [hsr, hst]⟩
    rw [hlast] at hmem
    exact hne (by simpa using hmem)
  constructor
  · obtain ⟨s1, e1, f1, o1, b1⟩ := incRef_eq hwf hrb
    have ho1 : s1.obj o = some ob := by rw [o1, ho]
    have hb1 := b1 a b hb hrn
    obtain ⟨s3, e3, f3, o3, p3⟩ := checkDeallocRef_last
      (s := s1.setObj o (some { ob with offset := rb.offset, sublen := rb.sublen, hash := rb.hash }))
      (obj_setObj_self _ (obj_lt ho1)) hor (by rw [blk_setObj]; exact hb1) h1
    have hr3 : s3.obj r = some rb := by rw [p3 r hne, obj_setObj_ne _ hne, o1, hrb]
    refine ⟨s3.setObj o (some rb), ?_, ?_⟩
    · show (mapOut (copyAssign o r) fun _ => Out.unit) s = _
      unfold mapOut copyAssign
      simp only [bind_assoc']
      rw [bind_ok (getObj_eq hrb), bind_ok e1, bind_ok (getObj_eq ho1), bind_ok (by rfl : putObj o _ s1 = .ok () _),
        bind_ok e3, bind_ok (getObj_eq hr3), bind_ok (getObj_eq o3)]
      rfl
    · show s3.freed = _
      rw [f3]
      show b.cells :: s1.freed = _
      rw [f1]
  · obtain ⟨s3, e3, f3, o3, p3⟩ := checkDeallocRef_last ho hor hb h1
    have hr3 : s3.obj r = some rb := by rw [p3 r hne, hrb]
    refine ⟨(s3.setObj o (some rb)).setObj r (some (movedFrom cfg rb)), ?_, f3⟩
    show (mapOut (moveAssign cfg o r) fun _ => Out.unit) s = _
    unfold mapOut moveAssign
    rw [if_neg (Ne.symm hne)]
    simp only [bind_assoc']
    rw [bind_ok e3, bind_ok (getObj_eq hr3)]
    rfl

/-- **C59** While another String still uses the buffer, assigning over this one releases nothing. -/
theorem c59_assign_shared_partial (hv : cfg.Valid) (hp : cfg.Physical) {s : St T} {env : Env T} (h : Reach cfg s env)
    {o r a q : Nat} (hst : storage s o = some a) (hq : q ≠ o) (hsq : storage s q = some a) (hne : r ≠ o)
    (hr : env.Live r) :
    (∃ s', run cfg (.copyAssign o r) s = .ok .unit s' ∧ s'.freed = s.freed) ∧
    (∃ s', run cfg (.moveAssign o r) s = .ok .unit s' ∧ s'.freed = s.freed) := by
  obtain ⟨hwf, _, hA⟩ := h.inv hv hp
  obtain ⟨ob, ho, hor⟩ := obj_of_storage hst
  obtain ⟨rb, hrb⟩ := hA.obj hr
  obtain ⟨b, hb, _⟩ := hwf.bounds o ob a ho hor
  have h1 := shared_refs hwf hst hb hq hsq
  constructor
  · have hinc : ∃ s1, incRef rb.ref s = .ok () s1 ∧ s1.freed = s.freed ∧ (∀ p, s1.obj p = s.obj p) ∧
        ∃ b', s1.blk a = some b' ∧ b'.refs > 1 := by
      by_cases hra : rb.ref = some a
      · refine ⟨s.setBlk a (some { b with refs := b.refs + 1 }), ?_, rfl, fun p => obj_setBlk _, _,
          blk_setBlk_self _ (blk_lt hb), by dsimp only; omega⟩
        rw [hra]
        unfold incRef
        show (getBlk a >>= _) s = _
        rw [bind_ok (getBlk_eq hb)]
        rfl
      · obtain ⟨s1, e1, f1, o1, b1⟩ := incRef_eq hwf hrb
        exact ⟨s1, e1, f1, o1, b, b1 a b hb hra, h1⟩
    obtain ⟨s1, e1, f1, o1, b', hb1, h1'⟩ := hinc
    have ho1 : s1.obj o = some ob := by rw [o1, ho]
    obtain ⟨s3, e3, f3, p3⟩ := checkDeallocRef_other
      (s := s1.setObj o (some { ob with offset := rb.offset, sublen := rb.sublen, hash := rb.hash }))
      (obj_setObj_self _ (obj_lt ho1)) hor (by rw [blk_setObj]; exact hb1) h1'
    have hr3 : s3.obj r = some rb := by rw [p3 r, obj_setObj_ne _ hne, o1, hrb]
    have ho3 := (p3 o).trans (obj_setObj_self _ (obj_lt ho1))
    refine ⟨s3.setObj o (some rb), ?_, ?_⟩
    · show (mapOut (copyAssign o r) fun _ => Out.unit) s = _
      unfold mapOut copyAssign
      simp only [bind_assoc']
      rw [bind_ok (getObj_eq hrb), bind_ok e1, bind_ok (getObj_eq ho1), bind_ok (by rfl : putObj o _ s1 = .ok () _),
        bind_ok e3, bind_ok (getObj_eq hr3), bind_ok (getObj_eq ho3)]
      rfl
    · show s3.freed = _
      rw [f3]
      exact f1
  · obtain ⟨s3, e3, f3, p3⟩ := checkDeallocRef_other ho hor hb h1
    have hr3 : s3.obj r = some rb := by rw [p3 r, hrb]
    refine ⟨(s3.setObj o (some rb)).setObj r (some (movedFrom cfg rb)), ?_, f3⟩
    show (mapOut (moveAssign cfg o r) fun _ => Out.unit) s = _
    unfold mapOut moveAssign
    rw [if_neg (Ne.symm hne)]
    simp only [bind_assoc']
    rw [bind_ok e3, bind_ok (getObj_eq hr3)]
    rfl

/-! ## Growth -/

/-- What `l` names was released and nothing else, if the call returns. -/
def Frees {α : Type} (l : List (List T)) (r : Res T α) : Prop := r.Ok fun _ s' => s'.freed = l

theorem frees_tail {α β : Type} {m : M T α} {f : α → M T β} {s : St T} {l : List (List T)} (h : Frees l (m s))
    (hf : ∀ a, Quiet (f a)) : Frees l ((m >>= f) s) := by
  refine ok_bind (ok_mono h fun a s' hl => ?_)
  have := hf a s'
  cases hm : f a s' with
  | ok b s2 => rw [hm] at this; exact Eq.trans this hl
  | throw e s2 => trivial
  | ub => trivial

theorem arefReserve_frees (hmv : ∀ x, cfg.moved x = x) {a N : Nat} {scale : Nat → Nat} {off len : Nat} {s : St T}
    {b : Block T} (hb : s.blk a = some b) (h0 : 0 < b.cells.length) (h : b.cells.length < N) :
    Frees (b.cells :: s.freed) (arefReserve cfg a N scale off len s) := by
  unfold arefReserve
  rw [bind_ok (getBlk_eq hb)]
  dsimp only
  rw [if_pos h]
  by_cases ha : cfg.allocOk (s.gen + 1) (max (scale b.cells.length) N)
  · rw [bind_ok (by unfold alloc; dsimp only; rw [if_pos ha] :
      alloc cfg (max (scale b.cells.length) N) s = .ok (s.gen + 1) { s with gen := s.gen + 1 }), if_neg (by omega)]
    by_cases hle : off + len ≤ b.cells.length
    · rw [if_pos hle]
      show (window b.cells 0 off ++ List.map cfg.moved (window b.cells off len) ++ List.drop (off + len) b.cells) :: s.freed
        = b.cells :: s.freed
      have hm : cfg.moved = id := funext hmv
      rw [hm, List.map_id]
      congr 1
      unfold window
      rw [List.drop_zero, ← List.drop_drop, List.append_assoc, List.take_append_drop, List.take_append_drop]
    · rw [if_neg hle]; trivial
  · apply ok_bind
    unfold alloc
    dsimp only
    rw [if_neg ha]; trivial

theorem rcaReserve_frees (hmv : ∀ x, cfg.moved x = x) {o a N : Nat} {scale : Nat → Nat} {s : St T} {ob : Obj} {b : Block T}
    (ho : s.obj o = some ob) (hr : ob.ref = some a) (hb : s.blk a = some b) (h0 : 0 < b.cells.length)
    (h : b.cells.length < N) : Frees (b.cells :: s.freed) (rcaReserve cfg o N scale s) := by
  unfold rcaReserve
  rw [bind_ok (getObj_eq ho), hr]
  dsimp only
  rw [pure_bind']
  exact frees_tail (arefReserve_frees hmv hb h0 h) fun off => .bind (.getObj o) fun _ => .putObj _ _

theorem reserve_frees (hmv : ∀ x, cfg.moved x = x) {o a n : Nat} {scale : Nat → Nat} {s : St T} {ob : Obj} {b : Block T}
    (ho : s.obj o = some ob) (hr : ob.ref = some a) (hb : s.blk a = some b) (h0 : 0 < b.cells.length)
    (h : b.cells.length < room cfg n) : Frees (b.cells :: s.freed) (reserve cfg o n scale s) := by
  unfold reserve
  unfold room at h
  cases hc : cfg.nul with
  | none => rw [hc] at h; simp at h; exact rcaReserve_frees hmv ho hr hb h0 h
  | some c =>
    rw [hc] at h
    simp only [Option.isSome_some, true_and] at h
    show Frees _ (strReserve cfg c o n scale s)
    unfold strReserve
    refine frees_tail (rcaReserve_frees hmv ho hr hb h0 h) fun _ => .bind (.getObj o) fun ob => ?_
    cases ob.ref with
    | none => exact .undef
    | some a => exact .bind (.getBlk a) fun b => .ite (.ite (.pure _) .undef) (.putBlk _ _)

theorem Quiet.copyRange (r n o pos : Nat) : Quiet (copyRange r n o pos : M T Unit) :=
  .bind (.getObj _) fun _ => .bind (.getObj _) fun _ => .ite .undef (.bind (.readRange _ _ _) fun _ => .writeRange _ _ _)

theorem aboutToModify_frees (hmv : ∀ x, cfg.moved x = x) {o a n : Nat} {s : St T} {ob : Obj} {b : Block T}
    (ho : s.obj o = some ob) (hr : ob.ref = some a) (hb : s.blk a = some b) (h1 : b.refs = 1) (h0 : 0 < b.cells.length)
    (h : b.cells.length < room cfg n) : Frees (b.cells :: s.freed) (aboutToModify cfg o n s) := by
  unfold aboutToModify
  rw [bind_ok (getObj_eq ho), bind_ok (by rfl : putObj o _ s = .ok () _)]
  have ho' := obj_setObj_self (some { ob with hash := 0 }) (obj_lt ho)
  apply isShared_ok
  intro sh hsh
  have hval : sh = false := by
    unfold isShared at hsh
    rw [bind_ok (getObj_eq ho')] at hsh
    dsimp only at hsh
    rw [hr] at hsh
    dsimp only at hsh
    rw [bind_ok (getBlk_eq (by rw [blk_setObj]; exact hb))] at hsh
    cases hsh
    simp [h1]
  subst hval
  exact reserve_frees (s := s.setObj o _) hmv ho' hr (by rw [blk_setObj]; exact hb) h0 h

/-- **C59 refuted, in general** In every state a program can reach: a String that alone uses its buffer and has to
grow for a longer text gives the old buffer back with the bytes it holds. -/
theorem c59_growth_refuted (hv : cfg.Valid) (hp : cfg.Physical) (hmv : ∀ x, cfg.moved x = x) {s : St T} {env : Env T}
    (h : Reach cfg s env) {o a : Nat} {b : Block T} {v : List T} (hview : env o = .val v) (hst : storage s o = some a)
    (hb : s.blk a = some b) (hlast : sharers s o = [o]) (h0 : 0 < b.cells.length) {op : Op T} {n : Nat}
    (hop : (∃ x, op = .append o x ∧ n = v.length + 1) ∨ (∃ pos x, op = .insertItem o pos x ∧ n = v.length + 1) ∨
      (∃ pos xs, op = .insertC o pos xs ∧ n = v.length + xs.length) ∨
      (∃ r m w, op = .appendRca o r m ∧ env r = .val w ∧ v ≠ [] ∧ m ≠ 0 ∧ n = v.length + min m w.length))
    (hgrow : b.cells.length < room cfg n) {x : Out T} {s' : St T} (hrun : run cfg op s = .ok x s') :
    s'.freed = b.cells :: s.freed := by
  obtain ⟨hwf, _, hA⟩ := h.inv hv hp
  obtain ⟨ob, ho, hr⟩ := obj_of_storage hst
  have h1 := alone_refs hwf hst hb hlast
  have hvw : s.view o = some v := by rw [hA.view ⟨v, hview⟩, Env.get, hview]
  have hmod := aboutToModify_frees hmv ho hr hb h1 h0 hgrow
  have hins : ∀ pos y, n = v.length + 1 → Frees (b.cells :: s.freed) (insertItem cfg o pos y s) := by
    intro pos y hn
    unfold insertItem
    by_cases hpos : pos ≤ v.length
    · rw [bind_ok (validatePos_ok hvw hpos), bind_ok (length_spec hvw), ← hn]
      exact frees_tail hmod fun _ => .bind (.shiftRight _ _ _) fun _ =>
        .bind (.writeRange _ _ _) fun _ => .bumpLength _ _
    · show Res.Ok (M.bind _ _ _) _
      unfold M.bind
      rw [validatePos_throw hvw (by omega)]
      trivial
  have hall : Frees (b.cells :: s.freed) (run cfg op s) := by
    rcases hop with ⟨y, rfl, hn⟩ | ⟨pos, y, rfl, hn⟩ | ⟨pos, xs, rfl, hn⟩ | ⟨r, m, w, rfl, hw, hne, hm, hn⟩
    · refine frees_tail ?_ fun _ => .pure _
      unfold append
      rw [bind_ok (length_spec hvw)]
      exact hins _ y hn
    · exact frees_tail (hins pos y hn) fun _ => .pure _
    · refine frees_tail ?_ fun _ => .pure _
      unfold insertC
      rw [if_neg (by simp)]
      by_cases hpos : pos ≤ v.length
      · rw [bind_ok (validatePos_ok hvw hpos), bind_ok (length_spec hvw), ← hn]
        exact frees_tail hmod fun _ => .bind (.shiftRight _ _ _) fun _ =>
          .bind (.bumpLength _ _) fun _ => .writeRange _ _ _
      · show Res.Ok (M.bind _ _ _) _
        unfold M.bind
        rw [validatePos_throw hvw (by omega)]
        trivial
    · refine frees_tail ?_ fun _ => .pure _
      have hvr : s.view r = some w := by rw [hA.view ⟨w, hw⟩, Env.get, hw]
      unfold appendRca
      rw [bind_ok (length_spec hvw)]
      unfold insertRcaN
      rw [if_neg hm, bind_ok (validatePos_ok hvw (Nat.le_refl _)), bind_ok (length_spec hvr), bind_ok (length_spec hvw),
        if_neg (fun h => hne (List.length_eq_zero_iff.mp h.1))]
      unfold insertBody
      rw [bind_ok (length_spec hvw), ← hn]
      exact frees_tail hmod fun _ => .bind (.shiftRight _ _ _) fun _ => .bind (.copyRange _ _ _ _) fun _ => .bumpLength _ _
  rw [hrun] at hall
  exact hall

/-- **C59 refuted, in general** In every state a program can reach: assigning a list or a `std::string` that does not fit to a String that alone
uses its buffer gives the buffer back with the bytes it holds. -/
theorem c59_assign_longer_refuted (hv : cfg.Valid) (hp : cfg.Physical) (hmv : ∀ x, cfg.moved x = x) {s : St T} {env : Env T}
    (h : Reach cfg s env) {o a : Nat} {b : Block T} (hst : storage s o = some a)
    (hb : s.blk a = some b) (hlast : sharers s o = [o]) (h0 : 0 < b.cells.length) {op : Op T} {xs : List T}
    (hop : (op = .assignList o xs ∧ b.cells.length < room cfg xs.length) ∨ (op = .assignStd o xs ∧ b.cells.length < xs.length + 1))
    {x : Out T} {s' : St T} (hrun : run cfg op s = .ok x s') :
    s'.freed = b.cells :: s.freed := by
  obtain ⟨hwf, _, hA⟩ := h.inv hv hp
  obtain ⟨ob, ho, hr⟩ := obj_of_storage hst
  have h1 := alone_refs hwf hst hb hlast
  have hclear : clear o s = .ok () (s.setObj o (some { ob with offset := 0, sublen := 0, hash := 0 })) := by
    unfold clear
    have : isShared o s = .ok false s := by
      unfold isShared
      rw [bind_ok (getObj_eq ho)]
      rw [hr]
      dsimp only
      rw [bind_ok (getBlk_eq hb)]
      show Res.ok (decide (b.refs > 1)) s = _
      simp [h1]
    rw [bind_ok this]
    rw [if_neg (by simp), bind_ok (getObj_eq ho)]
    rfl
  have ho' := obj_setObj_self (s := s) (some { ob with offset := 0, sublen := 0, hash := 0 }) (obj_lt ho)
  have hall : Frees (b.cells :: s.freed) (run cfg op s) := by
    rcases hop with ⟨rfl, hg⟩ | ⟨rfl, hg⟩
    · refine frees_tail ?_ fun _ => .pure _
      unfold assignList
      rw [bind_ok hclear]
      exact frees_tail (reserve_frees (s := s.setObj o _) hmv ho' hr (by rw [blk_setObj]; exact hb) h0 hg) fun _ =>
        .bind (.writeRange _ _ _) fun _ => .bind (.getObj _) fun _ => .putObj _ _
    · simp only [run]
      cases hn : cfg.nul with
      | none => trivial
      | some c =>
        refine frees_tail ?_ fun _ => .pure _
        unfold assignStd
        rw [bind_ok hclear]
        exact frees_tail (rcaReserve_frees (s := s.setObj o _) hmv ho' hr (by rw [blk_setObj]; exact hb) h0 hg) fun _ =>
          .bind (.getObj _) fun _ => .bind (.putObj _ _) fun _ => .writeRange _ _ _
  rw [hrun] at hall
  exact hall

/-! ## Histories that leave nothing behind -/

/-- Beyond `l`, only wiped buffers were released, however the call ended. -/
def Tidy {α : Type} (cfg : Cfg T) (l : List (List T)) (r : Res T α) : Prop :=
  match r with
  | .ok _ s' => ∃ k, s'.freed = k ++ l ∧ ∀ c ∈ k, Wiped cfg c
  | .throw _ s' => ∃ k, s'.freed = k ++ l ∧ ∀ c ∈ k, Wiped cfg c
  | .ub => True

theorem Keeps.tidy {α : Type} {l : List (List T)} {r : Res T α} (h : Keeps l r) : Tidy cfg l r := by
  cases r with
  | ok a s => exact ⟨[], h, by simp⟩
  | throw e s => exact ⟨[], h, by simp⟩
  | ub => trivial

theorem tidy_tail {α β : Type} {m : M T α} {f : α → M T β} {s : St T} {l : List (List T)} (h : Tidy cfg l (m s))
    (hf : ∀ a, Quiet (f a)) : Tidy cfg l ((m >>= f) s) := by
  show Tidy cfg l (M.bind m f s)
  unfold M.bind
  cases hm : m s with
  | ok a s' =>
    rw [hm] at h
    obtain ⟨k, hk, hw⟩ := h
    have := hf a s'
    show Tidy cfg l (f a s')
    cases hm2 : f a s' with
    | ok b s2 => rw [hm2] at this; exact ⟨k, Eq.trans this hk, hw⟩
    | throw e s2 => rw [hm2] at this; exact ⟨k, Eq.trans this hk, hw⟩
    | ub => trivial
  | throw e s' => rw [hm] at h; exact h
  | ub => trivial

/-- What a failed first allocation leaves: no storage, or storage without a buffer. -/
def Bare (s : St T) (o : Nat) : Prop :=
  ∃ ob, s.obj o = some ob ∧ (ob.ref = none ∨ ∃ a b, ob.ref = some a ∧ s.blk a = some b ∧ b.cells = [] ∧ b.refs = 1)

theorem destroy_bare {cfg' : Cfg T} {s : St T} {o : Nat} (h : Bare s o) :
    ∃ s', destroy cfg' o s = .ok () s' ∧ (s'.freed = s.freed ∨ s'.freed = [] :: s.freed) := by
  obtain ⟨ob, ho, hr | ⟨a, b, hr, hb, hc, h1⟩⟩ := h
  · obtain ⟨s', e1, e2⟩ := destroy_other_eq (cfg := cfg') ho (Or.inl hr)
    exact ⟨s', e1, Or.inl e2⟩
  · by_cases hs : cfg'.nul.isSome
    · obtain ⟨s', e1, e2, _⟩ := destroy_last_eq hs ho hr hb h1
      refine ⟨s', e1, Or.inr ?_⟩
      rw [e2, hc]; rfl
    · obtain ⟨s', e1, e2, _⟩ := checkDeallocRef_last ho hr hb h1
      refine ⟨s'.setObj o none, ?_, Or.inr ?_⟩
      · unfold destroy dtorBody
        rw [if_neg hs]
        rw [pure_bind', bind_ok e1]
        rfl
      · show s'.freed = _
        rw [e2, hc]

/-- In which states the call can throw. -/
def Thr {α : Type} (E : St T → Prop) (r : Res T α) : Prop :=
  match r with
  | .throw _ s' => E s'
  | _ => True

theorem thr_bind {α β : Type} {E : St T → Prop} {m : M T α} {f : α → M T β} {s : St T} (h : Thr E (m s))
    (hf : ∀ a s', m s = .ok a s' → Thr E (f a s')) : Thr E ((m >>= f) s) := by
  show Thr E (M.bind m f s)
  unfold M.bind
  cases hm : m s with
  | ok a s' => exact hf a s' hm
  | throw e s' => rw [hm] at h; exact h
  | ub => trivial

theorem thr_getObj {E : St T → Prop} (o : Nat) (s : St T) : Thr E (getObj o s) := by
  unfold getObj; cases s.obj o <;> trivial

theorem thr_getBlk {E : St T → Prop} (a : Nat) (s : St T) : Thr E (getBlk a s) := by
  unfold getBlk; cases s.blk a <;> trivial

theorem thr_alloc {E : St T → Prop} {cfg' : Cfg T} (n : Nat) (s : St T) (h : E { s with gen := s.gen + 1 }) :
    Thr E (alloc cfg' n s) := by
  unfold alloc
  dsimp only
  by_cases ha : cfg'.allocOk (s.gen + 1) n
  · rw [if_pos ha]; trivial
  · rw [if_neg ha]; exact h

theorem rcaReserve_bare {cfg' : Cfg T} {o N : Nat} {scale : Nat → Nat} {s : St T} {ob : Obj} (ho : s.obj o = some ob)
    (hr : ob.ref = none) : Thr (Bare · o) (rcaReserve cfg' o N scale s) := by
  have hlt := obj_lt ho
  unfold rcaReserve
  rw [bind_ok (getObj_eq ho), hr]
  dsimp only
  have hE : ∀ g, Bare ({ s with gen := g } : St T) o := fun g => ⟨ob, ho, Or.inl hr⟩
  refine thr_bind ?_ fun a s1 h1 => ?_
  · unfold newRef
    exact thr_bind (thr_alloc _ _ (hE _)) fun _ _ _ => trivial
  · have hs1 : a = s.heap.length ∧
        s1 = { s with gen := s.gen + 1, heap := s.heap ++ [some { gen := 0, cells := [], refs := 1 }] } := by
      unfold newRef at h1
      change M.bind (alloc cfg' 1) _ s = _ at h1
      unfold M.bind alloc at h1
      dsimp only at h1
      by_cases ha : cfg'.allocOk (s.gen + 1) 1
      · rw [if_pos ha] at h1
        cases h1
        exact ⟨rfl, rfl⟩
      · rw [if_neg ha] at h1
        cases h1
    obtain ⟨rfl, rfl⟩ := hs1
    rw [bind_ok (by rfl : putObj o _ _ = .ok () _), pure_bind']
    refine thr_bind ?_ fun off s2 _ => thr_bind (thr_getObj _ _) fun _ _ _ => trivial
    unfold arefReserve
    refine thr_bind (thr_getBlk _ _) fun b s2 h2 => ?_
    rw [getBlk_eq (b := { gen := 0, cells := [], refs := 1 }) (by simp [St.blk, St.setObj])] at h2
    cases h2
    dsimp only
    split
    · refine thr_bind (thr_alloc _ _ ?_) fun _ _ _ => ?_
      · exact ⟨_, obj_setObj_self _ hlt, Or.inr ⟨s.heap.length, { gen := 0, cells := [], refs := 1 }, rfl,
          by simp [St.blk, St.setObj], rfl, rfl⟩⟩
      · split
        · trivial
        · split
          · trivial
          · trivial
    · split
      · split
        · trivial
        · trivial
      · trivial

theorem thr_of {α : Type} {E : St T → Prop} {r : Res T α} (h : Thr E r) {e : Exc} {s' : St T} (he : r = .throw e s') : E s' := by
  subst he; exact h

/-- The first allocation of a constructor, and its cleanup. -/
theorem first_tidy {cfg1 cfg2 : Cfg T} {o N : Nat} {scale : Nat → Nat} {s : St T} {ob : Obj} (ho : s.obj o = some ob)
    (hr : ob.ref = none) : Tidy cfg s.freed ((rcaReserve cfg1 o N scale).onThrow (destroy cfg2 o) s) := by
  have hk : Keeps s.freed (rcaReserve cfg1 o N scale s) := rcaReserve_keeps (by
    intro ob' a b h1 h2 _
    rw [ho] at h1; cases h1
    rw [hr] at h2; cases h2)
  unfold M.onThrow
  cases hm : rcaReserve cfg1 o N scale s with
  | ok a s' => rw [hm] at hk; exact ⟨[], hk, by simp⟩
  | ub => trivial
  | throw e s' =>
    rw [hm] at hk
    have hk : s'.freed = s.freed := hk
    obtain ⟨s2, e1, e2⟩ := destroy_bare (cfg' := cfg2) (thr_of (rcaReserve_bare ho hr) hm)
    show Tidy cfg s.freed (match destroy cfg2 o s' with | .ok _ s'' => Res.throw e s'' | .throw _ _ => .ub | .ub => .ub)
    rw [e1]
    rcases e2 with e2 | e2
    · exact ⟨[], e2.trans hk, by simp⟩
    · refine ⟨[[]], by rw [e2, hk]; rfl, ?_⟩
      intro c hc
      simp only [List.mem_singleton] at hc
      exact ⟨0, 0, hc⟩

theorem obj_newObj (s : St T) (ob : Obj) : ({ s with objs := s.objs ++ [some ob] } : St T).obj s.objs.length = some ob := by
  simp [St.obj]

theorem sizeCtor_tidy {n : Nat} {s : St T} : Tidy cfg s.freed (sizeCtor cfg n s) := by
  unfold sizeCtor
  rw [bind_ok (by rfl : newObj {} s = .ok s.objs.length { s with objs := s.objs ++ [some {}] })]
  refine tidy_tail ?_ fun _ => .pure _
  by_cases hn : n = 0
  · rw [if_neg (by simpa using hn)]
    exact ⟨[], rfl, by simp⟩
  · rw [if_pos hn]
    exact first_tidy (s := { s with objs := s.objs ++ [some {}] }) (obj_newObj _ _) rfl

theorem strCtor_tidy {c : T} {xs : List T} {s : St T} : Tidy cfg s.freed (strCtor cfg c xs s) := by
  unfold strCtor
  exact tidy_tail sizeCtor_tidy fun _ => .bind (.writeRange _ _ _) fun _ => .bind (.writeRange _ _ _) fun _ =>
    .bind (.getObj _) fun _ => .bind (.putObj _ _) fun _ => .pure _

theorem cstrCtor_tidy {c : T} {xs : List T} {s : St T} : Tidy cfg s.freed (cstrCtor cfg c xs s) := by
  unfold cstrCtor
  rw [bind_ok (by rfl : newObj {} s = .ok s.objs.length { s with objs := s.objs ++ [some {}] })]
  split
  · exact ⟨[], rfl, by simp⟩
  · rw [bind_ok (getObj_eq (obj_newObj s {})), bind_ok (by rfl : putObj _ _ _ = .ok () _)]
    exact tidy_tail (first_tidy (s := St.setObj { s with objs := s.objs ++ [some {}] } _ _)
      (obj_setObj_self _ (by simp)) rfl) fun _ => .bind (.writeRange _ _ _) fun _ => .pure _

theorem charCtor_tidy {c x : T} {s : St T} : Tidy cfg s.freed (charCtor cfg c x s) := by
  unfold charCtor
  rw [bind_ok (by rfl : newObj {} s = .ok s.objs.length { s with objs := s.objs ++ [some {}] })]
  exact tidy_tail (first_tidy (s := { s with objs := s.objs ++ [some {}] }) (obj_newObj _ _) rfl) fun _ =>
    .bind (.writeRange _ _ _) fun _ => .bind (.getObj _) fun _ => .bind (.putObj _ _) fun _ =>
    .bind (.writeRange _ _ _) fun _ => .pure _

theorem readRange_state (o i n : Nat) (s : St T) : (readRange o i n s).Ok fun _ s' => s' = s := by
  unfold readRange
  apply ok_getObj
  intro ob _
  split
  · rfl
  · cases ob.ref with
    | none => trivial
    | some a =>
      apply ok_getBlk
      intro b _
      split
      · rfl
      · trivial

/-- The object's storage, if it has any, is used by another object too. -/
def NotLast (s : St T) (o : Nat) : Prop := ∀ a, storage s o = some a → ∃ q, q ≠ o ∧ storage s q = some a

theorem checkDeallocRef_keeps {s : St T} {o : Nat}
    (h : ∀ ob a b, s.obj o = some ob → ob.ref = some a → s.blk a = some b → b.refs > 1) : Keeps s.freed (checkDeallocRef o s) := by
  cases ho : s.obj o with
  | none =>
    unfold checkDeallocRef
    refine keeps_bind ((Quiet.getObj o).keeps rfl) fun ob s1 h1 hl => ?_
    unfold Bdlib.getObj at h1; rw [ho] at h1; cases h1
  | some ob =>
    cases hr : ob.ref with
    | none =>
      unfold checkDeallocRef
      rw [bind_ok (getObj_eq ho), hr]
      rfl
    | some a =>
      cases hb : s.blk a with
      | none =>
        unfold checkDeallocRef decRef
        rw [bind_ok (getObj_eq ho), hr]
        show Keeps _ (((getBlk a >>= _) >>= _) s)
        simp only [bind_assoc']
        refine keeps_bind ((Quiet.getBlk a).keeps rfl) fun b s1 h1 hl => ?_
        unfold Bdlib.getBlk at h1; rw [hb] at h1; cases h1
      | some b =>
        obtain ⟨s', e, f, _⟩ := checkDeallocRef_other ho hr hb (h ob a b ho hr hb)
        rw [e]
        exact f

theorem notLast_refs {s : St T} (hwf : WF cfg s) {o : Nat} (h : NotLast s o) :
    ∀ ob a b, s.obj o = some ob → ob.ref = some a → s.blk a = some b → b.refs > 1 := by
  intro ob a b ho hr hb
  have hst : storage s o = some a := by unfold storage; rw [ho]; exact hr
  obtain ⟨q, hq, hsq⟩ := h a hst
  exact shared_refs hwf hst hb hq hsq

theorem copyAssign_keeps {s : St T} (hwf : WF cfg s) {o r : Nat} (h : o = r ∨ NotLast s o) : Keeps s.freed (copyAssign o r s) := by
  unfold copyAssign
  cases hr : s.obj r with
  | none =>
    refine keeps_bind ((Quiet.getObj r).keeps rfl) fun rb s1 h1 hl => ?_
    unfold Bdlib.getObj at h1; rw [hr] at h1; cases h1
  | some rb =>
    rw [bind_ok (getObj_eq hr)]
    have hpos : ∀ ob a b, s.obj o = some ob → ob.ref = some a → s.blk a = some b → (o = r ∨ b.refs > 1) ∧ 1 ≤ b.refs := by
      intro ob a b ho hor hb
      refine ⟨h.imp id fun h => notLast_refs hwf h ob a b ho hor hb, ?_⟩
      rcases refs_cases hwf ho with (e | ⟨a', b', e1, e2, e3⟩) | ⟨a', b', e1, e2, e3⟩
      · rw [hor] at e; cases e
      · rw [hor] at e1; cases e1; rw [hb] at e2; cases e2; omega
      · rw [hor] at e1; cases e1; rw [hb] at e2; cases e2; omega
    have hinc : ∃ s1, incRef rb.ref s = .ok () s1 ∧ s1.freed = s.freed ∧ (∀ p, s1.obj p = s.obj p) ∧
        ∀ a b, s1.blk a = some b → ∃ b0, s.blk a = some b0 ∧ b0.refs ≤ b.refs ∧ (rb.ref = some a → b.refs = b0.refs + 1) := by
      cases hrr : rb.ref with
      | none => exact ⟨s, rfl, rfl, fun _ => rfl, fun a b hb => ⟨b, hb, by omega, nofun⟩⟩
      | some c =>
        obtain ⟨b', hb', _⟩ := hwf.bounds r rb c hr hrr
        refine ⟨s.setBlk c (some { b' with refs := b'.refs + 1 }), ?_, rfl, fun p => obj_setBlk _, fun a b hb => ?_⟩
        · unfold incRef
          show (getBlk c >>= _) s = _
          rw [bind_ok (getBlk_eq hb')]
          rfl
        · by_cases e : a = c
          · subst e
            rw [blk_setBlk_self _ (blk_lt hb')] at hb
            cases hb
            exact ⟨b', hb', by dsimp only; omega, fun _ => rfl⟩
          · rw [blk_setBlk_ne _ e] at hb
            exact ⟨b, hb, by omega, fun e' => absurd (Option.some.inj e').symm e⟩
    obtain ⟨s1, e1, f1, o1, hb1⟩ := hinc
    rw [bind_ok e1]
    cases ho : s.obj o with
    | none =>
      refine keeps_bind (m := getObj o) ((Quiet.getObj o).keeps f1) fun ob s2 h2 hl => ?_
      unfold Bdlib.getObj at h2; rw [o1, ho] at h2; cases h2
    | some ob =>
      rw [bind_ok (getObj_eq (by rw [o1, ho])), bind_ok (by rfl : putObj o _ s1 = .ok () _)]
      refine keeps_tail ?_ fun _ => .bind (.getObj _) fun _ => .bind (.getObj _) fun _ => .putObj _ _
      rw [← f1]
      refine checkDeallocRef_keeps (s := s1.setObj o _) ?_
      intro ob' a b ho' hor' hb'
      rw [obj_setObj_self _ (obj_lt (by rw [o1, ho]))] at ho'
      cases ho'
      rw [blk_setObj] at hb'
      obtain ⟨b0, hb0, hle, hinc⟩ := hb1 a b hb'
      obtain ⟨g1, g2⟩ := hpos ob a b0 ho hor' hb0
      rcases g1 with rfl | g1
      · rw [hr] at ho
        cases ho
        have := hinc hor'
        omega
      · omega

theorem moveAssign_keeps {s : St T} (hwf : WF cfg s) {o r : Nat} (h : o = r ∨ NotLast s o) : Keeps s.freed (moveAssign cfg o r s) := by
  unfold moveAssign
  split
  · rfl
  · rename_i hne
    exact keeps_tail (checkDeallocRef_keeps (notLast_refs hwf (h.resolve_left hne))) fun _ =>
      .bind (.getObj _) fun _ => .bind (.putObj _ _) fun _ => .putObj _ _

theorem clear_fits {s s1 : St T} {o N : Nat} (h : isShared o s = .ok true s ∨ Fits s o N) (hc : clear o s = .ok () s1) : Fits s1 o N := by
  cases ho : s.obj o with
  | none =>
    have hu : isShared o s = .ub := by
      unfold isShared
      show M.bind _ _ _ = _
      unfold M.bind Bdlib.getObj
      rw [ho]
    unfold clear at hc
    change M.bind _ _ _ = _ at hc
    unfold M.bind at hc
    rw [hu] at hc
    cases hc
  | some ob =>
    have hlt := obj_lt ho
    cases hsh : isShared o s with
    | throw e s2 => unfold clear at hc; change M.bind _ _ _ = _ at hc; unfold M.bind at hc; rw [hsh] at hc; cases hc
    | ub => unfold clear at hc; change M.bind _ _ _ = _ at hc; unfold M.bind at hc; rw [hsh] at hc; cases hc
    | ok sh s2 =>
      have e2 : s2 = s := by
        have := isShared_ok (f := fun _ => (pure () : M T Unit)) (o := o) (s := s) (Q := fun _ s' => s' = s) (fun b _ => rfl)
        change Res.Ok (M.bind _ _ _) _ at this
        unfold M.bind at this
        rw [hsh] at this
        exact this
      subst e2
      unfold clear at hc
      rw [bind_ok hsh] at hc
      cases sh with
      | true =>
        rw [if_pos rfl] at hc
        unfold doDetach at hc
        rw [bind_ok (getObj_eq ho)] at hc
        have hd : ∃ s3, decRef ob.ref s2 = .ok () s3 ∧ s3.objs = s2.objs := by
          cases hr : ob.ref with
          | none => exact ⟨s2, rfl, rfl⟩
          | some a =>
            cases hb : s2.blk a with
            | none =>
              have hu : decRef (some a) s2 = .ub := by
                unfold decRef
                show M.bind _ _ _ = _
                unfold M.bind Bdlib.getBlk
                rw [hb]
              rw [hr] at hc
              change M.bind _ _ _ = _ at hc
              unfold M.bind at hc
              rw [hu] at hc
              cases hc
            | some b =>
              refine ⟨s2.setBlk a (some { b with refs := b.refs - 1 }), ?_, rfl⟩
              unfold decRef
              show (getBlk a >>= _) s2 = _
              rw [bind_ok (getBlk_eq hb)]
              rfl
        obtain ⟨s3, e3, o3⟩ := hd
        rw [bind_ok e3] at hc
        cases hc
        intro ob' a b e1 e2 e3
        rw [obj_setObj_self _ (by rw [o3]; exact hlt)] at e1
        cases e1
        cases e2
      | false =>
        rw [if_neg (by simp), bind_ok (getObj_eq ho)] at hc
        cases hc
        have hf : Fits s2 o N := h.resolve_left (by rw [hsh]; intro e; cases e)
        intro ob' a b e1 e2 e3
        rw [obj_setObj_self _ hlt] at e1
        cases e1
        rw [blk_setObj] at e3
        exact hf ob a b ho e2 e3

theorem insertBody_keeps {s : St T} {o pos r k : Nat} {v : List T} (hv : s.view o = some v) (h : InPlace cfg s o (v.length + k)) :
    Keeps s.freed (insertBody cfg o pos r k s) := by
  unfold insertBody
  rw [bind_ok (length_spec hv)]
  exact keeps_tail (aboutToModify_keeps h) fun _ => .bind (.shiftRight _ _ _) fun _ => .bind (.copyRange _ _ _ _) fun _ => .bumpLength _ _

theorem replaceBody_keeps {s : St T} {o pos r k : Nat} {v : List T} (hv : s.view o = some v) (h : InPlace cfg s o (max v.length (pos + k))) :
    Keeps s.freed (replaceBody cfg o pos r k s) := by
  unfold replaceBody
  rw [bind_ok (length_spec hv)]
  have hm : (if pos + k < v.length then v.length else pos + k) = max v.length (pos + k) := by split <;> omega
  rw [hm]
  exact keeps_tail (aboutToModify_keeps h) fun _ => .bind (.copyRange _ _ _ _) fun _ => .bind (.getObj _) fun _ => .putObj _ _

theorem only_sharer {s : St T} {o : Nat} (h : o ∈ sharers s o) (hall : ∀ p ∈ sharers s o, p = o) : sharers s o = [o] := by
  have hnd : (sharers s o).Nodup := by
    unfold sharers
    exact List.Pairwise.filter _ List.nodup_range
  cases hl : sharers s o with
  | nil => rw [hl] at h; cases h
  | cons q l =>
    rw [hl] at hall hnd
    have hq : q = o := hall q (by simp)
    subst hq
    cases l with
    | nil => rfl
    | cons r l =>
      have hr : r = q := hall r (by simp)
      subst hr
      simp at hnd

theorem strCtor_owns {s : St T} (hwf : WF cfg s) (nul : T) (xs : List T) :
    (strCtor cfg nul xs s).Sat (fun t s' => t = s.objs.length ∧ ∃ ob a b, Own cfg s s' t ob a b) (fun _ _ => True) := by
  unfold strCtor
  apply sat_bind
  apply sizeCtor_sat hwf
  · intro h0; omega
  · intro hn s' ob a b how hsl hroom
    apply sat_bind
    apply writeRange_own how (by omega)
    intro s3 how3
    have hlen : (overwrite b.cells (ob.offset + 0) xs).length = b.cells.length := overwrite_length (by omega)
    apply sat_bind
    apply writeRange_own how3 (by simp only [hlen, List.length_singleton]; omega)
    intro s4 how4
    have hlen4 : (overwrite (overwrite b.cells (ob.offset + 0) xs) (ob.offset + xs.length) [nul]).length
        = b.cells.length := by
      rw [overwrite_length (by simp only [hlen, List.length_singleton]; omega), hlen]
    apply sat_getObj how4.obj
    apply sat_putObj
    have hnr := need_le_succ hwf.valid xs.length
    exact ⟨rfl, _, _, _, how4.setObj (ob' := { ob with sublen := xs.length }) how4.ref how4.hash
      (by simp only [hlen4]; omega)⟩
  · exact fun s' h1 h2 h3 => trivial

theorem strCtor_keeps {nul : T} {xs : List T} {s : St T} : (strCtor cfg nul xs s).Ok fun _ s' => s'.freed = s.freed := by
  refine frees_tail (m := sizeCtor cfg (xs.length + 1)) ?_ fun _ => .bind (.writeRange _ _ _) fun _ => .bind (.writeRange _ _ _) fun _ =>
    .bind (.getObj _) fun _ => .bind (.putObj _ _) fun _ => .pure _
  unfold sizeCtor
  rw [bind_ok (by rfl : newObj {} s = .ok s.objs.length { s with objs := s.objs ++ [some {}] })]
  refine frees_tail ?_ fun _ => .pure _
  rw [if_pos (by omega)]
  have hk : Keeps s.freed (rcaReserve cfg.base s.objs.length (xs.length + 1) id { s with objs := s.objs ++ [some {}] }) :=
    rcaReserve_keeps (by
      intro ob' a b h1 h2 _
      rw [obj_newObj] at h1; cases h1
      cases h2)
  show Frees _ ((rcaReserve cfg.base s.objs.length (xs.length + 1) id).onThrow _ _)
  unfold M.onThrow
  cases hm : rcaReserve cfg.base s.objs.length (xs.length + 1) id { s with objs := s.objs ++ [some {}] } with
  | ok a s' => rw [hm] at hk; exact hk
  | ub => trivial
  | throw e s' =>
    show Frees _ (match destroy cfg.base _ s' with | .ok _ s'' => Res.throw e s'' | .throw _ _ => .ub | .ub => .ub)
    cases destroy cfg.base s.objs.length s' <;> trivial

theorem assignCstr_tidy {s : St T} (hwf : WF cfg s) {o : Nat} {ob : Obj} (ho : s.obj o = some ob) (h : NotLast s o) (c : T) (xs : List T) :
    Tidy cfg s.freed (assignCstr cfg c o xs s) := by
  unfold assignCstr
  have hown := strCtor_owns hwf c xs
  have hk := strCtor_keeps (cfg := cfg) (nul := c) (xs := xs) (s := s)
  have ht := strCtor_tidy (cfg := cfg) (c := c) (xs := xs) (s := s)
  show Tidy cfg s.freed (M.bind _ _ s)
  unfold M.bind
  cases hm : strCtor cfg c xs s with
  | throw e s1 => rw [hm] at ht; exact ht
  | ub => trivial
  | ok t s1 =>
    rw [hm] at hown hk
    obtain ⟨rfl, tb, ta, tblk, own⟩ := hown
    have hk : s1.freed = s.freed := hk
    have hne : o ≠ s.objs.length := Nat.ne_of_lt (obj_lt ho)
    have ho1 : s1.obj o = some ob := by rw [(own.frame o hne).1, ho]
    have hsame : ∀ p, p ≠ s.objs.length → storage s1 p = storage s p := fun p hp => by unfold storage; rw [(own.frame p hp).1]
    have hnl : NotLast s1 o := by
      intro a ha
      rw [hsame o hne] at ha
      obtain ⟨q, h1, h2⟩ := h a ha
      exact ⟨q, h1, by rw [hsame q (Nat.ne_of_lt (storage_lt h2)), h2]⟩
    have hcd : ∃ s3, checkDeallocRef o s1 = .ok () s3 ∧ s3.freed = s1.freed ∧ ∀ p, s3.obj p = s1.obj p := by
      cases hr : ob.ref with
      | none =>
        refine ⟨s1, ?_, rfl, fun _ => rfl⟩
        unfold checkDeallocRef
        rw [bind_ok (getObj_eq ho1), hr]
        rfl
      | some a =>
        obtain ⟨b, hb, _⟩ := own.wf.bounds o ob a ho1 hr
        exact checkDeallocRef_other ho1 hr hb (notLast_refs own.wf hnl ob a b ho1 hr hb)
    obtain ⟨s3, e3, f3, o3⟩ := hcd
    have ht3 : s3.obj s.objs.length = some tb := by rw [o3, own.obj]
    show Tidy cfg s.freed ((moveAssign cfg o s.objs.length >>= fun _ => destroy cfg s.objs.length) s1)
    unfold moveAssign
    rw [if_neg hne]
    simp only [bind_assoc']
    rw [bind_ok e3, bind_ok (getObj_eq ht3), bind_ok (by rfl : putObj _ _ _ = .ok () _),
      bind_ok (by rfl : putObj _ _ _ = .ok () _)]
    have hmf : (movedFrom cfg tb).ref = none := by unfold movedFrom; split <;> rfl
    obtain ⟨s4, e4, f4⟩ := destroy_other_eq (cfg := cfg)
      (s := (s3.setObj o (some tb)).setObj s.objs.length (some (movedFrom cfg tb)))
      (obj_setObj_self _ (by simpa [St.setObj] using obj_lt ht3)) (Or.inl hmf)
    show Tidy _ _ (destroy cfg s.objs.length _)
    rw [e4]
    refine ⟨[], ?_, by simp⟩
    rw [f4]
    show s3.freed = _
    rw [f3, hk]
    rfl

theorem growTo_keeps {s : St T} {o n : Nat} (hn : n ≠ npos) (h : InPlace cfg s o n) : Keeps s.freed (growTo cfg o n s) := by
  unfold growTo
  rw [if_pos fun e => hn e.2]
  exact aboutToModify_keeps h

theorem fits_own {s0 s : St T} {o a N : Nat} {ob : Obj} {b : Block T} (h : Own cfg s0 s o ob a b) (hN : N ≤ b.cells.length) : Fits s o N := by
  intro ob' a' b' e1 e2 e3
  rw [h.obj] at e1; cases e1
  rw [h.ref] at e2; cases e2
  rw [h.blk] at e3; cases e3
  exact hN

theorem getOwnCopy_keeps {s : St T} {o : Nat} {v : List T} (hv : s.view o = some v) (h : InPlace cfg s o v.length) :
    Keeps s.freed (getOwnCopy cfg o s) := by
  unfold getOwnCopy
  rw [bind_ok (length_spec hv)]
  exact aboutToModify_keeps h

theorem sat_ok {α : Type} {Q : α → St T → Prop} {E : Exc → St T → Prop} {r : Res T α} (h : r.Sat Q E) {x : α} {s' : St T} (e : r = .ok x s') : Q x s' := by
  subst e; exact h

/-- Own storage with room for what is still to come: nothing is released. -/
theorem insertLoop_keeps {s0 : St T} {o a : Nat} (xs : List T) : ∀ {s : St T} {index : Nat} {ob : Obj} {b : Block T} {v : List T},
    Own cfg s0 s o ob a b → ob.sublen = v.length → window b.cells ob.offset v.length = v →
    index ≤ v.length → ob.offset + room cfg (v.length + xs.length) ≤ b.cells.length → Keeps s.freed (insertLoop cfg o index xs s) := by
  induction xs with
  | nil => intros; rfl
  | cons x xs ih =>
    intro s index ob b v h hsl hw hi hroom
    simp only [List.length_cons] at hroom
    have hm1 := room_mono cfg (m := v.length) (n := v.length + (xs.length + 1)) (by omega)
    have hm2 := room_mono cfg (m := v.length + 1) (n := v.length + (xs.length + 1)) (by omega)
    have hview : ∀ {s' : St T} {ob' : Obj} {b' : Block T} {w : List T}, Own cfg s0 s' o ob' a b' → ob'.sublen = w.length →
        window b'.cells ob'.offset w.length = w → s'.view o = some w := by
      intro s' ob' b' w h1 h2 h3
      rw [h1.view, h2, h3]
    unfold insertLoop
    have hlen : (v.take index ++ [x] ++ v.drop index).length = v.length + 1 := by
      simp; omega
    refine keeps_bind ?_ fun _ s3 h3 hl3 => ?_
    · unfold insertIter
      refine keeps_bind (getOwnCopy_keeps (hview h hsl hw) (Or.inr (fits_own h (by omega)))) fun _ s1 h1 hl1 => ?_
      obtain ⟨b1, how1, hc1, hw1⟩ := sat_ok (getOwnCopy_room (E := fun _ _ => True) (Q := fun _ s' => ∃ b', Own cfg s0 s' o ob a b' ∧
        b'.cells.length = b.cells.length ∧ window b'.cells ob.offset v.length = v) h hsl hw (by omega) fun s' b' g1 g2 g3 => ⟨b', g1, g2, g3⟩) h1
      rw [← hl1]
      refine keeps_bind ((c59_in_place_partial (hview how1 hsl hw1) index x).2.1 (Or.inr (fits_own how1 (by omega)))) fun _ s2 h2 hl2 => ?_
      obtain ⟨ob2, b2, how2, hsl2, hoff2, hc2, hw2⟩ := sat_ok (insertItem_room (E := fun _ _ => True) (Q := fun _ s' => ∃ ob' b', Own cfg s0 s' o ob' a b' ∧
        ob'.sublen = v.length + 1 ∧ ob'.offset = ob.offset ∧ b'.cells.length = b1.cells.length ∧
        window b'.cells ob'.offset (v.length + 1) = v.take index ++ [x] ++ v.drop index) how1 hsl hw1 hi (by omega)
        fun s' ob' b' g1 g2 g3 g4 g5 => ⟨ob', b', g1, g2, g3, g4, g5⟩) h2
      rw [← hl2]
      exact getOwnCopy_keeps (hview how2 (by rw [hlen, hsl2]) (by rw [hlen]; exact hw2)) (Or.inr (fits_own how2 (by rw [hlen]; omega)))
    · have hiter : (insertIter cfg o index x s).Sat (fun _ s' => ∃ ob' b', Own cfg s0 s' o ob' a b' ∧ ob'.sublen = v.length + 1 ∧ ob'.offset = ob.offset ∧
          b'.cells.length = b.cells.length ∧ window b'.cells ob'.offset (v.length + 1) = v.take index ++ [x] ++ v.drop index) (fun _ _ => True) := by
        unfold insertIter
        refine sat_bind (getOwnCopy_room h hsl hw (by omega) ?_)
        intro s1 b1 how1 hl1 hw1
        refine sat_bind (insertItem_room how1 hsl hw1 hi (by omega) ?_)
        intro s2 ob2 b2 how2 hsl2 hoff2 hl2 hw2
        refine getOwnCopy_room (v := v.take index ++ [x] ++ v.drop index) how2 (by rw [hlen, hsl2])
          (by rw [hlen]; exact hw2) (by rw [hlen]; omega) ?_
        intro s3 b3 how3 hl3 hw3
        rw [hlen] at hw3
        exact ⟨ob2, b3, how3, hsl2, hoff2, by omega, hw3⟩
      obtain ⟨ob3, b3, how3, hsl3, hoff3, hc3, hw3⟩ := sat_ok hiter h3
      rw [← hl3]
      refine ih (v := v.take index ++ [x] ++ v.drop index) how3 (by rw [hlen, hsl3]) (by rw [hlen]; exact hw3) (by rw [hlen]; omega) ?_
      rw [hlen, hoff3, hc3]
      have : v.length + 1 + xs.length = v.length + (xs.length + 1) := by omega
      rw [this]
      exact hroom

theorem insertRange_keeps {s : St T} (hwf : WF cfg s) {o index : Nat} {v xs : List T} (hv : s.view o = some v) (hi : index ≤ v.length)
    (h : InPlace cfg s o (v.length + xs.length)) : Keeps s.freed (insertRange cfg o index xs s) := by
  unfold insertRange
  rw [bind_ok (length_spec hv)]
  refine keeps_bind (aboutToModify_keeps h) fun _ s1 h1 hl1 => ?_
  obtain ⟨ob, a, b, how, hsl, hw, hroom⟩ := sat_ok (aboutToModify_spec (E := fun _ _ => True) (Q := fun _ s' => ∃ ob' a b', Own cfg s s' o ob' a b' ∧
    ob'.sublen = v.length ∧ window b'.cells ob'.offset v.length = v ∧ ob'.offset + room cfg (v.length + xs.length) ≤ b'.cells.length) hwf hv
    (Nat.le_add_right _ _) (fun s' ob' a b' g1 g2 g3 g4 => ⟨ob', a, b', g1, g2, g3, g4⟩) fun _ _ _ _ _ _ => trivial) h1
  rw [← hl1]
  refine keeps_bind (insertLoop_keeps xs how hsl hw hi hroom) fun _ s2 h2 hl2 => ?_
  obtain ⟨ob2, b2, how2, hsl2, hw2, hroom2⟩ := sat_ok (insertLoop_room (E := fun _ _ => True) (Q := fun _ s' => ∃ ob' b', Own cfg s s' o ob' a b' ∧
    ob'.sublen = v.length + xs.length ∧ window b'.cells ob'.offset (v.length + xs.length) = v.take index ++ xs ++ v.drop index ∧
    ob'.offset + room cfg (v.length + xs.length) ≤ b'.cells.length) xs how hsl hw hi hroom fun s' ob' b' g1 g2 g3 g4 => ⟨ob', b', g1, g2, g3, g4⟩) h2
  rw [← hl2]
  have hlen : (v.take index ++ xs ++ v.drop index).length = v.length + xs.length := by
    simp; omega
  exact getOwnCopy_keeps (v := v.take index ++ xs ++ v.drop index) (by rw [how2.view, hsl2, hw2]) (Or.inr (fits_own how2 (by rw [hlen]; omega)))

/-- Inserting up to `n` elements of `r` at `pos` needs no other buffer, and is not turned into an assignment over the last use of one
(which it may be at the front of a shorter String). -/
def RoomFor (cfg : Cfg T) (s : St T) (env : Env T) (o pos r n : Nat) : Prop :=
  InPlace cfg s o ((env.get o).length + min n (env.get r).length) ∧ (pos ≠ 0 ∨ (env.get r).length ≤ (env.get o).length ∨ NotLast s o)

/-- The same for overwriting. -/
def RoomOver (cfg : Cfg T) (s : St T) (env : Env T) (o pos r n : Nat) : Prop :=
  InPlace cfg s o (max (env.get o).length (pos + if n = npos then (env.get r).length else min n (env.get r).length)) ∧
    (pos ≠ 0 ∨ (env.get r).length ≤ (env.get o).length ∨ NotLast s o)

/-- Calls that leave nothing readable behind: constructors, reading, copying, sharing, slicing, dropping, clearing,
destroying, any modification and assignment of a list or `std::string` for which the String does not outgrow a buffer it alone uses, and assigning
another String or a C string to one that is not the last to use its buffer. -/
def Careful (cfg : Cfg T) (s : St T) (env : Env T) : Op T → Prop
  | .sizeCtor _ | .strCtor _ | .cstrCtor _ | .charCtor _ | .destroy _ => True
  | .append o _ | .insertItem o _ _ => InPlace cfg s o ((env.get o).length + 1)
  | .insertC o _ xs | .insertRange o _ xs => InPlace cfg s o ((env.get o).length + xs.length)
  | .replaceC o pos xs => InPlace cfg s o (max (env.get o).length (pos + xs.length))
  | .replaceItem o _ _ | .write o _ _ | .begin o => InPlace cfg s o (env.get o).length
  | .cStr o => InPlace cfg s o ((env.get o).length + 1)
  | .reserve o n => Fits s o (room cfg n) ∧ n ≠ npos
  | .assignList o xs => InPlace cfg s o xs.length
  | .assignStd o xs => isShared o s = .ok true s ∨ Fits s o (xs.length + 1)
  | .copyAssign o r | .moveAssign o r => o = r ∨ NotLast s o
  | .appendRca o r n | .appendMove o r n => RoomFor cfg s env o (env.get o).length r n
  | .insertRca o pos r | .insertMove o pos r => RoomFor cfg s env o pos r (env.get r).length
  | .insertRcaN o pos r n | .insertMoveN o pos r n => RoomFor cfg s env o pos r n
  | .replaceRca o pos r n | .replaceMove o pos r n => RoomOver cfg s env o pos r n
  | .assignCstr o _ => NotLast s o
  | .resize o n | .resizeFill o n _ => n < (env.get o).length ∨ InPlace cfg s o n ∧ n ≠ npos
  | op => Gentle op

theorem careful_tidy (hs : cfg.nul.isSome) (hv : cfg.Valid) (hp : cfg.Physical) {s : St T} {env : Env T} (h : Reach cfg s env)
    {op : Op T} (hpre : Pre cfg (shared s) env op) (hc : Careful cfg s env op) : Tidy cfg s.freed (run cfg op s) := by
  obtain ⟨hwf, _, hA⟩ := h.inv hv hp
  have gentle : Gentle op → Tidy cfg s.freed (run cfg op s) := fun hg =>
    ((c59_gentle_partial op hg).keeps rfl).tidy
  have val : ∀ {o pos}, env.Has o → Keeps s.freed (validatePos o pos s) ∧
      ∀ s1, validatePos o pos s = .ok () s1 → s1 = s := by
    intro o pos ho
    have hview := hA.view ho
    refine ⟨(Quiet.validatePos o pos).keeps rfl, fun s1 h1 => ?_⟩
    by_cases hpos : pos ≤ (env.get o).length
    · rw [validatePos_ok hview hpos] at h1; cases h1; rfl
    · rw [validatePos_throw hview (by omega)] at h1; cases h1
  have assigns : ∀ {o pos r : Nat} {P : Prop}, (pos ≠ 0 ∨ (env.get r).length ≤ (env.get o).length ∨ NotLast s o) →
      pos = 0 ∧ (env.get r).length > (env.get o).length ∧ P → o = r ∨ NotLast s o := by
    rintro o pos r P h ⟨h1, h2, _⟩
    rcases h with h | h | h
    · exact absurd h1 h
    · omega
    · exact Or.inr h
  have insN : ∀ {o pos r n : Nat}, env.Has o → env.Has r → RoomFor cfg s env o pos r n → Keeps s.freed (insertRcaN cfg o pos r n s) ∧
      Keeps s.freed (insertMoveN cfg o pos r n s) := by
    intro o pos r n ho hr hc
    unfold insertRcaN insertMoveN
    constructor <;>
    · split
      · rfl
      · refine keeps_bind (val ho).1 fun _ s1 h1 _ => ?_
        obtain rfl := (val ho).2 s1 h1
        rw [bind_ok (length_spec (hA.view hr)), bind_ok (length_spec (hA.view ho))]
        split
        · first
          | exact copyAssign_keeps hwf (assigns hc.2 ‹_›)
          | exact moveAssign_keeps hwf (assigns hc.2 ‹_›)
        · exact insertBody_keeps (hA.view ho) hc.1
  have ins : ∀ {o pos r : Nat}, env.Has o → env.Has r → RoomFor cfg s env o pos r (env.get r).length → Keeps s.freed (insertRca cfg o pos r s) ∧
      Keeps s.freed (insertMove cfg o pos r s) := by
    intro o pos r ho hr hc
    have hi := hc.1
    rw [Nat.min_self] at hi
    unfold insertRca insertMove
    constructor <;>
    · refine keeps_bind (val ho).1 fun _ s1 h1 _ => ?_
      obtain rfl := (val ho).2 s1 h1
      rw [bind_ok (length_spec (hA.view hr)), bind_ok (length_spec (hA.view ho))]
      split
      · rename_i hx
        first
        | exact copyAssign_keeps hwf (assigns (P := True) hc.2 ⟨hx.1, hx.2, trivial⟩)
        | exact moveAssign_keeps hwf (assigns (P := True) hc.2 ⟨hx.1, hx.2, trivial⟩)
      · exact insertBody_keeps (hA.view ho) hi
  have rep : ∀ {o pos r n : Nat}, env.Has o → env.Has r → RoomOver cfg s env o pos r n → Keeps s.freed (replaceRca cfg o pos r n s) ∧
      Keeps s.freed (replaceMove cfg o pos r n s) := by
    intro o pos r n ho hr hc
    have hi := hc.1
    have hm : (if n = npos then (env.get r).length else min n (env.get r).length) =
        if n = npos ∨ n > (env.get r).length then (env.get r).length else n := by
      by_cases e : n = npos
      · rw [if_pos e, if_pos (Or.inl e)]
      · rw [if_neg e]; split <;> omega
    rw [hm] at hi
    unfold replaceRca replaceMove
    constructor <;>
    · split
      · rfl
      · refine keeps_bind (val ho).1 fun _ s1 h1 _ => ?_
        obtain rfl := (val ho).2 s1 h1
        rw [bind_ok (length_spec (hA.view hr)), bind_ok (length_spec (hA.view ho))]
        split
        · first
          | exact copyAssign_keeps hwf (assigns hc.2 ‹_›)
          | exact moveAssign_keeps hwf (assigns hc.2 ‹_›)
        · exact replaceBody_keeps (hA.view ho) hi
  cases op with
  | sizeCtor n => exact tidy_tail sizeCtor_tidy fun _ => .pure _
  | strCtor xs =>
    obtain ⟨c, hn⟩ := Option.isSome_iff_exists.mp hs
    simp only [run, hn]
    exact tidy_tail strCtor_tidy fun _ => .pure _
  | cstrCtor xs =>
    obtain ⟨c, hn⟩ := Option.isSome_iff_exists.mp hs
    simp only [run, hn]
    exact tidy_tail cstrCtor_tidy fun _ => .pure _
  | charCtor x =>
    obtain ⟨c, hn⟩ := Option.isSome_iff_exists.mp hs
    simp only [run, hn]
    exact tidy_tail charCtor_tidy fun _ => .pure _
  | destroy o =>
    refine tidy_tail ?_ fun _ => .pure _
    obtain ⟨ob, ho⟩ := hA.obj hpre
    rcases refs_cases hwf ho with h | ⟨a, b, hr, hb, h1⟩
    · obtain ⟨s1, e1, e2⟩ := destroy_other_eq (cfg := cfg) ho h
      rw [e1]; exact ⟨[], e2, by simp⟩
    · obtain ⟨s1, e1, e2, _⟩ := destroy_last_eq hs ho hr hb h1
      rw [e1]
      exact ⟨[_], e2, by rintro c hc; simp at hc; exact ⟨b.gen, b.cells.length, hc⟩⟩
  | append o x =>
    exact tidy_tail ((c59_in_place_partial (hA.view hpre) 0 x).1 hc).tidy fun _ => .pure _
  | insertItem o pos x =>
    exact tidy_tail ((c59_in_place_partial (hA.view hpre) pos x).2.1 hc).tidy fun _ => .pure _
  | replaceItem o pos x =>
    exact tidy_tail ((c59_in_place_partial (hA.view hpre.1) pos x).2.2.1 hc).tidy fun _ => .pure _
  | write o pos x =>
    exact tidy_tail ((c59_in_place_partial (hA.view hpre.1) pos x).2.2.2 hc).tidy fun _ => .pure _
  | begin o =>
    refine tidy_tail (Keeps.tidy ?_) fun _ => .pure _
    unfold getOwnCopy
    rw [bind_ok (length_spec (hA.view hpre))]
    exact aboutToModify_keeps hc
  | insertC o pos xs =>
    refine tidy_tail (Keeps.tidy ?_) fun _ => .pure _
    unfold insertC
    rw [if_neg (by simp)]
    refine keeps_bind (val hpre).1 fun _ s1 h1 _ => ?_
    obtain rfl := (val hpre).2 s1 h1
    rw [bind_ok (length_spec (hA.view hpre))]
    exact keeps_tail (aboutToModify_keeps hc) fun _ => .bind (.shiftRight _ _ _) fun _ =>
      .bind (.bumpLength _ _) fun _ => .writeRange _ _ _
  | replaceC o pos xs =>
    refine tidy_tail (Keeps.tidy ?_) fun _ => .pure _
    unfold replaceC
    rw [if_neg (by simp)]
    refine keeps_bind (val hpre).1 fun _ s1 h1 _ => ?_
    obtain rfl := (val hpre).2 s1 h1
    rw [bind_ok (length_spec (hA.view hpre))]
    have hm : (if pos + xs.length < (env.get o).length then (env.get o).length else pos + xs.length)
        = max (env.get o).length (pos + xs.length) := by split <;> omega
    rw [hm]
    exact keeps_tail (aboutToModify_keeps hc) fun _ => .bind (.getObj _) fun _ =>
      .bind (.putObj _ _) fun _ => .writeRange _ _ _
  | cStr o =>
    obtain ⟨c, hn⟩ := Option.isSome_iff_exists.mp hs
    simp only [run, hn]
    refine tidy_tail (Keeps.tidy ?_) fun _ => .pure _
    obtain ⟨ob, ho, hvo⟩ := view_some (hA.view hpre.1)
    have hlen := viewOf_length hvo
    unfold cStr
    rw [bind_ok (getObj_eq ho)]
    split
    · rfl
    · refine keeps_bind ((Quiet.readRange _ _ _).keeps rfl) fun t s1 h1 hl => ?_
      have e : s1 = s := by
        have := readRange_state o ob.sublen 1 s
        rw [h1] at this
        exact this
      subst e
      split
      · have hc : InPlace cfg s1 o (ob.sublen + 1) := by rw [← hlen]; exact hc
        exact keeps_tail (aboutToModify_keeps hc) fun _ => .bind (.writeRange _ _ _) fun _ => .readRange _ _ _
      · exact (Quiet.readRange _ _ _).keeps rfl
  | reserve o n =>
    refine tidy_tail (Keeps.tidy ?_) fun _ => .pure _
    unfold reservePub
    rw [if_neg (by simp [hc.2])]
    exact reserve_keeps hc.1
  | assignList o xs =>
    refine tidy_tail (Keeps.tidy ?_) fun _ => .pure _
    unfold assignList
    refine keeps_bind ((Quiet.clear o).keeps rfl) fun _ s1 h1 hl => ?_
    rw [← hl]
    exact keeps_tail (reserve_keeps (clear_fits hc h1)) fun _ => .bind (.writeRange _ _ _) fun _ => .bind (.getObj _) fun _ => .putObj _ _
  | assignStd o xs =>
    obtain ⟨c, hn⟩ := Option.isSome_iff_exists.mp hs
    simp only [run, hn]
    refine tidy_tail (Keeps.tidy ?_) fun _ => .pure _
    unfold assignStd
    refine keeps_bind ((Quiet.clear o).keeps rfl) fun _ s1 h1 hl => ?_
    rw [← hl]
    exact keeps_tail (rcaReserve_keeps (clear_fits hc h1)) fun _ => .bind (.getObj _) fun _ => .bind (.putObj _ _) fun _ => .writeRange _ _ _
  | insertRange o pos xs => exact tidy_tail (insertRange_keeps hwf (hA.view hpre.1) hpre.2 hc).tidy fun _ => .pure _
  | assignCstr o xs =>
    obtain ⟨c, hn⟩ := Option.isSome_iff_exists.mp hs
    simp only [run, hn]
    obtain ⟨ob, ho⟩ := hA.obj hpre.1
    exact tidy_tail (assignCstr_tidy hwf ho hc c xs) fun _ => .pure _
  | resize o n =>
    refine tidy_tail (Keeps.tidy ?_) fun _ => .pure _
    unfold resize
    rw [bind_ok (length_spec (hA.view hpre.1))]
    split
    · exact (Quiet.bind (.getObj _) fun _ => .putObj _ _).keeps rfl
    · obtain ⟨h1, h2⟩ := hc.resolve_left ‹_›
      exact keeps_tail (growTo_keeps h2 h1) fun _ => .bind (.getObj _) fun _ => .putObj _ _
  | resizeFill o n x =>
    refine tidy_tail (Keeps.tidy ?_) fun _ => .pure _
    unfold resizeFill
    rw [bind_ok (length_spec (hA.view hpre.1))]
    split
    · exact (Quiet.bind (.getObj _) fun _ => .putObj _ _).keeps rfl
    · obtain ⟨h1, h2⟩ := hc.resolve_left ‹_›
      exact keeps_tail (growTo_keeps h2 h1) fun _ => .bind (.getObj _) fun _ => .bind (.writeRange _ _ _) fun _ => .bind (.getObj _) fun _ => .putObj _ _
  | copyAssign o r => exact tidy_tail (copyAssign_keeps hwf hc).tidy fun _ => .pure _
  | moveAssign o r => exact tidy_tail (moveAssign_keeps hwf hc).tidy fun _ => .pure _
  | appendRca o r n =>
    refine tidy_tail (Keeps.tidy ?_) fun _ => .pure _
    unfold appendRca
    rw [bind_ok (length_spec (hA.view hpre.1))]
    exact (insN hpre.1 hpre.2 hc).1
  | appendMove o r n =>
    refine tidy_tail (Keeps.tidy ?_) fun _ => .pure _
    unfold appendMove
    rw [bind_ok (length_spec (hA.view hpre.1))]
    exact (insN hpre.1 hpre.2 hc).2
  | insertRcaN o pos r n => exact tidy_tail (insN hpre.1 hpre.2.1 hc).1.tidy fun _ => .pure _
  | insertMoveN o pos r n => exact tidy_tail (insN hpre.1 hpre.2.1 hc).2.tidy fun _ => .pure _
  | insertRca o pos r => exact tidy_tail (ins hpre.1 hpre.2.1 hc).1.tidy fun _ => .pure _
  | insertMove o pos r => exact tidy_tail (ins hpre.1 hpre.2.1 hc).2.tidy fun _ => .pure _
  | replaceRca o pos r n => exact tidy_tail (rep hpre.1 hpre.2.1 hc).1.tidy fun _ => .pure _
  | replaceMove o pos r n => exact tidy_tail (rep hpre.1 hpre.2.1 hc).2.tidy fun _ => .pure _
  | _ => exact gentle hc

/-- What a program reaches that only makes careful calls. -/
inductive CareReach (cfg : Cfg T) : St T → Env T → Prop
  | init : CareReach cfg {} Env.empty
  | step {s s' : St T} {env env' : Env T} {op : Op T} {out : Outcome T} : CareReach cfg s env →
      Careful cfg s env op → Pre cfg (shared s) env op → result (run cfg op s) = some (out, s') →
      Post cfg (shared s) env op out env' → Agrees s' env' → CareReach cfg s' env'

theorem CareReach.reach {s : St T} {env : Env T} (h : CareReach cfg s env) : Reach cfg s env := by
  induction h with
  | init => exact .init
  | step _ _ hpre hres hpost hag ih => exact .step ih hpre hres hpost hag

/-- **C59** In a program that never assigns a String or C string over a String that alone uses its buffer, and never lets one outgrow such a buffer,
everything ever given back to the allocator was wiped, exceptions included. -/
theorem c59_careful_partial (hs : cfg.nul.isSome) (hv : cfg.Valid) (hp : cfg.Physical) {s : St T} {env : Env T}
    (h : CareReach cfg s env) : ∀ c ∈ s.freed, Wiped cfg c := by
  induction h with
  | init => intro c hc; cases hc
  | @step s s' env env' op out hr hc hpre hres hpost hag ih =>
    have ht := careful_tidy hs hv hp hr.reach hpre hc
    have key : ∃ k, s'.freed = k ++ s.freed ∧ ∀ c ∈ k, Wiped cfg c := by
      cases hm : run cfg op s with
      | ok x s2 => rw [hm] at hres ht; cases hres; exact ht
      | throw e s2 => rw [hm] at hres ht; cases hres; exact ht
      | ub => rw [hm] at hres; cases hres
    obtain ⟨k, hk, hw⟩ := key
    intro c hc
    rw [hk] at hc
    rcases List.mem_append.mp hc with h | h
    · exact hw c h
    · exact ih c h

/-! ## Assigning a C string -/

/-- **C59 refuted, in general** In every state a program can reach: assigning a C string, the empty one included,
to a String that alone uses its buffer releases that buffer with the bytes it holds. -/
theorem c59_cstr_refuted (hv : cfg.Valid) (hp : cfg.Physical) {s : St T} {env : Env T} (h : Reach cfg s env)
    {o a : Nat} {b : Block T} (hst : storage s o = some a) (hb : s.blk a = some b) (hlast : sharers s o = [o])
    {xs : List T} {x : Out T} {s' : St T} (hrun : run cfg (.assignCstr o xs) s = .ok x s') :
    s'.freed = b.cells :: s.freed := by
  obtain ⟨hwf, _, hA⟩ := h.inv hv hp
  obtain ⟨ob, ho, hor⟩ := obj_of_storage hst
  have h1 := alone_refs hwf hst hb hlast
  have hall : Frees (b.cells :: s.freed) (run cfg (.assignCstr o xs) s) := by
    simp only [run]
    cases hn : cfg.nul with
    | none => trivial
    | some c =>
      refine frees_tail ?_ fun _ => .pure _
      unfold assignCstr
      apply ok_bind
      have hown := strCtor_owns hwf c xs
      have hk := strCtor_keeps (cfg := cfg) (nul := c) (xs := xs) (s := s)
      cases hm : strCtor cfg c xs s with
      | throw e s1 => trivial
      | ub => trivial
      | ok t s1 =>
        rw [hm] at hown hk
        obtain ⟨rfl, tb, ta, tblk, own⟩ := hown
        have hk : s1.freed = s.freed := hk
        have hne : o ≠ s.objs.length := Nat.ne_of_lt (obj_lt ho)
        obtain ⟨fo, fb⟩ := own.frame o hne
        have fb := fb ob a ho hor
        rw [hb] at fb
        obtain ⟨b1, hb1, hvis⟩ := Option.map_eq_some_iff.mp fb
        have hcells : b1.cells = b.cells := congrArg Prod.snd hvis
        have ho1 : s1.obj o = some ob := by rw [fo, ho]
        have hta : ta ≠ a := by
          rintro rfl
          have h2 := owners_two own.obj own.ref ho1 hor (Ne.symm hne)
          have h3 := (own.wf.refs _ _ own.blk).1
          have h4 := own.refs
          omega
        have hr1 : b1.refs = 1 := by
          refine alone_refs own.wf (by unfold storage; rw [ho1]; exact hor) hb1 (only_sharer ?_ ?_)
          · unfold sharers
            simp only [List.mem_filter, List.mem_range, decide_true, and_true]
            exact obj_lt ho1
          · intro p hp
            unfold sharers at hp
            simp only [List.mem_filter, List.mem_range, decide_eq_true_eq] at hp
            have hso : storage s1 o = some a := by unfold storage; rw [ho1]; exact hor
            by_cases hpt : p = s.objs.length
            · subst hpt
              have : storage s1 s.objs.length = some ta := by unfold storage; rw [own.obj]; exact own.ref
              rw [this, hso] at hp
              exact absurd (Option.some.inj hp.2) hta
            · have hsp : storage s p = some a := by
                have : storage s p = storage s1 p := by unfold storage; rw [(own.frame p hpt).1]
                rw [this, hp.2, hso]
              have hmem : p ∈ sharers s o := by
                unfold sharers
                simp only [List.mem_filter, List.mem_range, decide_eq_true_eq]
                exact ⟨storage_lt hsp, by rw [hsp, hst]⟩
              rw [hlast] at hmem
              simpa using hmem
        obtain ⟨s3, e3, f3, o3, p3⟩ := checkDeallocRef_last ho1 hor hb1 hr1
        have ht3 : s3.obj s.objs.length = some tb := by rw [p3 _ (Ne.symm hne), own.obj]
        show Frees _ ((moveAssign cfg o s.objs.length >>= fun _ => destroy cfg s.objs.length) s1)
        unfold moveAssign
        rw [if_neg hne]
        simp only [bind_assoc']
        rw [bind_ok e3, bind_ok (getObj_eq ht3), bind_ok (by rfl : putObj _ _ _ = .ok () _),
          bind_ok (by rfl : putObj _ _ _ = .ok () _)]
        have hmf : (movedFrom cfg tb).ref = none := by unfold movedFrom; split <;> rfl
        obtain ⟨s4, e4, f4⟩ := destroy_other_eq (cfg := cfg)
          (s := (s3.setObj o (some tb)).setObj s.objs.length (some (movedFrom cfg tb)))
          (obj_setObj_self _ (by simpa [St.setObj] using obj_lt ht3)) (Or.inl hmf)
        show Frees _ (destroy cfg s.objs.length _)
        rw [e4]
        show s4.freed = _
        rw [f4]
        show s3.freed = _
        rw [f3, hcells, hk]
  rw [hrun] at hall
  exact hall

/-! ## Witnesses -/

theorem CareReach.next (hv : cfg.Valid) (hp : cfg.Physical) {s s' : St T} {env env' : Env T} {op : Op T}
    {x : Out T} (h : CareReach cfg s env) (hc : Careful cfg s env op) (hpre : Pre cfg (shared s) env op)
    (hrun : run cfg op s = .ok x s') (hop : ¬ IsResize op) (hpost : Post cfg (shared s) env op (.ret x) env') :
    CareReach cfg s' env' := by
  have hr := Reach.next hv hp h.reach hpre hrun hop hpost
  exact .step h hc hpre (by rw [hrun]; rfl) hpost (hr.agrees hv hp)

/-- `String s(8); s += 5; s += 6;` and the end of its scope. -/
def stCare : St Nat := (exec strCfg {} [.sizeCtor 8, .append 0 5, .append 0 6, .destroy 0]).getD {}

theorem fitsCare {s : St Nat} {ob : Obj} {b : Block Nat} {N : Nat} (ho : s.obj 0 = some ob) (hr : ob.ref = some 0)
    (hb : s.blk 0 = some b) (h : N ≤ b.cells.length) : Fits s 0 N := by
  intro ob' a b' h1 h2 h3
  rw [ho] at h1; cases h1
  rw [hr] at h2; cases h2
  rw [hb] at h3; cases h3
  exact h

theorem careReach : CareReach strCfg stCare ((((Env.empty.upd 0 (.val [])).upd 0 (.val [5])).upd 0 (.val [5, 6])).upd 0 .dead) := by
  have h1 : CareReach strCfg ((exec strCfg {} [.sizeCtor 8]).getD {}) (Env.empty.upd 0 (.val [])) :=
    .next strCfg_valid strCfg_physical .init (op := .sizeCtor 8) (x := .obj 0) trivial trivial rfl (fun h => h)
      (Or.inl ⟨0, rfl, rfl, rfl⟩)
  have h2 : CareReach strCfg ((exec strCfg {} [.sizeCtor 8, .append 0 5]).getD {}) ((Env.empty.upd 0 (.val [])).upd 0 (.val [5])) :=
    .next strCfg_valid strCfg_physical h1 (op := .append 0 5) (x := .unit)
      (Or.inr (fitsCare rfl rfl rfl (by decide))) ⟨[], rfl⟩ rfl (fun h => h) (Or.inl ⟨rfl, rfl⟩)
  have h3 : CareReach strCfg ((exec strCfg {} [.sizeCtor 8, .append 0 5, .append 0 6]).getD {})
      (((Env.empty.upd 0 (.val [])).upd 0 (.val [5])).upd 0 (.val [5, 6])) :=
    .next strCfg_valid strCfg_physical h2 (op := .append 0 6) (x := .unit)
      (Or.inr (fitsCare rfl rfl rfl (by decide))) ⟨[5], rfl⟩ rfl (fun h => h) (Or.inl ⟨rfl, rfl⟩)
  exact .next strCfg_valid strCfg_physical h3 (op := .destroy 0) (x := .unit) trivial nofun rfl (fun h => h) ⟨rfl, rfl⟩

-- `s += s;`, `s = std::string("78");` are such calls there too, and so is `t = s;` after `String t(s);`.
example : Careful strCfg ((exec strCfg {} [.sizeCtor 8, .append 0 5, .append 0 6]).getD {}) (Env.empty.upd 0 (.val [5, 6])) (.appendRca 0 0 npos) :=
  ⟨Or.inr (fitsCare rfl rfl rfl (by decide)), Or.inl (by decide)⟩
example : Careful strCfg ((exec strCfg {} [.sizeCtor 8, .append 0 5, .append 0 6]).getD {}) (Env.empty.upd 0 (.val [5, 6])) (.assignStd 0 [7, 8]) :=
  Or.inr (fitsCare rfl rfl rfl (by decide))
example : Careful strCfg ((exec strCfg {} [.strCtor [5], .copyCtor 0]).getD {}) ((Env.empty.upd 0 (.val [5])).upd 1 (.val [5])) (.copyAssign 1 0) :=
  Or.inr fun _ h => ⟨0, by decide, h⟩
example : Careful strCfg ((exec strCfg {} [.strCtor [5], .copyCtor 0]).getD {}) ((Env.empty.upd 0 (.val [5])).upd 1 (.val [5])) (.assignCstr 1 [6]) :=
  fun _ h => ⟨0, by decide, h⟩
example : Careful strCfg ((exec strCfg {} [.sizeCtor 8, .append 0 5, .append 0 6]).getD {}) (Env.empty.upd 0 (.val [5, 6])) (.insertRange 0 1 [7, 8]) :=
  Or.inr (fitsCare rfl rfl rfl (by decide))
example : Careful strCfg ((exec strCfg {} [.sizeCtor 8, .append 0 5, .append 0 6]).getD {}) (Env.empty.upd 0 (.val [5, 6])) (.resizeFill 0 4 7) :=
  Or.inr ⟨Or.inr (fitsCare rfl rfl rfl (by decide)), by decide⟩
-- A buffer was released in that history, and it was wiped.
example : stCare.freed.length = 1 ∧ ∀ c ∈ stCare.freed, Wiped strCfg c :=
  ⟨rfl, c59_careful_partial rfl strCfg_valid strCfg_physical careReach⟩
example : ∃ s', run strCfg (.copyAssign 0 1) stPw = .ok .unit s' ∧ s'.freed = [5, 6, 7, 0] :: stPw.freed :=
  (c59_assign_refuted (o := 0) (r := 1) (b := { gen := 2, cells := [5, 6, 7, 0], refs := 1 }) strCfg_valid strCfg_physical reachPw rfl rfl
    (by decide) (by decide) (by intro h; cases h)).1
example : ∃ s', run strCfg (.append 0 9) stPw = .ok .unit s' ∧ s'.freed = [5, 6, 7, 0] :: stPw.freed :=
  ⟨_, rfl, c59_growth_refuted (b := { gen := 2, cells := [5, 6, 7, 0], refs := 1 }) (v := [5, 6, 7]) (op := .append 0 9)
    (n := 4) strCfg_valid strCfg_physical (fun _ => rfl) reachPw rfl rfl rfl (by decide) (by decide)
    (Or.inl ⟨9, rfl, rfl⟩) (by decide) rfl⟩
example : ∃ s', run strCfg (.assignCstr 0 []) stPw = .ok .unit s' ∧ s'.freed = [5, 6, 7, 0] :: stPw.freed :=
  ⟨_, rfl, c59_cstr_refuted (o := 0) (xs := []) (x := .unit) (b := { gen := 2, cells := [5, 6, 7, 0], refs := 1 }) strCfg_valid strCfg_physical reachPw rfl rfl
    (by decide) rfl⟩
example : ∃ s', run strCfg (.appendRca 0 1 npos) stPw = .ok .unit s' ∧ s'.freed = [5, 6, 7, 0] :: stPw.freed :=
  ⟨_, rfl, c59_growth_refuted (b := { gen := 2, cells := [5, 6, 7, 0], refs := 1 }) (v := [5, 6, 7]) (op := .appendRca 0 1 npos)
    (n := 4) strCfg_valid strCfg_physical (fun _ => rfl) reachPw rfl rfl rfl (by decide) (by decide)
    (Or.inr (Or.inr (Or.inr ⟨1, npos, [1], rfl, rfl, by decide, by decide, by decide⟩))) (by decide) rfl⟩
example : ∃ s', run strCfg (.assignStd 0 [1, 2, 3, 4, 5, 6, 7, 8]) stPw = .ok .unit s' ∧ s'.freed = [5, 6, 7, 0] :: stPw.freed :=
  ⟨_, rfl, c59_assign_longer_refuted (o := 0) (xs := [1, 2, 3, 4, 5, 6, 7, 8]) (b := { gen := 2, cells := [5, 6, 7, 0], refs := 1 }) strCfg_valid strCfg_physical (fun _ => rfl) reachPw rfl rfl
    (by decide) (by decide) (Or.inr ⟨rfl, by decide⟩) rfl⟩
-- Shared: `reachPw`, then a copy of object 0.
example : ∃ s' : St Nat, run strCfg (.copyAssign 0 1) ((exec strCfg stPw [.copyCtor 0]).getD {}) = .ok .unit s' ∧
    s'.freed = stPw.freed :=
  (c59_assign_shared_partial (o := 0) (r := 1) (q := 2) strCfg_valid strCfg_physical
    (Reach.next strCfg_valid strCfg_physical reachPw (op := .copyCtor 0) (x := .obj 2)
      (env' := envPw.upd 2 (.val [5, 6, 7])) nofun rfl (fun h => h) ⟨2, rfl, rfl, rfl⟩) rfl (by decide) rfl (by decide) (by intro h; cases h)).1

end Bdlib.Rca
