import Verif.Props.C80
import Verif.Props.C16

/-!
# C80: `begin()` and `c_str()` in every state

Non-const `begin()` keeps the pointers to the elements exactly when the storage is not shared.  `c_str()` keeps them if the character behind
the text is a NUL already, or if the storage is not shared and has room; it moves the text if the storage is shared and there is no NUL.
-/

namespace Bdlib.Rca
open Bdlib Bdlib.Spec

variable {T : Type} [DecidableEq T] {cfg : Cfg T} {s s' : St T} {env env' : Env T}

/-- An object with elements has a buffer. -/
theorem buffer_of (hv : cfg.Valid) (hp : cfg.Physical) (hr : Reach cfg s env) {o : Nat} {v : List T} (ho : env o = .val v)
    (hne : v ≠ []) : ∃ ob a b, s.obj o = some ob ∧ ob.ref = some a ∧ s.blk a = some b ∧ ob.sublen = v.length ∧
      ob.offset + cfg.need v.length ≤ b.cells.length ∧ window b.cells ob.offset v.length = v := by
  obtain ⟨hwf, _, _⟩ := hr.inv hv hp
  obtain ⟨ob, hob, hvo, hsl⟩ := obj_of_view (hr.view_eq hv hp ho)
  have hlen : ob.sublen ≠ 0 := by rw [hsl]; exact fun h => hne (List.length_eq_zero_iff.1 h)
  cases href : ob.ref with
  | none => exact absurd (St.viewOf_none_inv href hvo).2.1 hlen
  | some a =>
    obtain ⟨b, hb, hle⟩ := hwf.bounds o ob a hob href
    have := Cfg.le_need cfg ob.sublen
    rw [St.viewOf_some href hb (by omega)] at hvo
    injection hvo with hvo
    exact ⟨ob, a, b, hob, href, hb, hsl, hsl ▸ hle, hsl ▸ hvo⟩

/-- If `o` shared its buffer and now has one of its own, it is another one. -/
theorem moved_of_own {o a a' : Nat} {ob ob' : Obj} {b' : Block T} (hwf : WF cfg s) (ho : s.obj o = some ob) (href : ob.ref = some a)
    (hsh : shared s o = true) (how : Own cfg s s' o ob' a' b') : a' ≠ a := by
  rintro rfl
  obtain ⟨b, hb, _⟩ := hwf.le ho href
  rw [shared_eq ho href hb] at hsh
  have h1 := (hwf.refs _ _ hb).1
  have h2 : 2 ≤ s.owners a' := by
    have : b.refs > 1 := of_decide_eq_true hsh
    omega
  obtain ⟨o', r, hne, hor, hrr⟩ := exists_other_owner ho href h2
  have h3 := (how.frame o' hne).1.trans hor
  have h4 := St.owners_two how.obj how.ref h3 hrr (Ne.symm hne)
  have h5 := (how.wf.refs _ _ how.blk).1
  have h6 := how.refs
  omega

/-- Not shared, with room: the addresses of the elements stay. -/
theorem modify_keeps {o n : Nat} {ob : Obj} {a : Nat} {b : Block T} (ho : s.obj o = some ob) (href : ob.ref = some a)
    (hb : s.blk a = some b) (hsh : shared s o = false) (hroom : ob.offset + room cfg n ≤ b.cells.length) (hn : 0 < n) :
    ∃ s1, aboutToModify cfg o n s = .ok () s1 ∧ (∀ i p, ptrTo o i s = .ok p s → ptrTo o i s1 = .ok p s1) ∧
      (∀ k x, k < ob.offset + n → loadPtr ⟨a, b.gen, k⟩ s = .ok x s → loadPtr ⟨a, b.gen, k⟩ s1 = .ok x s1) ∧
      ∃ b', s1.obj o = some { ob with hash := 0 } ∧ s1.blk a = some b' ∧ b'.cells.length = b.cells.length ∧ b'.gen = b.gen := by
  have h := aboutToModify_spare (cfg := cfg) ho href hb hsh hroom hn
  cases hrun : aboutToModify cfg o n s with
  | ub => rw [hrun] at h; exact h.elim
  | throw e t => rw [hrun] at h; exact h.elim
  | ok u s1 =>
    rw [hrun] at h
    obtain ⟨h1, b', h2, h3, h4, h5⟩ := h
    refine ⟨s1, rfl, fun i p hptr => ?_, fun k x hk hx => ?_, b', h1, h2, h4, h3⟩
    · rw [ptrTo_of ho href hb] at hptr
      injection hptr with hptr
      rw [← hptr, ptrTo_of h1 href h2, h3]
    · obtain ⟨b0, e1, e2, e3⟩ := loadPtr_inv hx
      change s.blk a = some b0 at e1
      rw [hb] at e1
      cases e1
      exact loadPtr_of (p := ⟨a, b.gen, k⟩) h2 h3 (by show b'.cells[k]? = _; rw [h5 k hk]; exact e3)

/-- **C80** `begin()` (and `end()`, `mdata()`, the non-const element operator) on an object whose storage is not shared: it does not throw,
and every pointer to an element stays and shows the element. -/
theorem c80_begin (hv : cfg.Valid) (hp : cfg.Physical) (hr : Reach cfg s env) (hk : cfg.nul = none ∨ cfg.slack = 1) {o : Nat} {v : List T}
    (ho : env o = .val v) (hne : v ≠ []) (hsh : shared s o = false) :
    ∃ s1, run cfg (.begin o) s = .ok .unit s1 ∧ Reach cfg s1 env ∧
      ∀ i p x, ptrTo o i s = .ok p s → v[i]? = some x → ptrTo o i s1 = .ok p s1 ∧ loadPtr p s1 = .ok x s1 := by
  obtain ⟨ob, a, b, hob, href, hb, hsl, hneed, hw⟩ := buffer_of hv hp hr ho hne
  have hpos : 0 < v.length := List.length_pos_iff.2 hne
  have hroom : ob.offset + room cfg v.length ≤ b.cells.length := by
    unfold Cfg.need at hneed
    rw [if_neg (by omega)] at hneed
    unfold room
    rcases hk with hk | hk
    · rw [hk]; simp; omega
    · split <;> omega
  obtain ⟨s1, h1, h2, h3, -⟩ := modify_keeps hob href hb hsh hroom hpos
  have hrun : run cfg (.begin o) s = .ok .unit s1 := by
    show (getOwnCopy cfg o >>= fun _ => pure Out.unit) s = _
    have : getOwnCopy cfg o s = .ok () s1 := by
      unfold getOwnCopy
      rw [bind_ok (show length o s = .ok v.length s by unfold length; rw [bind_ok (getObj_eq hob), hsl]; rfl)]
      exact h1
    rw [bind_ok this]
    rfl
  obtain ⟨out, s2, env1, g1, g2, g3⟩ := hr.call hv hp (op := .begin o) ⟨v, ho⟩
  rw [hrun] at g1
  cases g1
  have henv : env1 = env := by
    rcases g2 with ⟨_, rfl⟩ | g2
    · rfl
    · exact absurd g2.1 (by simp)
  subst henv
  refine ⟨s1, hrun, g3, fun i p x hptr hx => ⟨h2 i p hptr, ?_⟩⟩
  have hi : i < v.length := (List.getElem?_eq_some_iff.1 hx).1
  have hld := loadPtr_elem hv hp hr ho hx hptr
  rw [ptrTo_of hob href hb] at hptr
  injection hptr with hptr
  subst hptr
  exact h3 _ x (by omega) hld

/-- **C80 refuted**, in every state: on an object whose storage is shared, `begin()` gives the object another buffer; pointers obtained
before do not point to its elements any more. -/
theorem c80_refuted_begin_shared (hv : cfg.Valid) (hp : cfg.Physical) (hr : Reach cfg s env) {o : Nat} {v : List T} (ho : env o = .val v)
    (hsh : shared s o = true) {s1 : St T} (hrun : run cfg (.begin o) s = .ok .unit s1) {i : Nat} {p : Ptr} (hptr : ptrTo o i s = .ok p s) :
    ∃ p', ptrTo o i s1 = .ok p' s1 ∧ p'.addr ≠ p.addr := by
  obtain ⟨hwf, _, _⟩ := hr.inv hv hp
  obtain ⟨ob, b, hob, href, hb, hg, hidx⟩ := ptrTo_inv hptr
  have hs := getOwnCopy_spec (cfg := cfg) hwf (hr.view_eq hv hp ho) (Q := fun _ s' => ∃ p', ptrTo o i s' = .ok p' s' ∧ p'.addr ≠ p.addr)
    (E := fun _ _ => True) (fun s' ob' a' b' how _ _ _ => ⟨_, ptrTo_of how.obj how.ref how.blk, moved_of_own hwf hob href hsh how⟩)
    (fun _ _ _ _ _ _ => trivial)
  obtain ⟨u, h, _⟩ := mapOut_parts (show mapOut (getOwnCopy cfg o) (fun _ => Out.unit) s = _ from hrun)
  rw [h] at hs
  exact hs

/-- **C80** `c_str()` on a String with a NUL behind its text changes nothing at all. -/
theorem c80_c_str_nul (hv : cfg.Valid) (hp : cfg.Physical) (hr : Reach cfg s env) {o : Nat} {v : List T} (ho : env o = .val v)
    (hne : v ≠ []) {nul : T} (hn : cfg.nul = some nul) (hs : cfg.slack = 1) {p : Ptr} (hptr : ptrTo o v.length s = .ok p s)
    (hnul : loadPtr p s = .ok nul s) : ∃ x, run cfg (.cStr o) s = .ok x s := by
  obtain ⟨ob, a, b, hob, href, hb, hsl, hneed, hw⟩ := buffer_of hv hp hr ho hne
  have hpos : 0 < v.length := List.length_pos_iff.2 hne
  unfold Cfg.need at hneed
  rw [if_neg (by omega), hs] at hneed
  obtain ⟨b0, e1, e2, e3⟩ := loadPtr_inv hnul
  rw [ptrTo_of hob href hb] at hptr
  injection hptr with hptr
  subst hptr
  change s.blk a = some b0 at e1
  rw [hb] at e1
  cases e1
  change b.cells[ob.offset + v.length]? = some nul at e3
  have hrd : ∀ k n, 0 < n → k + n ≤ v.length + 1 → readRange o k n s = .ok (window b.cells (ob.offset + k) n) s := by
    intro k n h0 hkn
    unfold readRange
    rw [bind_ok (getObj_eq hob), if_neg (by omega), href]
    show (getBlk a >>= _) s = _
    rw [bind_ok (by unfold getBlk; rw [hb] : getBlk a s = .ok b s), if_pos (by omega)]
    rfl
  have h1 : window b.cells (ob.offset + v.length) 1 = [nul] := by
    unfold window
    rw [List.take_one, List.head?_drop, e3]
    rfl
  have hc : cStr cfg nul o s = .ok (window b.cells (ob.offset + 0) (v.length + 1)) s := by
    unfold cStr
    rw [bind_ok (getObj_eq hob), if_neg (by omega), hsl, bind_ok (hrd v.length 1 (by omega) (by omega)), h1, if_neg (by simp)]
    exact hrd 0 (v.length + 1) (by omega) (by omega)
  simp only [run, hn]
  exact ⟨_, by unfold mapOut; rw [bind_ok hc]; rfl⟩

/-- **C80** `c_str()` on a String whose storage is not shared, with room for one more character and a NUL: it does not throw, and every
pointer to a character stays and shows it. -/
theorem c80_c_str_room (hv : cfg.Valid) (hp : cfg.Physical) (hr : Reach cfg s env) {o : Nat} {v : List T} (ho : env o = .val v)
    (hne : v ≠ []) {nul : T} (hn : cfg.nul = some nul) (hs : cfg.slack = 1) (hsh : shared s o = false) (hroom : HasRoom cfg s o (v.length + 1)) :
    ∃ x s1, run cfg (.cStr o) s = .ok x s1 ∧ Reach cfg s1 env ∧
      ∀ i p x, ptrTo o i s = .ok p s → v[i]? = some x → ptrTo o i s1 = .ok p s1 ∧ loadPtr p s1 = .ok x s1 := by
  obtain ⟨ob, a, b, hob, href, hb, hsl, hneed, hw⟩ := buffer_of hv hp hr ho hne
  have hpos : 0 < v.length := List.length_pos_iff.2 hne
  obtain ⟨ob0, a0, b0, hob0, href0, hb0, hroom⟩ := hroom
  rw [hob] at hob0
  cases hob0
  rw [href] at href0
  cases href0
  rw [hb] at hb0
  cases hb0
  unfold Cfg.need at hneed
  rw [if_neg (by omega), hs] at hneed
  have key : ∃ xs s1, cStr cfg nul o s = .ok xs s1 ∧ ∀ i p x, ptrTo o i s = .ok p s → v[i]? = some x →
      ptrTo o i s1 = .ok p s1 ∧ loadPtr p s1 = .ok x s1 := by
    have hself : ∀ i p x, ptrTo o i s = .ok p s → v[i]? = some x → ptrTo o i s = .ok p s ∧ loadPtr p s = .ok x s :=
      fun i p x hptr hx => ⟨hptr, loadPtr_elem hv hp hr ho hx hptr⟩
    have hrd : ∀ {t : St T} {ob' : Obj} {b' : Block T}, t.obj o = some ob' → ob'.ref = some a → ob'.offset = ob.offset →
        t.blk a = some b' → b'.cells.length = b.cells.length → ∀ k n, 0 < n → k + n ≤ v.length + 1 →
        readRange o k n t = .ok (window b'.cells (ob.offset + k) n) t := by
      intro t ob' b' h1 h2 h3 h4 h5 k n h0 hkn
      unfold readRange
      rw [bind_ok (getObj_eq h1), if_neg (by omega), h2]
      show (getBlk a >>= _) t = _
      rw [bind_ok (by unfold getBlk; rw [h4] : getBlk a t = .ok b' t), if_pos (by omega), h3]
      rfl
    unfold cStr
    rw [bind_ok (getObj_eq hob), if_neg (by omega), hsl, bind_ok (hrd hob href rfl hb rfl v.length 1 (by omega) (by omega))]
    split
    · obtain ⟨s1, h1, h2, h3, b', g1, g2, g3, g4⟩ := modify_keeps hob href hb hsh hroom (by omega)
      rw [bind_ok h1]
      have hwr : writeRange o v.length [nul] s1 =
          .ok () (s1.setBlk a (some { b' with cells := overwrite b'.cells (ob.offset + v.length) [nul] })) := by
        unfold writeRange
        rw [bind_ok (getObj_eq g1)]
        simp only [href]
        rw [if_neg (by simp)]
        show (getBlk a >>= _) s1 = _
        rw [bind_ok (by unfold getBlk; rw [g2] : getBlk a s1 = .ok b' s1), if_pos (by simp; omega)]
        rfl
      rw [bind_ok hwr]
      have hbl := St.blk_lt g2
      have g2' := St.blk_setBlk_self (s := s1) (a := a) (some { b' with cells := overwrite b'.cells (ob.offset + v.length) [nul] }) hbl
      have hlen' : (overwrite b'.cells (ob.offset + v.length) [nul]).length = b.cells.length := by
        unfold overwrite; simp; omega
      refine ⟨_, _, hrd (t := s1.setBlk a (some { b' with cells := overwrite b'.cells (ob.offset + v.length) [nul] })) g1 href rfl g2' hlen' 0
        (v.length + 1) (by omega) (by omega), fun i p x hptr hx => ?_⟩
      have hi : i < v.length := (List.getElem?_eq_some_iff.1 hx).1
      have k1 := h2 i p hptr
      have hld := loadPtr_elem hv hp hr ho hx hptr
      rw [ptrTo_of hob href hb] at hptr
      injection hptr with hptr
      subst hptr
      have k2 := h3 _ x (by omega) hld
      refine ⟨ptrTo_at (b := { b' with cells := overwrite b'.cells (ob.offset + v.length) [nul] }) g1 href g2' g4 rfl, ?_⟩
      obtain ⟨b1, e1, e2, e3⟩ := loadPtr_inv k2
      change s1.blk a = some b1 at e1
      rw [g2] at e1
      cases e1
      refine loadPtr_of (p := ⟨a, b.gen, ob.offset + i⟩) g2' g4 ?_
      show (overwrite b'.cells (ob.offset + v.length) [nul])[ob.offset + i]? = _
      rw [overwrite_get_before (by omega) (by omega)]
      exact e3
    · exact ⟨_, _, hrd hob href rfl hb rfl 0 (v.length + 1) (by omega) (by omega), hself⟩
  obtain ⟨xs, s1, hc, hkeep⟩ := key
  have hrun : run cfg (.cStr o) s = .ok (.bytes xs) s1 := by
    simp only [run, hn]
    unfold mapOut
    rw [bind_ok hc]
    rfl
  obtain ⟨out, s2, env1, g1, g2, g3⟩ := hr.call hv hp (op := .cStr o) ⟨⟨v, ho⟩, by simp [IsStr, hn], hs⟩
  rw [hrun] at g1
  cases g1
  have henv : env1 = env := by
    rcases g2 with ⟨c, _, _, rfl⟩ | g2
    · rfl
    · exact absurd g2.1 (by simp)
  subst henv
  exact ⟨_, s1, hrun, g3, hkeep⟩

/-- **C80 refuted**, in every state: on a String whose storage is shared and whose text is not followed by a NUL (a substring), the const
`c_str()` gives the String another buffer; pointers obtained before do not point to its characters any more. -/
theorem c80_refuted_c_str_shared (hv : cfg.Valid) (hp : cfg.Physical) (hr : Reach cfg s env) {o : Nat} {v : List T} (ho : env o = .val v)
    (hne : v ≠ []) {nul : T} (hn : cfg.nul = some nul) (hs : cfg.slack = 1) (hsh : shared s o = true) {q : Ptr}
    (hq : ptrTo o v.length s = .ok q s) (hnul : ¬ loadPtr q s = .ok nul s) {x : Out T} {s1 : St T} (hrun : run cfg (.cStr o) s = .ok x s1)
    {i : Nat} {p : Ptr} (hptr : ptrTo o i s = .ok p s) : ∃ p', ptrTo o i s1 = .ok p' s1 ∧ p'.addr ≠ p.addr := by
  obtain ⟨hwf, _, _⟩ := hr.inv hv hp
  obtain ⟨ob, a, b, hob, href, hb, hsl, hneed, hw⟩ := buffer_of hv hp hr ho hne
  have hpos : 0 < v.length := List.length_pos_iff.2 hne
  unfold Cfg.need at hneed
  rw [if_neg (by omega), hs] at hneed
  rw [ptrTo_of hob href hb] at hptr hq
  injection hptr with hptr
  injection hq with hq
  subst hptr hq
  obtain ⟨c, hc⟩ : ∃ c, b.cells[ob.offset + v.length]? = some c := ⟨_, List.getElem?_eq_getElem (by omega)⟩
  have hcn : c ≠ nul := fun e => hnul (loadPtr_of (p := ⟨a, b.gen, ob.offset + v.length⟩) hb rfl (e ▸ hc))
  have hrd : readRange o v.length 1 s = .ok [c] s := by
    unfold readRange
    rw [bind_ok (getObj_eq hob), if_neg (by omega), href]
    show (getBlk a >>= _) s = _
    rw [bind_ok (by unfold getBlk; rw [hb] : getBlk a s = .ok b s), if_pos (by omega)]
    show Res.ok (window b.cells (ob.offset + v.length) 1) s = _
    unfold window
    rw [List.take_one, List.head?_drop, hc]
    rfl
  have hcs : ∃ xs, cStr cfg nul o s = .ok xs s1 := by
    simp only [run, hn] at hrun
    obtain ⟨xs, h, _⟩ := mapOut_parts hrun
    exact ⟨xs, h⟩
  obtain ⟨xs, hcs⟩ := hcs
  unfold cStr at hcs
  rw [bind_ok (getObj_eq hob), if_neg (by omega), hsl, bind_ok hrd, if_pos (by simpa using hcn)] at hcs
  obtain ⟨_, s2, h1, h2⟩ := bind_parts hcs
  obtain ⟨_, s3, h3, h4⟩ := bind_parts h2
  obtain ⟨e5, _⟩ := readRange_inv (by omega) h4
  subst e5
  have hA := aboutToModify_spec (cfg := cfg) hwf (hr.view_eq hv hp ho) (n := v.length + 1) (by omega)
    (Q := fun _ s' => ∃ ob' a' b', Own cfg s s' o ob' a' b') (E := fun _ _ => True) (fun s' ob' a' b' how _ _ _ => ⟨ob', a', b', how⟩)
    (fun _ _ _ _ _ _ => trivial)
  rw [h1] at hA
  obtain ⟨ob', a', b', how⟩ := hA
  have hmv := moved_of_own hwf hob href hsh how
  unfold writeRange at h3
  rw [bind_ok (getObj_eq how.obj)] at h3
  rw [if_neg (by simp), how.ref] at h3
  dsimp only at h3
  rw [bind_ok (by unfold getBlk; rw [how.blk] : getBlk a' s2 = .ok b' s2)] at h3
  split at h3
  · cases h3
    exact ⟨_, ptrTo_of (ob := ob') how.obj how.ref (St.blk_setBlk_self _ (St.blk_lt how.blk)), hmv⟩
  · cases h3

/-! ## Cases -/

/-- `{1,2,3,4,5}` shared with `{2,3,4}`: `begin()` moves. -/
example := c80_refuted_begin_shared arrCfg_valid arrCfg_physical reachA (o := 1) (v := [2, 3, 4]) rfl rfl rfl (i := 0) rfl
/-- `"hel"`, a substring of `"hello"`. -/
example := c80_refuted_c_str_shared strCfg_valid strCfg_physical reachH (o := 1) (v := [104, 101, 108]) rfl (by simp) (nul := 0) rfl rfl rfl rfl
  (by intro h; cases h) rfl (i := 0) rfl
/-- `"hello"` itself: there is a NUL behind it. -/
example := c80_c_str_nul strCfg_valid strCfg_physical reachH (o := 0) (v := [104, 101, 108, 108, 111]) rfl (by simp) (nul := 0) rfl rfl rfl rfl

/-- The substring after the original is gone. -/
def stH3 : St Nat := (exec strCfg stH [.destroy 0]).getD {}
theorem reachH3 : Reach strCfg stH3 (envH.upd 0 .dead) :=
  Reach.next strCfg_valid strCfg_physical reachH (op := .destroy 0) (x := .unit) (by simp [Pre, Env.Live, Env.upd, envH]) rfl
    (fun h => h) ⟨rfl, rfl⟩
example := c80_begin strCfg_valid strCfg_physical reachH3 (.inr rfl) (o := 1) (v := [104, 101, 108]) rfl (by simp) rfl
example := c80_c_str_room strCfg_valid strCfg_physical reachH3 (o := 1) (v := [104, 101, 108]) rfl (by simp) (nul := 0) rfl rfl rfl
  ⟨_, _, _, rfl, rfl, rfl, by decide⟩

end Bdlib.Rca
