import Verif.Nest.Arrays
import Verif.Nest.Cut

/-!
# Every call on arrays of strings stays in step
-/

namespace Bdlib.Nest
open Bdlib Bdlib.Spec Bdlib.Rca
open P (strs arrs undef)

variable {c : Conf} {us : Env UInt8} {env : Env UInt8} {σ : St Elem} {w : World} {α β γ δ : Type}

/-! ## Inversion -/

theorem length_inv {T : Type} {o n : Nat} {s s' : St T} (h : Rca.length o s = .ok n s') : s' = s := by
  unfold Rca.length at h
  obtain ⟨ob, s1, h1, h2⟩ := bind_inv h
  obtain ⟨rfl, _⟩ := getObj_inv h1
  cases h2; rfl

theorem validateIndex_inv {T : Type} {o n : Nat} {s s' : St T} (h : validateIndex o n s = .ok () s') : s' = s := by
  unfold validateIndex at h
  obtain ⟨k, s1, h1, h2⟩ := bind_inv h
  have := length_inv h1
  subst this
  split at h2
  · cases h2
  · cases h2; rfl

theorem validatePos_inv {T : Type} {o n : Nat} {s s' : St T} (h : validatePos o n s = .ok () s') : s' = s := by
  unfold validatePos at h
  split at h
  · exact validateIndex_inv h
  · cases h; rfl

theorem isShared_inv {T : Type} {o : Nat} {s s' : St T} {b : Bool} (h : isShared o s = .ok b s') : s' = s := by
  unfold isShared at h
  obtain ⟨ob, s1, h1, h2⟩ := bind_inv h
  obtain ⟨rfl, _⟩ := getObj_inv h1
  cases hr : ob.ref with
  | none => rw [hr] at h2; cases h2; rfl
  | some a =>
    rw [hr] at h2
    obtain ⟨b, s3, h3, h4⟩ := bind_inv h2
    obtain ⟨rfl, _⟩ := getBlk_inv h3
    cases h4; rfl

theorem clear_inv {T : Type} {o : Nat} {s s' : St T} (h : Rca.clear o s = .ok () s') :
    ∃ ob, s'.obj o = some ob ∧ ob.sublen = 0 := by
  unfold Rca.clear at h
  obtain ⟨b, s1, h1, h2⟩ := bind_inv h
  have := isShared_inv h1
  subst this
  clear h
  split at h2
  · exact ⟨_, (doDetach_inv h2).1, rfl⟩
  · obtain ⟨ob, s3, h3, h4⟩ := bind_inv h2
    obtain ⟨rfl, ho⟩ := getObj_inv h3
    cases h4
    exact ⟨_, obj_setObj_self ho _, rfl⟩

theorem fit_zero {o : Nat} (h : ∃ ob, σ.obj o = some ob ∧ ob.sublen = 0) : Fit σ o := by
  obtain ⟨ob, ho, h0⟩ := h
  intro ob' ho'
  rw [ho] at ho'
  cases ho'
  exact ⟨fun _ => h0, fun _ _ _ _ _ => h0⟩

theorem newObj_inv {T : Type} {o : Nat} {ob : Obj} {s s' : St T} (h : newObj ob s = .ok o s') : s'.obj o = some ob := by
  unfold newObj at h
  cases h
  simp [St.obj]

/-! ## Own storage -/

theorem match_aboutToModify (hc : c.Good) (h : Rel c us σ w) {o n : Nat} (hf : Fit σ o) :
    Match c us (aboutToModify c o n w) (Rca.aboutToModify c.val o n σ) fun _ _ us' _ _ => us' = us := by
  unfold aboutToModify Rca.aboutToModify
  refine match_then (.getObj o) h fun ob w1 σ1 h1 hR1 => match_then (.putObj _ _) hR1 fun _ w2 σ2 h2 hR2 =>
    match_then (.isShared o) hR2 fun b w3 σ3 h3 hR3 => ?_
  obtain ⟨rfl, ho⟩ := getObj_inv h1
  cases h2
  have := isShared_inv h3
  subst this
  refine match_ite (fun _ => match_cow hc hR3) fun _ => match_reserve hc hR3 ?_
  intro ob' ho'
  rw [obj_setObj_self ho] at ho'
  cases ho'
  exact hf ob ho

theorem val_growTo (c : Conf) (o n : Nat) : growTo c.val o n = Rca.aboutToModify c.val o n := by
  unfold growTo
  rw [if_pos (by simp [Conf.val])]

theorem match_getOwnCopy (hc : c.Good) (h : Rel c us σ w) {o : Nat} (hf : Fit σ o) :
    Match c us (getOwnCopy c o w) (Rca.getOwnCopy c.val o σ) fun _ _ us' _ _ => us' = us := by
  unfold getOwnCopy Rca.getOwnCopy
  refine match_then (.length o) h fun n w1 σ1 h1 hR1 => ?_
  have := length_inv h1
  subst this
  exact match_aboutToModify hc hR1 hf

theorem match_putLength (h : Rel c us σ w) {o n : Nat} :
    Match c us (putLength o n w) ((do let ob ← getObj o; putObj o { ob with sublen := n } : M Elem Unit) σ)
      fun _ _ us' _ _ => us' = us := by
  unfold putLength
  refine match_then (.getObj o) h fun ob w1 σ1 _ hR1 => ?_
  exact match_mono (match_arrs (.putObj _ _) hR1) fun _ _ _ _ _ hq => hq.2.1

/-! ## Construction and assignment from lists -/

theorem match_sizeCtor (hc : c.Good) (h : Rel c us σ w) {n : Nat} :
    Match c us (sizeCtor c n w) (Rca.sizeCtor c.val n σ) fun x y us' _ _ => x = y ∧ us' = us := by
  unfold sizeCtor Rca.sizeCtor
  refine match_then (.newObj _) h fun o w1 σ1 h1 hR1 => ?_
  refine match_bind (Q := fun _ _ us' _ _ => us' = us) (match_onThrow ?_ ?_) ?_
  · refine match_ite (fun _ => ?_) fun _ => match_pure hR1 rfl
    have : reservePub c.val.base o n = rcaReserve c.val o n id := by
      unfold reservePub
      rw [if_neg (by simp [Conf.val, Cfg.base])]
      rfl
    rw [this]
    exact match_reserve hc hR1 (fit_new (newObj_inv h1))
  · intro e w2 σ2 _ hR2
    exact match_destroy hc hR2
  · rintro _ _ us' w2 σ2 _ hR2 rfl
    exact match_pure hR2 ⟨rfl, rfl⟩

theorem match_listCtor (hc : c.Good) (h : Rel c us σ w) {hs : List Nat} (hu : ∀ x ∈ hs, us x ≠ .dead) :
    Match c us (listCtor c hs w) (Rca.listCtor c.val (hs.map us) σ) fun x y us' _ _ => x = y ∧ us' = us := by
  unfold listCtor Rca.listCtor
  rw [List.length_map]
  refine match_bind (match_sizeCtor hc h) ?_
  rintro o _ us' w1 σ1 _ hR1 ⟨rfl, rfl⟩
  refine match_bind (Q := fun _ _ u _ _ => u = us') (match_onThrow ?_ ?_) ?_
  · refine match_bind (match_assignCells hc hR1 hu) ?_
    rintro _ _ u w2 σ2 _ hR2 ⟨rfl, _⟩
    exact match_putLength hR2
  · intro e w2 σ2 _ hR2
    exact match_destroy hc hR2
  · rintro _ _ us' w2 σ2 _ hR2 rfl
    exact match_pure hR2 ⟨rfl, rfl⟩

theorem match_assignList (hc : c.Good) (h : Rel c us σ w) {o : Nat} {hs : List Nat} (hu : ∀ x ∈ hs, us x ≠ .dead) :
    Match c us (assignList c o hs w) (Rca.assignList c.val o (hs.map us) σ) fun _ _ us' _ _ => us' = us := by
  unfold assignList Rca.assignList
  rw [List.length_map, val_reserve]
  refine match_then (.clear o) h fun _ w1 σ1 h1 hR1 => match_bind (match_reserve hc hR1 (fit_zero (clear_inv h1))) ?_
  rintro _ _ us' w2 σ2 _ hR2 rfl
  refine match_bind (match_assignCells hc hR2 hu) ?_
  rintro _ _ us' w3 σ3 _ hR3 ⟨rfl, _⟩
  exact match_putLength hR3

/-! ## Length -/

theorem match_resize (hc : c.Good) (h : Rel c us σ w) {o n : Nat} (hf : Fit σ o) :
    Match c us (resize c o n w) (Rca.resize c.val o n σ) fun _ _ us' _ _ => us' = us := by
  unfold resize Rca.resize
  rw [val_growTo]
  refine match_then (.length o) h fun k w1 σ1 h1 hR1 => ?_
  have := length_inv h1
  subst this
  refine match_ite (fun _ => match_mono (match_arrs (.setLength _ _) hR1) fun _ _ _ _ _ hq => hq.2.1) fun _ => ?_
  refine match_bind (match_aboutToModify hc hR1 hf) ?_
  rintro _ _ us' w2 σ2 _ hR2 rfl
  exact match_putLength hR2

/-! ## Strings that come and go -/

/-- The strings outside the cells changed. -/
theorem RelE.user (h : RelE c env us σ w) {s' : St UInt8} {env' us' : Env UInt8} (hR : Reach c.str s' env')
    (hcell : ∀ a x, x ∈ cellsAt w.arrs a → env' x = env x) (hus : ∀ a x, x ∈ cellsAt w.arrs a → us' x = .dead)
    (hrest : ∀ x, (∀ a, x ∉ cellsAt w.arrs a) → us' x = env' x) : RelE c env' us' σ { w with strs := s' } := by
  refine ⟨hR, ⟨fun a => ?_, h.like.len, h.like.objs, h.like.gen⟩, h.nodup, h.disj, fun a x hx => ⟨?_, hus a x hx⟩, hrest⟩
  · rw [h.like.blk]
    cases hb : w.arrs.blk a with
    | none => rfl
    | some b =>
      simp only [Option.map_some, mapBlk]
      have : b.cells.map env = b.cells.map env' :=
        List.map_congr_left fun x hx => (hcell a x (by rw [cellsAt_some hb]; exact hx)).symm
      rw [this]
  · rw [hcell a x hx]; exact (h.cell a x hx).1

theorem RelE.born (h : RelE c env us σ w) {t : Nat} (hd : env t = .dead) : ∀ a, t ∉ cellsAt w.arrs a :=
  fun a hm => (h.cell a t hm).1 hd

/-- A new string appears. -/
theorem RelE.add (h : RelE c env us σ w) {s' : St UInt8} {t : Nat} {y : Slot UInt8} (hd : env t = .dead)
    (hR : Reach c.str s' (env.upd t y)) : RelE c (env.upd t y) (us.upd t y) σ { w with strs := s' } := by
  have ht := h.born hd
  refine h.user hR (fun a x hx => Env.upd_ne fun (he : x = t) => ht a (he ▸ hx)) (fun a x hx => ?_) fun x hx => ?_
  · rw [Env.upd_ne fun (he : x = t) => ht a (he ▸ hx)]; exact (h.cell a x hx).2
  · by_cases he : x = t
    · subst he; rw [Env.upd_self, Env.upd_self]
    · rw [Env.upd_ne he, Env.upd_ne he]; exact h.rest x hx

theorem rel_newCopy (hc : c.Good) (h : RelE c env us σ w) {x : Nat} (hx : env x ≠ .dead) :
    ∃ t s', newCopy x w = .ok t { w with strs := s' } ∧ us t = .dead ∧
      RelE c (env.upd t (env x)) (us.upd t (env x)) σ { w with strs := s' } := by
  obtain ⟨t, s', h1, hd, hR⟩ := do_copyCtor hc.valid hc.phys h.reach hx
  exact ⟨t, s', strs_ok h1, by rw [h.rest t (h.born hd)]; exact hd, h.add hd hR⟩

/-- A string outside the cells is destroyed. -/
theorem rel_delete (hc : c.Good) (h : RelE c env us σ w) {x : Nat} (hx : us x ≠ .dead) :
    ∃ s', delete c x w = .ok () { w with strs := s' } ∧ RelE c (env.upd x .dead) (us.upd x .dead) σ { w with strs := s' } := by
  obtain ⟨hn, he⟩ := user_not_cell h hx
  obtain ⟨s', h1, hR⟩ := do_destroy hc.valid hc.phys h.reach (by rw [he]; exact hx)
  refine ⟨s', strs_ok h1, h.user hR (fun a y hy => Env.upd_ne fun (e : y = x) => hn a (e ▸ hy)) (fun a y hy => ?_) fun y hy => ?_⟩
  · rw [Env.upd_ne fun (e : y = x) => hn a (e ▸ hy)]; exact (h.cell a y hy).2
  · by_cases e : y = x
    · subst e; rw [Env.upd_self, Env.upd_self]
    · rw [Env.upd_ne e, Env.upd_ne e]; exact h.rest y hy

/-! ## Elements -/

/-- `Buf(i)` of the array is a cell: its handle and its value. -/
theorem cell_ok (h : RelE c env us σ w) {o i : Nat} {xs : List Elem} {σ' : St Elem} (hx : readRange o i 1 σ = .ok xs σ') :
    σ' = σ ∧ ∃ t a b ob, w.arrs.obj o = some ob ∧ ob.ref = some a ∧ w.arrs.blk a = some b ∧ ob.offset + i < b.cells.length ∧
      b.cells[ob.offset + i]? = some t ∧ window b.cells (ob.offset + i) 1 = [t] ∧
      cell o i w = .ok t w ∧ xs = [env t] ∧ t ∈ b.cells := by
  obtain ⟨rfl, ob, ho, hcase⟩ := readRange_inv hx
  rcases hcase with ⟨h0, _⟩ | ⟨a, B, hr, hB, hle, rfl⟩
  · cases h0
  obtain ⟨b, hb, rfl⟩ := h.like.blk_inv hB
  rw [h.like.obj] at ho
  have hle' : ob.offset + i + 1 ≤ b.cells.length := by simpa [mapBlk] using hle
  have hlt : ob.offset + i < b.cells.length := hle'
  have hw : window b.cells (ob.offset + i) 1 = [b.cells[ob.offset + i]] := by
    unfold window
    rw [List.drop_eq_getElem_cons hlt]; rfl
  refine ⟨rfl, b.cells[ob.offset + i], a, b, ob, ho, hr, hb, hlt, List.getElem?_eq_getElem hlt, hw, ?_, ?_, List.getElem_mem hlt⟩
  · unfold cell
    rw [pbind_ok (arrs_ok (readRange_do ho hr hb hle')), hw]
    rfl
  · show window (b.cells.map env) _ _ = _
    rw [window_map, hw]; rfl

/-- Reading an element copies it. -/
theorem match_get (hc : c.Good) (h : Rel c us σ w) {o i : Nat} :
    Match c us (get o i w) (Rca.read o i σ) fun t v us' _ σ' => us t = .dead ∧ ∃ y, v = some y ∧ us' = us.upd t y ∧ σ' = σ := by
  obtain ⟨env, h⟩ := h
  unfold get Rca.read
  cases hx : readRange o i 1 σ with
  | ub => rw [bind_ub hx]; trivial
  | throw e σ' => exact (readRange_nothrow hx).elim
  | ok xs σ' =>
    obtain ⟨rfl, t, a, b, ob, _, _, hb, _, _, _, hcell, rfl, hm⟩ := cell_ok h hx
    rw [bind_ok hx, pbind_ok hcell]
    obtain ⟨t', s', h1, hd, hR⟩ := rel_newCopy hc h (h.live hb hm)
    exact ⟨t', _, _, h1, ⟨_, hR⟩, hd, env t, rfl, rfl, rfl⟩

theorem match_getAt (hc : c.Good) (h : Rel c us σ w) {o i : Nat} :
    Match c us (getAt o i w) (Rca.at' o i σ) fun t v us' _ _ => us t = .dead ∧ ∃ y, v = some y ∧ us' = us.upd t y := by
  unfold getAt Rca.at'
  refine match_then (.validateIndex o i) h fun _ w1 σ1 _ hR1 => ?_
  exact match_mono (match_get hc hR1) fun _ _ _ _ _ hq => ⟨hq.1, hq.2.imp fun _ hy => ⟨hy.1, hy.2.1⟩⟩

theorem match_write (hc : c.Good) (h : Rel c us σ w) {o i x : Nat} (hf : Fit σ o) (hx : us x ≠ .dead) :
    Match c us (write c o i x w) (Rca.write c.val o i (us x) σ) fun _ _ us' _ _ => us' = us := by
  unfold write Rca.write
  refine match_bind (match_getOwnCopy hc h hf) ?_
  rintro _ _ us' w1 σ1 _ hR1 rfl
  exact match_mono (match_assignCells hc hR1 (hs := [x]) (by simpa using hx)) fun _ _ _ _ _ hq => hq.1

/-- After the strings changed, nothing may throw any more. -/
theorem match_weaken {us' : Env UInt8} {r : Res α} {r' : Bdlib.Res Elem β}
    {Q : α → β → Env UInt8 → World → St Elem → Prop} (h : Match c us' r r' Q) (hn : ∀ e σ', r' ≠ .throw e σ') :
    Match c us r r' Q := by
  cases r' with
  | ub => trivial
  | ok b σ' => exact h
  | throw e σ' => exact absurd rfl (hn e σ')

theorem writeRange_nothrow {T : Type} {o i : Nat} {xs : List T} {s s' : St T} {e : Exc} : writeRange o i xs s ≠ .throw e s' := by
  intro h
  rcases writeRange_inv (o := o) (i := i) (s := s) (xs := xs) with he | ⟨_, _, he⟩ | ⟨_, _, _, _, _, _, _, he⟩ <;>
    rw [he] at h <;> cases h

theorem match_assignMoveCell (hc : c.Good) (h : Rel c us σ w) {o i x : Nat} (hx : us x ≠ .dead) :
    Match c us (assignMoveCell c o i x w) (writeRange o i [us x] σ)
      fun _ _ us' w' _ => us' = us.upd x (movedSlot c.str) ∧ w'.arrs = w.arrs := by
  obtain ⟨env, h⟩ := h
  obtain ⟨hn, he⟩ := user_not_cell h hx
  rcases writeRange_inv (o := o) (i := i) (s := σ) (xs := [us x]) with hu | ⟨hnil, _, _⟩ | ⟨ob, a, B, ho, hr, hB, hle, hw⟩
  · rw [hu]; trivial
  · cases hnil
  · rw [hw]
    obtain ⟨b, hb, rfl⟩ := h.like.blk_inv hB
    rw [h.like.obj] at ho
    have hle' : ob.offset + i + 1 ≤ b.cells.length := by simpa [mapBlk] using hle
    have hlt : ob.offset + i < b.cells.length := hle'
    have hwin : window b.cells (ob.offset + i) 1 = [b.cells[ob.offset + i]] := by
      unfold window
      rw [List.drop_eq_getElem_cons hlt]; rfl
    have hmem : b.cells[ob.offset + i] ∈ b.cells := List.getElem_mem hlt
    generalize hd : b.cells[ob.offset + i] = d at hwin hmem
    have hdx : d ≠ x := fun e => hn a (by rw [cellsAt_some hb, ← e]; exact hmem)
    obtain ⟨s', h1, hR⟩ := do_moveAssign hc.valid hc.phys h.reach (h.live hb hmem) (r := x) (by rw [he]; exact hx)
    rw [if_neg hdx] at hR
    refine ⟨(), { w with strs := s' }, us.upd x (movedSlot c.str), ?_, ⟨(env.upd x (movedSlot c.str)).upd d (env x), ?_⟩, rfl, rfl⟩
    · unfold assignMoveCell
      rw [pbind_ok (arrs_ok (readRange_do ho hr hb hle')), hwin]
      show (strs (Rca.moveAssign c.str d x) >>= fun _ => assignMoves c [] []) w = _
      rw [pbind_ok (strs_ok h1)]
      rfl
    · have hnd := h.nodup_blk hb
      have hcell : ∀ y, y ≠ d → y ≠ x → ((env.upd x (movedSlot c.str)).upd d (env x)) y = env y := fun y h1 h2 => by
        rw [Env.upd_ne h1, Env.upd_ne h2]
      have hmap : b.cells.map ((env.upd x (movedSlot c.str)).upd d (env x)) =
          overwrite (b.cells.map env) (ob.offset + i) [us x] := by
        refine overwrite_map hnd (n := 1) hle' ?_ fun y hy hyw => ?_
        · rw [hwin]
          simp only [List.map_cons, List.map_nil]
          rw [Env.upd_self, he]
        · rw [hwin, List.mem_singleton] at hyw
          exact hcell y hyw fun e => hn a (by rw [cellsAt_some hb, ← e]; exact hy)
      have key := RelE.block h (us' := us.upd x (movedSlot c.str)) hR hb (fun y hy => ?_) (fun a' y hne hy => ?_) (fun a' y hy => ?_) fun y hy => ?_
      · have e : mapBlk ((env.upd x (movedSlot c.str)).upd d (env x)) b =
            { mapBlk env b with cells := overwrite (mapBlk env b).cells (ob.offset + i) [us x] } := by
          unfold mapBlk
          simp only
          rw [hmap]
        rw [e] at key
        exact key
      · by_cases e : y = d
        · subst e; rw [Env.upd_self, he]; exact hx
        · rw [hcell y e fun e' => hn a (by rw [cellsAt_some hb, ← e']; exact hy)]; exact h.live hb hy
      · refine hcell y (fun e => hne (h.disj a' a y hy (by rw [cellsAt_some hb, e]; exact hmem))) fun e => hn a' (e ▸ hy)
      · rw [Env.upd_ne fun (e : y = x) => hn a' (e ▸ hy)]; exact (h.cell a' y hy).2
      · have hyd : y ≠ d := fun e => hy a (by rw [cellsAt_some hb, e]; exact hmem)
        rw [Env.upd_ne hyd]
        by_cases e : y = x
        · subst e; rw [Env.upd_self, Env.upd_self]
        · rw [Env.upd_ne e, Env.upd_ne e]; exact h.rest y hy

theorem match_writeMove (hc : c.Good) (h : Rel c us σ w) {o i x : Nat} (hf : Fit σ o) (hx : us x ≠ .dead) :
    Match c us (writeMove c o i x w) (Rca.write c.val o i (us x) σ) fun _ _ us' _ _ => us' = us.upd x (movedSlot c.str) := by
  unfold writeMove Rca.write
  refine match_bind (match_getOwnCopy hc h hf) ?_
  rintro _ _ us' w1 σ1 _ hR1 rfl
  exact match_mono (match_assignMoveCell hc hR1 hx) fun _ _ _ _ _ hq => hq.1

/-! ## Insertion -/

theorem match_bumpLength (h : Rel c us σ w) {o k : Nat} :
    Match c us (arrs (Rca.bumpLength o k) w) (Rca.bumpLength o k σ) fun _ _ us' _ _ => us' = us :=
  match_mono (match_arrs (.bumpLength o k) h) fun _ _ _ _ _ hq => hq.2.1

theorem bumpLength_nothrow {T : Type} {o k : Nat} {s s' : St T} {e : Exc} : Rca.bumpLength o k s ≠ .throw e s' := by
  intro h
  unfold Rca.bumpLength at h
  cases ho : s.obj o with
  | none => rw [bind_ub (getObj_ub ho)] at h; cases h
  | some ob => rw [bind_ok (getObj_eq ho)] at h; cases h

theorem pbind_assoc (m : P α) (f : α → P β) (g : β → P γ) : ((m >>= f) >>= g) = (m >>= fun a => f a >>= g) := by
  funext w
  show P.bind (P.bind m f) g w = P.bind m (fun a => P.bind (f a) g) w
  unfold P.bind
  cases m w <;> rfl

theorem match_makeRoom (hc : c.Good) (h : Rel c us σ w) {o pos : Nat} (hf : Fit σ o) {f : P γ} {f' : M Elem δ}
    {Q : γ → δ → Env UInt8 → World → St Elem → Prop}
    (hf' : ∀ w' σ', Rel c us σ' w' → Match c us (f w') (f' σ') Q) :
    Match c us ((makeRoom c o pos >>= fun _ => f) w) ((do
      Rca.validatePos o pos
      let n ← Rca.length o
      Rca.aboutToModify c.val o (n + 1)
      Rca.shiftRight o pos 1
      f' : M Elem δ) σ) Q := by
  unfold makeRoom
  simp only [pbind_assoc]
  refine match_then (.validatePos o pos) h fun _ w1 σ1 h1 hR1 => ?_
  have e1 := validatePos_inv h1
  subst e1
  refine match_then (.length o) hR1 fun n w2 σ2 h2 hR2 => ?_
  have e2 := length_inv h2
  subst e2
  refine match_bind (match_aboutToModify hc hR2 hf) ?_
  rintro _ _ us' w3 σ3 _ hR3 rfl
  refine match_bind (match_shiftRight hc hR3) ?_
  rintro _ _ us' w4 σ4 _ hR4 ⟨rfl, _⟩
  exact hf' _ _ hR4

theorem match_insertItem (hc : c.Good) (h : Rel c us σ w) {o pos x : Nat} (hf : Fit σ o) (hx : us x ≠ .dead) :
    Match c us (insertItem c o pos x w) (Rca.insertItem c.val o pos (us x) σ) fun _ _ us' _ _ => us' = us := by
  unfold insertItem Rca.insertItem
  refine match_makeRoom hc h hf fun w1 σ1 hR1 => ?_
  refine match_bind (match_assignCells hc hR1 (hs := [x]) (by simpa using hx)) ?_
  rintro _ _ us' w2 σ2 _ hR2 ⟨rfl, _⟩
  exact match_bumpLength hR2

theorem match_insertItemMove (hc : c.Good) (h : Rel c us σ w) {o pos x : Nat} (hf : Fit σ o) (hx : us x ≠ .dead) :
    Match c us (insertItemMove c o pos x w) (Rca.insertItem c.val o pos (us x) σ)
      fun _ _ us' _ _ => us' = us.upd x (movedSlot c.str) := by
  unfold insertItemMove Rca.insertItem
  refine match_makeRoom hc h hf fun w1 σ1 hR1 => ?_
  refine match_bind (match_assignMoveCell hc hR1 hx) ?_
  rintro _ _ us' w2 σ2 _ hR2 ⟨rfl, _⟩
  exact match_weaken (match_bumpLength hR2) fun e σ' => bumpLength_nothrow

theorem match_append (hc : c.Good) (h : Rel c us σ w) {o x : Nat} (hf : Fit σ o) (hx : us x ≠ .dead) :
    Match c us (append c o x w) (Rca.append c.val o (us x) σ) fun _ _ us' _ _ => us' = us := by
  unfold append Rca.append
  refine match_then (.length o) h fun n w1 σ1 h1 hR1 => ?_
  have e1 := length_inv h1
  subst e1
  exact match_insertItem hc hR1 hf hx

theorem match_appendMove (hc : c.Good) (h : Rel c us σ w) {o x : Nat} (hf : Fit σ o) (hx : us x ≠ .dead) :
    Match c us (appendMove c o x w) (Rca.append c.val o (us x) σ) fun _ _ us' _ _ => us' = us.upd x (movedSlot c.str) := by
  unfold appendMove Rca.append
  refine match_then (.length o) h fun n w1 σ1 h1 hR1 => ?_
  have e1 := length_inv h1
  subst e1
  exact match_insertItemMove hc hR1 hf hx

theorem match_insertBody (hc : c.Good) (h : Rel c us σ w) {o pos r n : Nat} (hf : Fit σ o) :
    Match c us (insertBody c o pos r n w) (Rca.insertBody c.val o pos r n σ) fun _ _ us' _ _ => us' = us := by
  unfold insertBody Rca.insertBody
  refine match_then (.length o) h fun n w1 σ1 h1 hR1 => ?_
  have e1 := length_inv h1
  subst e1
  refine match_bind (match_aboutToModify hc hR1 hf) ?_
  rintro _ _ us' w3 σ3 _ hR3 rfl
  refine match_bind (match_shiftRight hc hR3) ?_
  rintro _ _ us' w4 σ4 _ hR4 ⟨rfl, _⟩
  refine match_bind (match_copyRange hc hR4) ?_
  rintro _ _ us' w5 σ5 _ hR5 ⟨rfl, _⟩
  exact match_bumpLength hR5

theorem match_replaceBody (hc : c.Good) (h : Rel c us σ w) {o pos r n : Nat} (hf : Fit σ o) :
    Match c us (replaceBody c o pos r n w) (Rca.replaceBody c.val o pos r n σ) fun _ _ us' _ _ => us' = us := by
  unfold replaceBody Rca.replaceBody
  refine match_then (.length o) h fun n w1 σ1 h1 hR1 => ?_
  have e1 := length_inv h1
  subst e1
  refine match_bind (match_aboutToModify hc hR1 hf) ?_
  rintro _ _ us' w3 σ3 _ hR3 rfl
  refine match_bind (match_copyRange hc hR3) ?_
  rintro _ _ us' w5 σ5 _ hR5 ⟨rfl, _⟩
  exact match_putLength hR5

/-- What the array inserts and replaces share: the position check and the two lengths. -/
theorem match_checked (h : Rel c us σ w) {o pos r : Nat} {f : Nat → Nat → P γ} {f' : Nat → Nat → M Elem δ}
    {Q : γ → δ → Env UInt8 → World → St Elem → Prop}
    (hf' : ∀ slen len w', Rel c us σ w' → Match c us (f slen len w') (f' slen len σ) Q) :
    Match c us ((do
      arrs (Rca.validatePos o pos)
      let slen ← arrs (Rca.length r)
      let len ← arrs (Rca.length o)
      f slen len : P γ) w) ((do
      Rca.validatePos o pos
      let slen ← Rca.length r
      let len ← Rca.length o
      f' slen len : M Elem δ) σ) Q := by
  refine match_then (.validatePos o pos) h fun _ w1 σ1 h1 hR1 => ?_
  have e1 := validatePos_inv h1
  subst e1
  refine match_then (.length r) hR1 fun slen w2 σ2 h2 hR2 => ?_
  have e2 := length_inv h2
  subst e2
  refine match_then (.length o) hR2 fun len w3 σ3 h3 hR3 => ?_
  have e3 := length_inv h3
  subst e3
  exact hf' slen len w3 hR3

theorem match_insertArrN (hc : c.Good) (h : Rel c us σ w) {o pos r n : Nat} (hf : Fit σ o) :
    Match c us (insertArrN c o pos r n w) (Rca.insertRcaN c.val o pos r n σ) fun _ _ us' _ _ => us' = us := by
  unfold insertArrN Rca.insertRcaN
  refine match_ite (fun _ => match_pure h rfl) fun _ => match_checked h fun slen len w' hR => ?_
  exact match_ite (fun _ => match_copyAssign hc hR) fun _ => match_insertBody hc hR hf

theorem match_insertArr (hc : c.Good) (h : Rel c us σ w) {o pos r : Nat} (hf : Fit σ o) :
    Match c us (insertArr c o pos r w) (Rca.insertRca c.val o pos r σ) fun _ _ us' _ _ => us' = us := by
  unfold insertArr Rca.insertRca
  refine match_checked h fun slen len w' hR => ?_
  exact match_ite (fun _ => match_copyAssign hc hR) fun _ => match_insertBody hc hR hf

theorem match_insertArrMoveN (hc : c.Good) (h : Rel c us σ w) {o pos r n : Nat} (hf : Fit σ o) :
    Match c us (insertArrMoveN c o pos r n w) (Rca.insertMoveN c.val o pos r n σ) fun _ _ us' _ _ => us' = us := by
  unfold insertArrMoveN Rca.insertMoveN
  refine match_ite (fun _ => match_pure h rfl) fun _ => match_checked h fun slen len w' hR => ?_
  exact match_ite (fun _ => match_moveAssign hc hR) fun _ => match_insertBody hc hR hf

theorem match_insertArrMove (hc : c.Good) (h : Rel c us σ w) {o pos r : Nat} (hf : Fit σ o) :
    Match c us (insertArrMove c o pos r w) (Rca.insertMove c.val o pos r σ) fun _ _ us' _ _ => us' = us := by
  unfold insertArrMove Rca.insertMove
  refine match_checked h fun slen len w' hR => ?_
  exact match_ite (fun _ => match_moveAssign hc hR) fun _ => match_insertBody hc hR hf

theorem match_appendArr (hc : c.Good) (h : Rel c us σ w) {o r n : Nat} (hf : Fit σ o) :
    Match c us (appendArr c o r n w) (Rca.appendRca c.val o r n σ) fun _ _ us' _ _ => us' = us := by
  unfold appendArr Rca.appendRca
  refine match_then (.length o) h fun n w1 σ1 h1 hR1 => ?_
  have e1 := length_inv h1
  subst e1
  exact match_insertArrN hc hR1 hf

theorem match_appendArrMove (hc : c.Good) (h : Rel c us σ w) {o r n : Nat} (hf : Fit σ o) :
    Match c us (appendArrMove c o r n w) (Rca.appendMove c.val o r n σ) fun _ _ us' _ _ => us' = us := by
  unfold appendArrMove Rca.appendMove
  refine match_then (.length o) h fun n w1 σ1 h1 hR1 => ?_
  have e1 := length_inv h1
  subst e1
  exact match_insertArrMoveN hc hR1 hf

/-! ## Replacement -/

theorem match_replaceItem (hc : c.Good) (h : Rel c us σ w) {o pos x : Nat} (hf : Fit σ o) (hx : us x ≠ .dead) :
    Match c us (replaceItem c o pos x w) (Rca.replaceItem c.val o pos (us x) σ) fun _ _ us' _ _ => us' = us := by
  unfold replaceItem Rca.replaceItem
  refine match_then (.validatePos o pos) h fun _ w1 σ1 h1 hR1 => ?_
  have e1 := validatePos_inv h1
  subst e1
  refine match_bind (match_getOwnCopy hc hR1 hf) ?_
  rintro _ _ us' w2 σ2 _ hR2 rfl
  exact match_mono (match_assignCells hc hR2 (hs := [x]) (by simpa using hx)) fun _ _ _ _ _ hq => hq.1

theorem match_replaceItemMove (hc : c.Good) (h : Rel c us σ w) {o pos x : Nat} (hf : Fit σ o) (hx : us x ≠ .dead) :
    Match c us (replaceItemMove c o pos x w) (Rca.replaceItem c.val o pos (us x) σ)
      fun _ _ us' _ _ => us' = us.upd x (movedSlot c.str) := by
  unfold replaceItemMove Rca.replaceItem
  refine match_then (.validatePos o pos) h fun _ w1 σ1 h1 hR1 => ?_
  have e1 := validatePos_inv h1
  subst e1
  refine match_bind (match_getOwnCopy hc hR1 hf) ?_
  rintro _ _ us' w2 σ2 _ hR2 rfl
  exact match_mono (match_assignMoveCell hc hR2 hx) fun _ _ _ _ _ hq => hq.1

theorem match_replaceArr (hc : c.Good) (h : Rel c us σ w) {o pos r n : Nat} (hf : Fit σ o) :
    Match c us (replaceArr c o pos r n w) (Rca.replaceRca c.val o pos r n σ) fun _ _ us' _ _ => us' = us := by
  unfold replaceArr Rca.replaceRca
  refine match_ite (fun _ => match_pure h rfl) fun _ => match_checked h fun slen len w' hR => ?_
  exact match_ite (fun _ => match_copyAssign hc hR) fun _ => match_replaceBody hc hR hf

theorem match_replaceArrMove (hc : c.Good) (h : Rel c us σ w) {o pos r n : Nat} (hf : Fit σ o) :
    Match c us (replaceArrMove c o pos r n w) (Rca.replaceMove c.val o pos r n σ) fun _ _ us' _ _ => us' = us := by
  unfold replaceArrMove Rca.replaceMove
  refine match_ite (fun _ => match_pure h rfl) fun _ => match_checked h fun slen len w' hR => ?_
  exact match_ite (fun _ => match_moveAssign hc hR) fun _ => match_replaceBody hc hR hf

/-! ## Taking elements out -/

theorem window_one {T : Type} {l : List T} {k : Nat} (h : k < l.length) : window l k 1 = [l[k]] := by
  unfold window
  rw [List.drop_eq_getElem_cons h]; rfl

/-- The element at an index leaves the array: copied out of shared storage, moved out otherwise. -/
theorem match_takeCell (hc : c.Good) (h : Rel c us σ w) {o i : Nat} {f : Nat → P γ} {f' : List Elem → M Elem δ}
    {Q : γ → δ → Env UInt8 → World → St Elem → Prop}
    (hf' : ∀ t y w' σ', us t = .dead → Rel c (us.upd t y) σ' w' → Match c us (f t w') (f' [y] σ') Q) :
    Match c us ((takeCell c o i >>= f) w) ((do
      let xs ← readRange o i 1
      let b ← Rca.isShared o
      if b then f' xs
      else do
        writeRange o i (xs.map c.val.moved)
        f' xs : M Elem δ) σ) Q := by
  obtain ⟨env, h⟩ := h
  unfold takeCell
  cases hx : readRange o i 1 σ with
  | ub => rw [bind_ub hx]; trivial
  | throw e σ' => exact (readRange_nothrow hx).elim
  | ok xs σ' =>
    obtain ⟨rfl, t, a, b, ob, ho, hr, hb, hlt, hget, hwin, hcell, rfl, hm⟩ := cell_ok h hx
    have hB : σ'.blk a = some (mapBlk env b) := by rw [h.like.blk, hb]; rfl
    have hoσ : σ'.obj o = some ob := by rw [h.like.obj]; exact ho
    have hs : Rca.isShared o w.arrs = .ok (decide (b.refs > 1)) w.arrs := by
      unfold Rca.isShared
      rw [bind_ok (getObj_eq ho)]
      simp only [hr]
      rw [bind_ok (getBlk_eq hb)]; rfl
    have hsσ : Rca.isShared o σ' = .ok (decide (b.refs > 1)) σ' := by
      unfold Rca.isShared
      rw [bind_ok (getObj_eq hoσ)]
      simp only [hr]
      rw [bind_ok (getBlk_eq hB)]; rfl
    rw [bind_ok hx, pbind_assoc, pbind_ok hcell, pbind_assoc, pbind_ok (arrs_ok hs)]
    rw [bind_ok hsσ]
    have hlive := h.live hb hm
    by_cases hsh : decide (b.refs > 1) = true
    · rw [if_pos hsh, if_pos hsh]
      obtain ⟨t', s', h1, hd, hR⟩ := rel_newCopy hc h hlive
      rw [pbind_ok h1]
      exact hf' t' (env t) _ _ hd ⟨_, hR⟩
    · rw [if_neg hsh, if_neg hsh]
      obtain ⟨t', s', h1, hd, hne, hR⟩ := do_moveCtor hc.valid hc.phys h.reach hlive
      have hbn := h.born hd
      have hud : us t' = .dead := by rw [h.rest t' hbn]; exact hd
      have hta : t ∈ cellsAt w.arrs a := by rw [cellsAt_some hb]; exact hm
      have hle : ob.offset + i + 1 ≤ b.cells.length := hlt
      have hmap : b.cells.map ((env.upd t (movedSlot c.str)).upd t' (env t)) =
          overwrite (b.cells.map env) (ob.offset + i) [movedSlot c.str] := by
        refine overwrite_map (h.nodup_blk hb) (n := 1) hle ?_ fun y hy hyw => ?_
        · rw [hwin]
          simp only [List.map_cons, List.map_nil]
          rw [Env.upd_ne (Ne.symm hne), Env.upd_self]
        · rw [hwin, List.mem_singleton] at hyw
          rw [Env.upd_ne fun (e : y = t') => hbn a (by rw [cellsAt_some hb, ← e]; exact hy), Env.upd_ne hyw]
      have key := RelE.block h (us' := us.upd t' (env t)) hR hb (fun y hy => ?_) (fun a' y hna hy => ?_) (fun a' y hy => ?_) fun y hy => ?_
      · have e : mapBlk ((env.upd t (movedSlot c.str)).upd t' (env t)) b =
            { mapBlk env b with cells := overwrite (mapBlk env b).cells (ob.offset + i) [movedSlot c.str] } := by
          unfold mapBlk
          simp only
          rw [hmap]
        rw [e] at key
        rcases writeRange_inv (o := o) (i := i) (s := σ') (xs := [env t].map c.val.moved) with
          hu | ⟨hnil, _, _⟩ | ⟨ob', a', B, ho', hr', hB', _, hw⟩
        · rw [bind_ub hu]; trivial
        · cases hnil
        · rw [hoσ] at ho'; cases ho'
          rw [hr] at hr'; cases hr'
          rw [hB] at hB'; cases hB'
          rw [bind_ok hw, pbind_ok (m := newMove c t) (strs_ok h1)]
          exact hf' t' (env t) _ _ hud ⟨_, key⟩
      · by_cases e : y = t'
        · subst e; rw [Env.upd_self]; exact hlive
        · rw [Env.upd_ne e]
          by_cases e' : y = t
          · subst e'; rw [Env.upd_self]; exact movedSlot_ne hc.valid hc.phys
          · rw [Env.upd_ne e']; exact h.live hb hy
      · rw [Env.upd_ne fun (e : y = t') => hbn a' (e ▸ hy), Env.upd_ne fun (e : y = t) => hna (h.disj a' a y hy (e ▸ hta))]
      · rw [Env.upd_ne fun (e : y = t') => hbn a' (e ▸ hy)]; exact (h.cell a' y hy).2
      · by_cases e : y = t'
        · subst e; rw [Env.upd_self, Env.upd_self]
        · rw [Env.upd_ne e, Env.upd_ne e, Env.upd_ne fun (e' : y = t) => hy a (e' ▸ hta)]; exact h.rest y hy

theorem match_shift (hc : c.Good) (h : Rel c us σ w) {o : Nat} :
    Match c us (shift c o w) (Rca.shift c.val o σ) fun t v us' _ _ => us t = .dead ∧ ∃ y, v = some y ∧ us' = us.upd t y := by
  unfold shift Rca.shift
  refine match_takeCell hc h (f' := fun xs => do
      let ob ← getObj o
      putObj o { ob with offset := ob.offset + 1, sublen := sub64 ob.sublen 1, hash := 0 }
      return xs.head?) fun t y w' σ' hd hR => ?_
  refine match_weaken (us' := us.upd t y) ?_ fun e σ'' he => ?_
  · refine match_then (.getObj o) hR fun ob w1 σ1 _ hR1 => match_then (.putObj _ _) hR1 fun _ w2 σ2 _ hR2 => ?_
    exact match_pure hR2 ⟨hd, y, rfl, rfl⟩
  · cases ho : σ'.obj o with
    | none => rw [bind_ub (getObj_ub ho)] at he; cases he
    | some ob => rw [bind_ok (getObj_eq ho)] at he; cases he

theorem match_pop (hc : c.Good) (h : Rel c us σ w) {o : Nat} :
    Match c us (pop c o w) (Rca.pop c.val o σ) fun t v us' _ _ => us t = .dead ∧ ∃ y, v = some y ∧ us' = us.upd t y := by
  unfold pop Rca.pop
  refine match_then (.getObj o) h fun ob w1 σ1 _ hR1 => ?_
  refine match_takeCell hc hR1 (f' := fun xs => do
      Rca.popBack o
      return xs.head?) fun t y w' σ' hd hR => ?_
  refine match_weaken (us' := us.upd t y) ?_ fun e σ'' he => ?_
  · refine match_then (.popBack o) hR fun _ w2 σ2 _ hR2 => ?_
    exact match_pure hR2 ⟨hd, y, rfl, rfl⟩
  · unfold Rca.popBack at he
    rw [bind_assoc'] at he
    cases ho : σ'.obj o with
    | none => rw [bind_ub (getObj_ub ho)] at he; cases he
    | some ob => rw [bind_ok (getObj_eq ho)] at he; cases he

end Bdlib.Nest
