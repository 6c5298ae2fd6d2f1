import Verif.Nest.Par

/-!
# `Array<String>` stays in step with arrays of values

`Rel c us σ w`: the array memory of `w`, with every handle replaced by what the string behind it holds, is
`σ`; the strings that do not live in a cell of an array are those of `us`; no string lives in two cells.
`Match`: the outcome of code on `w` matches the outcome of the corresponding code of `Rca/Model.lean` on `σ`.
-/

namespace Bdlib.Nest
open Bdlib Bdlib.Spec Bdlib.Rca
open P (strs arrs undef)

structure RelE (c : Conf) (env us : Env UInt8) (σ : St Elem) (w : World) : Prop where
  reach : Reach c.str w.strs env
  like : Like env w.arrs σ
  nodup : ∀ a, (cellsAt w.arrs a).Nodup
  disj : ∀ a a' h, h ∈ cellsAt w.arrs a → h ∈ cellsAt w.arrs a' → a = a'
  cell : ∀ a h, h ∈ cellsAt w.arrs a → env h ≠ .dead ∧ us h = .dead
  rest : ∀ h, (∀ a, h ∉ cellsAt w.arrs a) → us h = env h

def Rel (c : Conf) (us : Env UInt8) (σ : St Elem) (w : World) : Prop := ∃ env, RelE c env us σ w

/-- The outcome of the nested code matches, unless the code on values is undefined. -/
def Match {α β : Type} (c : Conf) (us : Env UInt8) (r : Res α) (r' : Bdlib.Res Elem β)
    (Q : α → β → Env UInt8 → World → St Elem → Prop) : Prop :=
  match r' with
  | .ub => True
  | .ok b σ => ∃ a w us', r = .ok a w ∧ Rel c us' σ w ∧ Q a b us' w σ
  | .throw e σ => ∃ w, r = .throw e w ∧ Rel c us σ w

section
variable {c : Conf} {us : Env UInt8} {env : Env UInt8} {σ : St Elem} {w : World} {α β γ δ : Type}

theorem match_bind {m : P α} {f : α → P γ} {m' : M Elem β} {f' : β → M Elem δ}
    {Q : α → β → Env UInt8 → World → St Elem → Prop} {Q' : γ → δ → Env UInt8 → World → St Elem → Prop}
    (h : Match c us (m w) (m' σ) Q)
    (hf : ∀ a b us' w' σ', m' σ = .ok b σ' → Rel c us' σ' w' → Q a b us' w' σ' → Match c us (f a w') (f' b σ') Q') :
    Match c us ((m >>= f) w) ((m' >>= f') σ) Q' := by
  show Match c us (P.bind m f w) (M.bind m' f' σ) Q'
  unfold M.bind
  cases hm : m' σ with
  | ub => trivial
  | throw e σ' =>
    rw [hm] at h
    obtain ⟨w', h1, h2⟩ := h
    exact ⟨w', by simp only [P.bind, h1], h2⟩
  | ok b σ' =>
    rw [hm] at h
    obtain ⟨a, w', us', h1, h2, h3⟩ := h
    have := hf a b us' w' σ' hm h2 h3
    simp only [P.bind, h1]
    exact this

theorem match_mono {r : Res α} {r' : Bdlib.Res Elem β} {Q Q' : α → β → Env UInt8 → World → St Elem → Prop}
    (h : Match c us r r' Q) (hq : ∀ a b us' w' σ', Q a b us' w' σ' → Q' a b us' w' σ') : Match c us r r' Q' := by
  cases r' with
  | ub => trivial
  | throw e σ' => exact h
  | ok b σ' =>
    obtain ⟨a, w', us', h1, h2, h3⟩ := h
    exact ⟨a, w', us', h1, h2, hq _ _ _ _ _ h3⟩

theorem match_pure {a : α} {b : β} {Q : α → β → Env UInt8 → World → St Elem → Prop} (h : Rel c us σ w)
    (hq : Q a b us w σ) : Match c us ((pure a : P α) w) ((pure b : M Elem β) σ) Q := ⟨a, w, us, rfl, h, hq⟩

theorem match_undef {r : Res α} {Q : α → β → Env UInt8 → World → St Elem → Prop} :
    Match c us r ((M.undef : M Elem β) σ) Q := trivial

theorem match_ite {p : Prop} [Decidable p] {m n : P α} {m' n' : M Elem β}
    {Q : α → β → Env UInt8 → World → St Elem → Prop} (h1 : p → Match c us (m w) (m' σ) Q)
    (h2 : ¬ p → Match c us (n w) (n' σ) Q) :
    Match c us ((if p then m else n) w) ((if p then m' else n') σ) Q := by
  split
  · rename_i h; exact h1 h
  · rename_i h; exact h2 h

theorem match_onThrow {m : P α} {d : P Unit} {m' : M Elem β} {d' : M Elem Unit}
    {Q : α → β → Env UInt8 → World → St Elem → Prop} (h : Match c us (m w) (m' σ) Q)
    (hd : ∀ e w' σ', m' σ = .throw e σ' → Rel c us σ' w' → Match c us (d w') (d' σ') fun _ _ us' _ _ => us' = us) :
    Match c us (m.onThrow d w) (m'.onThrow d' σ) Q := by
  unfold M.onThrow P.onThrow
  cases hm : m' σ with
  | ub => trivial
  | ok b σ' =>
    rw [hm] at h
    obtain ⟨a, w', us', h1, h2, h3⟩ := h
    simp only [h1]
    exact ⟨a, w', us', rfl, h2, h3⟩
  | throw e σ' =>
    rw [hm] at h
    obtain ⟨w', h1, h2⟩ := h
    have := hd e w' σ' hm h2
    simp only [h1]
    cases hd' : d' σ' with
    | ub => trivial
    | throw e' σ'' => trivial
    | ok b σ'' =>
      rw [hd'] at this
      obtain ⟨_, w'', us', h3, h4, rfl⟩ := this
      simp only [h3]
      exact ⟨w'', rfl, h4⟩

theorem SameCells.rel {s' : St Nat} {σ' : St Elem} (hs : SameCells w.arrs s') (h : RelE c env us σ w)
    (hl : Like env s' σ') : RelE c env us σ' { w with arrs := s' } := by
  refine ⟨h.reach, hl, fun a => ?_, fun a a' x => ?_, fun a x => ?_, fun x => ?_⟩
  · show (cellsAt s' a).Nodup; rw [hs a]; exact h.nodup a
  · show x ∈ cellsAt s' a → x ∈ cellsAt s' a' → _; rw [hs a, hs a']; exact h.disj a a' x
  · show x ∈ cellsAt s' a → _; rw [hs a]; exact h.cell a x
  · intro hx; exact h.rest x fun a => by have := hx a; show x ∉ cellsAt w.arrs a; rw [← hs a]; exact this

/-- Code without effect on elements. -/
theorem match_arrs {m : M Nat α} {m' : M Elem α} (hm : Par m m') (h : Rel c us σ w) :
    Match c us (arrs m w) (m' σ) fun a b us' w' _ => a = b ∧ us' = us ∧ w'.strs = w.strs ∧ m w.arrs = .ok b w'.arrs := by
  obtain ⟨env, h⟩ := h
  have := hm env w.arrs σ h.like
  cases hr : m' σ with
  | ub => trivial
  | ok b σ' =>
    rw [hr] at this
    obtain ⟨s', h1, h2, h3⟩ := this
    exact ⟨b, _, us, arrs_ok h1, ⟨env, h3.rel h h2⟩, rfl, rfl, rfl, h1⟩
  | throw e σ' =>
    rw [hr] at this
    obtain ⟨s', h1, h2, h3⟩ := this
    exact ⟨_, arrs_throw h1, env, h3.rel h h2⟩

/-- Sequencing after code without effect on elements. -/
theorem match_then {m : M Nat α} {m' : M Elem α} {f : α → P γ} {f' : α → M Elem δ}
    {Q : γ → δ → Env UInt8 → World → St Elem → Prop} (hm : Par m m') (h : Rel c us σ w)
    (hf : ∀ a w' σ', m' σ = .ok a σ' → Rel c us σ' w' → Match c us (f a w') (f' a σ') Q) :
    Match c us ((arrs m >>= f) w) ((m' >>= f') σ) Q := by
  refine match_bind (match_arrs hm h) ?_
  rintro a b us' w' σ' he hr ⟨rfl, rfl, _, _⟩
  exact hf a w' σ' he hr

theorem user_not_cell (h : RelE c env us σ w) {x : Nat} (hx : us x ≠ .dead) : (∀ a, x ∉ cellsAt w.arrs a) ∧ env x = us x := by
  have : ∀ a, x ∉ cellsAt w.arrs a := fun a hm => hx (h.cell a x hm).2
  exact ⟨this, (h.rest x this).symm⟩

/-! ## Changing the strings in the cells of one block -/

theorem RelE.block (h : RelE c env us σ w) {s' : St UInt8} {env' us' : Env UInt8} (hR : Reach c.str s' env') {a : Nat}
    {b : Block Nat} (hb : w.arrs.blk a = some b) (hlive : ∀ x ∈ b.cells, env' x ≠ .dead)
    (hoth : ∀ a' x, a' ≠ a → x ∈ cellsAt w.arrs a' → env' x = env x)
    (hcell : ∀ a' x, x ∈ cellsAt w.arrs a' → us' x = .dead)
    (hrest : ∀ x, (∀ a', x ∉ cellsAt w.arrs a') → us' x = env' x) :
    RelE c env' us' (σ.setBlk a (some (mapBlk env' b))) { w with strs := s' } := by
  refine ⟨hR, ⟨fun a' => ?_, ?_, h.like.objs, h.like.gen⟩, h.nodup, h.disj, fun a' x hx => ⟨?_, hcell a' x hx⟩, hrest⟩
  · by_cases he : a' = a
    · subst he
      rw [St.blk_setBlk_self _ (by rw [h.like.len]; exact St.blk_lt hb)]
      show _ = (w.arrs.blk a').map _
      rw [hb]; rfl
    · rw [St.blk_setBlk_ne _ he, h.like.blk]
      show (w.arrs.blk a').map _ = (w.arrs.blk a').map _
      cases hb' : w.arrs.blk a' with
      | none => rfl
      | some b' =>
        simp only [Option.map_some, mapBlk]
        have : b'.cells.map env = b'.cells.map env' :=
          List.map_congr_left fun x hx => (hoth a' x he (by rw [cellsAt_some hb']; exact hx)).symm
        rw [this]
  · simp only [St.setBlk, List.length_set]; exact h.like.len
  · by_cases he : a' = a
    · subst he
      change x ∈ cellsAt w.arrs a' at hx
      rw [cellsAt_some hb] at hx; exact hlive x hx
    · rw [hoth a' x he hx]; exact (h.cell a' x hx).1

/-- Cells `[i, i + n)` of block `a` were given other values. -/
theorem overwrite_map {cs : List Nat} {env env' : Env UInt8} {i n : Nat} {xs : List Elem} (hn : cs.Nodup)
    (hw : i + n ≤ cs.length) (hm : (window cs i n).map env' = xs)
    (hs : ∀ x ∈ cs, x ∉ window cs i n → env' x = env x) : cs.map env' = overwrite (cs.map env) i xs := by
  have hwl : (window cs i n).length = n := window_len hw
  have hxl : xs.length = n := by rw [← hm, List.length_map, hwl]
  apply List.ext_getElem?
  intro j
  rw [getElem?_overwrite (by rw [List.length_map]; omega), List.getElem?_map, List.getElem?_map, hxl]
  by_cases h1 : j < i
  · rw [if_pos h1]
    have hj : j < cs.length := by omega
    rw [List.getElem?_eq_getElem hj]
    simp only [Option.map_some]
    rw [hs _ (List.getElem_mem hj)]
    intro hmem
    obtain ⟨k, hk, he⟩ := List.getElem_of_mem hmem
    rw [hwl] at hk
    have e2 : (window cs i n)[k]? = cs[i + k]? := by rw [getElem?_window, if_pos hk]
    rw [List.getElem?_eq_getElem (by rw [hwl]; exact hk), he, ← List.getElem?_eq_getElem hj] at e2
    have := (List.getElem?_inj hj hn).1 e2
    omega
  · rw [if_neg h1]
    by_cases h2 : j < i + n
    · rw [if_pos h2, ← hm, List.getElem?_map, getElem?_window, if_pos (by omega)]
      congr 2; omega
    · rw [if_neg h2]
      by_cases hj : j < cs.length
      · rw [List.getElem?_eq_getElem hj]
        simp only [Option.map_some]
        rw [hs _ (List.getElem_mem hj)]
        intro hmem
        obtain ⟨k, hk, he⟩ := List.getElem_of_mem hmem
        rw [hwl] at hk
        have e2 : (window cs i n)[k]? = cs[i + k]? := by rw [getElem?_window, if_pos hk]
        rw [List.getElem?_eq_getElem (by rw [hwl]; exact hk), he, ← List.getElem?_eq_getElem hj] at e2
        have := (List.getElem?_inj hj hn).1 e2
        omega
      · rw [List.getElem?_eq_none (by omega)]; rfl

theorem mem_window {cs : List Nat} {i n x : Nat} (h : x ∈ window cs i n) : x ∈ cs := by
  unfold window at h
  exact List.mem_of_mem_drop (List.mem_of_mem_take h)

theorem RelE.wrote (h : RelE c env us σ w) {s' : St UInt8} {env' : Env UInt8} (hR : Reach c.str s' env') {a i n : Nat}
    {b : Block Nat} {xs : List Elem} (hb : w.arrs.blk a = some b) (hw : i + n ≤ b.cells.length)
    (hm : (window b.cells i n).map env' = xs) (hx : ∀ x ∈ xs, x ≠ .dead)
    (hs : ∀ x, x ∉ window b.cells i n → env' x = env x) :
    RelE c env' us (σ.setBlk a (some { mapBlk env b with cells := overwrite (mapBlk env b).cells i xs }))
      { w with strs := s' } := by
  have hnd : b.cells.Nodup := by have := h.nodup a; rwa [cellsAt_some hb] at this
  have hmap := overwrite_map hnd hw hm fun x _ => hs x
  have hin : ∀ x, x ∈ window b.cells i n → x ∈ cellsAt w.arrs a := fun x hx => by
    rw [cellsAt_some hb]; exact mem_window hx
  have key := h.block (us' := us) hR hb (fun x hxm => ?_) (fun a' x hne hxm => ?_) (fun a' x hxm => (h.cell a' x hxm).2)
    fun x hxm => ?_
  · have e : (mapBlk env' b) = { mapBlk env b with cells := overwrite (mapBlk env b).cells i xs } := by
      unfold mapBlk
      simp only
      rw [hmap]
    rw [e] at key
    exact key
  · by_cases hx' : x ∈ window b.cells i n
    · exact hx _ (by rw [← hm]; exact List.mem_map_of_mem hx')
    · rw [hs x hx']; exact (h.cell a x (by rw [cellsAt_some hb]; exact hxm)).1
  · exact hs x fun hx' => hne (h.disj a' a x hxm (hin x hx'))
  · rw [hs x fun hx' => hxm a (hin x hx')]; exact h.rest x hxm

/-! ## Reading and writing cells -/

/-- The code on values got past all checks: the range is in the buffer. -/
theorem readRange_inv {T : Type} {o i n : Nat} {s s' : St T} {xs : List T} (h : readRange o i n s = .ok xs s') :
    s' = s ∧ ∃ ob, s.obj o = some ob ∧ ((n = 0 ∧ xs = []) ∨ ∃ a b, ob.ref = some a ∧ s.blk a = some b ∧
      ob.offset + i + n ≤ b.cells.length ∧ xs = window b.cells (ob.offset + i) n) := by
  unfold readRange at h
  cases ho : s.obj o with
  | none =>
    have : (getObj o : M T Obj) s = .ub := by unfold getObj; rw [ho]
    change M.bind _ _ s = _ at h
    unfold M.bind at h
    rw [this] at h; cases h
  | some ob =>
    rw [bind_ok (getObj_eq ho)] at h
    by_cases hn : n = 0
    · rw [if_pos hn] at h
      cases h
      exact ⟨rfl, ob, rfl, .inl ⟨hn, rfl⟩⟩
    · rw [if_neg hn] at h
      cases hr : ob.ref with
      | none => rw [hr] at h; cases h
      | some a =>
        rw [hr] at h
        simp only at h
        cases hb : s.blk a with
        | none =>
          change M.bind _ _ s = _ at h
          unfold M.bind getBlk at h
          rw [hb] at h; cases h
        | some b =>
          rw [bind_ok (by unfold getBlk; rw [hb] : getBlk a s = .ok b s)] at h
          split at h
          · rename_i hle
            cases h
            exact ⟨rfl, ob, rfl, .inr ⟨a, b, hr, hb, hle, rfl⟩⟩
          · cases h

theorem readRange_do {T : Type} {o i n a : Nat} {s : St T} {ob : Obj} {b : Block T} (ho : s.obj o = some ob)
    (hr : ob.ref = some a) (hb : s.blk a = some b) (hle : ob.offset + i + n ≤ b.cells.length) :
    readRange o i n s = .ok (window b.cells (ob.offset + i) n) s := by
  unfold readRange
  rw [bind_ok (getObj_eq ho)]
  by_cases hn : n = 0
  · subst hn
    rw [if_pos rfl]
    show Bdlib.Res.ok _ _ = _
    simp [window]
  · rw [if_neg hn, hr]
    simp only
    rw [bind_ok (by unfold getBlk; rw [hb] : getBlk a s = .ok b s), if_pos hle]
    rfl

theorem readRange_nil {T : Type} {o i : Nat} {s : St T} {ob : Obj} (ho : s.obj o = some ob) :
    readRange o i 0 s = .ok [] s := by
  unfold readRange
  rw [bind_ok (getObj_eq ho), if_pos rfl]
  rfl

theorem writeRange_inv {T : Type} {o i : Nat} {s : St T} {xs : List T} :
    writeRange o i xs s = .ub ∨ (xs = [] ∧ (∃ ob, s.obj o = some ob) ∧ writeRange o i xs s = .ok () s) ∨
      ∃ ob a b, s.obj o = some ob ∧ ob.ref = some a ∧ s.blk a = some b ∧ ob.offset + i + xs.length ≤ b.cells.length ∧
        writeRange o i xs s = .ok () (s.setBlk a (some { b with cells := overwrite b.cells (ob.offset + i) xs })) := by
  unfold writeRange
  cases ho : s.obj o with
  | none =>
    left
    show M.bind _ _ s = _
    unfold M.bind getObj
    rw [ho]
  | some ob =>
    rw [bind_ok (getObj_eq ho)]
    cases xs with
    | nil => exact .inr (.inl ⟨rfl, ⟨ob, rfl⟩, rfl⟩)
    | cons x xs =>
      simp only [List.isEmpty_cons, Bool.false_eq_true, if_false]
      cases hr : ob.ref with
      | none => exact .inl rfl
      | some a =>
        simp only
        cases hb : s.blk a with
        | none =>
          left
          show M.bind _ _ s = _
          unfold M.bind getBlk
          rw [hb]
        | some b =>
          rw [bind_ok (by unfold getBlk; rw [hb] : getBlk a s = .ok b s)]
          by_cases hle : ob.offset + i + (x :: xs).length ≤ b.cells.length
          · rw [if_pos hle]
            exact .inr (.inr ⟨ob, a, b, rfl, hr, hb, hle, rfl⟩)
          · rw [if_neg hle]; exact .inl rfl

theorem writeRange_nil {T : Type} {o i : Nat} {s : St T} {ob : Obj} (ho : s.obj o = some ob) :
    writeRange o i [] s = .ok () s := by
  unfold writeRange; rw [bind_ok (getObj_eq ho)]; rfl

theorem getObj_ub {T : Type} {o : Nat} {s : St T} (h : s.obj o = none) : getObj o s = .ub := by
  unfold getObj; rw [h]

theorem bind_ub {T α β : Type} {m : M T α} {f : α → M T β} {s : St T} (h : m s = .ub) : (m >>= f) s = .ub := by
  show M.bind m f s = _
  unfold M.bind; rw [h]

theorem getBlk_ub {T : Type} {a : Nat} {s : St T} (h : s.blk a = none) : getBlk a s = .ub := by
  unfold getBlk; rw [h]

theorem getBlk_eq {T : Type} {a : Nat} {s : St T} {b : Block T} (h : s.blk a = some b) : getBlk a s = .ok b s := by
  unfold getBlk; rw [h]

theorem readRange_nothrow {T : Type} {o i n : Nat} {s s' : St T} {e : Exc} : readRange o i n s ≠ .throw e s' := by
  intro h
  unfold readRange at h
  cases ho : s.obj o with
  | none => rw [bind_ub (getObj_ub ho)] at h; cases h
  | some ob =>
    rw [bind_ok (getObj_eq ho)] at h
    split at h
    · cases h
    · cases hr : ob.ref with
      | none => rw [hr] at h; cases h
      | some a =>
        rw [hr] at h
        simp only at h
        cases hb : s.blk a with
        | none => rw [bind_ub (getBlk_ub hb)] at h; cases h
        | some b =>
          rw [bind_ok (getBlk_eq hb)] at h
          split at h <;> cases h

/-- A block of the values is a block of the handles. -/
theorem Like.blk_inv {f : Nat → Elem} {s : St Nat} (h : Like f s σ) {a : Nat} {B : Block Elem} (hb : σ.blk a = some B) :
    ∃ b, s.blk a = some b ∧ B = mapBlk f b := by
  rw [h.blk] at hb
  cases hs : s.blk a with
  | none => rw [hs] at hb; cases hb
  | some b => rw [hs] at hb; cases hb; exact ⟨b, rfl, rfl⟩

theorem window_map {f : Nat → Elem} {cs : List Nat} {i n : Nat} : window (cs.map f) i n = (window cs i n).map f := by
  unfold window
  rw [List.map_take, List.map_drop]

theorem later_of : ∀ (ds ss : List Nat), (∀ i j, i < j → j < ss.length → ds[i]? ≠ ss[j]?) → Later ds ss
  | [], _, _ => trivial
  | _ :: _, [], _ => trivial
  | d :: ds, s :: ss, h => by
    refine ⟨fun hm => ?_, later_of ds ss fun i j hij hj => ?_⟩
    · obtain ⟨j, hj, he⟩ := List.getElem_of_mem hm
      refine h 0 (j + 1) (by omega) (by simp; omega) ?_
      rw [List.getElem?_cons_zero, List.getElem?_cons_succ, List.getElem?_eq_getElem hj, he]
    · have := h (i + 1) (j + 1) (by omega) (by simp; omega)
      simpa using this

theorem later_disjoint {ds ss : List Nat} (h : ∀ x ∈ ds, x ∉ ss) : Later ds ss := by
  apply later_of
  intro i j _ hj he
  rw [List.getElem?_eq_getElem hj] at he
  exact h _ (List.mem_of_getElem? he) (List.getElem_mem hj)

theorem nodup_window {cs : List Nat} (h : cs.Nodup) (i n : Nat) : (window cs i n).Nodup := by
  unfold window
  exact (h.sublist (List.drop_sublist _ _)).sublist (List.take_sublist _ _)

theorem RelE.nodup_blk (h : RelE c env us σ w) {a : Nat} {b : Block Nat} (hb : w.arrs.blk a = some b) : b.cells.Nodup := by
  have := h.nodup a
  rwa [cellsAt_some hb] at this

theorem RelE.live (h : RelE c env us σ w) {a : Nat} {b : Block Nat} (hb : w.arrs.blk a = some b) {x : Nat}
    (hx : x ∈ b.cells) : env x ≠ .dead := (h.cell a x (by rw [cellsAt_some hb]; exact hx)).1

/-- `std::copy` of strings that are not in a cell. -/
theorem match_assignCells (hc : c.Good) (h : Rel c us σ w) {o i : Nat} {hs : List Nat} (hu : ∀ x ∈ hs, us x ≠ .dead) :
    Match c us (assignCells o i hs w) (writeRange o i (hs.map us) σ) fun _ _ us' w' _ => us' = us ∧ w'.arrs = w.arrs := by
  obtain ⟨env, h⟩ := h
  rcases writeRange_inv (o := o) (i := i) (s := σ) (xs := hs.map us) with he | ⟨hnil, ⟨ob, ho⟩, he⟩ | ⟨ob, a, B, ho, hr, hB, hle, he⟩
  · rw [he]; trivial
  · have : hs = [] := by simpa using hnil
    subst this
    rw [he]
    refine ⟨(), w, us, ?_, ⟨env, h⟩, rfl, rfl⟩
    unfold assignCells
    rw [h.like.obj] at ho
    rw [show ([] : List Nat).length = 0 from rfl, pbind_ok (arrs_ok (readRange_nil ho))]
    rfl
  · rw [he]
    obtain ⟨b, hb, rfl⟩ := h.like.blk_inv hB
    rw [h.like.obj] at ho
    have hle' : ob.offset + i + hs.length ≤ b.cells.length := by simpa [mapBlk] using hle
    have heq : hs.map us = hs.map env := List.map_congr_left fun x hx => (user_not_cell h (hu x hx)).2.symm
    have hin : ∀ x ∈ window b.cells (ob.offset + i) hs.length, x ∈ cellsAt w.arrs a := fun x hx => by
      rw [cellsAt_some hb]; exact mem_window hx
    obtain ⟨s', env', h1, hR, hm, hout⟩ := assigns_ok hc (window b.cells (ob.offset + i) hs.length) hs h.reach
      (fun x hx => h.live hb (mem_window hx)) (fun x hx => by rw [(user_not_cell h (hu x hx)).2]; exact hu x hx)
      (nodup_window (h.nodup_blk hb) _ _) (window_len hle')
      (later_disjoint fun x hx hs' => (user_not_cell h (hu x hs')).1 a (hin x hx))
    refine ⟨(), { w with strs := s' }, us, ?_, ⟨env', ?_⟩, rfl, rfl⟩
    · unfold assignCells
      rw [pbind_ok (arrs_ok (readRange_do ho hr hb hle'))]
      exact h1
    · rw [heq]
      refine h.wrote hR hb hle' hm ?_ hout
      intro x hx
      obtain ⟨y, hy, rfl⟩ := List.mem_map.1 hx
      rw [(user_not_cell h (hu y hy)).2]; exact hu y hy

end

end Bdlib.Nest
