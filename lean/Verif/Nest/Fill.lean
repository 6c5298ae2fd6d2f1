import Verif.Nest.Calls

/-!
# Filling: constructing elements over elements

`resize(len, value)` and the fill constructor construct elements in cells that hold an element already.  The
array holds the right values; the elements that were there are never destroyed.
-/

namespace Bdlib.Nest
open Bdlib Bdlib.Spec Bdlib.Rca
open P (strs arrs undef)

variable {c : Conf} {us : Env UInt8} {env : Env UInt8} {σ : St Elem} {w : World} {α β γ δ : Type}

/-- The strings `L` are there in addition. -/
structure Grown (us us' : Env UInt8) (L : List Nat) : Prop where
  nodup : L.Nodup
  new : ∀ x ∈ L, us x = .dead ∧ us' x ≠ .dead
  same : ∀ x, x ∉ L → us' x = us x

theorem Grown.refl (us : Env UInt8) : Grown us us [] := ⟨.nil, by simp, fun _ _ => rfl⟩

/-- A by-value parameter: a string that lives for the duration of a call. -/
theorem match_local (hc : c.Good) {v : Nat} {y : Slot UInt8} (hd : us v = .dead) (hy : y ≠ .dead) {m : P α} {m' : M Elem β}
    {f : α → P γ} {g : α → γ} {Q : α → β → List Nat → Prop} {Q' : γ → β → List Nat → Prop}
    (hf : ∀ a w s', delete c v w = .ok () { w with strs := s' } → f a w = .ok (g a) { w with strs := s' })
    (hq : ∀ a b L, Q a b L → Q' (g a) b L)
    (h : Match c (us.upd v y) (m w) (m' σ) fun a b us' _ _ => ∃ L, Grown (us.upd v y) us' L ∧ Q a b L) :
    Match c us ((do
      let x ← m.onThrow (delete c v)
      f x : P γ) w) (m' σ) fun a b us' _ _ => ∃ L, Grown us us' L ∧ Q' a b L := by
  cases hm : m' σ with
  | ub => trivial
  | throw e σ' =>
    rw [hm] at h
    obtain ⟨w', h1, env, h2⟩ := h
    obtain ⟨s', h3, h4⟩ := rel_delete hc h2 (x := v) (by rw [Env.upd_self]; exact hy)
    have : m.onThrow (delete c v) w = .throw e { w' with strs := s' } := by
      unfold P.onThrow
      simp only [h1, h3]
    have e2 : (us.upd v y).upd v .dead = us := by
      funext x
      by_cases hx : x = v
      · subst hx; rw [Env.upd_self, hd]
      · rw [Env.upd_ne hx, Env.upd_ne hx]
    rw [e2] at h4
    exact ⟨_, pbind_throw this, _, h4⟩
  | ok b σ' =>
    rw [hm] at h
    obtain ⟨a, w', us', h1, ⟨env, h2⟩, L, hL, hqa⟩ := h
    have hvL : v ∉ L := fun hm => by
      have := (hL.new v hm).1
      rw [Env.upd_self] at this
      exact hy this
    have hv : us' v = y := by rw [hL.same v hvL, Env.upd_self]
    obtain ⟨s', h3, h4⟩ := rel_delete hc h2 (x := v) (by rw [hv]; exact hy)
    have : m.onThrow (delete c v) w = .ok a w' := by
      unfold P.onThrow
      simp only [h1]
    refine ⟨g a, _, us'.upd v .dead, ?_, ⟨_, h4⟩, L, ⟨hL.nodup, fun z hz => ?_, fun z hz => ?_⟩, hq _ _ _ hqa⟩
    · rw [pbind_ok this, hf _ _ _ h3]
    · have hzv : z ≠ v := fun e => hvL (e ▸ hz)
      rw [Env.upd_ne hzv]
      have := hL.new z hz
      rwa [Env.upd_ne hzv] at this
    · by_cases hzv : z = v
      · subst hzv; rw [Env.upd_self, hd]
      · rw [Env.upd_ne hzv, hL.same z hz, Env.upd_ne hzv]

/-- New strings of the program. -/
theorem rel_copies (hc : c.Good) (h : RelE c env us σ w) {v k : Nat} (hv : us v ≠ .dead) :
    ∃ hs s' env', copies v k w = .ok hs { w with strs := s' } ∧ hs.length = k ∧ hs.Nodup ∧
      (∀ x ∈ hs, us x = .dead ∧ env x = .dead ∧ env' x = us v) ∧ (∀ x, x ∉ hs → env' x = env x) ∧ Reach c.str s' env' := by
  obtain ⟨hn, he⟩ := user_not_cell h hv
  obtain ⟨hs, s', env', h1, hR, hl, hnd, hin, hout⟩ := copies_ok hc k h.reach (t := v) (by rw [he]; exact hv)
  refine ⟨hs, s', env', h1, hl, hnd, fun x hx => ⟨?_, (hin x hx).1, by rw [← he]; exact (hin x hx).2⟩, hout, hR⟩
  rw [h.rest x (h.born (hin x hx).1)]
  exact (hin x hx).1

theorem split3 {T : Type} (cs : List T) (i k : Nat) : cs = cs.take i ++ window cs i k ++ cs.drop (i + k) := by
  unfold window
  rw [List.append_assoc, ← List.drop_drop, List.take_append_drop, List.take_append_drop]

theorem writeRange_all {T : Type} {o i a : Nat} {s : St T} {ob : Obj} {b : Block T} {xs : List T} (ho : s.obj o = some ob)
    (hr : ob.ref = some a) (hb : s.blk a = some b) (hle : ob.offset + i + xs.length ≤ b.cells.length) (hne : xs ≠ []) :
    writeRange o i xs s = .ok () (s.setBlk a (some { b with cells := overwrite b.cells (ob.offset + i) xs })) := by
  cases xs with
  | nil => exact absurd rfl hne
  | cons x xs =>
    unfold writeRange
    rw [bind_ok (getObj_eq ho)]
    simp only [List.isEmpty_cons, Bool.false_eq_true, if_false, hr]
    rw [bind_ok (getBlk_eq hb), if_pos hle]
    rfl

/-- Constructing over elements: the strings that were in the cells are no longer elements. -/
theorem match_plant (hc : c.Good) (h : Rel c us σ w) {o i k v : Nat} (hv : us v ≠ .dead) :
    Match c us ((do
      let hs ← copies v k
      plant o i hs : P Unit) w) (writeRange o i (List.replicate k (us v)) σ)
      fun _ _ us' _ _ => ∃ L, Grown us us' L ∧ L.length = k := by
  obtain ⟨env, h⟩ := h
  obtain ⟨hs, s', env', h1, hl, hnd, hin, hout, hR⟩ := rel_copies hc h hv (k := k)
  rw [pbind_ok h1]
  rcases writeRange_inv (o := o) (i := i) (s := σ) (xs := List.replicate k (us v)) with
    hu | ⟨hnil, ⟨ob, ho⟩, hw⟩ | ⟨ob, a, B, ho, hr, hB, hle, hw⟩
  · rw [hu]; trivial
  · have hk : k = 0 := by simpa using hnil
    subst hk
    have : hs = [] := List.length_eq_zero_iff.mp hl
    subst this
    have hwn : plant o i [] { w with strs := s' } = .ok () { w with strs := s' } := by
      unfold plant
      rw [h.like.obj] at ho
      have : writeRange o i ([] : List Nat) w.arrs = .ok () w.arrs := by
        unfold writeRange
        rw [bind_ok (getObj_eq ho)]
        rfl
      exact arrs_ok (w := { w with strs := s' }) this
    rw [hw, hwn]
    refine ⟨_, _, us, rfl, ⟨env', ?_⟩, [], .refl us, rfl⟩
    have : env' = env := funext fun x => hout x (by simp)
    subst this
    exact h.user hR (fun _ _ _ => rfl) (fun a x hx => (h.cell a x hx).2) fun x hx => h.rest x hx
  · by_cases hk : k = 0
    · subst hk
      have : hs = [] := List.length_eq_zero_iff.mp hl
      subst this
      have hoa := ho
      rw [h.like.obj] at hoa
      have hw0 : writeRange o i (List.replicate 0 (us v)) σ = .ok () σ := by
        unfold writeRange
        rw [bind_ok (getObj_eq ho)]
        rfl
      have hwn : plant o i [] { w with strs := s' } = .ok () { w with strs := s' } := by
        unfold plant
        have : writeRange o i ([] : List Nat) w.arrs = .ok () w.arrs := by
          unfold writeRange
          rw [bind_ok (getObj_eq hoa)]
          rfl
        exact arrs_ok (w := { w with strs := s' }) this
      rw [hw0, hwn]
      refine ⟨_, _, us, rfl, ⟨env', ?_⟩, [], .refl us, rfl⟩
      have : env' = env := funext fun x => hout x (by simp)
      subst this
      exact h.user hR (fun _ _ _ => rfl) (fun a x hx => (h.cell a x hx).2) fun x hx => h.rest x hx
    obtain ⟨b, hb, rfl⟩ := h.like.blk_inv hB
    have hoa := ho
    rw [h.like.obj] at hoa
    rw [List.length_replicate] at hle
    have hle' : ob.offset + i + k ≤ b.cells.length := by simpa [mapBlk] using hle
    have hwn : plant o i hs { w with strs := s' } = .ok () { strs := s', arrs := w.arrs.setBlk a (some { b with cells := overwrite b.cells (ob.offset + i) hs }) } := by
      unfold plant
      refine arrs_ok (w := { w with strs := s' }) (writeRange_all hoa hr hb (by rw [hl]; exact hle') ?_)
      intro he
      rw [he] at hl
      exact hk hl.symm
    rw [hw, hwn]
    have hcs := split3 b.cells (ob.offset + i) k
    have hov : overwrite b.cells (ob.offset + i) hs = b.cells.take (ob.offset + i) ++ hs ++ b.cells.drop (ob.offset + i + k) := by
      unfold overwrite; rw [hl]
    have hWl : (window b.cells (ob.offset + i) k).length = k := window_len hle'
    generalize window b.cells (ob.offset + i) k = W at hcs hWl
    generalize hA : b.cells.take (ob.offset + i) = A at hcs hov
    generalize hD : b.cells.drop (ob.offset + i + k) = D at hcs hov
    have hbn : b.cells.Nodup := h.nodup_blk hb
    have hmem : ∀ x, x ∈ b.cells ↔ x ∈ A ∨ x ∈ W ∨ x ∈ D := by
      intro x; rw [hcs]; simp [or_assoc]
    have hfresh : ∀ x ∈ hs, ∀ a, x ∉ cellsAt w.arrs a := fun x hx => h.born (hin x hx).2.1
    have hfb : ∀ x ∈ hs, x ∉ b.cells := fun x hx hm => hfresh x hx a (by rw [cellsAt_some hb]; exact hm)
    have hsame : ∀ a' x, x ∈ cellsAt w.arrs a' → env' x = env x := fun a' x hx => hout x fun hm => hfresh x hm a' hx
    rw [hcs] at hbn
    have hn1 := List.nodup_append.1 hbn
    have hn2 := List.nodup_append.1 hn1.1
    have hWA : ∀ x ∈ W, x ∉ A := fun x hx hm => hn2.2.2 x hm x hx rfl
    have hWD : ∀ x ∈ W, x ∉ D := fun x hx hm => hn1.2.2 x (List.mem_append_right _ hx) x hm rfl
    have hat : ∀ a', cellsAt (w.arrs.setBlk a (some { b with cells := overwrite b.cells (ob.offset + i) hs })) a' =
        if a' = a then A ++ hs ++ D else cellsAt w.arrs a' := by
      intro a'
      unfold cellsAt
      by_cases he : a' = a
      · subst he
        rw [St.blk_setBlk_self _ (St.blk_lt hb), if_pos rfl]
        exact hov
      · rw [St.blk_setBlk_ne _ he, if_neg he]
    have hWc : ∀ x ∈ W, x ∈ cellsAt w.arrs a := fun x hx => by
      rw [cellsAt_some hb]; exact (hmem x).2 (.inr (.inl hx))
    refine ⟨_, _, fun x => if x ∈ W then env x else us x, rfl, ⟨env', hR, ⟨fun a' => ?_, ?_, h.like.objs, h.like.gen⟩,
      fun a' => ?_, fun a1 a2 y h1 h2 => ?_, fun a' y hy => ?_, fun y hy => ?_⟩, W, ⟨hn2.2.1, fun x hx => ?_, fun x hx => ?_⟩, hWl⟩
    · by_cases he : a' = a
      · subst he
        rw [St.blk_setBlk_self _ (by rw [h.like.len]; exact St.blk_lt hb)]
        show _ = ((w.arrs.setBlk a' _).blk a').map _
        rw [St.blk_setBlk_self _ (St.blk_lt hb)]
        simp only [Option.map_some, mapBlk]
        have e : ∀ y, y ∈ b.cells → env y = env' y := fun y hy => (hsame a' y (by rw [cellsAt_some hb]; exact hy)).symm
        have : overwrite (b.cells.map env) (ob.offset + i) (List.replicate k (us v)) = (overwrite b.cells (ob.offset + i) hs).map env' := by
          rw [hov]
          unfold overwrite
          rw [List.length_replicate, ← List.map_take, ← List.map_drop, hA, hD, List.map_append, List.map_append]
          congr 1
          · congr 1
            · exact List.map_congr_left fun y hy => e y ((hmem y).2 (.inl hy))
            · symm
              rw [List.eq_replicate_iff]
              refine ⟨by rw [List.length_map, hl], fun y hy => ?_⟩
              obtain ⟨x, hx, rfl⟩ := List.mem_map.1 hy
              exact (hin x hx).2.2
          · exact List.map_congr_left fun y hy => e y ((hmem y).2 (.inr (.inr hy)))
        rw [this]
      · rw [St.blk_setBlk_ne _ he, h.like.blk]
        show _ = ((w.arrs.setBlk a _).blk a').map _
        rw [St.blk_setBlk_ne _ he]
        cases hb' : w.arrs.blk a' with
        | none => rfl
        | some b' =>
          simp only [Option.map_some, mapBlk]
          have : b'.cells.map env = b'.cells.map env' :=
            List.map_congr_left fun y hy => (hsame a' y (by rw [cellsAt_some hb']; exact hy)).symm
          rw [this]
    · simp only [St.setBlk, List.length_set]; exact h.like.len
    · show (cellsAt (w.arrs.setBlk a _) a').Nodup
      rw [hat]; split
      · refine List.nodup_append.2 ⟨List.nodup_append.2 ⟨hn2.1, hnd, ?_⟩, hn1.2.1, ?_⟩
        · rintro x hx y hy rfl
          exact hfb x hy ((hmem x).2 (.inl hx))
        · rintro x hx y hy rfl
          rcases List.mem_append.1 hx with hx | hx
          · exact hn1.2.2 x (List.mem_append_left _ hx) x hy rfl
          · exact hfb x hx ((hmem x).2 (.inr (.inr hy)))
      · exact h.nodup a'
    · change y ∈ cellsAt (w.arrs.setBlk a _) a1 at h1
      change y ∈ cellsAt (w.arrs.setBlk a _) a2 at h2
      rw [hat] at h1 h2
      have key : ∀ a', a' ≠ a → y ∈ A ++ hs ++ D → y ∉ cellsAt w.arrs a' := by
        intro a' hne hy hm
        rw [List.append_assoc, List.mem_append, List.mem_append] at hy
        rcases hy with hy | hy | hy
        · exact hne (h.disj a' a y hm (by rw [cellsAt_some hb]; exact (hmem y).2 (.inl hy)))
        · exact hfresh y hy a' hm
        · exact hne (h.disj a' a y hm (by rw [cellsAt_some hb]; exact (hmem y).2 (.inr (.inr hy))))
      split at h1 <;> split at h2
      · rename_i e1 e2; rw [e1, e2]
      · rename_i e1 e2; exact absurd h2 (key _ e2 h1)
      · rename_i e1 e2; exact absurd h1 (key _ e1 h2)
      · exact h.disj a1 a2 y h1 h2
    · change y ∈ cellsAt (w.arrs.setBlk a _) a' at hy
      rw [hat] at hy
      have old : ∀ a'', y ∈ cellsAt w.arrs a'' → y ∉ W → env' y ≠ .dead ∧ (if y ∈ W then env y else us y) = .dead := by
        intro a'' hm hnW
        rw [hsame a'' y hm, if_neg hnW]
        exact h.cell a'' y hm
      split at hy
      · rw [List.append_assoc, List.mem_append, List.mem_append] at hy
        rcases hy with hy | hy | hy
        · exact old a (by rw [cellsAt_some hb]; exact (hmem y).2 (.inl hy)) fun hm => hWA y hm hy
        · rw [if_neg fun hm => hfb y hy ((hmem y).2 (.inr (.inl hm)))]
          exact ⟨by rw [(hin y hy).2.2]; exact hv, (hin y hy).1⟩
        · exact old a (by rw [cellsAt_some hb]; exact (hmem y).2 (.inr (.inr hy))) fun hm => hWD y hm hy
      · rename_i hne
        exact old a' hy fun hm => hne (h.disj a' a y hy (hWc y hm))
    · have hy' : ∀ a', y ∉ if a' = a then A ++ hs ++ D else cellsAt w.arrs a' := fun a' => by rw [← hat]; exact hy a'
      have ha := hy' a
      rw [if_pos rfl, List.append_assoc, List.mem_append, List.mem_append] at ha
      by_cases hW : y ∈ W
      · rw [if_pos hW, hsame a y (hWc y hW)]
      · rw [if_neg hW, hout y fun hm => ha (.inr (.inl hm))]
        refine h.rest y fun a' hm => ?_
        by_cases he : a' = a
        · subst he
          rw [cellsAt_some hb, hmem] at hm
          rcases hm with hm | hm | hm
          · exact ha (.inl hm)
          · exact hW hm
          · exact ha (.inr (.inr hm))
        · have := hy' a'
          rw [if_neg he] at this
          exact this hm
    · simp only [if_pos hx]
      exact ⟨(h.cell a x (hWc x hx)).2, (h.cell a x (hWc x hx)).1⟩
    · simp only [if_neg hx]

theorem match_fillBody (hc : c.Good) (h : Rel c us σ w) {o len v N : Nat} (hf : Fit σ o) (hv : us v ≠ .dead)
    (hN : ∀ ob, σ.obj o = some ob → ob.sublen = N)
    (hA : ∀ σ', N ≤ len → Rca.aboutToModify c.val o len σ = .ok () σ' → ∃ ob, σ'.obj o = some ob ∧ ob.sublen = N) :
    Match c us (fillBody c o len v w) (Rca.resizeFill c.val o len (us v) σ)
      fun _ _ us' _ _ => ∃ L, Grown us us' L ∧ L.length = len - N := by
  unfold fillBody Rca.resizeFill
  rw [val_growTo]
  refine match_then (.length o) h fun k w1 σ1 h1 hR1 => ?_
  have hk : k = N := by
    unfold Rca.length at h1
    obtain ⟨ob, s1, h2, h3⟩ := bind_inv h1
    obtain ⟨rfl, ho⟩ := getObj_inv h2
    change Bdlib.Res.ok _ _ = _ at h3
    simp only [Bdlib.Res.ok.injEq] at h3
    rw [← h3.1, hN ob ho]
  have := length_inv h1
  subst this
  refine match_ite (fun hlt => match_mono (match_arrs (.setLength _ _) hR1) fun _ _ _ _ _ hq => ?_) fun hge => ?_
  · rw [hq.2.1]
    exact ⟨[], .refl us, by simp only [List.length_nil]; omega⟩
  refine match_bind (match_aboutToModify hc hR1 hf) ?_
  rintro _ ⟨⟩ us' w2 σ2 h2 hR2 rfl
  refine match_then (.getObj o) hR2 fun ob w3 σ3 h3 hR3 => ?_
  obtain ⟨rfl, ho⟩ := getObj_inv h3
  obtain ⟨ob', ho', hs'⟩ := hA _ (by omega) h2
  rw [ho] at ho'
  cases ho'
  have e : ((do let hs ← copies v (len - ob.sublen); plant o ob.sublen hs; putLength o len : P Unit)) w3 =
      ((do let hs ← copies v (len - ob.sublen); plant o ob.sublen hs : P Unit) >>= fun _ => putLength o len) w3 := by
    rw [pbind_assoc]
  rw [e]
  have hm := match_plant hc hR3 hv (o := o) (i := ob.sublen) (k := len - ob.sublen)
  cases hw : writeRange o ob.sublen (List.replicate (len - ob.sublen) (us' v)) σ3 with
  | ub => rw [bind_ub hw]; trivial
  | throw e' s => exact absurd hw writeRange_nothrow
  | ok u σ4 =>
    rw [hw] at hm
    obtain ⟨_, w4, us4, hw4, hR4, L, hL, hll⟩ := hm
    rw [bind_ok hw, pbind_ok hw4]
    have hp := match_putLength hR4 (o := o) (n := len)
    have hg : ∀ r, ((do let ob ← getObj o; putObj o { ob with sublen := len } : M Elem Unit) σ4) = r → ∀ e s, r ≠ .throw e s := by
      intro r hr e s he
      subst hr
      cases ho : σ4.obj o with
      | none => rw [bind_ub (getObj_ub ho)] at he; cases he
      | some ob => rw [bind_ok (getObj_eq ho)] at he; cases he
    revert hp
    cases hq : ((do let ob ← getObj o; putObj o { ob with sublen := len } : M Elem Unit) σ4) with
    | ub => intro _; trivial
    | throw e s => exact absurd rfl (hg _ hq e s)
    | ok u σ5 =>
      rintro ⟨_, w5, us5, hw5, hR5, rfl⟩
      exact ⟨_, w5, us5, hw5, hR5, L, hL, by rw [hll, hs']⟩

theorem match_resizeFill (hc : c.Good) (h : Rel c us σ w) {o len t N : Nat} (hf : Fit σ o) (ht : us t ≠ .dead)
    (hN : ∀ ob, σ.obj o = some ob → ob.sublen = N)
    (hA : ∀ σ', N ≤ len → Rca.aboutToModify c.val o len σ = .ok () σ' → ∃ ob, σ'.obj o = some ob ∧ ob.sublen = N) :
    Match c us (resizeFill c o len t w) (Rca.resizeFill c.val o len (us t) σ)
      fun _ _ us' _ _ => ∃ L, Grown us us' L ∧ L.length = len - N := by
  obtain ⟨env, h⟩ := h
  obtain ⟨_, he⟩ := user_not_cell h ht
  obtain ⟨v, s', h1, hd, hR⟩ := rel_newCopy hc h (x := t) (by rw [he]; exact ht)
  rw [he] at hR
  unfold resizeFill
  rw [pbind_ok h1]
  have hm := match_fillBody hc ⟨_, hR⟩ hf (v := v) (len := len) (by rw [Env.upd_self]; exact ht) hN hA
  rw [Env.upd_self] at hm
  exact match_local hc hd ht (f := fun _ => delete c v) (g := fun _ => ()) (Q := fun _ _ L => L.length = len - N)
    (fun _ _ _ h => h) (fun _ _ _ h => h) hm

theorem match_fillCtor (hc : c.Good) (h : Rel c us σ w) {n t : Nat} (ht : us t ≠ .dead)
    (hA : ∀ o σ1 σ2, newObj {} σ = .ok o σ1 → Rca.aboutToModify c.val o n σ1 = .ok () σ2 →
      ∃ ob, σ2.obj o = some ob ∧ ob.sublen = 0) :
    Match c us (fillCtor c n t w) (Rca.fillCtor c.val n (us t) σ)
      fun x y us' _ _ => ∃ L, Grown us us' L ∧ x = y ∧ L.length = n := by
  obtain ⟨env, h⟩ := h
  obtain ⟨_, he⟩ := user_not_cell h ht
  obtain ⟨v, s', h1, hd, hR⟩ := rel_newCopy hc h (x := t) (by rw [he]; exact ht)
  rw [he] at hR
  unfold fillCtor
  rw [pbind_ok h1]
  refine match_local hc hd ht (f := fun o => do delete c v; return o) (g := id) (Q := fun x y L => x = y ∧ L.length = n)
    (fun a w s' h => by rw [pbind_ok h]; rfl) (fun _ _ _ h => h) ?_
  unfold fillNew Rca.fillCtor
  refine match_then (.newObj _) ⟨_, hR⟩ fun o w1 σ1 h1 hR1 => ?_
  have ho := newObj_inv h1
  have hv : (us.upd v (us t)) v = us t := Env.upd_self ..
  refine match_bind (Q := fun _ _ us' _ _ => ∃ L, Grown (us.upd v (us t)) us' L ∧ L.length = n) (match_onThrow ?_ ?_) ?_
  · have := match_resizeFill hc hR1 (fit_new ho) (t := v) (len := n) (N := 0) (by rw [hv]; exact ht)
      (fun ob hob => by rw [ho] at hob; cases hob; rfl) (fun σ' _ => hA o σ1 σ' h1)
    rw [hv] at this
    exact this
  · intro e w2 σ2 _ hR2
    exact match_destroy hc hR2
  · rintro _ _ us' w2 σ2 _ hR2 ⟨L, hL, hl⟩
    exact ⟨_, w2, us', rfl, hR2, L, hL, rfl, hl⟩

end Bdlib.Nest
