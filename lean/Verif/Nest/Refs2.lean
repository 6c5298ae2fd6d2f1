import Verif.Nest.Refs

/-!
# The array that `split` builds

`Row S A a k prot b`: array `a` has `k` strings, is the only owner of its buffer, and the cells of the buffer that are not
in use hold strings without storage.  Appending keeps that and leaves the strings in `prot` alone.
-/

namespace Bdlib.Nest.Refs
open Bdlib Bdlib.Spec Bdlib.Rca Bdlib.Str Bdlib.Nest
open Bdlib.Nest.P (strs arrs undef)

variable {c : Conf} {S S' : St UInt8} {A A' : St Nat} {prot : List Nat}

/-- The cells of a buffer, `k` of them in use. -/
structure Tidy (S : St UInt8) (cells : List Nat) (k : Nat) (prot : List Nat) : Prop where
  nodup : cells.Nodup
  live : ∀ x ∈ cells, S.obj x ≠ none
  clean : ∀ x ∈ cells.drop k, Bare S x
  apart : ∀ x ∈ prot, x ∉ cells
  len : k ≤ cells.length

theorem live_lt {x : Nat} (h : S.obj x ≠ none) : x < S.objs.length := by
  cases hx : S.obj x with
  | none => exact absurd hx h
  | some y => exact St.obj_lt hx

theorem aref_tidy {q k off : Nat} {Q : Block Nat} {sc : Nat → Nat} (hb : A.blk q = some Q) (hr : Q.refs = 1)
    (ht : Tidy S Q.cells k prot) (hp : ∀ x ∈ prot, S.obj x ≠ none) {w' : World}
    (h : arefReserve c q (k + 1) sc 0 k ⟨S, A⟩ = .ok off w') :
    off = 0 ∧ (∃ Q', w'.arrs.blk q = some Q' ∧ Q'.refs = 1 ∧ Tidy w'.strs Q'.cells k prot ∧ k + 1 ≤ Q'.cells.length) ∧
      (∀ x ∈ prot, w'.strs.obj x = S.obj x) ∧ SameHeap S w'.strs ∧ w'.arrs.objs = A.objs := by
  unfold arefReserve at h
  rw [pbind_ok (arrs_ok (getBlk_some hb))] at h
  have hlen := ht.len
  simp only at h
  by_cases hs : Q.cells.length < k + 1
  · rw [if_pos hs] at h
    obtain ⟨g, w1, h1, h⟩ := pbind_inv h
    obtain ⟨A1, h1a, rfl⟩ := arrs_inv h1
    have hA1 : A1.objs = A.objs ∧ A1.heap = A.heap := by
      unfold alloc at h1a
      simp only at h1a
      split at h1a <;> cases h1a
      exact ⟨rfl, rfl⟩
    have hb1 : A1.blk q = some Q := by rw [← hb]; unfold St.blk; rw [hA1.2]
    obtain ⟨fs, S1, h2, h3, h4, h5, h6, h7⟩ := fresh_bare (c := c) (max (sc Q.cells.length) (k + 1) - k) S A1
    rw [pbind_ok h2] at h
    have hk : k = Q.cells.length := by omega
    by_cases hz : Q.cells.length = 0
    · rw [if_pos hz, if_pos (by omega)] at h
      obtain ⟨u, w2, h8, h⟩ := pbind_inv h
      cases h8
      cases h
      refine ⟨rfl, ⟨_, St.blk_setBlk_self _ (St.blk_lt hb1), hr, ⟨h4, ?_, ?_, ?_, by omega⟩, ?_⟩, ?_, h7, hA1.1⟩
      · intro x hx
        obtain ⟨_, ob, ho, _⟩ := h5 x hx
        rw [ho]; simp
      · intro x hx
        exact (h5 x (List.mem_of_mem_drop hx)).2
      · intro x hx hm
        have := (h5 x hm).1
        have := live_lt (hp x hx)
        omega
      · simp only [h3]; omega
      · intro x hx
        exact h6 x (live_lt (hp x hx))
    · rw [if_neg hz, if_pos (by omega)] at h
      have hw : window Q.cells 0 k = Q.cells := by unfold window; rw [hk]; simp
      rw [hw] at h
      have hl1 : ∀ x ∈ Q.cells, S1.obj x ≠ none := by
        intro x hx
        rw [h6 x (live_lt (ht.live x hx))]
        exact ht.live x hx
      obtain ⟨ds, S2, i1, i2, i3, i4, i5, i6, i7⟩ := newMoves_bare (c := c) Q.cells S1 A1 ht.nodup hl1
      obtain ⟨S3, j1, j2, j3⟩ := deletes_bare (c := c) Q.cells S2 A1 ht.nodup i5
      rw [pbind_ok i1, pbind_ok j1] at h
      obtain ⟨u, w2, h8, h⟩ := pbind_inv h
      cases h8
      obtain ⟨u, w2, h8, h⟩ := pbind_inv h
      cases h8
      cases h
      have hfs : ∀ x ∈ fs, x ∉ Q.cells ∧ x < S1.objs.length := by
        intro x hx
        obtain ⟨h9, ob, ho, _⟩ := h5 x hx
        refine ⟨fun hm => ?_, St.obj_lt ho⟩
        have := live_lt (ht.live x hm)
        omega
      have hds : ∀ x ∈ ds, x ∉ Q.cells := by
        intro x hx hm
        have := (i4 x hx).1
        have := live_lt (hl1 x hm)
        omega
      have hfb : ∀ x ∈ fs, Bare S3 x := by
        intro x hx
        obtain ⟨h9, ob, ho, hn⟩ := h5 x hx
        refine ⟨ob, ?_, hn⟩
        rw [j2 x (hfs x hx).1, i6 x (hfs x hx).2 (hfs x hx).1]
        exact ho
      refine ⟨rfl, ⟨_, St.blk_setBlk_self _ (St.blk_lt hb1), hr, ⟨?_, ?_, ?_, ?_, ?_⟩, ?_⟩, ?_, ?_, hA1.1⟩
      · refine List.nodup_append.2 ⟨i3, h4, fun x hx y hy e => ?_⟩
        have := (i4 x hx).1
        have := (hfs y hy).2
        omega
      · intro x hx
        rcases List.mem_append.1 hx with hx | hx
        · show S3.obj x ≠ none
          rw [j2 x (hds x hx)]
          exact (i4 x hx).2
        · obtain ⟨ob, ho, _⟩ := hfb x hx
          show S3.obj x ≠ none
          rw [ho]; simp
      · intro x hx
        have : (ds ++ fs).drop k = fs := by
          rw [List.drop_append, List.drop_eq_nil_of_le (by omega)]
          rw [show k - ds.length = 0 by omega]
          rfl
        change x ∈ (ds ++ fs).drop k at hx
        rw [this] at hx
        exact hfb x hx
      · intro x hx hm
        have hlt := live_lt (hp x hx)
        have := h7.2
        rcases List.mem_append.1 hm with hm | hm
        · have := (i4 x hm).1
          omega
        · have := (h5 x hm).1
          omega
      · simp only [List.length_append, i2]; omega
      · simp only [List.length_append, i2, h3]; omega
      · intro x hx
        have hlt := live_lt (hp x hx)
        have := h7.2
        show S3.obj x = _
        rw [j2 x (ht.apart x hx), i6 x (by omega) (ht.apart x hx), h6 x hlt]
      · exact h7.trans (i7.trans j3)
  · rw [if_neg hs, if_neg (by unfold sub64; rw [if_pos (Nat.zero_le _)]; omega)] at h
    cases h
    exact ⟨rfl, ⟨Q, hb, hr, ht, by omega⟩, fun _ _ => rfl, ⟨rfl, Nat.le_refl _⟩, rfl⟩

/-- An array of `k` strings without other owners. -/
def Row (S : St UInt8) (A : St Nat) (a k : Nat) (prot : List Nat) : Prop :=
  ∃ oa, A.obj a = some oa ∧ oa.offset = 0 ∧ oa.sublen = k ∧ ((oa.ref = none ∧ k = 0) ∨
    ∃ q Q, oa.ref = some q ∧ A.blk q = some Q ∧ Q.refs = 1 ∧ Tidy S Q.cells k prot)

/-- An array of `k` strings with room for one more. -/
def Roomy (S : St UInt8) (A : St Nat) (a k : Nat) (prot : List Nat) : Prop :=
  ∃ oa q Q, A.obj a = some oa ∧ oa.offset = 0 ∧ oa.sublen = k ∧
    oa.ref = some q ∧ A.blk q = some Q ∧ Q.refs = 1 ∧ Tidy S Q.cells k prot ∧ k + 1 ≤ Q.cells.length

theorem Row.hash0 {a k : Nat} {oa : Obj} (h : Row S A a k prot) (ho : A.obj a = some oa) :
    Row S (A.setObj a (some { oa with hash := 0 })) a k prot := by
  obtain ⟨oa', h1, h2, h3, h4⟩ := h
  rw [ho] at h1
  cases h1
  exact ⟨_, St.obj_setObj_self _ (St.obj_lt ho), h2, h3, h4⟩

theorem reserve_tail {a k q : Nat} {sc : Nat → Nat} {oa : Obj} {Q : Block Nat} (i1 : A.obj a = some oa)
    (i3 : oa.sublen = k) (i4 : oa.ref = some q) (i5 : A.blk q = some Q) (i6 : Q.refs = 1)
    (i7 : Tidy S Q.cells k prot) (hp : ∀ x ∈ prot, S.obj x ≠ none) {u : Unit} {w' : World}
    (h : (do let off ← arefReserve c q (k + 1) sc 0 k
             let ob ← arrs (getObj a)
             arrs (putObj a { ob with offset := off }) : P Unit) ⟨S, A⟩ = .ok u w') :
    Roomy w'.strs w'.arrs a k prot ∧ (∀ x ∈ prot, w'.strs.obj x = S.obj x) ∧ SameHeap S w'.strs := by
  obtain ⟨off, w2, h2, h⟩ := pbind_inv h
  obtain ⟨rfl, ⟨Q', j1, j2, j3, j4⟩, j5, j6, j7⟩ := aref_tidy i5 i6 i7 hp h2
  have ho2 : w2.arrs.obj a = some oa := by rw [← i1]; unfold St.obj; rw [j7]
  rw [pbind_ok (arrs_ok (getObj_eq ho2))] at h
  cases h
  exact ⟨⟨_, q, Q', St.obj_setObj_self _ (St.obj_lt ho2), rfl, i3, i4, j1, j2, j3, j4⟩, j5, j6⟩

theorem reserve_row {a k : Nat} {sc : Nat → Nat} (hrow : Row S A a k prot) (hp : ∀ x ∈ prot, S.obj x ≠ none) {u : Unit}
    {w' : World} (h : Nest.reserve c a (k + 1) sc ⟨S, A⟩ = .ok u w') :
    Roomy w'.strs w'.arrs a k prot ∧ (∀ x ∈ prot, w'.strs.obj x = S.obj x) ∧ SameHeap S w'.strs := by
  obtain ⟨oa, ho, h0, hk, hc⟩ := hrow
  unfold Nest.reserve at h
  rw [pbind_ok (arrs_ok (getObj_eq ho))] at h
  simp only [h0, hk] at h
  rcases hc with ⟨hn, rfl⟩ | ⟨q0, Q, hq, hb, hr, ht⟩
  · simp only [hn] at h
    obtain ⟨q1, w2, h2, h⟩ := pbind_inv h
    obtain ⟨A2, h2a, rfl⟩ := arrs_inv h2
    unfold newRef at h2a
    obtain ⟨g, A3, h3, h2b⟩ := bind_inv h2a
    have hA3 : A3.objs = A.objs := by
      unfold alloc at h3
      simp only at h3
      split at h3 <;> cases h3
      rfl
    cases h2b
    obtain ⟨u', w3, h4, h⟩ := pbind_inv h
    cases h4
    rw [pbind_ok (show (pure A3.heap.length : P Nat) _ = .ok _ _ from rfl)] at h
    have hl : a < A3.objs.length := by rw [hA3]; exact St.obj_lt ho
    refine reserve_tail (k := 0) (A := St.setObj { A3 with heap := A3.heap ++ [some { gen := 0, cells := [], refs := 1 }] } a
        (some { ref := some A3.heap.length, hash := oa.hash })) (St.obj_setObj_self _ hl) rfl rfl
      (Q := { gen := 0, cells := [], refs := 1 }) ?_ rfl ⟨List.nodup_nil, by simp, by simp, by simp, Nat.le_refl _⟩ hp h
    rw [St.blk_setObj]
    unfold St.blk
    simp
  · simp only [hq] at h
    rw [pbind_ok (show (pure q0 : P Nat) _ = .ok _ _ from rfl)] at h
    exact reserve_tail ho hk hq hb hr ht hp h

theorem isShared_not {T : Type} {A : St T} {a : Nat} {oa : Obj} (ho : A.obj a = some oa)
    (h : oa.ref = none ∨ ∃ q Q, oa.ref = some q ∧ A.blk q = some Q ∧ Q.refs = 1) : Rca.isShared a A = .ok false A := by
  unfold Rca.isShared
  rw [Rca.bind_ok (getObj_eq ho)]
  rcases h with hn | ⟨q0, Q, hq, hb, hr⟩
  · simp only [hn]; rfl
  · simp only [hq]
    rw [Rca.bind_ok (getBlk_some hb)]
    have hf : decide (Q.refs > 1) = false := decide_eq_false (by omega)
    rw [hf]
    rfl

theorem modify_row {a k : Nat} (hrow : Row S A a k prot) (hp : ∀ x ∈ prot, S.obj x ≠ none) {u : Unit}
    {w' : World} (h : Nest.aboutToModify c a (k + 1) ⟨S, A⟩ = .ok u w') :
    Roomy w'.strs w'.arrs a k prot ∧ (∀ x ∈ prot, w'.strs.obj x = S.obj x) ∧ SameHeap S w'.strs := by
  have hrow' := hrow
  obtain ⟨oa, ho, h0, hk, hc⟩ := hrow
  unfold Nest.aboutToModify at h
  rw [pbind_ok (arrs_ok (getObj_eq ho))] at h
  obtain ⟨u', w1, h1, h⟩ := pbind_inv h
  cases h1
  have hrow1 := hrow'.hash0 ho
  have hsh : Rca.isShared a (A.setObj a (some { oa with hash := 0 })) = .ok false (A.setObj a (some { oa with hash := 0 })) := by
    refine isShared_not (St.obj_setObj_self _ (St.obj_lt ho)) ?_
    rcases hc with ⟨hn, _⟩ | ⟨q0, Q, hq, hb, hr, ht⟩
    · exact Or.inl hn
    · exact Or.inr ⟨q0, Q, hq, hb, hr⟩
  rw [pbind_ok (arrs_ok hsh)] at h
  exact reserve_row hrow1 hp h

/-- Appending a string with storage. -/
theorem append_row {a k t b : Nat} {B : Block UInt8} {ot : Obj} (hrow : Row S A a k prot) (hp : ∀ x ∈ prot, S.obj x ≠ none)
    (ht : t ∈ prot) (hot : S.obj t = some ot) (hr : ot.ref = some b) (hb : S.blk b = some B) {u : Unit} {w' : World}
    (h : Nest.append c a t ⟨S, A⟩ = .ok u w') :
    Row w'.strs w'.arrs a (k + 1) prot ∧ (∀ x ∈ prot, w'.strs.obj x = S.obj x) ∧
      w'.strs.blk b = some { B with refs := B.refs + 1 } := by
  obtain ⟨oa, ho, h0, hk, hc⟩ := id hrow
  have hlen : Rca.length a A = .ok k A := by
    unfold Rca.length
    rw [Rca.bind_ok (getObj_eq ho), ← hk]
    rfl
  unfold Nest.append at h
  rw [pbind_ok (arrs_ok hlen)] at h
  unfold insertItem at h
  obtain ⟨u1, w1, h1, h⟩ := pbind_inv h
  unfold makeRoom at h1
  obtain ⟨u2, w2, h2, h1⟩ := pbind_inv h1
  have hw2 : w2 = ⟨S, A⟩ := by
    obtain ⟨A2, h3, rfl⟩ := arrs_inv h2
    unfold validatePos at h3
    split at h3
    · unfold validateIndex at h3
      rw [Rca.bind_ok hlen] at h3
      split at h3 <;> cases h3
      rfl
    · cases h3; rfl
  subst w2
  rw [pbind_ok (arrs_ok hlen)] at h1
  obtain ⟨u3, w3, h3, h1⟩ := pbind_inv h1
  obtain ⟨⟨oa', q, Q, i1, i2, i3, i4, i5, i6, i7, i8⟩, j2, j3⟩ := modify_row hrow hp h3
  -- shiftRight at the end moves nothing
  have hw1 : w1 = w3 := by
    unfold Nest.shiftRight at h1
    rw [pbind_ok (arrs_ok (getObj_eq i1))] at h1
    have hz : oa'.sublen - k = 0 := by omega
    rw [hz] at h1
    have hrd : ∀ i, readRange a i 0 w3.arrs = .ok [] w3.arrs := by
      intro i
      unfold readRange
      rw [Rca.bind_ok (getObj_eq i1)]
      rfl
    rw [pbind_ok (arrs_ok (hrd _)), pbind_ok (arrs_ok (hrd _))] at h1
    cases h1
    rfl
  subst w1
  obtain ⟨u4, w4, h4, h⟩ := pbind_inv h
  unfold assignCells at h4
  obtain ⟨ds, w5, h5, h4⟩ := pbind_inv h4
  obtain ⟨A5, h5a, rfl⟩ := arrs_inv h5
  obtain ⟨rfl, ob', k1, k2⟩ := readRange_inv h5a
  rw [i1] at k1
  cases k1
  rcases k2 with ⟨k2, _⟩ | ⟨q', Q', k2, k3, k4, k5⟩
  · cases k2
  rw [i4] at k2
  cases k2
  rw [i5] at k3
  cases k3
  rw [i2] at k5
  simp only [Nat.zero_add, List.length_cons, List.length_nil] at k5
  obtain ⟨d, hd⟩ : ∃ d, Q.cells[k]? = some d := ⟨Q.cells[k], List.getElem?_eq_getElem (by omega)⟩
  have hkl : k < Q.cells.length := by omega
  have hdk : Q.cells.drop k = d :: Q.cells.drop (k + 1) := by
    have : Q.cells[k] = d := by rw [List.getElem?_eq_getElem hkl] at hd; exact Option.some.inj hd
    rw [← this]
    exact List.drop_eq_getElem_cons hkl
  have hds : ds = [d] := by
    rw [k5]
    unfold window
    rw [hdk]
    rfl
  subst hds
  have hdm : d ∈ Q.cells := List.mem_of_getElem? hd
  obtain ⟨od, hod, hon⟩ := i7.clean d (by rw [hdk]; exact List.mem_cons_self)
  have hdt : d ≠ t := fun e => i7.apart t ht (e ▸ hdm)
  have hot3 : w3.strs.obj t = some ot := (j2 t ht).trans hot
  have hb3 : w3.strs.blk b = some B := (j3.blk b).trans hb
  obtain ⟨S6, l1, l2, l3, l4⟩ := copyAssign_into hod hon hot3 hr hb3 hdt
  have hass : assigns [d] [t] w3 = .ok () ⟨S6, w3.arrs⟩ := by
    unfold assigns
    rw [pbind_ok (show assign d t w3 = .ok () ⟨S6, w3.arrs⟩ from strs_ok l1)]
    rfl
  rw [show (⟨w3.strs, w3.arrs⟩ : World) = w3 from rfl, hass] at h4
  cases h4
  have hbump : Rca.bumpLength a 1 w3.arrs = .ok () (w3.arrs.setObj a (some { oa' with sublen := oa'.sublen + 1 })) := by
    unfold Rca.bumpLength
    rw [Rca.bind_ok (getObj_eq i1)]
    rfl
  rw [arrs_ok (w := ⟨S6, w3.arrs⟩) hbump] at h
  cases h
  have hneprot : ∀ x ∈ prot, x ≠ d := fun x hx e => i7.apart x hx (e ▸ hdm)
  refine ⟨⟨_, St.obj_setObj_self _ (St.obj_lt i1), i2, by simp only; omega, Or.inr ⟨q, Q, i4, i5, i6, ?_⟩⟩, ?_, l2⟩
  · refine ⟨i7.nodup, ?_, ?_, i7.apart, i8⟩
    · intro x hx
      show S6.obj x ≠ none
      by_cases he : x = d
      · subst he
        obtain ⟨od', m1, _⟩ := l3
        rw [m1]; simp
      · rw [l4 x he]
        exact i7.live x hx
    · intro x hx
      have hnd : (d :: Q.cells.drop (k + 1)).Nodup := hdk ▸ (i7.nodup.sublist (List.drop_sublist k Q.cells))
      have hxd : x ≠ d := fun e => (List.nodup_cons.1 hnd).1 (e ▸ hx)
      obtain ⟨ox, m1, m2⟩ := i7.clean x (by rw [hdk]; exact List.mem_cons_of_mem _ hx)
      exact ⟨ox, (l4 x hxd).trans m1, m2⟩
  · intro x hx
    show S6.obj x = _
    rw [l4 x (hneprot x hx)]
    exact j2 x hx

end Bdlib.Nest.Refs
