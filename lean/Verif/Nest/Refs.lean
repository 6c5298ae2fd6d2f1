import Verif.Nest.Debug
import Verif.Nest.Expiring
import Verif.Nest.Arrays

/-!
# Reference counters while `split` runs

Every piece that `split` appends to the array it builds adds one to the counter of the storage of the string that is
split, however often the array is reallocated.
-/

namespace Bdlib.Nest.Refs
open Bdlib Bdlib.Spec Bdlib.Rca Bdlib.Str Bdlib.Nest
open Bdlib.Nest.P (strs arrs undef)

/-! ## Strings -/

section
variable {T : Type} {cfg : Cfg T} {S : St T} {h b : Nat} {ob : Obj} {B : Block T}

theorem checkDealloc_none (ho : S.obj h = some ob) (hr : ob.ref = none) : Rca.checkDeallocRef h S = .ok () S := by
  unfold Rca.checkDeallocRef
  rw [Rca.bind_ok (Rca.getObj_eq ho)]
  simp only [hr]
  rfl

theorem destroy_none (ho : S.obj h = some ob) (hr : ob.ref = none) : Rca.destroy cfg h S = .ok () (S.setObj h none) := by
  have hd : Rca.dtorBody cfg h S = .ok () S := by
    unfold Rca.dtorBody
    split
    · unfold Rca.cleanse
      rw [Rca.bind_ok (Rca.getObj_eq ho)]
      simp only [hr]
      rfl
    · rfl
  unfold Rca.destroy
  rw [Rca.bind_ok hd, Rca.bind_ok (checkDealloc_none ho hr)]
  rfl

theorem obj_push_old {x : Nat} (y : Option Obj) (hx : x < S.objs.length) :
    ({ S with objs := S.objs ++ [y] } : St T).obj x = S.obj x := by
  unfold St.obj
  simp only
  rw [List.getElem?_append_left hx]

theorem obj_push_new (y : Option Obj) : ({ S with objs := S.objs ++ [y] } : St T).obj S.objs.length = y := by
  unfold St.obj
  simp

theorem copyCtor_none (ho : S.obj h = some ob) (hr : ob.ref = none) :
    Rca.copyCtor h S = .ok S.objs.length { S with objs := S.objs ++ [some ob] } := by
  unfold Rca.copyCtor
  rw [Rca.bind_ok (Rca.getObj_eq ho)]
  simp only [hr]
  rfl

theorem getBlk_some {a : Nat} (hb : S.blk a = some B) : getBlk a S = .ok B S := by unfold getBlk; rw [hb]

theorem copyCtor_some (ho : S.obj h = some ob) (hr : ob.ref = some b) (hb : S.blk b = some B) :
    Rca.copyCtor h S = .ok S.objs.length
      (St.setBlk { S with objs := S.objs ++ [some ob] } b (some { B with refs := B.refs + 1 })) := by
  unfold Rca.copyCtor
  rw [Rca.bind_ok (Rca.getObj_eq ho)]
  have e : Rca.newObj ob S = .ok S.objs.length { S with objs := S.objs ++ [some ob] } := rfl
  rw [Rca.bind_ok e]
  have e2 : Rca.incRef ob.ref ({ S with objs := S.objs ++ [some ob] } : St T) = .ok ()
      (St.setBlk { S with objs := S.objs ++ [some ob] } b (some { B with refs := B.refs + 1 })) := by
    rw [hr]
    show (getBlk b >>= _) _ = _
    rw [Rca.bind_ok (getBlk_some (show ({ S with objs := S.objs ++ [some ob] } : St T).blk b = some B from hb))]
    rfl
  rw [Rca.bind_ok e2]
  rfl

theorem moveCtor_eq (ho : S.obj h = some ob) : Rca.moveCtor cfg h S = .ok S.objs.length
    (St.setObj { S with objs := S.objs ++ [some ob] } h (some (Rca.movedFrom cfg ob))) := by
  unfold Rca.moveCtor
  rw [Rca.bind_ok (Rca.getObj_eq ho)]
  rfl

theorem movedFrom_ref : (Rca.movedFrom cfg ob).ref = none := by
  unfold Rca.movedFrom
  split <;> rfl

/-- Copy assignment to an object without storage. -/
theorem copyAssign_into {d : Nat} {od : Obj} (hd : S.obj d = some od) (hn : od.ref = none) (ho : S.obj h = some ob)
    (hr : ob.ref = some b) (hb : S.blk b = some B) (hne : d ≠ h) :
    ∃ S', Rca.copyAssign d h S = .ok () S' ∧ S'.blk b = some { B with refs := B.refs + 1 } ∧
      (∃ od', S'.obj d = some od' ∧ od'.ref = some b) ∧ ∀ x, x ≠ d → S'.obj x = S.obj x := by
  have e1 : Rca.incRef ob.ref S = .ok () (S.setBlk b (some { B with refs := B.refs + 1 })) := by
    rw [hr]
    show (getBlk b >>= _) _ = _
    rw [Rca.bind_ok (getBlk_some hb)]
    rfl
  unfold Rca.copyAssign
  have hd0 : (S.setBlk b (some { B with refs := B.refs + 1 })).obj d = some od := hd
  rw [Rca.bind_ok (Rca.getObj_eq ho), Rca.bind_ok e1, Rca.bind_ok (Rca.getObj_eq hd0)]
  generalize hS1 : (S.setBlk b (some { B with refs := B.refs + 1 })).setObj d
    (some { od with offset := ob.offset, sublen := ob.sublen, hash := ob.hash }) = S1
  have ep : putObj d { od with offset := ob.offset, sublen := ob.sublen, hash := ob.hash }
      (S.setBlk b (some { B with refs := B.refs + 1 })) = .ok () S1 := by rw [← hS1]; rfl
  have hl : d < (S.setBlk b (some { B with refs := B.refs + 1 })).objs.length := St.obj_lt hd
  have hd1 : S1.obj d = some { od with offset := ob.offset, sublen := ob.sublen, hash := ob.hash } := by
    rw [← hS1]; exact St.obj_setObj_self _ hl
  have ho1 : S1.obj h = some ob := by
    rw [← hS1, St.obj_setObj_ne _ (Ne.symm hne)]; exact ho
  rw [Rca.bind_ok ep, Rca.bind_ok (checkDealloc_none hd1 hn), Rca.bind_ok (Rca.getObj_eq ho1), Rca.bind_ok (Rca.getObj_eq hd1)]
  refine ⟨_, rfl, ?_, ?_, ?_⟩
  · rw [St.blk_setObj, ← hS1, St.blk_setObj]
    exact St.blk_setBlk_self _ (St.blk_lt hb)
  · refine ⟨_, St.obj_setObj_self _ (St.obj_lt hd1), hr⟩
  · intro x hx
    rw [St.obj_setObj_ne _ hx, ← hS1, St.obj_setObj_ne _ hx]
    rfl

/-- The destructor of an object that is not the last one to use its storage. -/
theorem destroy_some (ho : S.obj h = some ob) (hr : ob.ref = some b) (hb : S.blk b = some B) (h2 : 2 ≤ B.refs) :
    ∃ S', Rca.destroy cfg h S = .ok () S' ∧ S'.blk b = some { B with refs := B.refs - 1 } ∧
      ∀ x, x ≠ h → S'.obj x = S.obj x := by
  have hd : Rca.dtorBody cfg h S = .ok () S := by
    unfold Rca.dtorBody
    split
    · unfold Rca.cleanse
      rw [Rca.bind_ok (Rca.getObj_eq ho)]
      simp only [hr]
      rw [Rca.bind_ok (getBlk_some hb), if_neg (by omega)]
      rfl
    · rfl
  have hc : Rca.checkDeallocRef h S = .ok () (S.setBlk b (some { B with refs := B.refs - 1 })) := by
    unfold Rca.checkDeallocRef
    rw [Rca.bind_ok (Rca.getObj_eq ho)]
    simp only [hr]
    have e : Rca.decRef (some b) S = .ok () (S.setBlk b (some { B with refs := B.refs - 1 })) := by
      show (getBlk b >>= _) _ = _
      rw [Rca.bind_ok (getBlk_some hb)]
      rfl
    have hb' := St.blk_setBlk_self (s := S) (some { B with refs := B.refs - 1 }) (St.blk_lt hb)
    rw [Rca.bind_ok e, Rca.bind_ok (getBlk_some hb')]
    simp only
    rw [if_neg (by omega)]
    rfl
  unfold Rca.destroy
  rw [Rca.bind_ok hd, Rca.bind_ok hc]
  refine ⟨_, rfl, ?_, fun x hx => ?_⟩
  · rw [St.blk_setObj]; exact St.blk_setBlk_self _ (St.blk_lt hb)
  · rw [St.obj_setObj_ne _ hx]; rfl

end

/-! ## Lists of strings -/

/-- No counter has changed. -/
def SameHeap (S S' : St UInt8) : Prop := S'.heap = S.heap ∧ S.objs.length ≤ S'.objs.length

theorem SameHeap.blk {S S' : St UInt8} (h : SameHeap S S') (b : Nat) : S'.blk b = S.blk b := by
  unfold St.blk; rw [h.1]

theorem SameHeap.trans {S S' S'' : St UInt8} (h : SameHeap S S') (h' : SameHeap S' S'') : SameHeap S S'' :=
  ⟨h'.1.trans h.1, Nat.le_trans h.2 h'.2⟩

/-- An object without storage. -/
def Bare (S : St UInt8) (x : Nat) : Prop := ∃ ob, S.obj x = some ob ∧ ob.ref = none

variable {c : Conf}

theorem copies_bare {t : Nat} {ob : Obj} : ∀ (k : Nat) (S : St UInt8) (A : St Nat), S.obj t = some ob → ob.ref = none →
    ∃ fs S', copies t k ⟨S, A⟩ = .ok fs ⟨S', A⟩ ∧ fs.length = k ∧ fs.Nodup ∧
      (∀ x ∈ fs, S.objs.length ≤ x ∧ Bare S' x) ∧ (∀ x, x < S.objs.length → S'.obj x = S.obj x) ∧ SameHeap S S'
  | 0, S, A, _, _ => ⟨[], S, rfl, rfl, List.nodup_nil, by simp, fun _ _ => rfl, rfl, Nat.le_refl _⟩
  | k + 1, S, A, ho, hr => by
    have hl := St.obj_lt ho
    have h1 : newCopy t ⟨S, A⟩ = .ok S.objs.length ⟨{ S with objs := S.objs ++ [some ob] }, A⟩ := strs_ok (copyCtor_none ho hr)
    obtain ⟨fs, S', h2, h3, h4, h5, h6, h7⟩ := copies_bare k { S with objs := S.objs ++ [some ob] } A
      ((obj_push_old _ hl).trans ho) hr
    have hlen : ({ S with objs := S.objs ++ [some ob] } : St UInt8).objs.length = S.objs.length + 1 := by simp
    refine ⟨S.objs.length :: fs, S', ?_, by simp [h3], ?_, ?_, ?_, ?_⟩
    · unfold copies
      rw [pbind_ok h1, pbind_ok h2]
      rfl
    · refine List.nodup_cons.2 ⟨fun hm => ?_, h4⟩
      have := (h5 _ hm).1
      omega
    · intro x hx
      rcases List.mem_cons.1 hx with rfl | hx
      · refine ⟨Nat.le_refl _, ob, ?_, hr⟩
        rw [h6 _ (by omega)]
        exact obj_push_new _
      · have := h5 x hx
        exact ⟨by omega, this.2⟩
    · intro x hx
      rw [h6 x (by omega)]
      exact obj_push_old _ hx
    · have h0 : SameHeap S { S with objs := S.objs ++ [some ob] } := ⟨rfl, by omega⟩
      exact h0.trans h7

theorem fresh_bare (k : Nat) (S : St UInt8) (A : St Nat) : ∃ fs S', fresh c k ⟨S, A⟩ = .ok fs ⟨S', A⟩ ∧ fs.length = k ∧ fs.Nodup ∧
      (∀ x ∈ fs, S.objs.length ≤ x ∧ Bare S' x) ∧ (∀ x, x < S.objs.length → S'.obj x = S.obj x) ∧ SameHeap S S' := by
  have h1 : new ⟨S, A⟩ = .ok S.objs.length ⟨{ S with objs := S.objs ++ [some {}] }, A⟩ := rfl
  have hlen : ({ S with objs := S.objs ++ [some {}] } : St UInt8).objs.length = S.objs.length + 1 := by simp
  obtain ⟨fs, S', h2, h3, h4, h5, h6, h7⟩ := copies_bare (t := S.objs.length) (ob := {}) k
    { S with objs := S.objs ++ [some {}] } A (obj_push_new _) rfl
  have ht : S'.obj S.objs.length = some {} := (h6 _ (by omega)).trans (obj_push_new _)
  have hd : delete c S.objs.length ⟨S', A⟩ = .ok () ⟨S'.setObj S.objs.length none, A⟩ := strs_ok (destroy_none ht rfl)
  refine ⟨fs, S'.setObj S.objs.length none, ?_, h3, h4, ?_, ?_, ?_⟩
  · unfold fresh
    rw [pbind_ok h1, pbind_ok h2, pbind_ok hd]
    rfl
  · intro x hx
    obtain ⟨h8, ob, h9, h10⟩ := h5 x hx
    refine ⟨by omega, ob, ?_, h10⟩
    rw [St.obj_setObj_ne _ (by omega)]
    exact h9
  · intro x hx
    rw [St.obj_setObj_ne _ (by omega), h6 x (by omega)]
    exact obj_push_old _ hx
  · have h0 : SameHeap S { S with objs := S.objs ++ [some {}] } := ⟨rfl, by omega⟩
    refine h0.trans (h7.trans ⟨rfl, ?_⟩)
    simp [St.setObj]

theorem newMoves_bare : ∀ (hs : List Nat) (S : St UInt8) (A : St Nat), hs.Nodup → (∀ x ∈ hs, S.obj x ≠ none) →
    ∃ ds S', newMoves c hs ⟨S, A⟩ = .ok ds ⟨S', A⟩ ∧ ds.length = hs.length ∧ ds.Nodup ∧
      (∀ x ∈ ds, S.objs.length ≤ x ∧ S'.obj x ≠ none) ∧ (∀ x ∈ hs, Bare S' x) ∧
      (∀ x, x < S.objs.length → x ∉ hs → S'.obj x = S.obj x) ∧ SameHeap S S'
  | [], S, A, _, _ => ⟨[], S, rfl, rfl, List.nodup_nil, by simp, by simp, fun _ _ _ => rfl, rfl, Nat.le_refl _⟩
  | h :: hs, S, A, hn, hl => by
    obtain ⟨hh, hn⟩ := List.nodup_cons.1 hn
    cases ho : S.obj h with
    | none => exact absurd ho (hl h List.mem_cons_self)
    | some ob =>
      have hlt := St.obj_lt ho
      generalize hS1 : (St.setObj { S with objs := S.objs ++ [some ob] } h (some (Rca.movedFrom c.str ob))) = S1
      have h1 : newMove c h ⟨S, A⟩ = .ok S.objs.length ⟨S1, A⟩ := by
        rw [← hS1]; exact strs_ok (moveCtor_eq ho)
      have hlen : S1.objs.length = S.objs.length + 1 := by rw [← hS1]; simp [St.setObj]
      have hold : ∀ x, x < S.objs.length → x ≠ h → S1.obj x = S.obj x := by
        intro x hx hne
        rw [← hS1, St.obj_setObj_ne _ hne]
        exact obj_push_old _ hx
      have hself : S1.obj h = some (Rca.movedFrom c.str ob) := by
        rw [← hS1]; exact St.obj_setObj_self _ (by simp; omega)
      have hnew : S1.obj S.objs.length = some ob := by
        rw [← hS1, St.obj_setObj_ne _ (by omega)]; exact obj_push_new _
      have hmem : ∀ x ∈ hs, x < S.objs.length ∧ x ≠ h := by
        intro x hx
        refine ⟨?_, fun e => hh (e ▸ hx)⟩
        cases hx' : S.obj x with
        | none => exact absurd hx' (hl x (List.mem_cons_of_mem _ hx))
        | some y => exact St.obj_lt hx'
      obtain ⟨ds, S', h2, h3, h4, h5, h6, h7, h8⟩ := newMoves_bare hs S1 A hn (fun x hx => by
        rw [hold x (hmem x hx).1 (hmem x hx).2]; exact hl x (List.mem_cons_of_mem _ hx))
      refine ⟨S.objs.length :: ds, S', ?_, by simp [h3], ?_, ?_, ?_, ?_, ?_⟩
      · unfold newMoves
        rw [pbind_ok h1, pbind_ok h2]
        rfl
      · refine List.nodup_cons.2 ⟨fun hm => ?_, h4⟩
        have := (h5 _ hm).1
        omega
      · intro x hx
        rcases List.mem_cons.1 hx with rfl | hx
        · refine ⟨Nat.le_refl _, ?_⟩
          rw [h7 _ (by omega) (fun hm => by have := (hmem _ hm).1; omega), hnew]
          simp
        · have := h5 x hx
          exact ⟨by omega, this.2⟩
      · intro x hx
        rcases List.mem_cons.1 hx with rfl | hx
        · refine ⟨_, (h7 _ (by omega) hh).trans hself, movedFrom_ref⟩
        · exact h6 x hx
      · intro x hx hm
        rw [h7 x (by omega) (fun h => hm (List.mem_cons_of_mem _ h))]
        exact hold x hx (fun e => hm (e ▸ List.mem_cons_self))
      · have h0 : SameHeap S S1 := ⟨by rw [← hS1]; rfl, by omega⟩
        exact h0.trans h8

theorem deletes_bare : ∀ (hs : List Nat) (S : St UInt8) (A : St Nat), hs.Nodup → (∀ x ∈ hs, Bare S x) →
    ∃ S', deletes c hs ⟨S, A⟩ = .ok () ⟨S', A⟩ ∧ (∀ x, x ∉ hs → S'.obj x = S.obj x) ∧ SameHeap S S'
  | [], S, A, _, _ => ⟨S, rfl, fun _ _ => rfl, rfl, Nat.le_refl _⟩
  | h :: hs, S, A, hn, hl => by
    obtain ⟨hh, hn⟩ := List.nodup_cons.1 hn
    obtain ⟨ob, ho, hr⟩ := hl h List.mem_cons_self
    have h1 : delete c h ⟨S, A⟩ = .ok () ⟨S.setObj h none, A⟩ := strs_ok (destroy_none ho hr)
    obtain ⟨S', h2, h3, h4⟩ := deletes_bare hs (S.setObj h none) A hn (fun x hx => by
      obtain ⟨ox, h5, h6⟩ := hl x (List.mem_cons_of_mem _ hx)
      have hne : x ≠ h := fun e => hh (e ▸ hx)
      exact ⟨ox, (St.obj_setObj_ne _ hne).trans h5, h6⟩)
    have h0 : SameHeap S (S.setObj h none) := ⟨rfl, by simp [St.setObj]⟩
    refine ⟨S', ?_, ?_, h0.trans h4⟩
    · unfold deletes
      rw [pbind_ok h1, h2]
    · intro x hx
      rw [h3 x (fun h => hx (List.mem_cons_of_mem _ h))]
      exact St.obj_setObj_ne _ (fun e => hx (e ▸ List.mem_cons_self))

end Bdlib.Nest.Refs
