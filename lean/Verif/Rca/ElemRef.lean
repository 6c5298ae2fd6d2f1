import Verif.Props.C16

/-!
# Storing an element that is given by a reference into some buffer

`Rca/Model.lean` has `insertRef`.  These are the other calls that take a `const T&` and read it after the receiver
got its own storage.
-/

namespace Bdlib.Rca
open Bdlib Bdlib.Spec

variable {T : Type}

/-- `write(i, const T& item)`, `a[i] = item` (`ReferenceCountedArray.h` 844-847, 908-911) where `item` is a reference
into some buffer: it is read after the receiver got its own storage. -/
def writeRef (cfg : Cfg T) (o i : Nat) (p : Ptr) : M T Unit := do
  getOwnCopy cfg o
  let v ← loadPtr p
  writeRange o i [v]

/-- `replace(pos, const T& item)` (`ReferenceCountedArray.h` 1212-1218) where `item` is a reference into some buffer. -/
def replaceRef (cfg : Cfg T) (o pos : Nat) (p : Ptr) : M T Unit := do
  validatePos o pos
  writeRef cfg o pos p

variable [DecidableEq T] {cfg : Cfg T}

/-- Getting its own storage leaves a reference to an element of any object, also of the receiver itself, valid. -/
theorem loadPtr_ownCopy (hv : cfg.Valid) (hp : cfg.Physical) (hs : cfg.nul = none ∨ cfg.slack = 1) {s : St T} {env : Env T}
    (h : Reach cfg s env) {o r i : Nat} {v w : List T} {x : T} (ho : env o = .val v) (hr : env r = .val w)
    (hi : w[i]? = some x) {p : Ptr} (hptr : ptrTo r i s = .ok p s) :
    (getOwnCopy cfg o s).Sat (fun _ s' => loadPtr p s' = .ok x s') fun _ _ => True := by
  obtain ⟨hwf, _, _⟩ := h.inv hv hp
  have hview := h.view_eq hv hp ho
  have hx := loadPtr_elem hv hp h hr hi hptr
  obtain ⟨b, hb, hg, hc⟩ := loadPtr_inv hx
  obtain ⟨rb, _, hro, hrr, _, _, hidx⟩ := ptrTo_inv hptr
  unfold getOwnCopy
  apply sat_of_eq_ok (length_spec hview)
  -- some other object keeps the storage alive
  have pinned : ∀ q, q ≠ o → storage s q = some p.addr →
      (aboutToModify cfg o v.length s).Sat (fun _ s' => loadPtr p s' = .ok x s') fun _ _ => True := by
    intro q hq hst
    obtain ⟨qb, hqo, hqr⟩ := obj_of_storage hst
    refine aboutToModify_spec hwf hview (Nat.le_refl _) ?_ fun _ _ _ _ _ _ => trivial
    intro s1 ob a b1 how hsl hw hroom
    have hvis := (how.frame q hq).2 qb p.addr hqo hqr
    rw [hb] at hvis
    cases hb2 : s1.blk p.addr with
    | none => rw [hb2] at hvis; simp at hvis
    | some bb =>
      rw [hb2] at hvis
      simp only [Option.map_some, Block.vis, Option.some.injEq, Prod.mk.injEq] at hvis
      exact loadPtr_of hb2 (hvis.1.trans hg) (by rw [hvis.2]; exact hc)
  by_cases hne : r = o
  case neg => exact pinned r hne (by simp [storage, hro, hrr])
  subst hne
  obtain ⟨bb, hsh, hiff⟩ := c02_isShared hv hp h (live_val ho)
  cases bb with
  | true =>
    obtain ⟨q, a, hq, h1, h2⟩ := hiff.mp rfl
    have : a = p.addr := by
      simp [storage, hro, hrr] at h1
      exact h1.symm
    exact pinned q hq (this ▸ h2)
  | false =>
    rw [ho] at hr; cases hr
    have hil : i < v.length := (List.getElem?_eq_some_iff.mp hi).1
    have hsub : rb.sublen = v.length := by
      obtain ⟨ob1, h1, _, h2⟩ := obj_of_view hview
      rw [hro] at h1; cases h1; exact h2
    have hroom : rb.offset + room cfg v.length ≤ b.cells.length := by
      obtain ⟨b', hb', hle⟩ := hwf.bounds _ _ _ hro hrr
      rw [hb] at hb'; cases hb'
      have hneed : room cfg v.length ≤ cfg.need rb.sublen := by
        unfold room Cfg.need
        rcases hs with hs | hs
        · rw [hs]; simp; split <;> omega
        · rw [hs]; split <;> split <;> omega
      omega
    refine sat_mono (aboutToModify_spare hro hrr hb (isShared_run hsh) hroom (by omega)) ?_ fun _ _ h => h.elim
    rintro _ s1 ⟨_, b1, hb1, hg1, _, hsame⟩
    exact loadPtr_of hb1 (hg1.trans hg) (by rw [hidx, hsame _ (by omega), ← hidx]; exact hc)

/-- `a[j] = b[i]` stores the value the element has before the call, whether or not `b` is `a` and whatever shares storage. -/
theorem c16_write (hv : cfg.Valid) (hp : cfg.Physical) (hs : cfg.nul = none ∨ cfg.slack = 1) {s : St T} {env : Env T}
    (h : Reach cfg s env) {o r i j : Nat} {v w : List T} {x : T} (ho : env o = .val v) (hr : env r = .val w)
    (hi : w[i]? = some x) {p : Ptr} (hptr : ptrTo r i s = .ok p s) : writeRef cfg o j p s = write cfg o j x s := by
  unfold writeRef write
  refine bind_res (sat_mono (loadPtr_ownCopy hv hp hs h ho hr hi hptr) (fun _ s' hl => ?_) fun _ _ h => h)
  rw [bind_ok hl]

/-- `a.replace(pos, b[i])`, likewise. -/
theorem c16_replace (hv : cfg.Valid) (hp : cfg.Physical) (hs : cfg.nul = none ∨ cfg.slack = 1) {s : St T} {env : Env T}
    (h : Reach cfg s env) {o r i j : Nat} {v w : List T} {x : T} (ho : env o = .val v) (hr : env r = .val w)
    (hi : w[i]? = some x) {p : Ptr} (hptr : ptrTo r i s = .ok p s) : replaceRef cfg o j p s = replaceItem cfg o j x s := by
  have hview := h.view_eq hv hp ho
  unfold replaceRef replaceItem
  by_cases hpos : j ≤ v.length
  · rw [bind_ok (validatePos_ok hview hpos), bind_ok (validatePos_ok hview hpos)]
    exact c16_write hv hp hs h ho hr hi hptr
  · rw [bind_throw (validatePos_throw hview (by omega)), bind_throw (validatePos_throw hview (by omega))]

/-- `a[0] = a[4]` and `a.replace(0, b[1])` for `{1,2,3,4,5}` and its subarray `b = {2,3,4}`. -/
example : ∃ p q, ptrTo 0 4 stA = .ok p stA ∧ ptrTo 1 1 stA = .ok q stA ∧
    writeRef arrCfg 0 0 p stA = write arrCfg 0 0 5 stA ∧ replaceRef arrCfg 0 0 q stA = replaceItem arrCfg 0 0 3 stA :=
  ⟨_, _, rfl, rfl, c16_write arrCfg_valid arrCfg_physical (.inl rfl) reachA (r := 0) (i := 4) rfl rfl rfl rfl,
    c16_replace arrCfg_valid arrCfg_physical (.inl rfl) reachA (r := 1) (i := 1) rfl rfl rfl rfl⟩

/-- A String `ab` (1 2) from an initializer list: no byte behind its characters. -/
def stLit : St Nat := (exec strCfg0 {} [.listCtor [1, 2]]).getD {}
theorem reachLit : Reach strCfg0 stLit (Env.empty.upd 0 (.val [1, 2])) :=
  Reach.next strCfg0_valid strCfg0_physical .init (op := .listCtor [1, 2]) (x := .obj 0) (by simp [Pre, strCfg0]) rfl
    (fun h => h) (Or.inl ⟨0, rfl, rfl, rfl⟩)

/-- Without the second hypothesis it does not hold: `s.write(0, s.back())` for such a String gives it larger storage
before the reference is read, undefined. -/
theorem c16_refuted_write : ∃ p, Reach strCfg0 stLit (Env.empty.upd 0 (.val [1, 2])) ∧ ptrTo 0 1 stLit = .ok p stLit ∧
    writeRef strCfg0 0 0 p stLit = .ub := ⟨_, reachLit, rfl, rfl⟩

end Bdlib.Rca
