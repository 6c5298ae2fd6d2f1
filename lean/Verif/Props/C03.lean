import Verif.Props.Common

/-!
# C03 In-contract calls never touch memory outside the object's storage
-/

namespace Bdlib.Rca
open Bdlib Bdlib.Spec

variable {T : Type} [DecidableEq T] {cfg : Cfg T}

/-- After any history of in-contract calls, no in-contract call is undefined behaviour: every read and
write the code makes is inside an allocated buffer of a live block.

Partial: `c_str()` is covered only for strings that were not made by the exact-size constructors
(`cfg.slack = 1`), see `c03_refuted_cstr`. -/
theorem c03_defined_partial (hv : cfg.Valid) (hp : cfg.Physical) {s : St T} {env : Env T} (h : Reach cfg s env)
    {op : Op T} (hpre : Pre cfg (shared s) env op) : run cfg op s ≠ .ub := by
  obtain ⟨out, s', env', hres, _, _⟩ := h.call hv hp hpre
  intro hub
  rw [hub] at hres
  cases hres

/-- Objects never refer to storage outside what is allocated: the window an object shows lies inside its
buffer. -/
theorem c03_window_inside (hv : cfg.Valid) (hp : cfg.Physical) {s : St T} {env : Env T} (h : Reach cfg s env)
    {o a : Nat} {ob : Obj} (ho : s.obj o = some ob) (hr : ob.ref = some a) :
    ∃ b, s.blk a = some b ∧ ob.offset + ob.sublen ≤ b.cells.length := by
  obtain ⟨hwf, _, _⟩ := h.inv hv hp
  exact hwf.le ho hr

example : Pre arrCfg (shared stA) envA (.insertRca 0 2 1) :=
  ⟨⟨_, rfl⟩, ⟨_, rfl⟩, by decide, by rintro ⟨h, _⟩; cases h⟩
example : Pre arrCfg (shared stA) envA (.shift 1) := ⟨⟨_, rfl⟩, by simp [Env.get, envA, Env.upd]⟩

/-- `String s(2, 'x')`, made by the fill constructor inherited from `ReferenceCountedArray`. -/
def stF : St Nat := (exec strCfg0 {} [.fillCtor 2 120]).getD {}

theorem reachF : Reach strCfg0 stF (Env.empty.upd 0 (.val [120, 120])) :=
  Reach.next strCfg0_valid strCfg0_physical .init (op := .fillCtor 2 120) (x := .obj 0) rfl rfl (fun h => h)
    (Or.inl ⟨0, rfl, rfl, rfl⟩)

/-- `String s(2, 'x'); s.c_str()` reads past the end of its two-byte buffer. -/
theorem c03_refuted_cstr : Reach strCfg0 stF (Env.empty.upd 0 (.val [120, 120])) ∧ run strCfg0 (.cStr 0) stF = .ub :=
  ⟨reachF, rfl⟩

end Bdlib.Rca
