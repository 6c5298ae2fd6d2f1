import Verif.Props.C03

/-!
# C17 c_str() is NUL-terminated and equals the contents
-/

namespace Bdlib.Rca
open Bdlib Bdlib.Spec

variable {T : Type} [DecidableEq T] {cfg : Cfg T}

/-- `c_str()` of any String of any history (copied, sliced, shrunk, shared): the bytes at the returned
pointer are the contents followed by NUL, and afterwards every object, this one included, shows what it
did before; unless memory ran out.

Partial: `cfg.slack = 1`, that is, the program does not make Strings with the fill, list and iterator
constructors inherited from the array class; with those, see `c17_refuted_exact`. -/
theorem c17_cstr_partial (hv : cfg.Valid) (hp : cfg.Physical) {s : St T} {env : Env T} (h : Reach cfg s env)
    (hslack : cfg.slack = 1) {c : T} (hc : cfg.nul = some c) {o : Nat} {v : List T} (ho : env o = .val v) :
    (∃ s', run cfg (.cStr o) s = .ok (.bytes (v ++ [c])) s' ∧ Reach cfg s' env ∧
      ∀ p w, env p = .val w → Shows s' p w) ∨
    OutOfMemory cfg s env (.cStr o) o := by
  obtain ⟨out, s', env', hres, hpost, hr⟩ := h.call hv hp (op := .cStr o)
    ⟨has_val ho, by unfold IsStr; rw [hc]; rfl, hslack⟩
  rcases hpost with ⟨c', hc', hobs⟩ | hn
  · obtain ⟨rfl, rfl⟩ := hobs
    rw [hc] at hc'
    cases hc'
    rw [get_val ho] at hres
    exact Or.inl ⟨s', result_ok hres, hr, fun p w hw => hr.shows hv hp hw⟩
  · have he := hn.1
    subst he
    exact Or.inr (noMem_out hv hp h (op := .cStr o) ⟨has_val ho, by unfold IsStr; rw [hc]; rfl, hslack⟩ hres (fun p hne => hn.frame hne) hr)

/-- `String s("hello"); String t = s(1, 3);` object 1 is a slice in the middle of a shared buffer. -/
def stHell : St Nat := (exec strCfg {} [.cstrCtor [104, 101, 108, 108, 111], .substring 0 1 3]).getD {}
def envHell : Env Nat := (Env.empty.upd 0 (.val [104, 101, 108, 108, 111])).upd 1 (.val [101, 108, 108])

theorem reachHell : Reach strCfg stHell envHell := by
  have h1 : Reach strCfg ((exec strCfg {} [.cstrCtor [104, 101, 108, 108, 111]]).getD {})
      (Env.empty.upd 0 (.val [104, 101, 108, 108, 111])) :=
    Reach.next strCfg_valid strCfg_physical .init (op := .cstrCtor [104, 101, 108, 108, 111]) (x := .obj 0)
      (by simp [Pre, IsStr, strCfg]) rfl (fun h => h) (Or.inl ⟨0, rfl, rfl, rfl⟩)
  exact Reach.next strCfg_valid strCfg_physical h1 (op := .substring 0 1 3) (x := .obj 1)
    ⟨⟨_, rfl⟩, by decide⟩ rfl (fun h => h) ⟨1, rfl, rfl, rfl⟩

example : ∃ s', run strCfg (.cStr 1) stHell = .ok (.bytes [101, 108, 108, 0]) s' := ⟨_, rfl⟩
example : strCfg.slack = 1 ∧ strCfg.nul = some 0 ∧ envHell 1 = .val [101, 108, 108] := ⟨rfl, rfl, rfl⟩

/-- `String s(2, 'x'); s.c_str()`: reads the byte behind the two-byte buffer. -/
theorem c17_refuted_exact : Reach strCfg0 stF (Env.empty.upd 0 (.val [120, 120])) ∧
    run strCfg0 (.cStr 0) stF = .ub := c03_refuted_cstr

end Bdlib.Rca
