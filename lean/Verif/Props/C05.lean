import Verif.Props.Common

/-!
# C05 Append adds exactly the given elements at the end
-/

namespace Bdlib.Rca
open Bdlib Bdlib.Spec

variable {T : Type} [DecidableEq T] {cfg : Cfg T}

theorem Reach.length_lt (hv : cfg.Valid) (hp : cfg.Physical) {s : St T} {env : Env T} (h : Reach cfg s env) {o : Nat}
    {v : List T} (ho : env o = .val v) : v.length < maxCells := by
  obtain ⟨hwf, hc, hA⟩ := h.inv hv hp
  have hview : s.view o = some v := by
    have := hA.view (has_val ho)
    rw [get_val ho] at this
    exact this
  obtain ⟨ob, hob, h1, h2⟩ := obj_of_view hview
  have := caps_obj hwf hc hob h1
  omega

theorem Reach.view_eq (hv : cfg.Valid) (hp : cfg.Physical) {s : St T} {env : Env T} (h : Reach cfg s env) {o : Nat}
    {v : List T} (ho : env o = .val v) : s.view o = some v := by
  obtain ⟨_, _, hA⟩ := h.inv hv hp
  have := hA.view (has_val ho)
  rw [get_val ho] at this
  exact this

/-- `append(x)`, `push_back(x)`, `s += c`, `a << x`. -/
theorem c05_append_item (hv : cfg.Valid) (hp : cfg.Physical) {s : St T} {env : Env T} (h : Reach cfg s env)
    {o : Nat} {v : List T} (ho : env o = .val v) (x : T) : Gives cfg s env (.append o x) o (v ++ [x]) := by
  refine gives_of hv hp h (has_val ho) fun out env' hpost => ?_
  simpa only [Post, get_val ho] using hpost

/-- `append(array, n)`: the first `n` elements of the argument (all of them if it is shorter).  The
argument may be the receiver itself; otherwise it is among the objects that keep their value. -/
theorem c05_append_array (hv : cfg.Valid) (hp : cfg.Physical) {s : St T} {env : Env T} (h : Reach cfg s env)
    {o r : Nat} {v w : List T} (ho : env o = .val v) (hr : env r = .val w) (n : Nat) :
    Gives cfg s env (.appendRca o r n) o (v ++ w.take n) := by
  refine gives_of hv hp h ⟨has_val ho, has_val hr⟩ fun out env' hpost => ?_
  simpa only [Post, get_val ho, get_val hr] using hpost

/-- `append(array)`, `a += array`, `a << array`: without a count everything is appended. -/
theorem c05_append_all (hv : cfg.Valid) (hp : cfg.Physical) {s : St T} {env : Env T} (h : Reach cfg s env)
    {o r : Nat} {v w : List T} (ho : env o = .val v) (hr : env r = .val w) :
    Gives cfg s env (.appendRca o r npos) o (v ++ w) := by
  have hl := h.length_lt hv hp hr
  have := c05_append_array hv hp h ho hr npos
  rwa [List.take_of_length_le (by unfold maxCells at hl; unfold npos; omega)] at this

/-- `append(const char*)`: the bytes of the C string. -/
theorem c05_append_cstr (hv : cfg.Valid) (hp : cfg.Physical) {s : St T} {env : Env T} (h : Reach cfg s env)
    {o : Nat} {v : List T} (ho : env o = .val v) (bytes : List T) :
    Gives cfg s env (.insertC o v.length bytes) o (v ++ bytes) := by
  refine gives_of hv hp h (has_val ho) fun out env' hpost => ?_
  simp only [Post, Checked, get_val ho, Nat.le_refl, if_true] at hpost
  simpa [insertAt] using hpost

/-- `append(array&&, n)`: as for an lvalue; the argument keeps its value unless the receiver was empty. -/
theorem c05_append_move (hv : cfg.Valid) (hp : cfg.Physical) {s : St T} {env : Env T} (h : Reach cfg s env)
    {o r : Nat} {v w : List T} (ho : env o = .val v) (hr : env r = .val w) (n : Nat) (hne : v ≠ []) :
    Gives cfg s env (.appendMove o r n) o (v ++ w.take n) := by
  refine gives_of hv hp h ⟨has_val ho, has_val hr⟩ fun out env' hpost => ?_
  simp only [Post, get_val ho, get_val hr] at hpost
  rcases hpost with ⟨⟨h0, _⟩, _⟩ | ⟨_, h1⟩
  · exact absurd (List.length_eq_zero_iff.mp h0) hne
  · exact h1

theorem c05_append_move_empty (hv : cfg.Valid) (hp : cfg.Physical) {s : St T} {env : Env T} (h : Reach cfg s env)
    {o r : Nat} {w : List T} (ho : env o = .val []) (hr : env r = .val w) (n : Nat) :
    (∃ s' env', run cfg (.appendMove o r n) s = .ok .unit s' ∧ Shows s' o (w.take n) ∧ Reach cfg s' env' ∧
      ∀ p u, p ≠ o → p ≠ r → env p = .val u → Shows s' p u) ∨ OutOfMemory cfg s env (.appendMove o r n) o := by
  obtain ⟨out, s', env', hres, hpost, hreach⟩ := h.call hv hp (op := .appendMove o r n) ⟨has_val ho, has_val hr⟩
  have hpost' := hpost
  simp only [Post, get_val ho, get_val hr] at hpost
  rcases hpost with ⟨_, h1, h2⟩ | ⟨_, ⟨h1, h2⟩ | h1⟩
  · subst h1 h2
    exact Or.inl ⟨s', _, result_ok hres, hreach.shows hv hp (by rw [Env.upd_self]; simp), hreach,
      fun p u h1 h2 hu => hreach.shows hv hp (by rw [Env.upd_ne h1, Env.upd_ne h2]; exact hu)⟩
  · subst h1 h2
    exact Or.inl ⟨s', _, result_ok hres, hreach.shows hv hp (by rw [Env.upd_self]; simp), hreach,
      fun p u h1 h2 hu => hreach.shows hv hp (by rw [Env.upd_ne h1]; exact hu)⟩
  · have he := h1.1
    subst he
    exact Or.inr (noMem_out hv hp h (op := .appendMove o r n) ⟨has_val ho, has_val hr⟩ hres (fun p hne => h1.frame hne) hreach)

/-- Appending an array to itself, in a state where its storage is shared with another object. -/
example : ∃ s', run arrCfg (.appendRca 1 1 npos) stA = .ok .unit s' ∧ Shows s' 1 [2, 3, 4, 2, 3, 4] ∧ Shows s' 0 [1, 2, 3, 4, 5] := by
  refine ⟨_, rfl, ⟨rfl, fun i hi => ?_⟩, rfl, fun i hi => ?_⟩
  · match i, hi with
    | 0, _ => rfl
    | 1, _ => rfl
    | 2, _ => rfl
    | 3, _ => rfl
    | 4, _ => rfl
    | 5, _ => rfl
  · match i, hi with
    | 0, _ => rfl
    | 1, _ => rfl
    | 2, _ => rfl
    | 3, _ => rfl
    | 4, _ => rfl

end Bdlib.Rca
