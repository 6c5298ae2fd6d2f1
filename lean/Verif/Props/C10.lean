import Verif.Props.C77
import Verif.Props.C05

/-!
# C10 Dropping elements from either end
-/

namespace Bdlib.Rca
open Bdlib Bdlib.Spec

variable {T : Type} [DecidableEq T] {cfg : Cfg T}

theorem c10_clear (hv : cfg.Valid) (hp : cfg.Physical) {s : St T} {env : Env T} (h : Reach cfg s env)
    {o : Nat} (ho : env.Live o) : GivesOk cfg s env (.clear o) o [] :=
  givesOk_of hv hp h ho fun _ _ hpost => hpost

/-- `s += n` on a String, and `++s` (`n = 1`): all elements go if `n` exceeds the length. -/
theorem c10_string_drop_front (hv : cfg.Valid) (hp : cfg.Physical) {s : St T} {env : Env T} (h : Reach cfg s env)
    {o n : Nat} {v : List T} (ho : env o = .val v) : GivesOk cfg s env (.dropFront o n) o (v.drop n) := by
  refine givesOk_of hv hp h (has_val ho) fun out env' hpost => ?_
  simpa only [Post, get_val ho] using hpost

/-- `s -= n` on a String. -/
theorem c10_string_drop_back (hv : cfg.Valid) (hp : cfg.Physical) {s : St T} {env : Env T} (h : Reach cfg s env)
    {o n : Nat} {v : List T} (ho : env o = .val v) :
    GivesOk cfg s env (.dropBack o n) o (v.take (v.length - n)) := by
  refine givesOk_of hv hp h (has_val ho) fun out env' hpost => ?_
  simpa only [Post, get_val ho] using hpost

/-- `pop_back()` and `--s` on a non-empty object.  Partial: see `c10_refuted_empty`. -/
theorem c10_pop_back_partial (hv : cfg.Valid) (hp : cfg.Physical) {s : St T} {env : Env T} (h : Reach cfg s env)
    {o : Nat} {v : List T} {x : T} (ho : env o = .val (v ++ [x])) : GivesOk cfg s env (.popBack o) o v := by
  refine givesOk_of hv hp h ⟨has_val ho, by rw [get_val ho]; simp⟩ fun out env' hpost => ?_
  simpa only [Post, get_val ho, List.dropLast_concat] using hpost

/-- `a += n` and `++a` on an Array with fewer than `2^31` elements, `n ≥ 0`.  Partial: see
`c10_refuted_negative`, `c10_refuted_big`. -/
theorem c10_array_drop_front_partial (hv : cfg.Valid) (hp : cfg.Physical) {s : St T} {env : Env T} (h : Reach cfg s env)
    {o n : Nat} {v : List T} (ho : env o = .val v) (hl : v.length < 2147483648) :
    GivesOk cfg s env (.arrDropFront o n) o (v.drop n) := by
  refine givesOk_of hv hp h ⟨has_val ho, by rw [get_val ho]; exact hl⟩ fun out env' hpost => ?_
  simpa only [Post, get_val ho] using hpost

/-- `a -= n` on an Array. -/
theorem c10_array_drop_back_partial (hv : cfg.Valid) (hp : cfg.Physical) {s : St T} {env : Env T} (h : Reach cfg s env)
    {o n : Nat} {v : List T} (ho : env o = .val v) (hl : v.length < 2147483648) :
    GivesOk cfg s env (.arrDropBack o n) o (v.take (v.length - n)) := by
  refine givesOk_of hv hp h ⟨has_val ho, by rw [get_val ho]; exact hl⟩ fun out env' hpost => ?_
  simpa only [Post, get_val ho] using hpost

example : GivesOk arrCfg stA envA (.arrDropFront 1 2) 1 [4] :=
  c10_array_drop_front_partial arrCfg_valid arrCfg_physical reachA (o := 1) (n := 2) rfl (by decide)
example : GivesOk arrCfg stA envA (.arrDropFront 1 7) 1 [] :=
  c10_array_drop_front_partial arrCfg_valid arrCfg_physical reachA (o := 1) (n := 7) rfl (by decide)

/-! ## The cases left out, for every state -/

theorem length_setObj {s : St T} {o : Nat} {ob ob' : Obj} (h : s.obj o = some ob) :
    length o (s.setObj o (some ob')) = .ok ob'.sublen (s.setObj o (some ob')) := by
  simp only [length, bind, M.bind, getObj, St.obj_setObj_self _ (St.obj_lt h)]
  rfl

/-- `pop_back()` and `--s` on an object without elements: it claims to have `2^64 - 1` of them. -/
theorem c10_pop_back_empty (hv : cfg.Valid) (hp : cfg.Physical) {s : St T} {env : Env T} (h : Reach cfg s env)
    {o : Nat} (ho : env o = .val []) : ∃ s', run cfg (.popBack o) s = .ok .unit s' ∧ length o s' = .ok npos s' := by
  obtain ⟨ob, hob, hvo, hl⟩ := obj_of_view (h.view_eq hv hp ho)
  simp only [run, mapOut, popBack, bind, M.bind, getObj, hob]
  refine ⟨_, rfl, ?_⟩
  rw [length_setObj hob]
  rw [List.length_nil] at hl
  simp only [hl]
  rfl

/-- `a += -k` and `a -= -k` on an Array that has elements: it claims to have `k` more. -/
theorem c10_array_drop_negative (hv : cfg.Valid) (hp : cfg.Physical) {s : St T} {env : Env T} (h : Reach cfg s env)
    {o k : Nat} {v : List T} (ho : env o = .val v) (hne : v ≠ []) (hl : v.length < 2147483648) (hk : k ≤ 2147483648) :
    (∃ s', arrDropFront o (-k) s = .ok () s' ∧ length o s' = .ok (v.length + k) s') ∧
    (∃ s', arrDropBack o (-k) s = .ok () s' ∧ length o s' = .ok (v.length + k) s') := by
  obtain ⟨ob, hob, hvo, hlo⟩ := obj_of_view (h.view_eq hv hp ho)
  have h0 : v.length ≠ 0 := by simpa using hne
  have hx : (((v.length : Int) - (-(k : Int))) % (two64 : Int)).toNat = v.length + k := by
    rw [Int.emod_eq_of_lt (by omega) (by unfold two64; omega)]; omega
  constructor
  · simp only [arrDropFront, bind, M.bind, getObj, hob, hlo, toInt32_small hl]
    rw [if_neg h0, if_neg (by omega)]
    refine ⟨_, rfl, ?_⟩
    rw [length_setObj hob]
    simp only [hx]
  · simp only [arrDropBack, bind, M.bind, getObj, hob, hlo, toInt32_small hl]
    rw [if_neg h0, if_neg (by omega)]
    refine ⟨_, rfl, ?_⟩
    rw [length_setObj hob]
    simp only [hx]

/-- An Array of `2^31` to `2^32 - 1` elements is emptied by `a += n` and `a -= n` for every `n ≥ 0`. -/
theorem c10_array_drop_long (hv : cfg.Valid) (hp : cfg.Physical) {s : St T} {env : Env T} (h : Reach cfg s env)
    {o n : Nat} {v : List T} (ho : env o = .val v) (hlo : 2147483648 ≤ v.length) (hhi : v.length < 4294967296) :
    (∃ s', arrDropFront o n s = .ok () s' ∧ length o s' = .ok 0 s') ∧
    (∃ s', arrDropBack o n s = .ok () s' ∧ length o s' = .ok 0 s') := by
  obtain ⟨ob, hob, hvo, hl⟩ := obj_of_view (h.view_eq hv hp ho)
  have hneg : toInt32 v.length - (n : Int) < 0 := by
    unfold toInt32
    dsimp only
    rw [Nat.mod_eq_of_lt hhi, if_neg (by omega)]
    omega
  constructor
  · simp only [arrDropFront, bind, M.bind, getObj, hob, hl]
    rw [if_neg (by omega), if_pos hneg]
    exact ⟨_, rfl, length_setObj hob⟩
  · simp only [arrDropBack, bind, M.bind, getObj, hob, hl]
    rw [if_neg (by omega), if_pos hneg]
    exact ⟨_, rfl, length_setObj hob⟩

/-- `pop_back()` or `--s` on an empty object (with assertions off): the length becomes `2^64 - 1`. -/
theorem c10_refuted_empty : ∃ s s', Reach arrCfg s (Env.empty.upd 0 (.val [])) ∧
    run arrCfg (.popBack 0) s = .ok .unit s' ∧ length 0 s' = .ok npos s' :=
  ⟨(exec arrCfg {} [.ctor]).getD {}, _,
    Reach.next arrCfg_valid arrCfg_physical .init (op := .ctor) (x := .obj 0) trivial rfl (fun h => h)
      ⟨0, rfl, rfl, rfl⟩, rfl, rfl⟩

/-- `b = {1,2,3,4,5}.subarray(1,3); b += -1` brings back the element before the window. -/
theorem c10_refuted_negative : ∃ s', Reach arrCfg stA envA ∧ envA 1 = .val [2, 3, 4] ∧
    arrDropFront 1 (-1) stA = .ok () s' ∧ Shows s' 1 [1, 2, 3, 4] := by
  refine ⟨_, reachA, rfl, rfl, rfl, fun i hi => ?_⟩
  match i, hi with
  | 0, _ => rfl
  | 1, _ => rfl
  | 2, _ => rfl
  | 3, _ => rfl

/-- `{1,2,3,4,5} += -3`. -/
example : ∃ s', arrDropFront 0 (-3) stA = .ok () s' ∧ length 0 s' = .ok 8 s' :=
  (c10_array_drop_negative arrCfg_valid arrCfg_physical reachA (o := 0) (k := 3) (v := [1, 2, 3, 4, 5]) rfl (by decide) (by decide)
    (by decide)).1

/-- `Array<Nat> a(2147483648, 7);` returns: an array of `2^31` elements can be reached. -/
theorem reachLong : ∃ s o, Reach arrCfg s (Env.empty.upd o (.val (List.replicate 2147483648 7))) := by
  have hpre : Pre arrCfg (shared ({} : St Nat)) Env.empty (.fillCtor 2147483648 7) := rfl
  have hd : Op.demand arrCfg.scale Env.empty (.fillCtor 2147483648 7 : Op Nat) = 3221225472 := by
    unfold Op.demand
    rw [if_pos (show Op.grows (.fillCtor 2147483648 7 : Op Nat) = true from rfl),
      peak_mono (scale := arrCfg.scale) (fun m n h => by show m + m / 2 ≤ n + n / 2; omega)]
    rfl
  rcases c77_enough arrCfg_valid arrCfg_physical .init hpre (by
    intro g n hn
    rw [hd] at hn
    show decide (n < maxCells) = true
    rw [decide_eq_true_eq]
    unfold maxCells
    omega) with ⟨x, s', env', _, hpost, hr⟩ | ⟨s', env', _, hpost, _⟩
  · rcases hpost with ⟨o, _, hx, rfl⟩ | ⟨h, _⟩
    · exact ⟨s', o, hr⟩
    · cases h
  · rcases hpost with ⟨o, _, h, _⟩ | ⟨h, _⟩ <;> cases h

/-- The hypotheses of `c10_array_drop_long` are met there. -/
example : ∃ s o s', Reach arrCfg s (Env.empty.upd o (.val (List.replicate 2147483648 7))) ∧
    arrDropFront o 1 s = .ok () s' ∧ length o s' = .ok 0 s' := by
  obtain ⟨s, o, h⟩ := reachLong
  obtain ⟨⟨s', h1, h2⟩, _⟩ := c10_array_drop_long arrCfg_valid arrCfg_physical h (n := 1) Env.upd_self
    (by rw [List.length_replicate]; omega) (by rw [List.length_replicate]; omega)
  exact ⟨s, o, s', h, h1, h2⟩

end Bdlib.Rca
