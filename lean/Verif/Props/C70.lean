import Verif.Prog.ArrayOps
import Verif.Props.C65
import Verif.Props.C20
import Verif.Props.C27

/-!
# C70: operators and searches of Arrays, whatever storage they share
-/

namespace Bdlib.Rca
open Bdlib Bdlib.Spec Bdlib.Str

section
variable {T : Type} [DecidableEq T] {cfg : Cfg T} {s : St T} {env : Env T} {E : Exc → Env T → Prop}

theorem advance_eq (hv : cfg.Valid) (hp : cfg.Physical) (hr : Reach cfg s env) {o : Nat} {v : List T} (h : env o = .val v) (hne : v ≠ []) :
    advance o s = dropFront o 1 s := by
  obtain ⟨ob, ho, hvo⟩ := view_some (hr.view hv hp h)
  have hl := length_spec (hr.view hv hp h)
  have hsub : ob.sublen = v.length := by
    unfold length at hl
    change M.bind _ _ _ = _ at hl
    unfold M.bind at hl
    rw [getObj_eq ho] at hl
    injection hl
  have h0 : 0 < v.length := List.length_pos_iff.mpr hne
  have hlt := hr.len_lt hv hp h
  unfold maxCells at hlt
  unfold advance dropFront
  change M.bind _ _ _ = M.bind _ _ _
  unfold M.bind
  rw [getObj_eq ho]
  dsimp only
  rw [if_neg (by omega), if_neg (by omega)]
  have : sub64 ob.sublen 1 = ob.sublen - 1 := by unfold sub64; rw [if_pos (by omega)]
  rw [this]

theorem runs_advance (hv : cfg.Valid) (hp : cfg.Physical) (hr : Reach cfg s env) {o : Nat} {v : List T} (h : env o = .val v) (hne : v ≠ []) :
    Runs cfg (advance o) s (fun _ env' => env' = env.upd o (.val (v.drop 1))) E := by
  unfold Runs
  rw [advance_eq hv hp hr h hne]
  exact runs_dropFront hv hp hr h

/-- `a++` on an Array of fewer than `2^31` elements that is not empty: the first element goes, and an Array with just
this element is returned.

Partial: for Arrays without element see `c70_refuted_empty`; that the old value is not returned, `c70_refuted_post_inc`. -/
theorem c70_post_inc_partial (hv : cfg.Valid) (hp : cfg.Physical) (hr : Reach cfg s env) {a : Nat} {x : T} {v : List T}
    (ha : env a = .val (x :: v)) (hl : v.length + 1 < 2147483648) : Peels cfg s env (postIncA cfg a) a [x] v := by
  refine peels_of hv hp ha ?_
  unfold postIncA
  have hs : SliceOk (x :: v).length 0 1 := by
    exact ⟨by simpa using hl, .inr (.inr (.inl ⟨by decide, by simp [sliceFrom]⟩))⟩
  refine runs_building hv hp (runs_substring hv hp hr ha hs) fun n s1 hd hr1 => ?_
  have e : sliceSpec (x :: v) 0 1 = [x] := by
    unfold sliceSpec sliceFrom
    simp
  rw [e] at hr1
  exact Runs.mono (runs_advance (E := fun _ _ => False) hv hp hr1 (v := x :: v) (by rw [Env.upd_ne (dead_ne hd (live_val ha)), ha]) (by simp))
    (fun _ _ e => ⟨hd, e⟩) fun _ _ h => h.elim

/-- `a--` on an Array of fewer than `2^31` elements that is not empty: the last element goes, and an Array with just
this element is returned. -/
theorem c70_post_dec_partial (hv : cfg.Valid) (hp : cfg.Physical) (hr : Reach cfg s env) {a : Nat} {x : T} {v : List T}
    (ha : env a = .val (v ++ [x])) (hl : v.length + 1 < 2147483648) : Peels cfg s env (postDecA cfg a) a [x] v := by
  refine peels_of hv hp ha ?_
  unfold postDecA
  refine Runs.bind (runs_length hv hp hr ha) fun n s1 env1 hr1 e => ?_
  obtain ⟨e1, rfl⟩ := e
  subst e1
  have hi : toSigned (sub64 (v ++ [x]).length 1) = (v.length : Int) := by
    have h1 : sub64 (v ++ [x]).length 1 = v.length := by
      unfold sub64
      rw [List.length_append, List.length_singleton, if_pos (by omega)]
      omega
    rw [h1]
    unfold toSigned
    rw [if_pos (by omega)]
  rw [hi]
  have hs : SliceOk (v ++ [x]).length v.length 1 := by
    exact ⟨by simpa using hl, .inr (.inr (.inl ⟨by decide, by simp only [sliceFrom]; rw [if_neg (by omega)]; omega⟩))⟩
  refine runs_building hv hp (runs_substring hv hp hr1 ha hs) fun n s1 hd hr1 => ?_
  have e : sliceSpec (v ++ [x]) v.length 1 = [x] := by
    unfold sliceSpec sliceFrom
    simp [show ¬ ((v.length : Int) < 0) by omega]
  rw [e] at hr1
  exact Runs.mono (runs_popBack (E := fun _ _ => False) hv hp hr1 (v := v ++ [x]) (by rw [Env.upd_ne (dead_ne hd (live_val ha)), ha]) (by simp))
    (fun _ _ e => ⟨hd, by rw [e, List.dropLast_concat]⟩) fun _ _ h => h.elim

/-- How a function ends that takes a piece off `o` and then makes a new object of it. -/
theorem peels_or_of (hv : cfg.Valid) (hp : cfg.Physical) {m : M T Nat} {o : Nat} {v first rest : List T} (ho : env o = .val v)
    (h : Runs cfg m s (fun n env' => env n = .dead ∧ env' = (env.upd o (.val rest)).upd n (.val first))
      (fun e env' => e = .badAlloc ∧ env' = env.upd o (.val rest))) :
    Peels cfg s env m o first rest ∨
      ∃ s', m s = .throw .badAlloc s' ∧ Refused cfg.allocOk s s' ∧ OthersKeep env o s' ∧ Reach cfg s' (env.upd o (.val rest)) := by
  unfold Runs at h
  cases hm : m s with
  | ub => rw [hm] at h; exact h.elim
  | throw e t =>
    rw [hm] at h
    obtain ⟨_, ⟨rfl, rfl⟩, h1, -, h2⟩ := h
    exact Or.inr ⟨t, rfl, h2 rfl, fun p w hne hw => h1.shows hv hp (by rw [Env.upd_ne hne]; exact hw), h1⟩
  | ok n t =>
    rw [hm] at h
    obtain ⟨_, ⟨hd, rfl⟩, h, _⟩ := h
    have hne : n ≠ o := (dead_ne hd (live_val ho)).symm
    rw [Env.upd_comm _ _ _ hne.symm] at h
    refine Or.inl ⟨n, t, hm, hd, h.shows hv hp ?_, h.shows hv hp Env.upd_self, fun p w hpo hw => h.shows hv hp ?_, h⟩
    · rw [Env.upd_ne hne, Env.upd_self]
    · rw [Env.upd_ne hpo, Env.upd_ne (dead_ne hd (live_val hw)), hw]

theorem runs_shift (hv : cfg.Valid) (hp : cfg.Physical) (hr : Reach cfg s env) {o : Nat} {x : T} {v : List T} (h : env o = .val (x :: v)) :
    Runs cfg (shift cfg o) s (fun y env' => y = some x ∧ env' = env.upd o (.val v)) E :=
  runs_op hv hp hr (op := .shift o) rfl ⟨has_val h, by rw [get_val h]; simp⟩
    (fun a env' h1 => by
      obtain ⟨h1, h2⟩ := h1
      rw [get_val h] at h1 h2
      cases h1
      exact ⟨rfl, h2⟩) (fun e env' h1 => nomatch h1.1)

theorem runs_pop (hv : cfg.Valid) (hp : cfg.Physical) (hr : Reach cfg s env) {o : Nat} {x : T} {v : List T} (h : env o = .val (v ++ [x])) :
    Runs cfg (pop cfg o) s (fun y env' => y = some x ∧ env' = env.upd o (.val v)) E :=
  runs_op hv hp hr (op := .pop o) rfl ⟨has_val h, by rw [get_val h]; simp⟩
    (fun a env' h1 => by
      obtain ⟨h1, h2⟩ := h1
      rw [get_val h] at h1 h2
      rw [List.dropLast_concat] at h2
      rw [List.getLast?_concat] at h1
      cases h1
      exact ⟨rfl, h2⟩) (fun e env' h1 => nomatch h1.1)

theorem runs_listCtor (hv : cfg.Valid) (hp : cfg.Physical) (hr : Reach cfg s env) (h0 : cfg.slack = 0) (xs : List T) (hE : E .badAlloc env) :
    Runs cfg (listCtor cfg xs) s (fun o env' => env o = .dead ∧ env' = env.upd o (.val xs)) E :=
  runs_op hv hp hr (op := .listCtor xs) rfl h0
    (fun a env' h => by
      rcases h with ⟨o, h1, h2, h3⟩ | ⟨h, -⟩
      · cases h2; exact ⟨h1, h3⟩
      · cases h)
    (fun e env' h => by
      rcases h with ⟨o, h1, h2, h3⟩ | ⟨h, h2⟩
      · cases h2
      · cases h; rw [h2]; exact hE)

/-- `std::move(a)++`: the same, for any length; if memory runs out, the element is lost. -/
theorem c70_post_inc_rvalue (hv : cfg.Valid) (hp : cfg.Physical) (h0 : cfg.slack = 0) (hr : Reach cfg s env) {a : Nat} {x : T} {v : List T}
    (ha : env a = .val (x :: v)) : Peels cfg s env (postIncMoveA cfg a) a [x] v ∨
      ∃ s', postIncMoveA cfg a s = .throw .badAlloc s' ∧ Refused cfg.allocOk s s' ∧ OthersKeep env a s' ∧ Reach cfg s' (env.upd a (.val v)) := by
  refine peels_or_of hv hp ha ?_
  unfold postIncMoveA
  refine Runs.bind (runs_shift hv hp hr ha) fun y s1 env1 hr1 e => ?_
  obtain ⟨rfl, rfl⟩ := e
  exact Runs.mono (runs_listCtor (E := fun e env' => e = .badAlloc ∧ env' = env.upd a (.val v)) hv hp hr1 h0 [x] ⟨rfl, rfl⟩) (fun n _ h => by
    have hne : n ≠ a := fun e => by have := h.1; rw [e, Env.upd_self] at this; cases this
    have := h.1
    rw [Env.upd_ne hne] at this
    exact ⟨this, h.2⟩) fun _ _ h => h

/-- `std::move(a)--`. -/
theorem c70_post_dec_rvalue (hv : cfg.Valid) (hp : cfg.Physical) (h0 : cfg.slack = 0) (hr : Reach cfg s env) {a : Nat} {x : T} {v : List T}
    (ha : env a = .val (v ++ [x])) : Peels cfg s env (postDecMoveA cfg a) a [x] v ∨
      ∃ s', postDecMoveA cfg a s = .throw .badAlloc s' ∧ Refused cfg.allocOk s s' ∧ OthersKeep env a s' ∧ Reach cfg s' (env.upd a (.val v)) := by
  refine peels_or_of hv hp ha ?_
  unfold postDecMoveA
  refine Runs.bind (runs_pop hv hp hr ha) fun y s1 env1 hr1 e => ?_
  obtain ⟨rfl, rfl⟩ := e
  exact Runs.mono (runs_listCtor (E := fun e env' => e = .badAlloc ∧ env' = env.upd a (.val v)) hv hp hr1 h0 [x] ⟨rfl, rfl⟩) (fun n _ h => by
    have hne : n ≠ a := fun e => by have := h.1; rw [e, Env.upd_self] at this; cases this
    have := h.1
    rw [Env.upd_ne hne] at this
    exact ⟨this, h.2⟩) fun _ _ h => h

/-- `a == b`; the two may be the same object or share storage. -/
theorem c70_eq (hv : cfg.Valid) (hp : cfg.Physical) (hr : Reach cfg s env) {a b : Nat} {v w : List T} (ha : env a = .val v)
    (hb : env b = .val w) : Answers cfg s env (eqA a b) (decide (v = w)) := by
  refine answers_of hv hp ?_
  unfold eqA
  refine Runs.bind (runs_sameStart hv hp hr ha hb) fun same s1 env1 hr1 e => ?_
  obtain ⟨hsame, rfl⟩ := e
  refine Runs.bind (runs_contents hv hp hr1 ha) fun _ s2 env2 hr2 e => ?_
  obtain ⟨rfl, rfl⟩ := e
  refine Runs.bind (runs_contents hv hp hr2 hb) fun _ s3 env3 hr3 e => ?_
  obtain ⟨rfl, rfl⟩ := e
  exact runs_liftE (c27_eq_identical hsame) hr3

theorem runs_contents_lift (hv : cfg.Valid) (hp : cfg.Physical) (hr : Reach cfg s env) {a : Nat} {v : List T} (ha : env a = .val v)
    {β : Type} {f : List T → Eff β} {x : β} (hf : f v = .ret x) : Answers cfg s env (do liftE (f (← contents a))) x := by
  refine answers_of hv hp ?_
  refine Runs.bind (runs_contents hv hp hr ha) fun _ s1 env1 hr1 e => ?_
  obtain ⟨rfl, rfl⟩ := e
  exact runs_liftE hf hr1

theorem Reach.le_npos (hv : cfg.Valid) (hp : cfg.Physical) (hr : Reach cfg s env) {a : Nat} {v : List T} (ha : env a = .val v) :
    v.length ≤ npos := by
  have hl := hr.len_lt hv hp ha
  unfold maxCells at hl
  unfold npos
  omega

/-- `a.find(x)`, `a.rfind(x)` and `a.find(x, pos)`. -/
theorem c70_find (hv : cfg.Valid) (hp : cfg.Physical) (hr : Reach cfg s env) {a : Nat} {v : List T} (ha : env a = .val v) (x : T) :
    (∃ r, Finds Smallest (HoldsAt v x) npos r ∧ Answers cfg s env (findA a x) r) ∧
    (∃ r, Finds Largest (HoldsAt v x) npos r ∧ Answers cfg s env (rfindA a x) r) ∧
    (∀ pos, pos ≤ v.length → ∃ r, Finds Smallest (fun d => HoldsAt v x (pos + d)) npos r ∧ Answers cfg s env (findFromA a x pos) r) := by
  have hl := hr.le_npos hv hp ha
  refine ⟨?_, ?_, fun pos hpos => ?_⟩
  · obtain ⟨r, h1, h2⟩ := c20_find hl x
    exact ⟨r, h2, runs_contents_lift hv hp hr ha h1⟩
  · obtain ⟨r, h1, h2⟩ := c20_rfind hl x
    exact ⟨r, h2, runs_contents_lift hv hp hr ha h1⟩
  · obtain ⟨r, h1, h2⟩ := c20_find_from hl x hpos
    exact ⟨r, h2, runs_contents_lift (f := fun v => findItemFrom v x pos) hv hp hr ha h1⟩

/-- Refutation: unlike for Strings (C65) and numbers, `b = a++` does not give the old value, in any state, unless there was only
one element. -/
theorem c70_refuted_post_inc (hv : cfg.Valid) (hp : cfg.Physical) (hr : Reach cfg s env) {a : Nat} {x : T} {v : List T}
    (ha : env a = .val (x :: v)) (hl : v.length + 1 < 2147483648) (hne : v ≠ []) (rest : List T) :
    ¬ Peels cfg s env (postIncA cfg a) a (x :: v) rest := by
  rintro ⟨n, s', h1, -, h2, -⟩
  obtain ⟨n', s'', h1', -, h2', -⟩ := c70_post_inc_partial hv hp hr ha hl
  rw [h1] at h1'
  injection h1' with e1 e2
  subst e1 e2
  have := h2.1.symm.trans h2'.1
  exact hne (List.eq_nil_of_length_eq_zero (by simpa using this))

/-- Nor does `b = a--`. -/
theorem c70_refuted_post_dec (hv : cfg.Valid) (hp : cfg.Physical) (hr : Reach cfg s env) {a : Nat} {x : T} {v : List T}
    (ha : env a = .val (v ++ [x])) (hl : v.length + 1 < 2147483648) (hne : v ≠ []) (rest : List T) :
    ¬ Peels cfg s env (postDecA cfg a) a (v ++ [x]) rest := by
  rintro ⟨n, s', h1, -, h2, -⟩
  obtain ⟨n', s'', h1', -, h2', -⟩ := c70_post_dec_partial hv hp hr ha hl
  rw [h1] at h1'
  injection h1' with e1 e2
  subst e1 e2
  have := h2.1.symm.trans h2'.1
  exact hne (List.eq_nil_of_length_eq_zero (by simpa using this))

theorem empty_steps (hv : cfg.Valid) (hp : cfg.Physical) (hr : Reach cfg s env) {a : Nat} (ha : env a = .val []) {start : Int}
    (hs : SliceOk 0 start 1) {f : Obj → Obj} (hf : ∀ ob, (f ob).sublen = sub64 ob.sublen 1) :
    ∃ n s', building cfg (substring a start 1) (fun _ => do let ob ← getObj a; putObj a (f ob)) s = .ok n s' ∧
      length a s' = .ok npos s' := by
  have h := runs_substring (E := fun _ _ => False) hv hp hr ha hs
  unfold Runs at h
  cases hm : substring a start 1 s with
  | ub => rw [hm] at h; exact h.elim
  | throw e s1 => rw [hm] at h; obtain ⟨_, h, _⟩ := h; exact h.elim
  | ok n s1 =>
    rw [hm] at h
    obtain ⟨env', ⟨hd, rfl⟩, hr1, -⟩ := h
    have ha1 : env.upd n (.val (sliceSpec [] start 1)) a = .val [] := by rw [Env.upd_ne (dead_ne hd (live_val ha)), ha]
    obtain ⟨ob, ho, hvw⟩ := view_some (hr1.view hv hp ha1)
    have hlen : ob.sublen = 0 := by
      have := runs_length (E := fun _ _ => False) hv hp hr1 ha1
      unfold Runs length at this
      rw [bind_ok (getObj_eq ho)] at this
      obtain ⟨_, ⟨e, _⟩, _⟩ := this
      exact e
    have hput : putObj a (f ob) s1 = .ok () (s1.setObj a (some (f ob))) := rfl
    have hb : (do let ob ← getObj a; putObj a (f ob) : M T Unit) s1 = .ok () (s1.setObj a (some (f ob))) := by
      rw [bind_ok (getObj_eq ho), hput]
    refine ⟨n, s1.setObj a (some (f ob)), ?_, ?_⟩
    · unfold building
      rw [bind_ok hm]
      have : M.onThrow (do let ob ← getObj a; putObj a (f ob) : M T Unit) (destroy cfg n) s1 = .ok () (s1.setObj a (some (f ob))) := by
        unfold M.onThrow
        rw [hb]
      rw [bind_ok this]
      rfl
    · unfold length
      rw [bind_ok (getObj_eq (St.obj_setObj_self _ (St.obj_lt ho)))]
      show Res.ok (f ob).sublen _ = _
      rw [hf, hlen]
      rfl

/-- Refutation: on an empty Array, in any state, `a++` and `a--` (with assertions off) leave a length of `2^64 - 1`. -/
theorem c70_refuted_empty (hv : cfg.Valid) (hp : cfg.Physical) (hr : Reach cfg s env) {a : Nat} (ha : env a = .val []) :
    (∃ n s', postIncA cfg a s = .ok n s' ∧ length a s' = .ok npos s') ∧ ∃ n s', postDecA cfg a s = .ok n s' ∧ length a s' = .ok npos s' := by
  refine ⟨empty_steps hv hp hr ha (by decide) (f := fun ob => { ob with offset := ob.offset + 1, sublen := sub64 ob.sublen 1, hash := 0 }) fun _ => rfl, ?_⟩
  unfold postDecA
  obtain ⟨ob, ho, hvw⟩ := view_some (hr.view hv hp ha)
  have hlen : length a s = .ok 0 s := by
    have := runs_length (E := fun _ _ => False) hv hp hr ha
    unfold Runs length at this
    rw [bind_ok (getObj_eq ho)] at this
    obtain ⟨_, ⟨e, _⟩, _⟩ := this
    unfold length
    rw [bind_ok (getObj_eq ho)]
    show Res.ok ob.sublen s = _
    rw [e]
    rfl
  rw [bind_ok hlen]
  exact empty_steps hv hp hr ha (by decide) (f := fun ob => { ob with sublen := sub64 ob.sublen 1, hash := 0 }) fun _ => rfl

end

/-! ### Concrete cases -/

/-- Object 1 is the subarray `2, 3, 4` of object 0. -/
example : Peels arrCfg stA envA (postIncA arrCfg 1) 1 [2] [3, 4] :=
  c70_post_inc_partial arrCfg_valid arrCfg_physical reachA (a := 1) (x := 2) (v := [3, 4]) rfl (by decide)
example : Peels arrCfg stA envA (postDecA arrCfg 1) 1 [4] [2, 3] :=
  c70_post_dec_partial arrCfg_valid arrCfg_physical reachA (a := 1) (x := 4) (v := [2, 3]) rfl (by decide)
example := c70_post_inc_rvalue arrCfg_valid arrCfg_physical rfl reachA (a := 1) (x := 2) (v := [3, 4]) rfl
example : ∃ n s', postIncMoveA arrCfg 1 stA = .ok n s' ∧ Shows s' n [2] := ⟨_, _, rfl, rfl, fun i hi => by
  match i, hi with
  | 0, _ => rfl⟩
example : Answers arrCfg stA envA (eqA 0 1) false :=
  c70_eq arrCfg_valid arrCfg_physical reachA (a := 0) (b := 1) (v := [1, 2, 3, 4, 5]) (w := [2, 3, 4]) rfl rfl
example : Answers arrCfg stA envA (eqA 1 1) true :=
  c70_eq arrCfg_valid arrCfg_physical reachA (a := 1) (b := 1) (v := [2, 3, 4]) (w := [2, 3, 4]) rfl rfl

example := c70_refuted_post_inc arrCfg_valid arrCfg_physical reachA (a := 1) (x := 2) (v := [3, 4]) rfl (by decide) (by decide)
example := c70_refuted_post_dec arrCfg_valid arrCfg_physical reachA (a := 1) (x := 4) (v := [2, 3]) rfl (by decide) (by decide)
example := c70_refuted_empty arrCfg_valid arrCfg_physical (s := (exec arrCfg {} [.ctor]).getD {}) (env := Env.empty.upd 0 (.val [])) (a := 0)
  (Reach.next arrCfg_valid arrCfg_physical .init (op := .ctor) (x := .obj 0) trivial rfl (fun h => h) ⟨0, rfl, rfl, rfl⟩) rfl

end Bdlib.Rca
