import Verif.Props.C05

/-!
# C06 insert(pos, x) splices x in at pos and keeps everything else
-/

namespace Bdlib.Rca
open Bdlib Bdlib.Spec

variable {T : Type} [DecidableEq T] {cfg : Cfg T}

/-- `insert(pos, item)`. -/
theorem c06_insert_item (hv : cfg.Valid) (hp : cfg.Physical) {s : St T} {env : Env T} (h : Reach cfg s env)
    {o pos : Nat} {v : List T} (ho : env o = .val v) (hpos : pos ≤ v.length) (x : T) :
    Gives cfg s env (.insertItem o pos x) o (v.take pos ++ [x] ++ v.drop pos) := by
  refine gives_of hv hp h (has_val ho) fun out env' hpost => ?_
  simpa only [Post, insertAt, Checked, get_val ho, hpos, if_true] using hpost

/-- `insert(pos, array, n)`.

Partial: not when the argument is the receiver and its inserted part reaches beyond `pos`
(`c06_refuted_self`), and not when a longer array is inserted as a whole at position 0 of a non-empty
receiver (`c06_refuted_shortcut`). -/
theorem c06_insert_array_n_partial (hv : cfg.Valid) (hp : cfg.Physical) {s : St T} {env : Env T} (h : Reach cfg s env)
    {o r pos n : Nat} {v w : List T} (ho : env o = .val v) (hr : env r = .val w) (hpos : pos ≤ v.length)
    (hself : r = o → min n w.length ≤ pos) (hshort : pos = 0 → v.length < w.length → n = w.length → v = []) :
    Gives cfg s env (.insertRcaN o pos r n) o (v.take pos ++ w.take n ++ v.drop pos) := by
  have hpre : Pre cfg (shared s) env (.insertRcaN o pos r n) := by
    refine ⟨has_val ho, has_val hr, ?_, ?_⟩
    · rw [get_val hr]; exact hself
    · rw [get_val ho, get_val hr]; exact fun hl => hshort hl.1 hl.2.1 hl.2.2
  by_cases hn : n = 0
  · subst hn
    obtain ⟨out, s', env', hres, hpost, hreach⟩ := h.call hv hp hpre
    simp only [Post, if_true] at hpost
    obtain ⟨rfl, rfl⟩ := hpost
    refine Or.inl ⟨s', _, result_ok hres, ?_, fun p u _ hu => hreach.shows hv hp hu, hreach⟩
    simpa using hreach.shows hv hp ho
  · refine gives_of hv hp h hpre fun out env' hpost => ?_
    simpa only [Post, insertAt, Checked, get_val ho, get_val hr, hpos, hn, if_true, if_false] using hpost

/-- `insert(pos, array)`. -/
theorem c06_insert_array_partial (hv : cfg.Valid) (hp : cfg.Physical) {s : St T} {env : Env T} (h : Reach cfg s env)
    {o r pos : Nat} {v w : List T} (ho : env o = .val v) (hr : env r = .val w) (hpos : pos ≤ v.length)
    (hself : r = o → w.length ≤ pos) (hshort : pos = 0 → v.length < w.length → v = []) :
    Gives cfg s env (.insertRca o pos r) o (v.take pos ++ w ++ v.drop pos) := by
  refine gives_of hv hp h ⟨has_val ho, has_val hr, ?_, ?_⟩ fun out env' hpost => ?_
  · rw [get_val hr]; exact hself
  · rw [get_val ho, get_val hr]; exact fun hl => hshort hl.1 hl.2.1
  · simpa only [Post, insertAt, Checked, get_val ho, get_val hr, hpos, if_true] using hpost

/-- `insert(pos, array&&)` and `insert(pos, array&&, n)`: as above; the argument keeps its value unless it
was inserted into an empty receiver. -/
theorem c06_insert_move_partial (hv : cfg.Valid) (hp : cfg.Physical) {s : St T} {env : Env T} (h : Reach cfg s env)
    {o r pos : Nat} {v w : List T} (ho : env o = .val v) (hr : env r = .val w) (hpos : pos ≤ v.length)
    (hself : r = o → w.length ≤ pos) (hshort : ¬ (pos = 0 ∧ v.length < w.length)) :
    Gives cfg s env (.insertMove o pos r) o (v.take pos ++ w ++ v.drop pos) := by
  refine gives_of hv hp h ⟨has_val ho, has_val hr, ?_, ?_⟩ fun out env' hpost => ?_
  · rw [get_val hr]; exact hself
  · rw [get_val ho, get_val hr]; exact fun hl => absurd ⟨hl.1, hl.2.1⟩ hshort
  · simp only [Post, Checked, get_val ho, get_val hr, hpos, if_true] at hpost
    rcases hpost with ⟨hl, _⟩ | ⟨_, h1⟩
    · exact absurd ⟨hl.1, hl.2.1⟩ hshort
    · exact h1

theorem c06_insert_move_n_partial (hv : cfg.Valid) (hp : cfg.Physical) {s : St T} {env : Env T} (h : Reach cfg s env)
    {o r pos n : Nat} {v w : List T} (ho : env o = .val v) (hr : env r = .val w) (hpos : pos ≤ v.length) (hn : n ≠ 0)
    (hself : r = o → min n w.length ≤ pos) (hshort : ¬ (pos = 0 ∧ v.length < w.length ∧ n = w.length)) :
    Gives cfg s env (.insertMoveN o pos r n) o (v.take pos ++ w.take n ++ v.drop pos) := by
  refine gives_of hv hp h ⟨has_val ho, has_val hr, ?_, ?_⟩ fun out env' hpost => ?_
  · rw [get_val hr]; exact hself
  · rw [get_val ho, get_val hr]; exact fun hl => absurd hl hshort
  · simp only [Post, Checked, get_val ho, get_val hr, hpos, hn, if_true, if_false] at hpost
    rcases hpost with ⟨hl, _⟩ | ⟨_, h1⟩
    · exact absurd hl hshort
    · exact h1

/-- `insert(iterator at index pos, first, last)` with values from outside the array. -/
theorem c06_insert_range (hv : cfg.Valid) (hp : cfg.Physical) {s : St T} {env : Env T} (h : Reach cfg s env)
    {o pos : Nat} {v : List T} (ho : env o = .val v) (hpos : pos ≤ v.length) (xs : List T) :
    Gives cfg s env (.insertRange o pos xs) o (v.take pos ++ xs ++ v.drop pos) := by
  refine gives_of hv hp h ⟨has_val ho, by rw [get_val ho]; exact hpos⟩ fun out env' hpost => ?_
  simpa only [Post, insertAt, get_val ho] using hpost

/-- `insert(pos, const char*, n)` with a C string outside the receiver; `bytes` are the bytes copied. -/
theorem c06_insert_cstr (hv : cfg.Valid) (hp : cfg.Physical) {s : St T} {env : Env T} (h : Reach cfg s env)
    {o pos : Nat} {v : List T} (ho : env o = .val v) (hpos : pos ≤ v.length) (bytes : List T) :
    Gives cfg s env (.insertC o pos bytes) o (v.take pos ++ bytes ++ v.drop pos) := by
  refine gives_of hv hp h (has_val ho) fun out env' hpost => ?_
  simpa only [Post, insertAt, Checked, get_val ho, hpos, if_true] using hpost

/-- The hypotheses hold for inserting the shared subarray `{2,3,4}` in the middle of the array it came from. -/
example : Gives arrCfg stA envA (.insertRca 0 2 1) 0 [1, 2, 2, 3, 4, 3, 4, 5] :=
  c06_insert_array_partial arrCfg_valid arrCfg_physical reachA (o := 0) (r := 1) (pos := 2) rfl rfl (by decide)
    (by intro h; cases h) (by intro h; cases h)

/-! ## The cases left out, for every state -/

/-- A longer array inserted as a whole at position 0 takes the place of the contents: `insert(0, x)` and `insert(0, x, n)` with
`n` the length of `x`.  So it is right exactly if the receiver was empty. -/
theorem c06_insert_longer (hv : cfg.Valid) (hp : cfg.Physical) {s : St T} {env : Env T} (h : Reach cfg s env)
    {o r : Nat} {v w : List T} (ho : env o = .val v) (hr : env r = .val w) (hlt : v.length < w.length) :
    GivesOk cfg s env (.insertRca o 0 r) o w ∧ GivesOk cfg s env (.insertRcaN o 0 r w.length) o w := by
  have hok : GivesOk cfg s env (.copyAssign o r) o w :=
    givesOk_of hv hp h ⟨live_val ho, live_val hr⟩ fun out env' hpost => by simpa only [Post, hr, Sets] using hpost
  obtain ⟨ob, hob, hvo, hl⟩ := obj_of_view (h.view_eq hv hp ho)
  obtain ⟨rb, hrb, hvr, hlr⟩ := obj_of_view (h.view_eq hv hp hr)
  have e1 : run cfg (.insertRca o 0 r) s = run cfg (.copyAssign o r) s := by
    simp only [run, mapOut, insertRca, validatePos, length, bind, M.bind, getObj, hob, hrb, pure, M.pure, if_false, ne_eq,
      not_true_eq_false, hl, hlr, true_and, gt_iff_lt, hlt, if_true]
  have e2 : run cfg (.insertRcaN o 0 r w.length) s = run cfg (.copyAssign o r) s := by
    simp only [run, mapOut, insertRcaN, validatePos, length, bind, M.bind, getObj, hob, hrb, pure, M.pure, if_false, ne_eq,
      not_true_eq_false, hl, hlr, true_and, gt_iff_lt, hlt, if_true, and_true, show w.length ≠ 0 by omega]
  unfold GivesOk at hok ⊢
  rw [e1, e2]
  exact ⟨hok, hok⟩

/-- The call does not return: it is undefined, or memory runs out before it gets there. -/
def NeverOk {α : Type} (r : Res T α) : Prop := r = .ub ∨ ∃ s', r = .throw .badAlloc s'

theorem fails_bind {α β : Type} {m : M T α} {f : α → M T β} {s : St T}
    (h : (m s).Sat (fun a s' => NeverOk (f a s')) (fun e _ => e = .badAlloc)) : NeverOk ((m >>= f) s) := by
  change NeverOk (M.bind m f s)
  unfold M.bind
  cases hm : m s with
  | ub => exact .inl rfl
  | throw e s' => rw [hm] at h; cases h; exact .inr ⟨_, rfl⟩
  | ok a s' => rw [hm] at h; exact h

theorem insertBody_self (hv : cfg.Valid) (hp : cfg.Physical) {s : St T} {env : Env T} (h : Reach cfg s env) {o pos k : Nat}
    {v : List T} (ho : env o = .val v) (hk : k ≤ v.length) (hpos : 0 < pos) (hlt : pos < k) : NeverOk (insertBody cfg o pos o k s) := by
  have hview := h.view_eq hv hp ho
  obtain ⟨hwf, -, -⟩ := h.inv hv hp
  obtain ⟨ob, hob, hvo, hl⟩ := obj_of_view hview
  unfold insertBody
  refine fails_bind ?_
  have hlen : length o s = .ok v.length s := by
    simp only [length, bind, M.bind, getObj, hob, hl]; rfl
  rw [hlen]
  refine fails_bind (aboutToModify_spec hwf hview (by omega) ?_ fun _ _ _ _ _ _ => rfl)
  intro s1 ob1 a b1 hown hsl hw hroom
  have := le_room cfg (v.length + k)
  have hsh : ((shiftRight o pos k >>= fun _ => (pure () : M T Unit)) s1).Sat (fun _ s' => s'.obj o = some ob1) fun _ _ => False :=
    shiftRight_own hown hsl hw (by omega) (by omega) fun s2 b2 hown2 _ _ _ => hown2.obj
  refine fails_bind ?_
  have hsh' : (shiftRight o pos k s1).Sat (fun _ s' => s'.obj o = some ob1) fun _ _ => False := by
    change (M.bind (shiftRight o pos k) (fun _ => (pure () : M T Unit)) s1).Sat _ _ at hsh
    unfold M.bind at hsh
    cases hm : shiftRight o pos k s1 with
    | ub => rw [hm] at hsh; exact hsh
    | throw e s' => rw [hm] at hsh; exact hsh
    | ok a s' => rw [hm] at hsh; exact hsh
  cases hm : shiftRight o pos k s1 with
  | ub => rw [hm] at hsh'; exact hsh'
  | throw e s' => rw [hm] at hsh'; exact hsh'.elim
  | ok x s2 =>
    rw [hm] at hsh'
    have hob2 : s2.obj o = some ob1 := hsh'
    have hc : copyRange o k o pos s2 = .ub := by
      simp only [copyRange, bind, M.bind, getObj, hob2]
      rw [if_pos ⟨trivial, by omega, by omega⟩]
      rfl
    exact .inl (by simp only [bind, M.bind, hc])

/-- Inserting (the first `n` elements of) an array into its own middle, inside the part that is inserted, never works. -/
theorem c06_insert_self (hv : cfg.Valid) (hp : cfg.Physical) {s : St T} {env : Env T} (h : Reach cfg s env) {o pos : Nat}
    {v : List T} (ho : env o = .val v) (hpos : 0 < pos) (hle : pos < v.length) :
    NeverOk (run cfg (.insertRca o pos o) s) ∧ ∀ n, pos < n → NeverOk (run cfg (.insertRcaN o pos o n) s) := by
  obtain ⟨ob, hob, hvo, hl⟩ := obj_of_view (h.view_eq hv hp ho)
  have hval := validatePos_ok (h.view_eq hv hp ho) (pos := pos) (by omega)
  have hf : ∀ k, k ≤ v.length → pos < k → NeverOk (mapOut (insertBody cfg o pos o k) (fun _ => Out.unit) s) := by
    intro k hk hlt
    rcases insertBody_self hv hp h ho hk hpos hlt with he | ⟨s', he⟩
    · exact .inl (by simp only [mapOut, bind, M.bind, he])
    · exact .inr ⟨s', by simp only [mapOut, bind, M.bind, he]⟩
  constructor
  · have e : run cfg (.insertRca o pos o) s = mapOut (insertBody cfg o pos o v.length) (fun _ => Out.unit) s := by
      simp only [run, mapOut, insertRca, hval, length, bind, M.bind, getObj, hob, pure, M.pure, hl,
        show ¬ (pos = 0 ∧ v.length > v.length) by omega, if_false]
    rw [e]
    exact hf _ (Nat.le_refl _) hle
  · intro n hn
    have e : run cfg (.insertRcaN o pos o n) s = mapOut (insertBody cfg o pos o (min n v.length)) (fun _ => Out.unit) s := by
      simp only [run, mapOut, insertRcaN, hval, length, bind, M.bind, getObj, hob, pure, M.pure, hl, show ¬ (n = 0) by omega,
        show ¬ (pos = 0 ∧ v.length > v.length ∧ n = v.length) by omega, if_false]
    rw [e]
    exact hf _ (by omega) (by omega)

example : NeverOk (run arrCfg (.insertRca 0 2 0) stA) :=
  (c06_insert_self arrCfg_valid arrCfg_physical reachA (o := 0) (pos := 2) rfl (by decide) (by decide)).1

/-- `b = {2,3,4}; b.insert(0, {1,2,3,4,5})` leaves `{1,2,3,4,5}`: the old elements are lost. -/
theorem c06_refuted_shortcut : ∃ s', Reach arrCfg stA envA ∧ envA 1 = .val [2, 3, 4] ∧
    envA 0 = .val [1, 2, 3, 4, 5] ∧ run arrCfg (.insertRca 1 0 0) stA = .ok .unit s' ∧ Shows s' 1 [1, 2, 3, 4, 5] ∧
    ¬ Shows s' 1 ([2, 3, 4].take 0 ++ [1, 2, 3, 4, 5] ++ [2, 3, 4].drop 0) := by
  have h : Shows ((exec arrCfg stA [.insertRca 1 0 0]).getD {}) 1 [1, 2, 3, 4, 5] := by
    refine ⟨rfl, fun i hi => ?_⟩
    match i, hi with
    | 0, _ => rfl
    | 1, _ => rfl
    | 2, _ => rfl
    | 3, _ => rfl
    | 4, _ => rfl
  exact ⟨(exec arrCfg stA [.insertRca 1 0 0]).getD {}, reachA, rfl, rfl, rfl, h, fun h' => by
    have := shows_unique h h'; simp at this⟩

/-- `a.insert(2, a)` is undefined: `std::copy` onto an overlapping range. -/
theorem c06_refuted_self : Reach arrCfg stA envA ∧ envA 0 = .val [1, 2, 3, 4, 5] ∧
    run arrCfg (.insertRca 0 2 0) stA = .ub := ⟨reachA, rfl, rfl⟩

/-- `{2,3,4}.insert(0, {1,2,3,4,5})`. -/
example : GivesOk arrCfg stA envA (.insertRca 1 0 0) 1 [1, 2, 3, 4, 5] :=
  (c06_insert_longer arrCfg_valid arrCfg_physical reachA (o := 1) (r := 0) (v := [2, 3, 4]) rfl rfl (by decide)).1

end Bdlib.Rca
