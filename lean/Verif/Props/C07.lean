import Verif.Props.C06
import Verif.Prog.Model

/-!
# C07 replace(pos, x) overwrites from pos, extending if needed
-/

namespace Bdlib.Rca
open Bdlib Bdlib.Spec

variable {T : Type} [DecidableEq T] {cfg : Cfg T}

/-- Where `replace` starts to be what the specification says: the argument is another object, or the
receiver itself replaced at 0 or from a part before `pos`. -/
theorem c07_replace_array_partial (hv : cfg.Valid) (hp : cfg.Physical) {s : St T} {env : Env T} (h : Reach cfg s env)
    {o r pos n : Nat} {v w : List T} (ho : env o = .val v) (hr : env r = .val w) (hpos : pos ≤ v.length)
    (hself : r = o → pos = 0 ∨ min n w.length ≤ pos) (hn : n ≠ 0) :
    Gives cfg s env (.replaceRca o pos r n) o
      (v.take pos ++ w.take n ++ v.drop (pos + (w.take n).length)) := by
  refine gives_of hv hp h ⟨has_val ho, has_val hr, by rw [get_val hr]; exact hself⟩ fun out env' hpost => ?_
  simpa only [Post, replaceAt, Checked, get_val ho, get_val hr, hpos, hn, if_true, if_false] using hpost

/-- A count of 0 does nothing. -/
theorem c07_replace_zero (hv : cfg.Valid) (hp : cfg.Physical) {s : St T} {env : Env T} (h : Reach cfg s env)
    {o r pos : Nat} {v : List T} (ho : env o = .val v) : run cfg (.replaceRca o pos r 0) s = .ok .unit s ∧ Shows s o v :=
  ⟨rfl, h.shows hv hp ho⟩

/-- The default count: the whole argument. -/
theorem c07_replace_all_partial (hv : cfg.Valid) (hp : cfg.Physical) {s : St T} {env : Env T} (h : Reach cfg s env)
    {o r pos : Nat} {v w : List T} (ho : env o = .val v) (hr : env r = .val w) (hpos : pos ≤ v.length)
    (hself : r = o → pos = 0 ∨ w.length ≤ pos) :
    Gives cfg s env (.replaceRca o pos r npos) o (v.take pos ++ w ++ v.drop (pos + w.length)) := by
  have hl := h.length_lt hv hp hr
  have hle : w.length ≤ npos := by unfold maxCells at hl; unfold npos; omega
  have := c07_replace_array_partial hv hp h ho hr hpos (n := npos)
    (fun he => (hself he).imp id fun h => Nat.le_trans (Nat.min_le_right _ _) h) (by unfold npos; omega)
  rwa [List.take_of_length_le hle] at this

/-- `replace(pos, array&&, n)`; the argument keeps its value unless it replaced the whole receiver. -/
theorem c07_replace_move_partial (hv : cfg.Valid) (hp : cfg.Physical) {s : St T} {env : Env T} (h : Reach cfg s env)
    {o r pos n : Nat} {v w : List T} (ho : env o = .val v) (hr : env r = .val w) (hpos : pos ≤ v.length)
    (hself : r = o → pos = 0 ∨ min n w.length ≤ pos) (hn : n ≠ 0)
    (hst : ¬ (pos = 0 ∧ v.length < w.length ∧ (n = npos ∨ n = w.length))) :
    Gives cfg s env (.replaceMove o pos r n) o
      (v.take pos ++ w.take n ++ v.drop (pos + (w.take n).length)) := by
  refine gives_of hv hp h ⟨has_val ho, has_val hr, by rw [get_val hr]; exact hself⟩ fun out env' hpost => ?_
  simp only [Post, Checked, get_val ho, get_val hr, hpos, hn, if_true, if_false] at hpost
  rcases hpost with ⟨hl, _⟩ | ⟨_, h1⟩
  · exact absurd hl hst
  · exact h1

/-- `replace(pos, const char*, n)`; `bytes` are the bytes copied. -/
theorem c07_replace_cstr (hv : cfg.Valid) (hp : cfg.Physical) {s : St T} {env : Env T} (h : Reach cfg s env)
    {o pos : Nat} {v : List T} (ho : env o = .val v) (hpos : pos ≤ v.length) (bytes : List T) :
    Gives cfg s env (.replaceC o pos bytes) o (v.take pos ++ bytes ++ v.drop (pos + bytes.length)) := by
  refine gives_of hv hp h (has_val ho) fun out env' hpost => ?_
  simpa only [Post, replaceAt, Checked, get_val ho, hpos, if_true] using hpost

/-- `replace(pos, item)` changes exactly element `pos`.

Partial: `pos == length()` passes the check but writes behind the last element, see
`c07_refuted_item`. -/
theorem c07_replace_item_partial (hv : cfg.Valid) (hp : cfg.Physical) {s : St T} {env : Env T} (h : Reach cfg s env)
    {o pos : Nat} {v : List T} (ho : env o = .val v) (hpos : pos < v.length) (x : T) :
    Gives cfg s env (.replaceItem o pos x) o (v.set pos x) := by
  refine gives_of hv hp h ⟨has_val ho, by rw [get_val ho]; omega⟩ fun out env' hpost => ?_
  simpa only [Post, replaceAt, Checked, get_val ho, show pos ≤ v.length by omega, if_true] using hpost

/-- Element assignment `a[i] = x`. -/
theorem c07_write_item (hv : cfg.Valid) (hp : cfg.Physical) {s : St T} {env : Env T} (h : Reach cfg s env)
    {o i : Nat} {v : List T} (ho : env o = .val v) (hi : i < v.length) (x : T) :
    Gives cfg s env (.write o i x) o (v.set i x) := by
  refine gives_of hv hp h ⟨has_val ho, by rw [get_val ho]; exact hi⟩ fun out env' hpost => ?_
  simpa only [Post, get_val ho] using hpost

/-- Assigning to a slice `s(start, len) = x` with a start inside the array is `replace(start, x, len)`;
`len = -1` stands for the whole of `x`. -/
theorem c07_slice_assign_partial (hv : cfg.Valid) (hp : cfg.Physical) {s : St T} {env : Env T} (h : Reach cfg s env)
    {o r : Nat} {v w : List T} (ho : env o = .val v) (hr : env r = .val w) (hne : r ≠ o) {start len : Int}
    (hs : 0 ≤ start) (hs' : start ≤ v.length) (hl : (0 < len ∧ len < two64) ∨ len = -1) :
    let part := if len = -1 then w else w.take len.toNat
    (∃ s', sliceAssign cfg o start len r s = .ok () s' ∧
      Shows s' o (v.take start.toNat ++ part ++ v.drop (start.toNat + part.length)) ∧ OthersKeep env o s') ∨
    ∃ s', sliceAssign cfg o start len r s = .throw .badAlloc s' ∧ OthersKeep env o s' := by
  intro part
  have hvl := h.length_lt hv hp ho
  have hstart : toSize start = start.toNat := by
    unfold toSize; unfold maxCells at hvl; unfold two64; omega
  have key : Gives cfg s env (.replaceRca o start.toNat r (toSize len)) o
      (v.take start.toNat ++ part ++ v.drop (start.toNat + part.length)) := by
    rcases hl with ⟨hl, hl2⟩ | hl
    · have e : part = w.take (toSize len) := by
        have h1 : len ≠ -1 := by omega
        have h2 : toSize len = len.toNat := by unfold toSize; unfold two64 at *; omega
        simp only [part, h1, if_false, h2]
      rw [e]
      refine c07_replace_array_partial hv hp h ho hr (by omega) (fun he => absurd he hne) ?_
      unfold toSize; unfold two64 at *; omega
    · subst hl
      have e : part = w := if_pos rfl
      rw [e]
      exact c07_replace_all_partial hv hp h ho hr (by omega) (fun he => absurd he hne)
  unfold sliceAssign
  rw [hstart]
  rcases key with ⟨s', env', h1, h2, h3, _⟩ | ⟨s', env', h1, h2, _⟩
  · left
    refine ⟨s', ?_, h2, h3⟩
    simp only [run, mapOut] at h1
    change M.bind _ _ _ = _ at h1
    unfold M.bind at h1
    cases hm : replaceRca cfg o start.toNat r (toSize len) s with
    | ok a t => rw [hm] at h1; cases h1; rfl
    | throw e t => rw [hm] at h1; cases h1
    | ub => rw [hm] at h1; cases h1
  · right
    refine ⟨s', ?_, h2⟩
    simp only [run, mapOut] at h1
    change M.bind _ _ _ = _ at h1
    unfold M.bind at h1
    cases hm : replaceRca cfg o start.toNat r (toSize len) s with
    | ok a t => rw [hm] at h1; cases h1
    | throw e t => rw [hm] at h1; cases h1; rfl
    | ub => rw [hm] at h1; cases h1

/-- Replacing past the end extends: `{2,3,4}.replace(2, {1,2,3,4,5})` gives `{2,3,1,2,3,4,5}`. -/
example : Gives arrCfg stA envA (.replaceRca 1 2 0 npos) 1 [2, 3, 1, 2, 3, 4, 5] :=
  c07_replace_all_partial arrCfg_valid arrCfg_physical reachA (o := 1) (r := 0) (pos := 2) rfl rfl (by decide)
    (by intro h; cases h)

/-- Replacing a part of an array by (the first `n` elements of) itself, from a position inside the copied part on, never
works. -/
theorem c07_replace_self (hv : cfg.Valid) (hp : cfg.Physical) {s : St T} {env : Env T} (h : Reach cfg s env) {o pos n : Nat}
    {v : List T} (ho : env o = .val v) (hpos : 0 < pos) (hlt : pos < v.length) (hn : pos < n) :
    NeverOk (run cfg (.replaceRca o pos o n) s) := by
  have hview := h.view_eq hv hp ho
  obtain ⟨hwf, -, -⟩ := h.inv hv hp
  obtain ⟨ob, hob, hvo, hl⟩ := obj_of_view hview
  have hlen : length o s = .ok v.length s := by
    simp only [length, bind, M.bind, getObj, hob, hl]; rfl
  have hf : ∀ k, pos < k → NeverOk (replaceBody cfg o pos o k s) := by
    intro k hk
    unfold replaceBody
    refine fails_bind ?_
    rw [hlen]
    refine fails_bind (aboutToModify_spec hwf hview ?_ ?_ fun _ _ _ _ _ _ => rfl)
    · split <;> omega
    intro s1 ob1 a b1 hown hsl hw hroom
    have hc : copyRange o k o pos s1 = .ub := by
      simp only [copyRange, bind, M.bind, getObj, hown.obj]
      rw [if_pos ⟨trivial, by omega, by omega⟩]
      rfl
    exact .inl (by simp only [bind, M.bind, hc])
  have e : run cfg (.replaceRca o pos o n) s =
      mapOut (replaceBody cfg o pos o (if n = npos ∨ n > v.length then v.length else n)) (fun _ => Out.unit) s := by
    simp only [run, mapOut, replaceRca, validatePos_ok hview (Nat.le_of_lt hlt), hlen, bind, M.bind, show ¬ (n = 0) by omega,
      show ¬ (pos = 0 ∧ v.length > v.length ∧ (n = npos ∨ n = v.length)) by omega, if_false]
  rw [e]
  rcases hf (if n = npos ∨ n > v.length then v.length else n) (by split <;> omega) with he | ⟨s', he⟩
  · exact .inl (by simp only [mapOut, bind, M.bind, he])
  · exact .inr ⟨s', by simp only [mapOut, bind, M.bind, he]⟩

/-- `replace(length(), item)` in every state: the call is accepted and changes no element; it is undefined where the buffer has
no cell behind the last element.  (A String made by an ordinary constructor has that cell: there the terminating NUL is
overwritten.) -/
theorem c07_replace_item_end (hv : cfg.Valid) (hp : cfg.Physical) {s : St T} {env : Env T} (h : Reach cfg s env) {o : Nat}
    {v : List T} (ho : env o = .val v) (x : T) :
    NeverOk (run cfg (.replaceItem o v.length x) s) ∨
      ∃ s', run cfg (.replaceItem o v.length x) s = .ok .unit s' ∧ Shows s' o v ∧ OthersKeep env o s' := by
  have hview := h.view_eq hv hp ho
  obtain ⟨hwf, -, hA⟩ := h.inv hv hp
  obtain ⟨ob, hob, hvo, hl⟩ := obj_of_view hview
  have hlen : length o s = .ok v.length s := by
    simp only [length, bind, M.bind, getObj, hob, hl]; rfl
  have hat : (aboutToModify cfg o v.length s).Sat (fun _ s' => NeverOk (writeRange o v.length [x] s') ∨
      ∃ s'', writeRange o v.length [x] s' = .ok () s'' ∧ Shows s'' o v ∧ OthersKeep env o s'') (fun e _ => e = .badAlloc) := by
    refine aboutToModify_spec hwf hview (Nat.le_refl _) ?_ fun _ _ _ _ _ _ => rfl
    intro s1 ob1 a b1 hown hsl hw hroom
    by_cases hc : ob1.offset + v.length + 1 ≤ b1.cells.length
    · refine .inr ?_
      have hwr : (writeRange o v.length [x] s1).Sat (fun _ s'' => Shows s'' o v ∧ OthersKeep env o s'') fun _ _ => False := by
        refine writeRange_own hown hc fun s2 hown2 => ?_
        have hv2 := hown2.view
        simp only at hv2
        rw [hsl, window_overwrite_after (by omega) (by omega), hw] at hv2
        refine ⟨shows_of_view hown2.wf hv2, fun p w hne hw => shows_of_view hown2.wf ?_⟩
        rw [hown2.frame.view hne]
        exact h.view_eq hv hp hw
      cases hm : writeRange o v.length [x] s1 with
      | ub => rw [hm] at hwr; exact hwr.elim
      | throw e s' => rw [hm] at hwr; exact hwr.elim
      | ok u s' => rw [hm] at hwr; exact ⟨s', rfl, hwr⟩
    · refine .inl (.inl ?_)
      simp only [writeRange, bind, M.bind, getObj, hown.obj, List.isEmpty_cons, Bool.false_eq_true, if_false, hown.ref, getBlk,
        hown.blk, List.length_cons, List.length_nil, Nat.zero_add]
      rw [if_neg hc]
      rfl
  simp only [run, mapOut, replaceItem, validatePos_ok hview (Nat.le_refl _), getOwnCopy, hlen, bind, M.bind]
  cases hm : aboutToModify cfg o v.length s with
  | ub => exact .inl (.inl rfl)
  | throw e s' => rw [hm] at hat; cases hat; exact .inl (.inr ⟨_, rfl⟩)
  | ok u s1 =>
    rw [hm] at hat
    rcases hat with (he | ⟨s', he⟩) | ⟨s', he, h1⟩
    · simp only [he]; exact .inl (.inl rfl)
    · simp only [he]; exact .inl (.inr ⟨_, rfl⟩)
    · simp only [he]; exact .inr ⟨_, rfl, h1⟩

/-- `a = {1,2,3,4,5}; a.replace(5, 9)` is accepted (no `out_of_range`) and writes outside the buffer. -/
theorem c07_refuted_item : ∃ s, Reach arrCfg s (Env.empty.upd 0 (.val [1, 2, 3, 4, 5])) ∧
    run arrCfg (.replaceItem 0 5 9) s = .ub :=
  ⟨(exec arrCfg {} [.listCtor [1, 2, 3, 4, 5]]).getD {},
    Reach.next arrCfg_valid arrCfg_physical .init (op := .listCtor [1, 2, 3, 4, 5]) (x := .obj 0) rfl rfl
      (fun h => h) (Or.inl ⟨0, rfl, rfl, rfl⟩), rfl⟩

/-- Even with room behind the last element nothing is added: `a.reserve(8)` first, then the call returns
and the array still is `{1,2,3,4,5}`. -/
theorem c07_refuted_item_silent : ∃ s s', run arrCfg (.reserve 0 8) ((exec arrCfg {} [.listCtor [1, 2, 3, 4, 5]]).getD {}) =
    .ok .unit s ∧ run arrCfg (.replaceItem 0 5 9) s = .ok .unit s' ∧ Shows s' 0 [1, 2, 3, 4, 5] := by
  refine ⟨_, _, rfl, rfl, rfl, fun i hi => ?_⟩
  match i, hi with
  | 0, _ => rfl
  | 1, _ => rfl
  | 2, _ => rfl
  | 3, _ => rfl
  | 4, _ => rfl

/-- `{1,2,3,4,5}.replace(2, itself, 4)`. -/
example : NeverOk (run arrCfg (.replaceRca 0 2 0 4) stA) :=
  c07_replace_self arrCfg_valid arrCfg_physical reachA (v := [1, 2, 3, 4, 5]) rfl (by decide) (by decide) (by decide)

/-- The subarray `{2,3,4}`: its copy is made without room for more. -/
example : NeverOk (run arrCfg (.replaceItem 1 3 9) stA) ∨
    ∃ s', run arrCfg (.replaceItem 1 3 9) stA = .ok .unit s' ∧ Shows s' 1 [2, 3, 4] ∧ OthersKeep envA 1 s' :=
  c07_replace_item_end arrCfg_valid arrCfg_physical reachA (o := 1) (v := [2, 3, 4]) rfl 9

end Bdlib.Rca
