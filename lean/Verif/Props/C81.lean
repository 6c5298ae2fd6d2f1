import Verif.Rca.InPlace
import Verif.Props.C80
import Verif.Props.C12

/-!
# C81 What reserve() promises

After `reserve(n)` has returned, calls that keep the object within `n` elements do not ask for memory, hence cannot throw
`bad_alloc`, and pointers, references and iterators to the elements stay valid, as long as the storage is not shared when a
call changes the object.  Calls that drop elements at the front or start over may move the elements within the buffer, but
do not ask for memory either: a queue of at most `n` elements never allocates.
-/

namespace Bdlib.Spec
open Bdlib

/-- A call on `o`, with its indices in range, before and after which `o` has at most `n` elements, and which leaves the first
element in its place.  Inserting or replacing all of a longer array at position 0 is assignment, and is not included. -/
def Op.InRoom {T : Type} (cfg : Cfg T) (env : Env T) (o n : Nat) (op : Op T) : Prop :=
  (env.get o).length ≤ n ∧
  match op with
  | .length x | .hash x | .cStr x | .begin x | .popBack x => x = o
  | .pop x => x = o ∧ ¬ IsStr cfg
  | .read x i | .at x i | .write x i _ | .replaceItem x i _ => x = o ∧ i < (env.get o).length
  | .reserve x m | .resize x m | .resizeFill x m _ => x = o ∧ m ≤ n
  | .append x _ => x = o ∧ (env.get o).length + 1 ≤ n
  | .appendRca x r k | .appendMove x r k => x = o ∧ (env.get o).length + ((env.get r).take k).length ≤ n ∧
      ¬ Longer (env.get o) (env.get r) (env.get o).length k
  | .insertItem x pos _ => x = o ∧ pos ≤ (env.get o).length ∧ (env.get o).length + 1 ≤ n
  | .insertRca x pos r | .insertMove x pos r => x = o ∧ pos ≤ (env.get o).length ∧
      (env.get o).length + (env.get r).length ≤ n ∧ ¬ Longer (env.get o) (env.get r) pos (env.get r).length
  | .insertRcaN x pos r k | .insertMoveN x pos r k => x = o ∧ pos ≤ (env.get o).length ∧
      (env.get o).length + ((env.get r).take k).length ≤ n ∧ ¬ Longer (env.get o) (env.get r) pos k
  | .insertRange x pos xs | .insertC x pos xs => x = o ∧ pos ≤ (env.get o).length ∧ (env.get o).length + xs.length ≤ n
  | .replaceRca x pos r k | .replaceMove x pos r k => x = o ∧ pos ≤ (env.get o).length ∧
      pos + ((env.get r).take k).length ≤ n ∧
      ¬ (pos = 0 ∧ (env.get o).length < (env.get r).length ∧ (k = npos ∨ k = (env.get r).length))
  | .replaceC x pos xs => x = o ∧ pos ≤ (env.get o).length ∧ pos + xs.length ≤ n
  | .dropBack x k | .arrDropBack x k => x = o ∧ k ≤ (env.get o).length
  | _ => False

/-- ... or which drops elements at either end, or gives `o` a new value of at most `n` elements. -/
def Op.InBuffer {T : Type} (cfg : Cfg T) (env : Env T) (o n : Nat) (op : Op T) : Prop :=
  op.InRoom cfg env o n ∨ (env.get o).length ≤ n ∧
  match op with
  | .clear x | .slice x _ _ | .dropFront x _ | .dropBack x _ | .arrDropFront x _ | .arrDropBack x _ => x = o
  | .shift x => x = o ∧ ¬ IsStr cfg
  | .assignList x xs => x = o ∧ xs.length ≤ n
  | .assignStd x xs => x = o ∧ xs.length ≤ n ∧ 0 < n
  | _ => False

end Bdlib.Spec

namespace Bdlib.Rca
open Bdlib Bdlib.Spec

variable {T : Type} [DecidableEq T] {cfg : Cfg T} {s s' : St T} {env env' : Env T}

/-- A history of calls: any calls that do not disturb `o`, and calls on `o` that keep within the room (`ok`) and are made
while its storage is not shared. -/
inductive Confined (cfg : Cfg T) (ok : Env T → Op T → Prop) (o : Nat) (s : St T) (env : Env T) : St T → Env T → Prop
  | now : Confined cfg ok o s env s env
  | other {s1 s2 : St T} {env1 env2 : Env T} {op : Op T} {out : Outcome T} : Confined cfg ok o s env s1 env1 →
      Pre cfg (shared s1) env1 op → ¬ op.Disturbs o → result (run cfg op s1) = some (out, s2) →
      Post cfg (shared s1) env1 op out env2 → Agrees s2 env2 → Confined cfg ok o s env s2 env2
  | own {s1 s2 : St T} {env1 env2 : Env T} {op : Op T} {out : Outcome T} : Confined cfg ok o s env s1 env1 →
      Pre cfg (shared s1) env1 op → isShared o s1 = .ok false s1 → ok env1 op → result (run cfg op s1) = some (out, s2) →
      Post cfg (shared s1) env1 op out env2 → Agrees s2 env2 → Confined cfg ok o s env s2 env2

theorem Confined.reach {ok : Env T → Op T → Prop} {o : Nat} (hr : Reach cfg s env) (h : Confined cfg ok o s env s' env') :
    Reach cfg s' env' := by
  induction h with
  | now => exact hr
  | other _ h1 _ h2 h3 h4 ih => exact .step ih h1 h2 h3 h4
  | own _ h1 _ _ h2 h3 h4 ih => exact .step ih h1 h2 h3 h4

/-- `o` is in buffer `g` of block `a`, at a position in `R`. -/
structure Kept (R : Nat → Prop) (cfg : Cfg T) (o a g cap : Nat) (s : St T) : Prop where
  obj : ∃ off L x, s.obj o = some ⟨some a, off, L, x⟩ ∧ R off
  blk : ∃ cells refs, s.blk a = some ⟨g, cells, refs⟩ ∧ cells.length = cap ∧
    ∀ c, cfg.nul = some c → 0 < cap → cells.getLast? = some c

section
variable {R : Nat → Prop} {o a g cap off n L G : Nat}

theorem Held.kept (h : Held cfg o a g cap off L G s) (ho : R off) : Kept R cfg o a g cap s := by
  obtain ⟨x, hx⟩ := h.obj
  obtain ⟨cells, hb, h1, h2⟩ := h.blk
  exact ⟨⟨off, L, x, hx, ho⟩, ⟨cells, 1, hb, h1, h2⟩⟩

theorem Kept.held (hwf : WF cfg s) (h : Kept R cfg o a g cap s) (hsh : shared s o = false) :
    ∃ off L, R off ∧ Held cfg o a g cap off L s.gen s := by
  obtain ⟨off, L, x, hx, hR⟩ := h.obj
  obtain ⟨cells, refs, hb, h1, h2⟩ := h.blk
  rw [shared_eq hx rfl hb] at hsh
  obtain ⟨e1, e2⟩ := hwf.refs a _ hb
  have hrefs : refs = 1 := by
    simp only at e1
    have : ¬ (refs > 1) := by simpa using hsh
    omega
  subst hrefs
  obtain ⟨b', hb', hle⟩ := hwf.bounds o _ a hx rfl
  rw [hb] at hb'
  cases hb'
  have := cfg.le_need L
  exact ⟨off, L, hR, ⟨x, hx⟩, ⟨cells, hb, h1, h2⟩, by simp only at hle; omega, rfl⟩

theorem Kept.stay (h : Kept R cfg o a g cap s) (hst : Stay s s' o) : Kept R cfg o a g cap s' := by
  obtain ⟨off, L, x, hx, hR⟩ := h.obj
  obtain ⟨cells, refs, hb, h1, h2⟩ := h.blk
  obtain ⟨⟨r', off', L', x'⟩, k1, k2, k3, k4, k5⟩ := hst _ hx
  simp only at k2 k3 k4
  subst k2 k3 k4
  obtain ⟨⟨g', cells', refs'⟩, hb', hg', hc'⟩ := vis_some (hb ▸ k5 a rfl)
  simp only at hg' hc'
  subst hg' hc'
  exact ⟨⟨_, _, x', k1, hR⟩, ⟨_, refs', hb', h1, h2⟩⟩

theorem still_out {α : Type} {m : M T α} {f : α → Out T} {P : St T → Prop} (h : Res.Still (m s) fun _ s' => P s') :
    Res.Still (mapOut m f s) fun _ s' => P s' := still_then h fun _ _ h' => h'

/-- A call within the room is made in place. -/
theorem still_call (hv : cfg.Valid) (hp : cfg.Physical) (hr : Reach cfg s env) (hR : Roomy cfg cap n R) {op : Op T}
    (hpre : Pre cfg (shared s) env op) (hin : op.InRoom cfg env o n) (ho : R off)
    (h : Held cfg o a g cap off L G s) :
    Res.Still (run cfg op s) fun _ s' => ∃ L', FitsAt R cfg o a g cap L' G s' := by
  obtain ⟨hwf, hc, hA⟩ := hr.inv hv hp
  have hL : ∀ {p : Nat}, env.Has p → length p s = .ok (env.get p).length s := by
    rintro p ⟨v, hv'⟩
    rw [get_val hv']
    exact length_spec (hr.view_eq hv hp hv')
  have hlen : env.Has o → L = (env.get o).length := by
    intro hh
    have h1 := hL hh
    obtain ⟨x, hx⟩ := h.obj
    unfold length at h1
    rw [bind_ok (getObj_eq hx)] at h1
    cases h1
    rfl
  obtain ⟨hle, hin⟩ := hin
  have hshort : ∀ {r k : Nat}, (((env.get r).take k).length) = min k (env.get r).length := fun {_ _} => List.length_take
  cases op with
  | length x =>
    cases hin
    exact still_length h ⟨L, h.fit ho⟩
  | hash x => cases hin; exact still_out (still_mono (still_hash h) fun _ _ h' => ⟨_, h'.fit ho⟩)
  | cStr x =>
    cases hin
    have hl := hlen hpre.1
    show Res.Still ((match cfg.nul with
      | some c => mapOut (cStr cfg c o) .bytes
      | none => M.undef) s) _
    cases hn : cfg.nul with
    | none => trivial
    | some c => exact still_out (still_mono (still_cStr hn hR h ho (by omega)) fun _ _ h' => ⟨_, h'⟩)
  | «begin» x =>
    cases hin
    have hl := hlen hpre
    exact still_out (still_mono (still_own hR h ho (by omega)) fun _ _ ⟨_, h1, _, h2⟩ => ⟨_, h2.fit h1⟩)
  | popBack x =>
    cases hin
    have hl := hlen hpre.1
    have := List.length_pos_iff.2 hpre.2
    exact still_out (still_mono (still_popBack h (by omega)) fun _ _ ⟨_, h'⟩ => ⟨_, h'.fit ho⟩)
  | pop x =>
    obtain ⟨rfl, hs⟩ := hin
    have hl := hlen hpre.1
    have := List.length_pos_iff.2 hpre.2
    have hn : cfg.nul = none := by
      unfold IsStr at hs
      cases hc : cfg.nul with
      | none => rfl
      | some c => rw [hc] at hs; exact absurd rfl hs
    exact still_out (still_mono (still_pop hn h (by omega)) fun _ _ ⟨_, h'⟩ => ⟨_, h'.fit ho⟩)
  | read x i =>
    obtain ⟨rfl, _⟩ := hin
    refine still_out (m := read x i) ?_
    unfold read
    exact still_read fun _ _ => ⟨L, h.fit ho⟩
  | «at» x i =>
    obtain ⟨rfl, hi⟩ := hin
    have hl := hlen hpre
    refine still_out (m := at' x i) ?_
    unfold at' validateIndex
    refine still_then (R := fun _ s' => s' = s) (still_length h ?_) fun _ s1 e => ?_
    · rw [if_neg (by omega)]
      rfl
    · subst e
      unfold read
      exact still_read fun _ _ => ⟨L, h.fit ho⟩
  | write x i y =>
    obtain ⟨rfl, hi⟩ := hin
    have hl := hlen hpre.1
    exact still_out (still_mono (still_write1 hR h ho (by omega) (by omega) y) fun _ _ h' => ⟨_, h'⟩)
  | replaceItem x i y =>
    obtain ⟨rfl, hi⟩ := hin
    have hl := hlen hpre.1
    exact still_out (still_mono (still_replaceItem hR h ho (by omega) (by omega) y) fun _ _ h' => ⟨_, h'⟩)
  | reserve x m =>
    obtain ⟨rfl, hm⟩ := hin
    exact still_out (still_mono (still_reservePub hR h ho hm) fun _ _ h' => ⟨_, h'⟩)
  | resize x m =>
    obtain ⟨rfl, hm⟩ := hin
    exact still_out (still_mono (still_resize hR h ho hm hpre.2) fun _ _ h' => ⟨_, h'⟩)
  | resizeFill x m y =>
    obtain ⟨rfl, hm⟩ := hin
    exact still_out (still_mono (still_resizeFill hR h ho hm hpre.2 y) fun _ _ h' => ⟨_, h'⟩)
  | append x y =>
    obtain ⟨rfl, hm⟩ := hin
    have hl := hlen hpre
    exact still_out (still_mono (still_append hR h ho (by omega) y) fun _ _ h' => ⟨_, h'⟩)
  | appendRca x r k =>
    obtain ⟨rfl, hm, hs⟩ := hin
    have hl := hlen hpre.1
    rw [hshort] at hm
    refine still_out (m := appendRca cfg x r k) ?_
    unfold appendRca
    exact still_length h (still_insertRcaN hR h ho (hL hpre.2) (Nat.le_refl _) (by omega)
      fun e => hs (by unfold Longer; rw [← hl]; exact e))
  | appendMove x r k =>
    obtain ⟨rfl, hm, hs⟩ := hin
    have hl := hlen hpre.1
    rw [hshort] at hm
    refine still_out (m := appendMove cfg x r k) ?_
    unfold appendMove
    exact still_length h (still_insertMoveN hR h ho (hL hpre.2) (Nat.le_refl _) (by omega)
      fun e => hs (by unfold Longer; rw [← hl]; exact e))
  | insertItem x pos y =>
    obtain ⟨rfl, hpos, hm⟩ := hin
    have hl := hlen hpre
    exact still_out (still_mono (still_insertItem hR h ho (by omega) (by omega) y) fun _ _ h' => ⟨_, h'⟩)
  | insertRca x pos r =>
    obtain ⟨rfl, hpos, hm, hs⟩ := hin
    have hl := hlen hpre.1
    exact still_out (still_insertRca hR h ho (hL hpre.2.1) (by omega) (by omega) fun e => hs ⟨e.1, hl ▸ e.2, rfl⟩)
  | insertMove x pos r =>
    obtain ⟨rfl, hpos, hm, hs⟩ := hin
    have hl := hlen hpre.1
    exact still_out (still_insertMove hR h ho (hL hpre.2.1) (by omega) (by omega) fun e => hs ⟨e.1, hl ▸ e.2, rfl⟩)
  | insertRcaN x pos r k =>
    obtain ⟨rfl, hpos, hm, hs⟩ := hin
    have hl := hlen hpre.1
    rw [hshort] at hm
    exact still_out (still_insertRcaN hR h ho (hL hpre.2.1) (by omega) (by omega) fun e => hs (by unfold Longer; rw [← hl]; exact e))
  | insertMoveN x pos r k =>
    obtain ⟨rfl, hpos, hm, hs⟩ := hin
    have hl := hlen hpre.1
    rw [hshort] at hm
    exact still_out (still_insertMoveN hR h ho (hL hpre.2.1) (by omega) (by omega) fun e => hs (by unfold Longer; rw [← hl]; exact e))
  | insertRange x pos xs =>
    obtain ⟨rfl, hpos, hm⟩ := hin
    have hl := hlen hpre.1
    exact still_out (still_mono (still_insertRange hR h ho (by omega) (by omega)) fun _ _ h' => ⟨_, h'⟩)
  | insertC x pos xs =>
    obtain ⟨rfl, hpos, hm⟩ := hin
    have hl := hlen hpre
    exact still_out (still_insertC hR h ho (by omega) (by omega))
  | replaceRca x pos r k =>
    obtain ⟨rfl, hpos, hm, hs⟩ := hin
    have hl := hlen hpre.1
    rw [hshort] at hm
    exact still_out (still_replaceRca hR h ho (hL hpre.2.1) (by omega) (by omega) (by omega)
      (by obtain ⟨w, hw⟩ := hpre.2.1; rw [get_val hw]; exact view_len_npos hwf hc (hr.view_eq hv hp hw))
      fun e => hs (by rw [← hl]; exact e))
  | replaceMove x pos r k =>
    obtain ⟨rfl, hpos, hm, hs⟩ := hin
    have hl := hlen hpre.1
    rw [hshort] at hm
    exact still_out (still_replaceMove hR h ho (hL hpre.2.1) (by omega) (by omega) (by omega)
      (by obtain ⟨w, hw⟩ := hpre.2.1; rw [get_val hw]; exact view_len_npos hwf hc (hr.view_eq hv hp hw))
      fun e => hs (by rw [← hl]; exact e))
  | replaceC x pos xs =>
    obtain ⟨rfl, hpos, hm⟩ := hin
    have hl := hlen hpre
    exact still_out (still_replaceC hR h ho (by omega) (by omega) (by omega))
  | dropBack x k =>
    obtain ⟨rfl, hk⟩ := hin
    have hl := hlen hpre
    exact still_out (still_mono (still_dropBack h (by omega)) fun _ _ ⟨_, h'⟩ => ⟨_, h'.fit ho⟩)
  | arrDropBack x k =>
    obtain ⟨rfl, hk⟩ := hin
    have hl := hlen hpre.1
    exact still_out (still_mono (still_arrDropBack h (by omega) (by have := hpre.2; omega)) fun _ _ ⟨_, h'⟩ => ⟨_, h'.fit ho⟩)
  | _ => exact absurd hin id

theorem Narrowed.held (hwf : WF cfg s) (h : Narrowed cfg o a g cap G s) : ∃ off L, Held cfg o a g cap off L G s := by
  obtain ⟨off, L, ⟨x, hx⟩, h1, cells, hb, hl⟩ := h
  obtain ⟨b', hb', hle⟩ := hwf.bounds o _ a hx rfl
  rw [hb] at hb'
  cases hb'
  have := cfg.le_need L
  exact ⟨off, L, h1 (by simp only at hle; omega)⟩

/-- A call that keeps within the capacity is made in the same buffer. -/
theorem still_buffer (hv : cfg.Valid) (hp : cfg.Physical) (hr : Reach cfg s env) (hcap : room cfg n ≤ cap) {op : Op T}
    (hpre : Pre cfg (shared s) env op) (hin : op.InBuffer cfg env o n)
    (h : Held cfg o a g cap off L G s) :
    Res.Still (run cfg op s) fun _ s' => Narrowed cfg o a g cap G s' := by
  have hR : Roomy cfg cap n (fun _ => True) := fun x _ m hm => Or.inr ⟨trivial, Nat.le_trans (room_mono cfg hm) hcap⟩
  have fits : ∀ {s' : St T} {L' : Nat}, FitsAt (fun _ => True) cfg o a g cap L' G s' → Narrowed cfg o a g cap G s' :=
    fun ⟨_, _, h'⟩ => h'.narrowed
  rcases hin with hin | ⟨hle, hin⟩
  · exact still_mono (still_call hv hp hr hR hpre hin trivial h) fun _ _ ⟨_, h'⟩ => fits h'
  cases op with
  | clear x => cases hin; exact still_out (still_mono (still_clear h) fun _ _ h' => h'.narrowed)
  | slice x start len => cases hin; exact still_out (still_slice h start len)
  | dropFront x k => cases hin; exact still_out (still_dropFront h k)
  | dropBack x k => cases hin; exact still_out (still_dropBackAny h k)
  | arrDropFront x k => cases hin; exact still_out (still_arrDropFront h k)
  | arrDropBack x k => cases hin; exact still_out (still_arrDropBackAny h k)
  | shift x =>
    obtain ⟨rfl, hs⟩ := hin
    have hn : cfg.nul = none := by
      unfold IsStr at hs
      cases hc : cfg.nul with
      | none => rfl
      | some c => rw [hc] at hs; exact absurd rfl hs
    obtain ⟨⟨v, hv'⟩, h0⟩ := hpre
    rw [get_val hv'] at h0
    obtain ⟨ob, hob, _, hsl⟩ := obj_of_view (hr.view_eq hv hp hv')
    obtain ⟨y, hy⟩ := h.obj
    rw [hob] at hy
    cases hy
    have := List.length_pos_iff.2 h0
    exact still_out (still_shiftOut hn h (by simp only at hsl; omega))
  | assignList x xs =>
    obtain ⟨rfl, hn⟩ := hin
    exact still_out (still_mono (still_assignList hR trivial h hn) fun _ _ h' => fits h')
  | assignStd x xs =>
    obtain ⟨rfl, hn, h0⟩ := hin
    show Res.Still ((match cfg.nul with
      | some c => mapOut (assignStd cfg c x xs) fun _ => .unit
      | none => M.undef) s) _
    cases hnul : cfg.nul with
    | none => trivial
    | some c => exact still_out (still_mono (still_assignStd hnul hR trivial h hn h0) fun _ _ h' => fits h')
  | _ => exact absurd hin id

/-- After `reserve(n)` the object is in a buffer of its own with room for `n` elements behind its first. -/
theorem reserve_held (hv : cfg.Valid) (hp : cfg.Physical) (hr : Reach cfg s env) (hpre : Pre cfg (shared s) env (.reserve o n))
    (hmax : IsStr cfg → n ≠ npos) {x : Out T} (hrun : run cfg (.reserve o n) s = .ok x s') :
    Reach cfg s' env ∧ ∃ a g cap off L, off + room cfg n ≤ cap ∧ Held cfg o a g cap off L s'.gen s' := by
  obtain ⟨hwf, hc, hA⟩ := hr.inv hv hp
  obtain ⟨out, t, env1, h1, h2, h3⟩ := hr.call hv hp hpre
  rw [hrun] at h1
  cases h1
  have hreach : Reach cfg s' env := by
    rcases h2 with ⟨_, rfl⟩ | ⟨e, _⟩
    · exact h3
    · cases e
  obtain ⟨u, hres, _⟩ := mapOut_parts hrun
  refine ⟨hreach, ?_⟩
  obtain ⟨v, hv'⟩ := hpre.1
  have hsp := reservePub_spec hwf (hr.view_eq hv hp hv') hpre.2.1 (n := n) (by
    have := hpre.2.2
    rw [get_val hv'] at this
    exact this)
  rw [hres] at hsp
  obtain ⟨hwf', hfr, _, ob, a, b, e1, e2, e3, e5, e4⟩ := hsp
  have hroom := e4 hmax
  have hsh : shared s' o = false := by rw [shared_eq e1 e2 e3, e5]; rfl
  have hlast : ∀ c, cfg.nul = some c → 0 < b.cells.length → b.cells.getLast? = some c := by
    intro c hnul h0
    unfold reservePub reserve at hres
    rw [hnul] at hres
    simp only at hres
    unfold strReserve at hres
    obtain ⟨_, s1, _, k2⟩ := bind_parts hres
    obtain ⟨ob1, s2, k3, k4⟩ := bind_parts k2
    obtain ⟨rfl, k3⟩ : s2 = s1 ∧ s1.obj o = some ob1 := by
      unfold getObj at k3
      cases hh : s1.obj o with
      | none => rw [hh] at k3; cases k3
      | some z => rw [hh] at k3; cases k3; exact ⟨rfl, rfl⟩
    cases href : ob1.ref with
    | none => rw [href] at k4; cases k4
    | some a1 =>
      rw [href] at k4
      obtain ⟨b1, s3, k5, k6⟩ := bind_parts k4
      obtain ⟨rfl, k5⟩ : s3 = s2 ∧ s2.blk a1 = some b1 := by
        unfold getBlk at k5
        cases hh : s2.blk a1 with
        | none => rw [hh] at k5; cases k5
        | some z => rw [hh] at k5; cases k5; exact ⟨rfl, rfl⟩
      split at k6
      · rename_i hz
        split at k6
        · cases k6
          rw [k3] at e1
          cases e1
          rw [href] at e2
          cases e2
          rw [k5] at e3
          cases e3
          omega
        · cases k6
      · rename_i hz
        cases k6
        rw [show ((s3.setBlk a1 _).obj o) = s3.obj o from rfl, k3] at e1
        cases e1
        rw [href] at e2
        cases e2
        rw [St.blk_setBlk_self _ (St.blk_lt k5)] at e3
        cases e3
        unfold overwrite
        rw [List.length_singleton, List.drop_eq_nil_of_le (by omega), List.append_nil, List.getLast?_append]
        rfl
  obtain ⟨r, off, L, y⟩ := ob
  simp only at e2
  subst e2
  obtain ⟨off1, L1, ho1, hh⟩ := Kept.held (R := fun x => x = off) hwf'
    ⟨⟨off, L, y, e1, rfl⟩, ⟨b.cells, b.refs, e3, rfl, hlast⟩⟩ hsh
  subst ho1
  exact ⟨a, b.gen, b.cells.length, _, L1, hroom, hh⟩

/-- Through a history, the object stays in its buffer. -/
theorem Confined.kept (hv : cfg.Valid) (hp : cfg.Physical) (hr : Reach cfg s env) {ok : Env T → Op T → Prop}
    (hown : ∀ {s1 : St T} {env1 : Env T} {op : Op T} {off L : Nat}, Reach cfg s1 env1 → Pre cfg (shared s1) env1 op →
      ok env1 op → R off → Held cfg o a g cap off L s1.gen s1 →
      Res.Still (run cfg op s1) fun _ s2 => WF cfg s2 → ∃ off L, R off ∧ Held cfg o a g cap off L s1.gen s2)
    (h0 : Kept R cfg o a g cap s) (h : Confined cfg ok o s env s' env') : Kept R cfg o a g cap s' := by
  induction h with
  | now => exact h0
  | @other s1 s2 env1 env2 op out hh h1 hd h2 h3 h4 ih =>
    obtain ⟨hwf, hc, hA⟩ := (hh.reach hr).inv hv hp
    have hg := step_stays hwf hc hA h1
    refine ih.stay ?_
    cases hrun : run cfg op s1 with
    | ub => rw [hrun] at h2; cases h2
    | ok x t => rw [hrun] at h2 hg; cases h2; exact hg o hd
    | throw e t => rw [hrun] at h2 hg; cases h2; exact hg o hd
  | @own s1 s2 env1 env2 op out hh h1 hs hok h2 h3 h4 ih =>
    obtain ⟨hwf, _, _⟩ := (hh.reach hr).inv hv hp
    obtain ⟨hwf2, _, _⟩ := (Reach.step (hh.reach hr) h1 h2 h3 h4).inv hv hp
    obtain ⟨off, L, ho, hheld⟩ := ih.held hwf (isShared_run hs)
    have := hown (hh.reach hr) h1 hok ho hheld
    cases hrun : run cfg op s1 with
    | ub => rw [hrun] at h2; cases h2
    | throw e t => rw [hrun] at this; exact this.elim
    | ok x t =>
      rw [hrun] at h2 this
      cases h2
      obtain ⟨_, _, ho', hh'⟩ := this hwf2
      exact hh'.kept ho'

theorem Held.ptr (h : Held cfg o a g cap off L G s) (i : Nat) : ptrTo o i s = .ok ⟨a, g, off + i⟩ s := by
  obtain ⟨x, hx⟩ := h.obj
  obtain ⟨cells, hb, _, _⟩ := h.blk
  exact ptrTo_of hx rfl hb

theorem Held.capacity (h : Held cfg o a g cap off L G s) : capacity o s = .ok cap s := by
  obtain ⟨x, hx⟩ := h.obj
  obtain ⟨cells, hb, hl, _⟩ := h.blk
  rw [capacity_run hx rfl hb, hl]

end

section
variable {s1 s2 : St T} {env2 : Env T} {o n : Nat} {x : Out T} {op : Op T}

/-- After `o.reserve(n)` returned, and any history of calls that disturb `o` only by keeping it within `n` elements while its
storage is not shared: a further such call returns, has its specified effect, does not ask for memory, and the elements stay
where they were after `reserve(n)`: pointers to them are the same.

Partial: `append`/`insert`/`replace` of all of a longer array at position 0 are not included, nor calls that drop elements at
the front or assign, see `c81_refuted_append` and `c81_refuted_front`. -/
theorem c81_room_partial (hv : cfg.Valid) (hp : cfg.Physical) (hr : Reach cfg s env)
    (hpre : Pre cfg (shared s) env (.reserve o n)) (hmax : IsStr cfg → n ≠ npos)
    (hres : run cfg (.reserve o n) s = .ok x s1)
    (hist : Confined cfg (fun e op => op.InRoom cfg e o n) o s1 env s2 env2)
    (hsh : isShared o s2 = .ok false s2) (hpre2 : Pre cfg (shared s2) env2 op) (hin : op.InRoom cfg env2 o n) :
    ∃ y s3 env3, run cfg op s2 = .ok y s3 ∧ Post cfg (shared s2) env2 op (.ret y) env3 ∧ s3.gen = s2.gen ∧
      isShared o s3 = .ok false s3 ∧ (∃ p : Nat → Ptr, ∀ i, ptrTo o i s1 = .ok (p i) s1 ∧ ptrTo o i s2 = .ok (p i) s2 ∧
        ptrTo o i s3 = .ok (p i) s3) ∧
      Confined cfg (fun e op => op.InRoom cfg e o n) o s1 env s3 env3 := by
  obtain ⟨hr1, a, g, cap, off, L, hroom, hheld⟩ := reserve_held hv hp hr hpre hmax hres
  have hR : Roomy cfg cap n (fun x => x = off) := by
    rintro _ rfl m hm
    have := room_mono cfg hm
    exact Or.inl (by omega)
  have hkept : Kept (fun x => x = off) cfg o a g cap s2 := by
    refine hist.kept hv hp hr1 ?_ (hheld.kept rfl)
    intro t1 env1 op1 off1 L1 k1 k2 k3 k4 k5
    refine still_mono (still_call hv hp k1 hR k2 k3 k4 k5) fun _ _ ⟨_, off', h1, h2⟩ _ => ⟨off', _, h1, h2⟩
  have hr2 := hist.reach hr1
  obtain ⟨hwf2, _, _⟩ := hr2.inv hv hp
  obtain ⟨off2, L2, ho2, hh2⟩ := hkept.held hwf2 (isShared_run hsh)
  have hst := still_call hv hp hr2 hR hpre2 hin ho2 hh2
  obtain ⟨out, s3, env3, e1, e2, e3⟩ := hr2.call hv hp hpre2
  cases hrun : run cfg op s2 with
  | ub => rw [hrun] at e1; cases e1
  | throw e t => rw [hrun] at hst; exact hst.elim
  | ok y t =>
    rw [hrun] at hst e1
    cases e1
    obtain ⟨L3, off3, ho3, hh3⟩ := hst
    subst ho2 ho3
    exact ⟨y, s3, env3, rfl, e2, hh3.gen, hh3.ready, ⟨_, fun i => ⟨hheld.ptr i, hh2.ptr i, hh3.ptr i⟩⟩,
      .own hist hpre2 hsh hin (by rw [hrun]; rfl) e2 (e3.agrees hv hp)⟩

/-- The same with calls that drop elements at the front, clear, or assign at most `n` elements from a list or `std::string`:
no memory is asked for and the buffer remains the same, but the elements may move within it. -/
theorem c81_buffer_partial (hv : cfg.Valid) (hp : cfg.Physical) (hr : Reach cfg s env)
    (hpre : Pre cfg (shared s) env (.reserve o n)) (hmax : IsStr cfg → n ≠ npos)
    (hres : run cfg (.reserve o n) s = .ok x s1)
    (hist : Confined cfg (fun e op => op.InBuffer cfg e o n) o s1 env s2 env2)
    (hsh : isShared o s2 = .ok false s2) (hpre2 : Pre cfg (shared s2) env2 op) (hin : op.InBuffer cfg env2 o n) :
    ∃ y s3 env3, run cfg op s2 = .ok y s3 ∧ Post cfg (shared s2) env2 op (.ret y) env3 ∧ s3.gen = s2.gen ∧
      isShared o s3 = .ok false s3 ∧
      (∃ p1 p3 c, ptrTo o 0 s1 = .ok p1 s1 ∧ ptrTo o 0 s3 = .ok p3 s3 ∧ p3.addr = p1.addr ∧ p3.gen = p1.gen ∧
        capacity o s1 = .ok c s1 ∧ capacity o s3 = .ok c s3 ∧ n ≤ c) ∧
      Confined cfg (fun e op => op.InBuffer cfg e o n) o s1 env s3 env3 := by
  obtain ⟨hr1, a, g, cap, off, L, hroom, hheld⟩ := reserve_held hv hp hr hpre hmax hres
  have hcap : room cfg n ≤ cap := by omega
  have hkept : Kept (fun _ => True) cfg o a g cap s2 := by
    refine hist.kept hv hp hr1 ?_ (hheld.kept trivial)
    intro t1 env1 op1 off1 L1 k1 k2 k3 k4 k5
    refine still_mono (still_buffer hv hp k1 hcap k2 k3 k5) fun _ _ h1 hwf => ?_
    obtain ⟨off', L', h2⟩ := h1.held hwf
    exact ⟨off', L', trivial, h2⟩
  have hr2 := hist.reach hr1
  obtain ⟨hwf2, _, _⟩ := hr2.inv hv hp
  obtain ⟨off2, L2, _, hh2⟩ := hkept.held hwf2 (isShared_run hsh)
  have hst := still_buffer hv hp hr2 hcap hpre2 hin hh2
  obtain ⟨out, s3, env3, e1, e2, e3⟩ := hr2.call hv hp hpre2
  cases hrun : run cfg op s2 with
  | ub => rw [hrun] at e1; cases e1
  | throw e t => rw [hrun] at hst; exact hst.elim
  | ok y t =>
    rw [hrun] at hst e1
    cases e1
    obtain ⟨hwf3, _, _⟩ := e3.inv hv hp
    obtain ⟨off3, L3, hh3⟩ := hst.held hwf3
    exact ⟨y, s3, env3, rfl, e2, hh3.gen, hh3.ready, ⟨_, _, cap, hheld.ptr 0, hh3.ptr 0, rfl, rfl, hheld.capacity,
      hh3.capacity, Nat.le_trans (le_room cfg n) hcap⟩, .own hist hpre2 hsh hin (by rw [hrun]; rfl) e2 (e3.agrees hv hp)⟩

end

/-! ## A bounded queue -/

/-- What is done to a queue: `a.push_back(x)` and `a.shift()`. -/
inductive QueueCmd (T : Type) where
  | push (x : T)
  | take

/-- A queue of at most `n` elements: what the takes deliver and what is left, `none` if the queue would exceed `n` elements or
an element is taken from an empty queue. -/
def queueSpec {T : Type} (n : Nat) : List T → List (QueueCmd T) → Option (List T × List T)
  | v, [] => some ([], v)
  | v, .push x :: cs => if v.length < n then queueSpec n (v ++ [x]) cs else none
  | [], .take :: _ => none
  | x :: v, .take :: cs => (queueSpec n v cs).map fun r => (x :: r.1, r.2)

/-- The same with an Array: `a.push_back(x)` (`ReferenceCountedArray.h` 991-992) is `append(x)`; `a.shift()` (`Array.h` 107-116). -/
def queueRun {T : Type} [DecidableEq T] (cfg : Cfg T) (o : Nat) : List (QueueCmd T) → M T (List T)
  | [] => pure []
  | .push x :: cs => do
    let _ ← run cfg (.append o x)
    queueRun cfg o cs
  | .take :: cs => do
    match ← run cfg (.shift o) with
    | .elem (some x) => let xs ← queueRun cfg o cs; return x :: xs
    | _ => M.undef

/-- A queue of at most `n` elements in an Array for which `reserve(n)` was called: never `bad_alloc`, never a request for
memory, however many elements pass through it. -/
theorem c81_queue (hv : cfg.Valid) (hp : cfg.Physical) (hr : Reach cfg s env) (harr : ¬ IsStr cfg) {o n : Nat} {x : Out T}
    {s1 : St T} {v : List T} (ho : env o = .val v) (hvn : v.length ≤ n) (hsh : isShared o s = .ok false s)
    (hres : run cfg (.reserve o n) s = .ok x s1)
    {cs : List (QueueCmd T)} {outs w : List T} (hspec : queueSpec n v cs = some (outs, w)) :
    ∃ s', queueRun cfg o cs s1 = .ok outs s' ∧ Shows s' o w ∧ s'.gen = s1.gen := by
  have hpre : Pre cfg (shared s) env (.reserve o n) := ⟨⟨v, ho⟩, isShared_run hsh, fun h => absurd h harr⟩
  have hmax : IsStr cfg → n ≠ npos := fun h => absurd h harr
  obtain ⟨hr1, _, _, _, _, _, _, hheld⟩ := reserve_held hv hp hr hpre hmax hres
  have main : ∀ (cs : List (QueueCmd T)) (s2 : St T) (env2 : Env T) (v : List T) (outs : List T),
      Confined cfg (fun e op => op.InBuffer cfg e o n) o s1 env s2 env2 → isShared o s2 = .ok false s2 → env2 o = .val v →
      v.length ≤ n → queueSpec n v cs = some (outs, w) → ∃ s', queueRun cfg o cs s2 = .ok outs s' ∧ Shows s' o w ∧ s'.gen = s2.gen := by
    intro cs
    induction cs with
    | nil =>
      intro s2 env2 v outs hist hsh ho hvn hspec
      cases hspec
      exact ⟨s2, rfl, (hist.reach hr1).shows hv hp ho, rfl⟩
    | cons c cs ih =>
      intro s2 env2 v outs hist hsh ho hvn hspec
      cases c with
      | push y =>
        unfold queueSpec at hspec
        split at hspec
        · rename_i hlt
          obtain ⟨z, s3, env3, e1, e2, e3, e4, _, e5⟩ := c81_buffer_partial hv hp hr hpre hmax hres hist hsh
            (op := .append o y) ⟨v, ho⟩
            (Or.inl ⟨by rw [get_val ho]; omega, rfl, by rw [get_val ho]; omega⟩)
          rcases e2 with ⟨_, rfl⟩ | ⟨e, _⟩
          · obtain ⟨s', k1, k2, k3⟩ := ih s3 _ (v ++ [y]) outs e5 e4 (by simp [Env.upd, get_val ho]) (by simp; omega) hspec
            refine ⟨s', ?_, k2, k3.trans e3⟩
            show (run cfg (.append o y) >>= fun _ => queueRun cfg o cs) s2 = _
            rw [bind_ok e1]
            exact k1
          · cases e
        · cases hspec
      | take =>
        cases v with
        | nil => cases hspec
        | cons y v =>
          unfold queueSpec at hspec
          cases hq : queueSpec n v cs with
          | none => rw [hq] at hspec; cases hspec
          | some q =>
            obtain ⟨outs', w'⟩ := q
            rw [hq] at hspec
            cases hspec
            · obtain ⟨z, s3, env3, e1, ⟨e2, e2'⟩, e3, e4, _, e5⟩ := c81_buffer_partial hv hp hr hpre hmax hres hist hsh
                (op := .shift o) ⟨⟨_, ho⟩, by rw [get_val ho]; simp⟩
                (Or.inr ⟨by rw [get_val ho]; exact hvn, rfl, harr⟩)
              cases e2
              subst e2'
              obtain ⟨s', k1, k2, k3⟩ := ih s3 _ v outs' e5 e4 (by simp [Env.upd, get_val ho]) (by simp at hvn; omega) hq
              refine ⟨s', ?_, k2, k3.trans e3⟩
              show (run cfg (.shift o) >>= fun r => match r with
                | .elem (some x) => queueRun cfg o cs >>= fun xs => pure (x :: xs)
                | _ => M.undef) s2 = _
              rw [bind_ok e1, get_val ho]
              show (queueRun cfg o cs >>= fun xs => pure (y :: xs)) s3 = _
              rw [bind_ok k1]
              rfl
  exact main cs s1 env v outs .now hheld.ready ho hvn hspec

/-! ## Examples and refutations -/

/-- `Array a{1, 2, 3}; a.reserve(4);` -/
def stR : St Nat := (exec arrCfg {} [.listCtor [1, 2, 3]]).getD {}
def stR1 : St Nat := (exec arrCfg stR [.reserve 0 4]).getD {}
def envR : Env Nat := Env.empty.upd 0 (.val [1, 2, 3])

theorem reachR : Reach arrCfg stR envR :=
  Reach.next arrCfg_valid arrCfg_physical (.init) (op := .listCtor [1, 2, 3]) (x := .obj 0) rfl rfl (fun h => h)
    (Or.inl ⟨0, rfl, rfl, rfl⟩)

example : ∃ y s3, ∃ env3 : Env Nat, run arrCfg (.insertItem 0 0 9) stR1 = .ok y s3 ∧ s3.gen = stR1.gen ∧
    (∃ p : Nat → Ptr, ∀ i, ptrTo 0 i stR1 = .ok (p i) stR1 ∧ ptrTo 0 i s3 = .ok (p i) s3) ∧ env3 0 = .val [9, 1, 2, 3] := by
  obtain ⟨y, s3, env3, h1, h2, h3, _, ⟨p, h4⟩, _⟩ := c81_room_partial arrCfg_valid arrCfg_physical reachR (o := 0) (n := 4)
    (s1 := stR1) (op := .insertItem 0 0 9) ⟨⟨_, rfl⟩, rfl, fun h => by cases h⟩ (fun h => by cases h) rfl .now rfl ⟨_, rfl⟩
    ⟨by decide, rfl, by decide, by decide⟩
  refine ⟨y, s3, env3, h1, h3, ⟨p, fun i => ⟨(h4 i).1, (h4 i).2.2⟩⟩, ?_⟩
  rcases h2 with ⟨_, rfl⟩ | ⟨e, _⟩
  · rfl
  · cases e

/-- Ten elements through a queue of four. -/
example : ∃ s', queueRun arrCfg 0 [.push 4, .take, .push 5, .take, .take, .push 6, .push 7, .take, .push 8, .take, .take]
    stR1 = .ok [1, 2, 3, 4, 5, 6] s' ∧ Shows s' 0 [7, 8] ∧ s'.gen = stR1.gen :=
  c81_queue arrCfg_valid arrCfg_physical reachR (fun h => by cases h) (o := 0) (n := 4) (s1 := stR1) (v := [1, 2, 3]) rfl
    (by decide) rfl rfl rfl

/-- `String a, b("hello"); a.reserve(10);` -/
def stB : St Nat := (exec strCfg {} [.ctor, .cstrCtor [104, 101, 108, 108, 111]]).getD {}
def stB1 : St Nat := (exec strCfg stB [.reserve 0 10]).getD {}
def stB2 : St Nat := (exec strCfg stB1 [.appendRca 0 1 5]).getD {}
def envB : Env Nat := (Env.empty.upd 0 (.val [])).upd 1 (.val [104, 101, 108, 108, 111])

theorem reachB : Reach strCfg stB envB := by
  have h1 : Reach strCfg ((exec strCfg {} [.ctor]).getD {}) (Env.empty.upd 0 (.val [])) :=
    Reach.next strCfg_valid strCfg_physical (.init) (op := .ctor) (x := .obj 0) trivial rfl (fun h => h) ⟨0, rfl, rfl, rfl⟩
  exact Reach.next strCfg_valid strCfg_physical h1 (op := .cstrCtor [104, 101, 108, 108, 111]) (x := .obj 1)
    (by simp [Pre, IsStr, strCfg]) rfl (fun h => h) (Or.inl ⟨1, rfl, rfl, rfl⟩)

/-- Appending a whole String to an empty one throws the reserved room away: `a.append(b, 5)` is within the 10 characters
reserved, but makes `a` share the storage of `b`, with a capacity of 6; the next character needs memory. -/
theorem c81_refuted_append : Reach strCfg stB envB ∧ run strCfg (.reserve 0 10) stB = .ok .unit stB1 ∧
    isShared 0 stB1 = .ok false stB1 ∧ capacity 0 stB1 = .ok 11 stB1 ∧ run strCfg (.appendRca 0 1 5) stB1 = .ok .unit stB2 ∧
    isShared 0 stB2 = .ok true stB2 ∧ capacity 0 stB2 = .ok 6 stB2 ∧
    ∃ s3, run strCfg (.append 0 33) stB2 = .ok .unit s3 ∧ stB2.gen < s3.gen ∧
      run { strCfg with allocOk := fun _ _ => false } (.append 0 33) stB2 = .throw .badAlloc
        ((exec { strCfg with allocOk := fun _ _ => false } stB2 [.append 0 33]).getD {}) :=
  ⟨reachB, rfl, rfl, rfl, rfl, rfl, rfl, _, rfl, by decide, rfl⟩

/-- After elements were dropped at the front, growing within the reserved room moves the elements: the pointer to the element
2 shows 3 after `a += 1` (the operator that drops), `a.push_back(4)`, `a.push_back(5)`; there are 4 elements in the room for 4. -/
theorem c81_refuted_front : Reach arrCfg stR envR ∧ run arrCfg (.reserve 0 4) stR = .ok .unit stR1 ∧
    ∃ s2 s3 s4 p, run arrCfg (.arrDropFront 0 1) stR1 = .ok .unit s2 ∧ ptrTo 0 0 s2 = .ok p s2 ∧ loadPtr p s2 = .ok 2 s2 ∧
      run arrCfg (.append 0 4) s2 = .ok .unit s3 ∧ loadPtr p s3 = .ok 2 s3 ∧
      run arrCfg (.append 0 5) s3 = .ok .unit s4 ∧ Shows s4 0 [2, 3, 4, 5] ∧ loadPtr p s4 = .ok 3 s4 ∧ s4.gen = stR1.gen := by
  refine ⟨reachR, rfl, _, _, _, _, rfl, rfl, rfl, rfl, rfl, rfl, ⟨rfl, fun i hi => ?_⟩, rfl, rfl⟩
  match i, hi with
  | 0, _ => rfl
  | 1, _ => rfl
  | 2, _ => rfl
  | 3, _ => rfl

end Bdlib.Rca
