import Verif.Props.C05
import Verif.Prog.Stream
import Verif.Prog.Pieces
import Verif.Props.C65
import Verif.Props.C71
import Verif.Stm.History

/-!
# C73: streams are values

Streams share storage with the Strings they are made from, with their copies and with the texts read from them.  Every
stream behaves like its own tape (`Spec/Stream.lean`) all the same.
-/

namespace Bdlib.Rca
open Bdlib Bdlib.Spec Bdlib.Str

variable {cfg : Cfg UInt8} {s : St UInt8} {env : Env UInt8} {α β : Type}

/-! ## Logic -/

/-- `Runs` for member functions: `Q` and `E` also get the position left. -/
def PRuns (cfg : Cfg UInt8) (m : PM α) (p : Nat) (s : St UInt8) (Q : α → Nat → Env UInt8 → Prop) (E : Exc → Nat → Env UInt8 → Prop) : Prop :=
  Runs cfg (fun s => (m p s).1) s (fun a env' => Q a (m p s).2 env') (fun e env' => E e (m p s).2 env')

theorem PRuns.lift {m : SM α} {p : Nat} {Q : α → Nat → Env UInt8 → Prop} {E : Exc → Nat → Env UInt8 → Prop}
    (h : Runs cfg m s (fun a env' => Q a p env') (fun e env' => E e p env')) : PRuns cfg (PM.lift m) p s Q E := h

theorem PRuns.mono {m : PM α} {p : Nat} {Q Q' : α → Nat → Env UInt8 → Prop} {E E' : Exc → Nat → Env UInt8 → Prop}
    (h : PRuns cfg m p s Q' E') (hq : ∀ a q env, Q' a q env → Q a q env) (he : ∀ e q env, E' e q env → E e q env) : PRuns cfg m p s Q E :=
  Runs.mono h (fun _ _ h => hq _ _ _ h) (fun _ _ h => he _ _ _ h)

theorem PRuns.pure {a : α} {p : Nat} {Q : α → Nat → Env UInt8 → Prop} {E : Exc → Nat → Env UInt8 → Prop} (hr : Reach cfg s env)
    (h : Q a p env) : PRuns cfg (Pure.pure a : PM α) p s Q E := ⟨env, h, hr, Nat.le_refl _⟩

theorem PRuns.goto {p q : Nat} {Q : Unit → Nat → Env UInt8 → Prop} {E : Exc → Nat → Env UInt8 → Prop} (hr : Reach cfg s env)
    (h : Q () q env) : PRuns cfg (PM.goto q) p s Q E := ⟨env, h, hr, Nat.le_refl _⟩

theorem PRuns.bind {m : PM α} {f : α → PM β} {p : Nat} {Q' : α → Nat → Env UInt8 → Prop} {Q : β → Nat → Env UInt8 → Prop}
    {E : Exc → Nat → Env UInt8 → Prop} (h : PRuns cfg m p s Q' E)
    (hf : ∀ a q s' env', Reach cfg s' env' → Q' a q env' → PRuns cfg (f a) q s' Q E) : PRuns cfg (m >>= f) p s Q E := by
  unfold PRuns at h ⊢
  unfold Runs at h ⊢
  have hbind : (m >>= f) p s = PM.bind m f p s := rfl
  simp only [hbind, PM.bind] at *
  cases hm : m p s with
  | mk r q =>
    rw [hm] at h
    cases r with
    | ub => exact h
    | throw e t => exact h
    | ok a t =>
      obtain ⟨env1, h1, h2, h3⟩ := h
      have := hf a q t env1 h2 h1
      unfold PRuns Runs at this
      dsimp only at this ⊢
      exact sat_mono this (fun _ _ ⟨env2, h4, h5, h6⟩ => ⟨env2, h4, h5, Nat.le_trans h3 h6⟩)
        (fun _ _ ⟨env2, h4, h5, h6, h7⟩ => ⟨env2, h4, h5, Nat.le_trans h3 h6, fun he => by
          obtain ⟨g, n, ha, hb, hc⟩ := h7 he
          exact ⟨g, n, Nat.lt_of_le_of_lt h3 ha, hb, hc⟩⟩)

theorem PRuns.tell {f : Nat → PM β} {p : Nat} {Q : β → Nat → Env UInt8 → Prop} {E : Exc → Nat → Env UInt8 → Prop}
    (h : PRuns cfg (f p) p s Q E) : PRuns cfg (PM.tell >>= f) p s Q E := h

theorem PRuns.building (hv : cfg.Valid) (hp : cfg.Physical) {mk : SM Nat} {body : Nat → PM Unit} {v : Bytes} {p : Nat}
    {Q : Nat → Nat → Env UInt8 → Prop} {E : Exc → Nat → Env UInt8 → Prop}
    (hmk : Runs cfg mk s (fun o env1 => env o = .dead ∧ env1 = env.upd o (.val v)) (fun e env' => E e p env'))
    (hbody : ∀ o s', env o = .dead → Reach cfg s' (env.upd o (.val v)) →
      PRuns cfg (body o) p s' (fun _ q env2 => Q o q env2) (fun e q env2 => env2.Live o ∧ E e q (env2.upd o .dead))) :
    PRuns cfg (PM.building cfg mk body) p s Q E := by
  unfold PM.building
  refine PRuns.bind (PRuns.lift (E := E) (Q := fun o q env1 => (env o = .dead ∧ env1 = env.upd o (.val v)) ∧ q = p)
    (Runs.mono hmk (fun _ _ h => ⟨h, rfl⟩) fun _ _ h => h)) fun o q s1 env1 hr1 h1 => ?_
  obtain ⟨⟨hd, rfl⟩, rfl⟩ := h1
  refine PRuns.bind (Q' := fun _ q env2 => Q o q env2) ?_ fun _ q s2 env2 hr2 h2 => PRuns.pure hr2 h2
  unfold PRuns
  refine Runs.onThrow (hbody o s1 hd hr1) fun e s' env' hr' h => ?_
  exact Runs.mono (runs_destroy hv hp hr' h.1 (E := fun _ _ => False)) (fun _ _ e => by rw [e]; exact h.2) fun _ _ h => h

/-! ## Calls -/

/-- `bad_alloc` in a call that changes the contents: only the stream's String can have changed, the position has not. -/
def StreamFails (env : Env UInt8) (o p : Nat) (e : Exc) (q : Nat) (env' : Env UInt8) : Prop := OnlyAt env o e env' ∧ q = p

theorem runs_puts (hv : cfg.Valid) (hp : cfg.Physical) (hr : Reach cfg s env) {o r p : Nat} {v x : Bytes} (ho : env o = .val v)
    (hx : env r = .val x) (hne : r ≠ o) (hpos : p ≤ v.length) :
    PRuns cfg (putsS cfg o r) p s (fun _ q env' => q = p + x.length ∧ env' = env.upd o (.val (replaceAt v p x))) (StreamFails env o p) := by
  have h1 := hr.len_lt hv hp ho
  have h2 := hr.len_lt hv hp hx
  unfold maxCells at h1 h2
  unfold putsS
  refine PRuns.tell (PRuns.bind (PRuns.lift (E := StreamFails env o p) (Q := fun _ q env' => q = p ∧ env' = env.upd o (.val (replaceAt v p x)))
    (runs_op hv hp hr (op := .replaceRca o p r npos) rfl ⟨has_val ho, has_val hx, fun e => absurd e hne⟩ ?_ ?_)) ?_)
  · intro a env' h
    unfold Post Checked at h
    dsimp only at h
    rw [if_neg (by decide), if_pos (by rw [get_val ho]; exact hpos), get_val ho, get_val hx, take_npos hv hp hr hx] at h
    rcases h with ⟨-, h⟩ | ⟨h, -⟩
    · exact ⟨rfl, h⟩
    · cases h
  · intro e env' h
    unfold Post Checked at h
    dsimp only at h
    rw [if_neg (by decide), if_pos (by rw [get_val ho]; exact hpos)] at h
    rcases h with ⟨h, -⟩ | h
    · cases h
    · exact ⟨noMem_only h, rfl⟩
  · rintro _ _ s1 _ hr1 ⟨rfl, rfl⟩
    refine PRuns.bind (PRuns.lift (Q := fun n q env' => (n = x.length ∧ env' = env.upd o (.val (replaceAt v _ x))) ∧ q = _)
      (Runs.mono (runs_length hv hp hr1 (by rw [Env.upd_ne hne]; exact hx)) (fun _ _ h => ⟨h, rfl⟩) fun _ _ h => h)) ?_
    rintro _ _ s2 _ hr2 ⟨⟨rfl, rfl⟩, rfl⟩
    refine PRuns.goto hr2 ⟨?_, rfl⟩
    rw [Nat.mod_eq_of_lt (by unfold two64; omega)]

theorem runs_putsMove (hv : cfg.Valid) (hp : cfg.Physical) (hr : Reach cfg s env) {o r p : Nat} {v x : Bytes} (ho : env o = .val v)
    (hx : env r = .val x) (hne : r ≠ o) (hpos : p ≤ v.length) :
    PRuns cfg (putsMoveS cfg o r) p s (fun _ q env' => q = p + x.length ∧
      env' = (env.upd r (if p = 0 ∧ v.length < x.length then movedSlot cfg else .val x)).upd o (.val (replaceAt v p x))) (StreamFails env o p) := by
  have h1 := hr.len_lt hv hp ho
  have h2 := hr.len_lt hv hp hx
  unfold maxCells at h1 h2
  unfold putsMoveS
  refine PRuns.bind (PRuns.lift (Q := fun n q env' => (n = x.length ∧ env' = env) ∧ q = p)
      (Runs.mono (runs_length hv hp hr hx) (fun _ _ h => ⟨h, rfl⟩) fun _ _ h => h)) ?_
  rintro _ q s1 env1 hr1 ⟨⟨rfl, he⟩, hq⟩
  obtain rfl := he.symm
  obtain rfl := hq.symm
  refine PRuns.tell (PRuns.bind (PRuns.lift (E := StreamFails env o p) (Q := fun _ q env' => q = p ∧
      env' = (env.upd r (if p = 0 ∧ v.length < x.length then movedSlot cfg else .val x)).upd o (.val (replaceAt v p x)))
    (runs_op hv hp hr1 (op := .replaceMove o _ r npos) rfl ⟨has_val ho, has_val hx, fun e => absurd e hne⟩ ?_ ?_)) ?_)
  · intro a env' h
    unfold Post Checked at h
    dsimp only at h
    rw [if_neg (by decide), if_pos (by rw [get_val ho]; exact hpos), get_val ho, get_val hx, take_npos hv hp hr1 hx] at h
    rcases h with ⟨hs, -, h⟩ | ⟨hs, ⟨-, h⟩ | ⟨h, -⟩⟩
    · exact ⟨rfl, by rw [if_pos ⟨hs.1, hs.2.1⟩]; exact h⟩
    · exact ⟨rfl, by rw [if_neg (fun hh => hs ⟨hh.1, hh.2, Or.inl rfl⟩), Env.upd_id hx]; exact h⟩
    · cases h
  · intro e env' h
    unfold Post Checked at h
    dsimp only at h
    rw [if_neg (by decide), if_pos (by rw [get_val ho]; exact hpos)] at h
    rcases h with ⟨-, h, -⟩ | ⟨-, ⟨h, -⟩ | h⟩
    · cases h
    · cases h
    · exact ⟨noMem_only h, rfl⟩
  · rintro _ _ s2 env2 hr2 ⟨rfl, h⟩
    refine PRuns.goto hr2 ⟨?_, h⟩
    rw [Nat.mod_eq_of_lt (by unfold two64; omega)]

theorem runs_clearS (hv : cfg.Valid) (hp : cfg.Physical) (hr : Reach cfg s env) {o p : Nat} {v : Bytes} (ho : env o = .val v)
    {E : Exc → Nat → Env UInt8 → Prop} :
    PRuns cfg (clearS o) p s (fun _ q env' => q = 0 ∧ env' = env.upd o (.val [])) E := by
  unfold clearS
  refine PRuns.bind (PRuns.lift (Q := fun _ _ env' => env' = env.upd o (.val []))
    (runs_op hv hp hr (op := .clear o) rfl (live_val ho) (fun _ _ h => h.2) fun _ _ h => nomatch h.1)) ?_
  rintro _ _ s1 _ hr1 rfl
  exact PRuns.goto hr1 ⟨rfl, rfl⟩

theorem runs_peek (hv : cfg.Valid) (hp : cfg.Physical) (hr : Reach cfg s env) {o p : Nat} {v : Bytes} (ho : env o = .val v)
    (hpos : p ≤ v.length) (hm : v.length ≤ maxInt) {E : Exc → Nat → Env UInt8 → Prop} :
    PRuns cfg (peekS o) p s (fun n q env' => q = p ∧ Returns env (v.drop p) n env') E := by
  unfold peekS
  refine PRuns.tell (PRuns.lift (Runs.mono (runs_substring hv hp hr ho ?_ (E := fun e env' => E e p env')) (fun n env' h => ?_) fun _ _ h => h))
  · rw [Stm.toSsize_small (by omega)]
    exact sliceOk_rest hm
  · rw [Stm.toSsize_small (by omega), sliceSpec_rest] at h
    exact ⟨rfl, h⟩

theorem runs_truncate (hv : cfg.Valid) (hp : cfg.Physical) (hr : Reach cfg s env) {o p : Nat} {v : Bytes} (ho : env o = .val v)
    (hpos : p ≤ v.length) (hm : v.length ≤ maxInt) {E : Exc → Nat → Env UInt8 → Prop} :
    PRuns cfg (truncateS cfg o) p s (fun _ q env' => q = p ∧ env' = env.upd o (.val (v.take p))) E := by
  unfold truncateS
  refine PRuns.tell (PRuns.lift (runs_withLocal (v := v.take p) (env := env) hv hp
    (Runs.mono (runs_substring hv hp hr ho (E := fun e env' => E e p env') ?_) (fun n env' h => ?_) fun _ _ h => h) fun t s1 hd hr1 => ?_))
  · rw [Stm.toSsize_small (by omega)]
    exact sliceOk_nat (i := 0) hm hpos
  · rw [Stm.toSsize_small (by omega)] at h
    have e := sliceSpec_nat v 0 p
    rw [List.drop_zero] at e
    exact ⟨h.1, by rw [← e]; exact h.2⟩
  · have hne : o ≠ t := dead_ne hd (live_val ho)
    refine Runs.mono (runs_moveAssign hv hp hr1 (by rw [Env.upd_ne hne]; exact ho) Env.upd_self hne (E := fun _ _ => False))
      (fun _ env' h => ?_) fun _ _ h => h.elim
    subst h
    refine ⟨?_, rfl, ?_⟩
    · intro h
      rw [Env.upd_ne (Ne.symm hne), Env.upd_self] at h
      exact movedSlot_live _ h
    · rw [Env.upd_upd, Env.upd_comm _ _ _ (Ne.symm hne), Env.upd_upd, Env.upd_comm _ _ _ hne, Env.upd_id hd]

theorem runs_capacity (hv : cfg.Valid) (hp : cfg.Physical) (hr : Reach cfg s env) {o : Nat} {v : Bytes} (ho : env o = .val v)
    {E : Exc → Env UInt8 → Prop} :
    Runs cfg (capacity o) s (fun c env' => (∃ s', capacity o s = .ok c s') ∧ v.length ≤ c ∧ env' = env) E := by
  obtain ⟨hwf, _, _⟩ := hr.inv hv hp
  obtain ⟨ob, hob, hvo, hsl⟩ := obj_of_view (hr.view_eq hv hp ho)
  have key : ∃ c, capacity o s = .ok c s ∧ v.length ≤ c := by
    unfold capacity
    rw [bind_ok (getObj_eq hob)]
    cases href : ob.ref with
    | none =>
      refine ⟨0, rfl, ?_⟩
      have := (St.viewOf_none_inv href hvo).1
      rw [this]
      exact Nat.le_refl _
    | some a =>
      obtain ⟨b, hb, hle⟩ := hwf.le hob href
      refine ⟨b.cells.length, ?_, by omega⟩
      show M.bind (getBlk a) _ s = _
      unfold M.bind getBlk
      rw [hb]
      rfl
  obtain ⟨c, hc, hle⟩ := key
  unfold Runs
  rw [hc]
  exact ⟨env, ⟨⟨s, rfl⟩, hle, rfl⟩, hr, Nat.le_refl _⟩

theorem runs_reserveS (hv : cfg.Valid) (hp : cfg.Physical) (hr : Reach cfg s env) {o n : Nat} (ho : env o = .val [])
    (hs : shared s o = false) : Runs cfg (reserveS cfg o n) s (fun _ env' => env' = env) (fun e env' => e = .badAlloc ∧ env' = env) := by
  unfold reserveS
  unfold Runs
  have hcap := runs_capacity hv hp hr ho (E := fun _ _ => False)
  obtain ⟨c, hc⟩ : ∃ c, capacity o s = .ok c s := by
    obtain ⟨ob, hob, hvo, hsl⟩ := obj_of_view (hr.view_eq hv hp ho)
    unfold capacity
    rw [bind_ok (getObj_eq hob)]
    cases href : ob.ref with
    | none => exact ⟨0, rfl⟩
    | some a =>
      obtain ⟨b, hb, -⟩ := (hr.inv hv hp).1.le hob href
      refine ⟨b.cells.length, ?_⟩
      show M.bind (getBlk a) _ s = _
      unfold M.bind getBlk
      rw [hb]
      rfl
  rw [bind_ok hc]
  split
  · exact ⟨env, rfl, hr, Nat.le_refl _⟩
  · refine runs_op hv hp hr (op := .reserve o (1024 * (((n + 1023) % two64) / 1024) % two64)) (f := fun _ => .unit) rfl
      ⟨has_val ho, hs, fun _ => Or.inl ⟨by rw [get_val ho]; exact Nat.zero_le _, by unfold two64 npos; omega⟩⟩ ?_ ?_
    · rintro _ _ (⟨-, h⟩ | ⟨h, -⟩)
      · exact h
      · cases h
    · rintro _ _ (⟨h, -⟩ | ⟨h, h2⟩)
      · cases h
      · cases h; exact ⟨rfl, h2⟩

/-- The constructor with a size: the stream is empty. -/
theorem runs_sizedS (hv : cfg.Valid) (hp : cfg.Physical) (hr : Reach cfg s env) (n : Int) :
    Runs cfg (sizedS cfg n) s (Returns env []) (fun e env' => e = .badAlloc ∧ env' = env) := by
  have hc := runs_ctor hv hp hr (E := fun _ _ => False)
  unfold Runs at hc
  obtain ⟨env1, ⟨hd, rfl⟩, hr1, -⟩ := hc
  have hs : shared { s with objs := s.objs ++ [some {}] } s.objs.length = false := by
    unfold shared St.obj
    simp
  have hb : Runs cfg (if n > 0 then reserveS cfg s.objs.length n.toNat else pure ()) { s with objs := s.objs ++ [some {}] }
      (fun _ env' => env' = env.upd s.objs.length (.val [])) (fun e env' => e = .badAlloc ∧ env' = env.upd s.objs.length (.val [])) := by
    split
    · exact runs_reserveS hv hp hr1 Env.upd_self hs
    · exact Runs.pure hr1 rfl
  unfold sizedS building Runs
  rw [bind_ok (show ctor s = .ok s.objs.length { s with objs := s.objs ++ [some {}] } from rfl)]
  refine Runs.bind (s := { s with objs := s.objs ++ [some {}] }) (Q' := fun _ env' => env' = env.upd s.objs.length (.val []))
    (Runs.onThrow hb fun e s' env' hr' ⟨h1, h2⟩ => ?_) fun _ s2 env2 hr2 h => Runs.pure hr2 ⟨hd, h⟩
  subst h2
  exact Runs.mono (runs_destroy hv hp hr' (live_val Env.upd_self)) (fun _ _ h => ⟨h1, by rw [h, Env.upd_upd, Env.upd_id hd]⟩) fun _ _ h => h

theorem runs_seek (hv : cfg.Valid) (hp : cfg.Physical) (hr : Reach cfg s env) {o p : Nat} {v : Bytes} (ho : env o = .val v)
    (off : Int) (w : Stm.Whence) {E : Exc → Nat → Env UInt8 → Prop} :
    PRuns cfg (seekS o off w) p s (fun x q env' => env' = env ∧
      ∃ c s', capacity o s = .ok c s' ∧ v.length ≤ c ∧ Stm.seek ⟨v, c, p, false⟩ off w = (x, ⟨v, c, q, false⟩)) E := by
  unfold seekS
  refine PRuns.tell (PRuns.bind (PRuns.lift (Q := fun c q env' => ((∃ s', capacity o s = .ok c s') ∧ v.length ≤ c ∧ env' = env) ∧ q = p)
    (Runs.mono (runs_capacity hv hp hr ho) (fun _ _ h => ⟨h, rfl⟩) fun _ _ h => h)) ?_)
  rintro c q s1 env1 hr1 ⟨⟨⟨s2, hc⟩, hle, he⟩, hq⟩
  obtain rfl := he.symm
  obtain rfl := hq.symm
  refine PRuns.bind (PRuns.goto (Q := fun _ q env' => env' = env ∧ q = (Stm.seek ⟨[], c, _, false⟩ off w).2.pos) hr1 ⟨rfl, rfl⟩) ?_
  rintro _ _ s3 _ hr3 ⟨rfl, rfl⟩
  exact PRuns.pure hr3 ⟨rfl, c, s2, hc, hle, rfl⟩

/-! ## Reading -/

/-- `bad_alloc` while a text is read: no object has changed; the position may have advanced. -/
def ReadFails (env : Env UInt8) (v : Bytes) (p : Nat) (e : Exc) (q : Nat) (env' : Env UInt8) : Prop :=
  e = .badAlloc ∧ env' = env ∧ p ≤ q ∧ q ≤ v.length

/-- The same inside, where the String to be returned still exists. -/
def Inner (env : Env UInt8) (v : Bytes) (p ret : Nat) (e : Exc) (q : Nat) (env' : Env UInt8) : Prop :=
  env'.Live ret ∧ ReadFails env v p e q (env'.upd ret .dead)

theorem runs_readLoop (hv : cfg.Valid) (hp : cfg.Physical) {o ret toRead p0 : Nat} {delim : UInt8} {v : Bytes} (ho : env o = .val v)
    (hd : env ret = .dead) : ∀ (fuel k p : Nat) (acc : Bytes) {s : St UInt8}, Reach cfg s (env.upd ret (.val acc)) →
    acc.length + k = toRead → p + k ≤ v.length → k < fuel → p0 ≤ p →
    PRuns cfg (readLoopS cfg o ret toRead delim fuel) p s
      (fun _ q env' => q = p + (((v.drop p).take k).takeWhile (· ≠ delim)).length ∧
        env' = env.upd ret (.val (acc ++ ((v.drop p).take k).takeWhile (· ≠ delim)))) (Inner env v p0 ret)
  | 0, _, _, _, _, _, _, _, hf, _ => absurd hf (by omega)
  | fuel + 1, k, p, acc, s, hr, hk, hle, hf, hp0 => by
    have hne : o ≠ ret := dead_ne hd (live_val ho)
    have ho' : (env.upd ret (.val acc)) o = .val v := by rw [Env.upd_ne hne]; exact ho
    unfold readLoopS
    refine PRuns.bind (PRuns.lift (Q := fun n q env' => (n = acc.length ∧ env' = env.upd ret (.val acc)) ∧ q = p)
      (Runs.mono (runs_length hv hp hr Env.upd_self) (fun _ _ h => ⟨h, rfl⟩) fun _ _ h => h)) ?_
    rintro _ q s1 env1 hr1 ⟨⟨rfl, he⟩, hq⟩
    obtain rfl := he.symm
    obtain rfl := hq.symm
    cases k with
    | zero =>
      rw [if_neg (by omega)]
      exact PRuns.pure hr1 ⟨by simp, by simp⟩
    | succ k =>
      rw [if_pos (by omega)]
      have hlt : p < v.length := by omega
      refine PRuns.tell (PRuns.bind (PRuns.lift (Q := fun c q env' => (c = some v[p] ∧ env' = env.upd ret (.val acc)) ∧ q = p)
        (Runs.mono (runs_read hv hp hr1 ho' hlt) (fun _ _ h => ⟨h, rfl⟩) fun _ _ h => h)) ?_)
      rintro _ q s2 env1 hr2 ⟨⟨rfl, he⟩, hq⟩
      obtain rfl := he.symm
      obtain rfl := hq.symm
      dsimp only
      rw [List.drop_eq_getElem_cons hlt, List.take_succ_cons]
      by_cases hc : v[p] = delim
      · rw [if_neg (by simpa using hc), List.takeWhile_cons_of_neg (by simpa using hc)]
        exact PRuns.pure hr2 ⟨by simp, by simp⟩
      · rw [if_pos hc, List.takeWhile_cons_of_pos (by simpa using hc)]
        refine PRuns.bind (PRuns.goto (Q := fun _ q env' => q = p + 1 ∧ env' = env.upd ret (.val acc)) hr2 ⟨rfl, rfl⟩) ?_
        rintro _ _ s3 _ hr3 ⟨rfl, rfl⟩
        refine PRuns.bind (PRuns.lift (Q := fun _ q env' => q = p + 1 ∧ env' = env.upd ret (.val (acc ++ [v[p]])))
          (Runs.mono (runs_append hv hp hr3 Env.upd_self (fun e env' h => h)) (fun _ _ h => ⟨rfl, by rw [h, Env.upd_upd]⟩) fun e env' h => ?_)) ?_
        · exact ⟨h.live (live_val Env.upd_self), h.1, h.gone hd, by omega, by omega⟩
        · rintro _ _ s4 _ hr4 ⟨rfl, rfl⟩
          refine PRuns.mono (runs_readLoop hv hp ho hd fuel k (p + 1) (acc ++ [v[p]]) hr4 (by simp; omega) (by omega) (by omega) (by omega)) ?_
            fun _ _ _ h => h
          rintro _ q env' ⟨rfl, rfl⟩
          refine ⟨?_, ?_⟩
          · simp only [List.length_cons]; omega
          · rw [List.append_assoc]; rfl

theorem runs_readDelim (hv : cfg.Valid) (hp : cfg.Physical) {o ret p0 : Nat} {delim : UInt8} {v : Bytes} (ho : env o = .val v)
    (hd : env ret = .dead) {p : Nat} {acc : Bytes} (hr : Reach cfg s (env.upd ret (.val acc))) (hp0 : p0 ≤ p) (hle : p ≤ v.length) :
    PRuns cfg (readDelimS cfg o ret delim) p s
      (fun _ q env' => if v[p]? = some delim then q = p + 1 ∧ env' = env.upd ret (.val (acc ++ [delim]))
        else q = p ∧ env' = env.upd ret (.val acc)) (Inner env v p0 ret) := by
  have hne : o ≠ ret := dead_ne hd (live_val ho)
  have ho' : (env.upd ret (.val acc)) o = .val v := by rw [Env.upd_ne hne]; exact ho
  unfold readDelimS
  refine PRuns.tell (PRuns.bind (PRuns.lift (Q := fun n q env' => (n = v.length ∧ env' = env.upd ret (.val acc)) ∧ q = p)
      (Runs.mono (runs_length hv hp hr ho') (fun _ _ h => ⟨h, rfl⟩) fun _ _ h => h)) ?_)
  rintro _ q s1 env1 hr1 ⟨⟨rfl, he⟩, hq⟩
  obtain rfl := he.symm
  obtain rfl := hq.symm
  by_cases hlt : p < v.length
  · rw [if_pos hlt]
    refine PRuns.bind (PRuns.lift (Q := fun c q env' => (c = some v[p] ∧ env' = env.upd ret (.val acc)) ∧ q = p)
        (Runs.mono (runs_read hv hp hr1 ho' hlt) (fun _ _ h => ⟨h, rfl⟩) fun _ _ h => h)) ?_
    rintro _ q s2 env1 hr2 ⟨⟨rfl, he⟩, hq⟩
    obtain rfl := he.symm
    obtain rfl := hq.symm
    rw [List.getElem?_eq_getElem hlt]
    by_cases hc : some v[p] = some delim
    · rw [if_pos hc]
      simp only [if_pos hc]
      refine PRuns.bind (PRuns.lift (Q := fun _ q env' => q = p ∧ env' = env.upd ret (.val (acc ++ [delim])))
          (Runs.mono (runs_append hv hp hr2 Env.upd_self (fun e env' h => h)) (fun _ _ h => ⟨rfl, by rw [h, Env.upd_upd]⟩) fun e env' h => ?_)) ?_
      · exact ⟨h.live (live_val Env.upd_self), h.1, h.gone hd, by omega, by omega⟩
      · rintro _ _ s4 _ hr4 ⟨rfl, rfl⟩
        exact PRuns.goto hr4 ⟨rfl, rfl⟩
    · rw [if_neg hc]
      simp only [if_neg hc]
      exact PRuns.pure hr2 ⟨rfl, rfl⟩
  · rw [if_neg hlt, List.getElem?_eq_none (by omega)]
    exact PRuns.pure hr1 ⟨rfl, rfl⟩

/-- `read(n, delim)` with a delimiter. -/
theorem runs_readTo (hv : cfg.Valid) (hp : cfg.Physical) (hr : Reach cfg s env) {o p : Nat} {v : Bytes} (ho : env o = .val v)
    (hpos : p ≤ v.length) (n : Nat) {delim : UInt8} (hdl : delim ≠ 0) :
    PRuns cfg (readS cfg o n delim) p s (fun m q env' => q = p + (Stm.upTo (v.drop p) n delim).length ∧
      Returns env (Stm.upTo (v.drop p) n delim) m env') (ReadFails env v p) := by
  unfold readS
  refine PRuns.tell (PRuns.bind (PRuns.lift (Q := fun n q env' => (n = v.length ∧ env' = env) ∧ q = p)
      (Runs.mono (runs_length hv hp hr ho) (fun _ _ h => ⟨h, rfl⟩) fun _ _ h => h)) ?_)
  rintro _ q s1 env1 hr1 ⟨⟨rfl, he⟩, hq⟩
  obtain rfl := he.symm
  obtain rfl := hq.symm
  dsimp only
  rw [if_neg hdl, Stm.sub64_le hpos]
  have ht : (v.drop p).take (min n (v.length - p)) = (v.drop p).take n := by
    rw [← List.take_take]
    rw [List.take_of_length_le (l := v.drop p) (by simp)]
  refine PRuns.building hv hp (v := []) (runs_sizeCtor hv hp hr1 _ ⟨rfl, rfl, Nat.le_refl _, hpos⟩) fun ret s2 hd hr2 => ?_
  refine PRuns.bind (runs_readLoop hv hp ho hd (p0 := p) _ (min n (v.length - p)) p [] hr2 (by simp) (by omega) (by omega) (Nat.le_refl _)) ?_
  rintro _ _ s3 _ hr3 ⟨rfl, rfl⟩
  rw [ht] at hr3 ⊢
  have hlen : (((v.drop p).take n).takeWhile (· ≠ delim)).length ≤ v.length - p := by
    refine Nat.le_trans (List.takeWhile_sublist _).length_le ?_
    simp
    omega
  refine PRuns.mono (runs_readDelim hv hp ho hd hr3 (p0 := p) (by omega) (by omega)) ?_ fun _ _ _ h => h
  intro _ q env' h
  unfold Stm.upTo
  dsimp only
  rw [List.getElem?_drop]
  split at h
  · obtain ⟨rfl, rfl⟩ := h
    rw [if_pos ‹_›]
    exact ⟨by simp; omega, hd, rfl⟩
  · obtain ⟨rfl, rfl⟩ := h
    rw [if_neg ‹_›]
    exact ⟨rfl, hd, rfl⟩

/-- `read(n)`. -/
theorem runs_readN (hv : cfg.Valid) (hp : cfg.Physical) (hr : Reach cfg s env) {o p : Nat} {v : Bytes} (ho : env o = .val v)
    (hpos : p ≤ v.length) (hm : v.length ≤ maxInt) (n : Nat) {E : Exc → Nat → Env UInt8 → Prop} :
    PRuns cfg (readS cfg o n 0) p s (fun m q env' => q = p + min n (v.length - p) ∧ Returns env ((v.drop p).take n) m env') E := by
  unfold readS
  refine PRuns.tell (PRuns.bind (PRuns.lift (Q := fun n q env' => (n = v.length ∧ env' = env) ∧ q = p)
      (Runs.mono (runs_length hv hp hr ho) (fun _ _ h => ⟨h, rfl⟩) fun _ _ h => h)) ?_)
  rintro _ q s1 env1 hr1 ⟨⟨rfl, he⟩, hq⟩
  obtain rfl := he.symm
  obtain rfl := hq.symm
  dsimp only
  rw [if_pos rfl, Stm.sub64_le hpos, Stm.toSsize_small (by omega), Stm.toSsize_small (by omega)]
  refine PRuns.bind (PRuns.lift (Q := fun m q env' => q = p ∧ Returns env ((v.drop p).take n) m env')
    (Runs.mono (runs_substring hv hp hr1 ho (sliceOk_nat hm (by omega))) (fun m env' h => ?_) fun _ _ h => h)) ?_
  · rw [sliceSpec_nat, ← List.take_take, List.take_of_length_le (l := v.drop p) (by simp)] at h
    exact ⟨rfl, h⟩
  · rintro m q s2 env2 hr2 ⟨hq, h⟩
    obtain rfl := hq.symm
    refine PRuns.bind (PRuns.goto (Q := fun _ q env' => q = p + min n (v.length - p) ∧ env' = env2) hr2 ⟨?_, rfl⟩) ?_
    · unfold maxInt at hm
      rw [Nat.mod_eq_of_lt (by unfold two64; omega)]
    · rintro _ _ s3 _ hr3 ⟨rfl, rfl⟩
      exact PRuns.pure hr3 ⟨rfl, h⟩

/-- `getline(n)`. -/
theorem runs_getlineMax (hv : cfg.Valid) (hp : cfg.Physical) (hr : Reach cfg s env) {o p : Nat} {v : Bytes} (ho : env o = .val v)
    (hpos : p ≤ v.length) {n : Nat} (hn : n ≠ 99999999) :
    PRuns cfg (getlineS cfg o (some n)) p s (fun m q env' => q = p + (Stm.upTo (v.drop p) n 10).length ∧
      Returns env (Stm.upTo (v.drop p) n 10) m env') (ReadFails env v p) := by
  unfold getlineS
  refine PRuns.tell (PRuns.bind (PRuns.lift (Q := fun n q env' => (n = v.length ∧ env' = env) ∧ q = p)
      (Runs.mono (runs_length hv hp hr ho) (fun _ _ h => ⟨h, rfl⟩) fun _ _ h => h)) ?_)
  rintro _ q s1 env1 hr1 ⟨⟨rfl, he⟩, hq⟩
  obtain rfl := he.symm
  obtain rfl := hq.symm
  simp only [Option.getD_some, if_neg hn]
  exact runs_readTo hv hp hr1 ho hpos n (delim := 10) (by decide)

theorem runs_getline (hv : cfg.Valid) (hp : cfg.Physical) (hr : Reach cfg s env) {o p : Nat} {v : Bytes} (ho : env o = .val v)
    (hpos : p ≤ v.length) :
    PRuns cfg (getlineS cfg o none) p s (fun m q env' => q = p + (firstLine (v.drop p)).length ∧
      Returns env (firstLine (v.drop p)) m env') (ReadFails env v p) := by
  unfold getlineS
  refine PRuns.tell (PRuns.bind (PRuns.lift (Q := fun n q env' => (n = v.length ∧ env' = env) ∧ q = p)
      (Runs.mono (runs_length hv hp hr ho) (fun _ _ h => ⟨h, rfl⟩) fun _ _ h => h)) ?_)
  rintro _ q s1 env1 hr1 ⟨⟨rfl, he⟩, hq⟩
  obtain rfl := he.symm
  obtain rfl := hq.symm
  have := runs_readTo hv hp hr1 ho hpos (v.length - p) (delim := 10) (by decide)
  rw [Stm.until_all _ (by simp)] at this
  simp only [Option.getD_none, if_true, Stm.sub64_le hpos]
  exact this

/-! ## Copies -/

theorem runs_assignS (hv : cfg.Valid) (hp : cfg.Physical) (hr : Reach cfg s env) {o r p q : Nat} {v w : Bytes} (ho : env o = .val v)
    (hw : env r = .val w) {E : Exc → Nat → Env UInt8 → Prop} :
    PRuns cfg (assignS cfg o r q) p s (fun _ q' env' => q' = q ∧ env' = env.upd o (.val w)) E := by
  unfold assignS
  refine PRuns.bind (Q' := fun _ _ env' => env' = env.upd o (.val w)) (PRuns.lift (runs_withLocal (v := w) (env := env) hv hp
    (runs_copyCtor hv hp hr hw) fun t s1 hd hr1 => ?_)) ?_
  · have hne : o ≠ t := dead_ne hd (live_val ho)
    refine Runs.mono (runs_op hv hp hr1 (op := .swap o t) (Q := fun _ env' => env' = (((env.upd t (.val w)).upd o (.val w)).upd t (.val v)))
      (E := fun _ _ => False) rfl ⟨by rw [Env.Live, Env.upd_ne hne]; exact live_val ho, live_val Env.upd_self⟩ ?_ ?_) ?_ fun _ _ h => h.elim
    · intro _ env' h
      have := h.2
      rw [Env.upd_self, Env.upd_ne hne, ho] at this
      exact this
    · intro e env' h
      cases h.1
    · rintro _ env' rfl
      exact ⟨live_val Env.upd_self, by rw [Env.upd_upd, Env.upd_comm _ _ _ hne.symm, Env.upd_upd, Env.upd_comm _ _ _ hne, Env.upd_id hd]⟩
  · rintro _ _ s1 _ hr1 rfl
    exact PRuns.goto hr1 ⟨rfl, rfl⟩

/-! ## Programs -/

/-- The Strings and streams of a program in state `s` hold `env` and stand at `pos`. -/
structure Streams (cfg : Cfg UInt8) (s : St UInt8) (env : Env UInt8) (pos : Positions) : Prop where
  reach : Reach cfg s env
  inside : ∀ o p, pos o = some p → ∃ v, env o = .val v ∧ p ≤ v.length ∧ v.length ≤ maxInt

/-- How a call ended: not undefined; what it returned, or `bad_alloc` because a request was refused. -/
def Ends (cfg : Cfg UInt8) (s : St UInt8) (r : Res UInt8 (Out UInt8) × Positions) (Q : Out UInt8 → St UInt8 → Positions → Prop)
    (E : St UInt8 → Positions → Prop) : Prop :=
  match r with
  | (.ok out s', pos') => Q out s' pos'
  | (.throw e s', pos') => e = .badAlloc ∧ Refused cfg.allocOk s s' ∧ E s' pos'
  | (.ub, _) => False

variable {pos : Positions}

theorem Positions.set_self {o : Nat} {p : Option Nat} : pos.set o p o = p := if_pos rfl

theorem Positions.set_ne {o k : Nat} {p : Option Nat} (h : k ≠ o) : pos.set o p k = pos k := if_neg h

theorem Positions.set_id {o : Nat} {p : Option Nat} (h : pos o = p) : pos.set o p = pos := by
  funext i
  unfold Positions.set
  split
  · subst_vars; rfl
  · rfl

theorem Streams.not_dead (h : Streams cfg s env pos) {o n : Nat} {p : Nat} (ho : pos o = some p) (hn : env n = .dead) : o ≠ n := by
  obtain ⟨v, hv, -, -⟩ := h.inside o p ho
  exact dead_ne hn (live_val hv)

/-- A stream was changed or made. -/
theorem Streams.next (h : Streams cfg s env pos) {s' : St UInt8} {env' : Env UInt8} {o : Nat} {q : Nat} (hr : Reach cfg s' env')
    (hk : ∀ k p, k ≠ o → pos k = some p → env' k = env k) (ho : ∃ v, env' o = .val v ∧ q ≤ v.length ∧ v.length ≤ maxInt) :
    Streams cfg s' env' (pos.set o (some q)) := by
  refine ⟨hr, fun k p hp => ?_⟩
  by_cases e : k = o
  · subst e
    rw [Positions.set_self] at hp
    cases hp
    exact ho
  · rw [Positions.set_ne e] at hp
    obtain ⟨v, h1, h2⟩ := h.inside k p hp
    exact ⟨v, by rw [hk k p e hp]; exact h1, h2⟩

/-- Streams may be forgotten. -/
theorem Streams.forget (h : Streams cfg s env pos) {s' : St UInt8} {env' : Env UInt8} {o : Nat} (hr : Reach cfg s' env')
    (hk : ∀ k p, k ≠ o → pos k = some p → env' k = env k) : Streams cfg s' env' (pos.set o none) := by
  refine ⟨hr, fun k p hp => ?_⟩
  by_cases e : k = o
  · subst e
    rw [Positions.set_self] at hp
    cases hp
  · rw [Positions.set_ne e] at hp
    obtain ⟨v, h1, h2⟩ := h.inside k p hp
    exact ⟨v, by rw [hk k p e hp]; exact h1, h2⟩

theorem ends_on {o p : Nat} {m : PM α} {f : α → Out UInt8} {Q : α → Nat → Env UInt8 → Prop} {E : Exc → Nat → Env UInt8 → Prop}
    {Q' : Out UInt8 → St UInt8 → Positions → Prop} {E' : St UInt8 → Positions → Prop} (ho : pos o = some p)
    (h : PRuns cfg m p s Q E) (hq : ∀ a q s' env', Q a q env' → Reach cfg s' env' → Q' (f a) s' (pos.set o (some q)))
    (he : ∀ e q s' env', E e q env' → Reach cfg s' env' → e = .badAlloc ∧ E' s' (pos.set o (some q))) :
    Ends cfg s (onStream pos o m f s) Q' E' := by
  unfold PRuns Runs at h
  unfold onStream Ends
  rw [ho]
  dsimp only [Option.getD_some] at h ⊢
  cases hm : m p s with
  | mk r q =>
    rw [hm] at h
    cases r with
    | ub => exact h.elim
    | ok a s' =>
      obtain ⟨env', h1, h2, -⟩ := h
      exact hq a q s' env' h1 h2
    | throw e s' =>
      obtain ⟨env', h1, h2, -, h3⟩ := h
      obtain ⟨rfl, h4⟩ := he e q s' env' h1 h2
      exact ⟨rfl, h3 rfl, h4⟩

theorem ends_made {m : SM Nat} {base : Env UInt8} {x : Slot UInt8} {p : Option Nat} {Q' : Out UInt8 → St UInt8 → Positions → Prop}
    {E' : St UInt8 → Positions → Prop} (h : Runs cfg m s (fun n env' => env n = .dead ∧ env' = base.upd n x) fun e env' => e = .badAlloc ∧ env' = env)
    (hq : ∀ n s', env n = .dead → Reach cfg s' (base.upd n x) → Q' (.obj n) s' (pos.set n p))
    (he : ∀ s', Reach cfg s' env → E' s' pos) : Ends cfg s (newStream pos p m s) Q' E' := by
  unfold Runs at h
  unfold newStream Ends
  cases hm : m s with
  | ub => rw [hm] at h; exact h
  | ok n s' =>
    rw [hm] at h
    obtain ⟨_, ⟨h1, rfl⟩, h2, -⟩ := h
    exact hq n s' h1 h2
  | throw e s' =>
    rw [hm] at h
    obtain ⟨_, ⟨rfl, rfl⟩, h2, -, h3⟩ := h
    exact ⟨rfl, h3 rfl, he s' h2⟩

theorem ends_moved {m : SM Nat} {base : Env UInt8} {x : Slot UInt8} {p : Option Nat} {Q' : Out UInt8 → St UInt8 → Positions → Prop}
    {E' : St UInt8 → Positions → Prop} (h : Runs cfg m s (fun n env' => env n = .dead ∧ env' = base.upd n x) fun _ _ => False)
    (hq : ∀ n s', env n = .dead → Reach cfg s' (base.upd n x) → Q' (.obj n) s' (pos.set n p)) :
    Ends cfg s (newStream pos p m s) Q' E' := by
  unfold Runs at h
  unfold newStream Ends
  cases hm : m s with
  | ub => rw [hm] at h; exact h
  | ok n s' =>
    rw [hm] at h
    obtain ⟨_, ⟨h1, rfl⟩, h2, -⟩ := h
    exact hq n s' h1 h2
  | throw e s' =>
    rw [hm] at h
    obtain ⟨_, h, -⟩ := h
    exact h.elim

theorem ends_new {m : SM Nat} {x : Slot UInt8} {p : Option Nat} {Q' : Out UInt8 → St UInt8 → Positions → Prop} {E' : St UInt8 → Positions → Prop}
    (h : Runs cfg m s (fun n env' => env n = .dead ∧ env' = env.upd n x) fun _ _ => False)
    (hq : ∀ n s', env n = .dead → Reach cfg s' (env.upd n x) → Q' (.obj n) s' (pos.set n p)) :
    Ends cfg s (newStream pos p m s) Q' E' := ends_moved h hq

theorem length_replaceAt {v x : Bytes} {p : Nat} (h : p ≤ v.length) : (replaceAt v p x).length = max v.length (p + x.length) := by
  unfold replaceAt
  simp
  omega

/-- The new contents of a stream whose text did not change. -/
theorem tape_same {o p : Nat} {v : Bytes} (hv : env o = .val v) (hp : pos o = some p) : tapeOf env pos o = ⟨v, p⟩ := by
  unfold tapeOf
  rw [get_val hv, hp]
  rfl

/-- C73, one call: every allowed call on the streams of a program ends as the specification says: it returns what the stream as a tape
says and changes that stream only.  Only `puts`, reading up to a delimiter and the constructor with a size may fail. -/
theorem c73_call (hv : cfg.Valid) (hp : cfg.Physical) (h : Streams cfg s env pos) {c : StreamCall} (hm : May env pos c) :
    Ends cfg s (execStream cfg pos c s) (fun out s' pos' => ∃ env', Does cfg env pos c out env' pos' ∧ Streams cfg s' env' pos')
      (fun s' pos' => ∃ env', Fails env pos c env' pos' ∧ Reach cfg s' env') := by
  have look : ∀ {o : Nat}, (pos o).isSome → ∃ p v, pos o = some p ∧ env o = .val v ∧ p ≤ v.length ∧ v.length ≤ maxInt := by
    intro o ho
    obtain ⟨p, hp⟩ := Option.isSome_iff_exists.mp ho
    obtain ⟨v, h1⟩ := h.inside o p hp
    exact ⟨p, v, hp, h1⟩
  have bytes : ∀ {o p q n : Nat} {v x : Bytes} {s' : St UInt8} {env' : Env UInt8}, pos o = some p → env o = .val v → q ≤ v.length → v.length ≤ maxInt →
      Returns env x n env' → Reach cfg s' env' → Streams cfg s' env' (pos.set o (some q)) := by
    intro o p q n v x s' env' hpo hvo hq hmx hret hr
    obtain ⟨hd, rfl⟩ := hret
    refine h.next hr (fun k p' _ hk => by rw [Env.upd_ne (h.not_dead hk hd)]) ⟨v, ?_, hq, hmx⟩
    rw [Env.upd_ne (h.not_dead hpo hd)]
    exact hvo
  -- reading up to a delimiter
  have piece : ∀ {o p : Nat} {v : Bytes}, pos o = some p → env o = .val v → p ≤ v.length → v.length ≤ maxInt → ∀ (n : Nat) {d : UInt8} (m : PM Nat),
      PRuns cfg m p s (fun m q env' => q = p + (Stm.upTo (v.drop p) n d).length ∧ Returns env (Stm.upTo (v.drop p) n d) m env') (ReadFails env v p) →
      Ends cfg s (onStream pos o m .obj s)
        (fun out s' pos' => ∃ env', OnTape env pos o (.readTo n d) out env' pos' ∧ Streams cfg s' env' pos')
        (fun s' pos' => ∃ env', (env' = env ∧ ∃ q, (pos o).getD 0 ≤ q ∧ q ≤ (env.get o).length ∧ pos' = pos.set o (some q)) ∧ Reach cfg s' env') := by
    intro o p v hpo hvo hle hmx n d m hx
    have hfl := Stm.firstPiece_le d n (v.drop p)
    rw [List.length_drop] at hfl
    rw [Stm.until_piece] at hx
    refine ends_on hpo hx ?_ ?_
    · rintro m q s' env' ⟨rfl, hret⟩ hr
      refine ⟨env', ?_, bytes hpo hvo (by omega) hmx hret hr⟩
      unfold OnTape
      rw [tape_same hvo hpo]
      exact ⟨rfl, m, rfl, hret.1, by show env' = (env.upd o (.val v)).upd m _; rw [Env.upd_id hvo]; exact hret.2⟩
    · rintro e q s' _ ⟨rfl, rfl, h5, h6⟩ hr
      exact ⟨rfl, _, ⟨rfl, q, by rw [hpo]; exact h5, by rw [get_val hvo]; exact h6, rfl⟩, hr⟩
  have line : ∀ {o p : Nat} {v : Bytes}, pos o = some p → env o = .val v → p ≤ v.length → v.length ≤ maxInt →
      Ends cfg s (onStream pos o (getlineS cfg o none) .obj s)
        (fun out s' pos' => ∃ env', OnTape env pos o .getline out env' pos' ∧ Streams cfg s' env' pos')
        (fun s' pos' => ∃ env', (env' = env ∧ ∃ q, (pos o).getD 0 ≤ q ∧ q ≤ (env.get o).length ∧ pos' = pos.set o (some q)) ∧ Reach cfg s' env') := by
    intro o p v hpo hvo hle hmx
    have hfl := Stm.firstLine_le (v.drop p)
    rw [List.length_drop] at hfl
    refine ends_on hpo (runs_getline hv hp h.reach hvo hle) ?_ ?_
    · rintro m q s' env' ⟨rfl, hret⟩ hr
      refine ⟨env', ?_, bytes hpo hvo (by omega) hmx hret hr⟩
      unfold OnTape
      rw [tape_same hvo hpo]
      exact ⟨rfl, m, rfl, hret.1, by show env' = (env.upd o (.val v)).upd m _; rw [Env.upd_id hvo]; exact hret.2⟩
    · rintro e q s' _ ⟨rfl, rfl, h5, h6⟩ hr
      exact ⟨rfl, _, ⟨rfl, q, by rw [hpo]; exact h5, by rw [get_val hvo]; exact h6, rfl⟩, hr⟩
  cases c with
  | make r =>
    obtain ⟨h1, ⟨v, h2⟩, h3⟩ := hm
    refine ends_new (x := .val v) (runs_copyCtor hv hp h.reach h2) fun n s' hd hr => ?_
    refine ⟨_, ⟨n, rfl, hd, rfl, rfl⟩, ?_⟩
    rw [h2]
    rw [get_val h2] at h3
    exact h.next hr (fun k p' _ hk => by rw [Env.upd_ne (h.not_dead hk hd)]) ⟨v, Env.upd_self, Nat.zero_le _, h3⟩
  | makeMove r =>
    obtain ⟨h1, ⟨v, h2⟩, h3⟩ := hm
    refine ends_moved (x := .val v) (runs_moveCtor hv hp h.reach h2) fun n s' hd hr => ?_
    refine ⟨_, ⟨n, rfl, hd, rfl, rfl⟩, ?_⟩
    rw [h2]
    rw [get_val h2] at h3
    refine h.next hr (fun k p' _ hk => ?_) ⟨v, Env.upd_self, Nat.zero_le _, h3⟩
    rw [Env.upd_ne (h.not_dead hk hd), Env.upd_ne]
    intro e
    rw [e, h1] at hk
    cases hk
  | makeSize n =>
    refine ends_made (x := .val []) (runs_sizedS hv hp h.reach n) (fun n s' hd hr => ?_) fun s' hr => ⟨_, ⟨rfl, rfl⟩, hr⟩
    exact ⟨_, ⟨n, rfl, hd, rfl, rfl⟩,
      h.next hr (fun k p' _ hk => by rw [Env.upd_ne (h.not_dead hk hd)]) ⟨[], Env.upd_self, Nat.zero_le _, Nat.zero_le _⟩⟩
  | move o =>
    obtain ⟨p, v, hpo, hvo, hle, hmx⟩ := look hm
    refine ends_moved (x := .val v) (runs_moveCtor hv hp h.reach hvo) fun n s' hd hr => ?_
    refine ⟨_, ⟨n, rfl, hd, rfl, rfl⟩, ?_⟩
    rw [hvo, hpo]
    refine ⟨hr, fun k p' hk => ?_⟩
    by_cases e : k = n
    · subst e
      rw [Positions.set_self] at hk
      cases hk
      exact ⟨v, Env.upd_self, hle, hmx⟩
    · rw [Positions.set_ne e] at hk
      by_cases e' : k = o
      · subst e'
        rw [Positions.set_self] at hk
        cases hk
      · rw [Positions.set_ne e'] at hk
        rw [Env.upd_ne e, Env.upd_ne e']
        exact h.inside k p' hk
  | copy o =>
    obtain ⟨p, v, hpo, hvo, hle, hmx⟩ := look hm
    refine ends_new (x := .val v) (runs_copyCtor hv hp h.reach hvo) fun n s' hd hr => ?_
    refine ⟨_, ⟨n, rfl, hd, rfl, rfl⟩, ?_⟩
    rw [hvo, hpo]
    exact h.next hr (fun k p' _ hk => by rw [Env.upd_ne (h.not_dead hk hd)]) ⟨v, Env.upd_self, hle, hmx⟩
  | text o =>
    obtain ⟨p, v, hpo, hvo, hle, hmx⟩ := look hm
    refine ends_new (x := .val v) (runs_copyCtor hv hp h.reach hvo) fun n s' hd hr => ?_
    have hn : pos n = none := by
      cases hc : pos n with
      | none => rfl
      | some p' => exact absurd rfl (h.not_dead hc hd)
    refine ⟨_, ⟨n, rfl, hd, rfl, Positions.set_id hn⟩, ?_⟩
    rw [hvo]
    exact h.forget hr (fun k p' _ hk => by rw [Env.upd_ne (h.not_dead hk hd)])
  | assign o r =>
    obtain ⟨p, v, hpo, hvo, hle, hmx⟩ := look hm.1
    obtain ⟨p', w, hpr, hvr, hle', hmx'⟩ := look hm.2
    refine ends_on hpo (runs_assignS hv hp h.reach hvo hvr (E := fun _ _ _ => False)) ?_ fun _ _ _ _ h => h.elim
    rintro _ q s' _ ⟨rfl, rfl⟩ hr
    refine ⟨_, ⟨rfl, rfl, ?_⟩, ?_⟩
    · rw [hpr]; rfl
    · rw [hvr, hpr]
      exact h.next hr (fun k _ hne _ => by rw [Env.upd_ne hne]) ⟨w, Env.upd_self, hle', hmx'⟩
  | drop o =>
    obtain ⟨p, v, hpo, hvo, hle, hmx⟩ := look hm
    have := runs_destroy hv hp h.reach (live_val hvo) (E := fun _ _ => False)
    unfold Runs at this
    unfold Ends execStream
    dsimp only
    cases hx : destroy cfg o s with
    | ub => rw [hx] at this; exact this
    | throw e s' => rw [hx] at this; obtain ⟨_, h, _⟩ := this; exact h.elim
    | ok _ s' =>
      rw [hx] at this
      obtain ⟨_, rfl, hr, -⟩ := this
      exact ⟨_, ⟨rfl, rfl, rfl⟩, h.forget hr (fun k p' hne hk => by rw [Env.upd_ne hne])⟩
  | puts o r =>
    obtain ⟨h1, h2, ⟨x, h3⟩, h4⟩ := hm
    obtain ⟨p, v, hpo, hvo, hle, hmx⟩ := look h1
    rw [hpo, get_val h3] at h4
    simp only [Option.getD_some] at h4
    refine ends_on hpo (runs_puts hv hp h.reach hvo h3 ?_ hle) ?_ ?_
    · intro e
      rw [e, hpo] at h2
      cases h2
    · rintro _ q s' _ ⟨rfl, rfl⟩ hr
      refine ⟨_, ?_, h.next hr (fun k _ hne _ => by rw [Env.upd_ne hne]) ⟨_, Env.upd_self, ?_, ?_⟩⟩
      · simp only [Does]
        unfold OnTape
        rw [tape_same hvo hpo, get_val h3]
        exact ⟨rfl, rfl, rfl⟩
      · rw [length_replaceAt hle]; omega
      · rw [length_replaceAt hle]
        unfold maxInt at *
        omega
    · rintro e q s' env' ⟨hf, rfl⟩ hr
      exact ⟨hf.1, env', ⟨hf.2, Positions.set_id hpo⟩, hr⟩
  | putsMove o r =>
    obtain ⟨h1, h2, ⟨x, h3⟩, h4⟩ := hm
    obtain ⟨p, v, hpo, hvo, hle, hmx⟩ := look h1
    rw [hpo, get_val h3] at h4
    simp only [Option.getD_some] at h4
    have hne : r ≠ o := by
      intro e
      rw [e, hpo] at h2
      cases h2
    refine ends_on hpo (runs_putsMove hv hp h.reach hvo h3 hne hle) ?_ ?_
    · rintro _ q s' _ ⟨rfl, rfl⟩ hr
      refine ⟨_, ?_, h.next hr (fun k _ hk hs => ?_) ⟨_, Env.upd_self, ?_, ?_⟩⟩
      · simp only [Does]
        unfold OnTape
        rw [get_val h3, get_val hvo, h3, hpo]
        rw [tape_same (by rw [Env.upd_ne (Ne.symm hne)]; exact hvo) hpo]
        exact ⟨rfl, rfl, rfl⟩
      · rw [Env.upd_ne hk, Env.upd_ne]
        intro e
        rw [e, h2] at hs
        cases hs
      · rw [length_replaceAt hle]; omega
      · rw [length_replaceAt hle]
        unfold maxInt at *
        omega
    · rintro e q s' env' ⟨hf, rfl⟩ hr
      exact ⟨hf.1, env', ⟨hf.2, Positions.set_id hpo⟩, hr⟩
  | read o n =>
    obtain ⟨p, v, hpo, hvo, hle, hmx⟩ := look hm
    refine ends_on hpo (runs_readN hv hp h.reach hvo hle hmx n (E := fun _ _ _ => False)) ?_ fun _ _ _ _ h => h.elim
    rintro m q s' env' ⟨rfl, hret⟩ hr
    refine ⟨env', ?_, bytes hpo hvo (by omega) hmx hret hr⟩
    simp only [Does]
    unfold OnTape
    rw [tape_same hvo hpo]
    exact ⟨rfl, m, rfl, hret.1, by show env' = (env.upd o (.val v)).upd m _; rw [Env.upd_id hvo]; exact hret.2⟩
  | getline o =>
    obtain ⟨p, v, hpo, hvo, hle, hmx⟩ := look hm
    exact line hpo hvo hle hmx
  | readTo o n d =>
    obtain ⟨p, v, hpo, hvo, hle, hmx⟩ := look hm.1
    exact piece hpo hvo hle hmx n _ (runs_readTo hv hp h.reach hvo hle n hm.2)
  | getlineMax o n =>
    obtain ⟨p, v, hpo, hvo, hle, hmx⟩ := look hm
    by_cases hn : n = 99999999
    · subst hn
      exact line hpo hvo hle hmx
    · have := piece hpo hvo hle hmx n _ (runs_getlineMax hv hp h.reach hvo hle hn)
      simp only [Does, if_neg hn]
      exact this
  | skip o k =>
    obtain ⟨p, v, hpo, hvo, hle, hmx⟩ := look hm.1
    obtain ⟨-, h1, h2⟩ := hm
    rw [get_val hvo, hpo] at h2
    simp only [Option.getD_some] at h2
    refine ends_on hpo (runs_seek hv hp h.reach hvo k .cur (E := fun _ _ _ => False)) ?_ fun _ _ _ _ h => h.elim
    rintro x q s' env' ⟨rfl, c, s2, hc, hcl, hs⟩ hr
    rw [Stm.seek_skip ⟨hle, hcl, hmx⟩ h1 h2] at hs
    simp only [Prod.mk.injEq, Stm.Stream.mk.injEq, true_and, and_true] at hs
    obtain ⟨rfl, rfl⟩ := hs
    have h3 : ((p : Int) + k).toNat ≤ v.length := by omega
    refine ⟨_, ?_, h.next hr (fun k _ _ _ => rfl) ⟨v, hvo, h3, hmx⟩⟩
    simp only [Does]
    unfold OnTape
    rw [tape_same hvo hpo]
    simp only [Tape.step, Nat.min_eq_left h3]
    exact ⟨trivial, rfl, (Env.upd_id hvo).symm⟩
  | seek o p' =>
    obtain ⟨p, v, hpo, hvo, hle, hmx⟩ := look hm.1
    have h2 := hm.2
    rw [get_val hvo] at h2
    refine ends_on hpo (runs_seek hv hp h.reach hvo p' .set (E := fun _ _ _ => False)) ?_ fun _ _ _ _ h => h.elim
    rintro x q s' env' ⟨rfl, c, s2, hc, hcl, hs⟩ hr
    rw [Stm.seek_set ⟨hle, hcl, hmx⟩ h2] at hs
    simp only [Prod.mk.injEq, Stm.Stream.mk.injEq, true_and, and_true] at hs
    obtain ⟨rfl, rfl⟩ := hs
    refine ⟨_, ?_, h.next hr (fun k _ _ _ => rfl) ⟨v, hvo, h2, hmx⟩⟩
    simp only [Does]
    unfold OnTape
    rw [tape_same hvo hpo]
    simp only [Tape.step, Nat.min_eq_left h2]
    exact ⟨trivial, rfl, (Env.upd_id hvo).symm⟩
  | truncate o =>
    obtain ⟨p, v, hpo, hvo, hle, hmx⟩ := look hm
    refine ends_on hpo (runs_truncate hv hp h.reach hvo hle hmx (E := fun _ _ _ => False)) ?_ fun _ _ _ _ h => h.elim
    rintro _ q s' _ ⟨rfl, rfl⟩ hr
    refine ⟨_, ?_, h.next hr (fun k _ hne _ => by rw [Env.upd_ne hne]) ⟨_, Env.upd_self, ?_, ?_⟩⟩
    · simp only [Does]
      unfold OnTape
      rw [tape_same hvo hpo]
      exact ⟨rfl, rfl, rfl⟩
    · rw [List.length_take]; omega
    · rw [List.length_take]; omega
  | clear o =>
    obtain ⟨p, v, hpo, hvo, hle, hmx⟩ := look hm
    refine ends_on hpo (runs_clearS hv hp h.reach hvo (E := fun _ _ _ => False)) ?_ fun _ _ _ _ h => h.elim
    rintro _ q s' _ ⟨rfl, rfl⟩ hr
    refine ⟨_, ?_, h.next hr (fun k _ hne _ => by rw [Env.upd_ne hne]) ⟨_, Env.upd_self, Nat.le_refl _, Nat.zero_le _⟩⟩
    simp only [Does]
    unfold OnTape
    rw [tape_same hvo hpo]
    exact ⟨rfl, rfl, rfl⟩
  | peek o =>
    obtain ⟨p, v, hpo, hvo, hle, hmx⟩ := look hm
    refine ends_on hpo (runs_peek hv hp h.reach hvo hle hmx (E := fun _ _ _ => False)) ?_ fun _ _ _ _ h => h.elim
    rintro m q s' env' ⟨rfl, hret⟩ hr
    refine ⟨env', ?_, bytes hpo hvo hle hmx hret hr⟩
    simp only [Does]
    unfold OnTape
    rw [tape_same hvo hpo]
    exact ⟨rfl, m, rfl, hret.1, by show env' = (env.upd o (.val v)).upd m _; rw [Env.upd_id hvo]; exact hret.2⟩
  | tell o =>
    obtain ⟨p, v, hpo, hvo, hle, hmx⟩ := look hm
    refine ends_on hpo (m := PM.tell) (Q := fun a q env' => a = p ∧ q = p ∧ env' = env) (E := fun _ _ _ => False)
      ⟨env, ⟨rfl, rfl, rfl⟩, h.reach, Nat.le_refl _⟩ ?_ fun _ _ _ _ h => h.elim
    rintro a q s' env' ⟨rfl, rfl, rfl⟩ hr
    refine ⟨_, ?_, h.next hr (fun k _ _ _ => rfl) ⟨v, hvo, hle, hmx⟩⟩
    simp only [Does]
    unfold OnTape
    rw [tape_same hvo hpo]
    exact ⟨rfl, rfl, (Env.upd_id hvo).symm⟩
  | length o =>
    obtain ⟨p, v, hpo, hvo, hle, hmx⟩ := look hm
    refine ends_on hpo (PRuns.lift (Q := fun a q env' => a = v.length ∧ q = p ∧ env' = env) (E := fun _ _ _ => False)
      (Runs.mono (runs_length hv hp h.reach hvo) (fun _ _ h => ⟨h.1, rfl, h.2⟩) fun _ _ h => h)) ?_ fun _ _ _ _ h => h.elim
    rintro a q s' env' ⟨rfl, rfl, rfl⟩ hr
    refine ⟨_, ?_, h.next hr (fun k _ _ _ => rfl) ⟨v, hvo, hle, hmx⟩⟩
    simp only [Does]
    unfold OnTape
    rw [tape_same hvo hpo]
    exact ⟨rfl, rfl, (Env.upd_id hvo).symm⟩

/-! ## Histories -/

/-- The streams still in use after a call that failed: a failed `puts` may have left a stream without contents whose position is not 0
(`c73_refuted_puts`). -/
def StreamCall.left (pos : Positions) : StreamCall → Positions
  | .puts o _ | .putsMove o _ => pos.set o none
  | _ => pos

/-- `s`, `env` and `pos` are the outcome of the code and of the specification for one history: calls on streams, and calls on Strings
(`Reach`) that are not parts of streams. -/
inductive StreamHistory (cfg : Cfg UInt8) : St UInt8 → Env UInt8 → Positions → Prop
  | start : StreamHistory cfg {} Env.empty fun _ => none
  | string {s s' env env' pos op out} : StreamHistory cfg s env pos → Pre cfg (shared s) env op → result (run cfg op s) = some (out, s') →
      Post cfg (shared s) env op out env' → Agrees s' env' → (∀ o, pos o ≠ none → env' o = env o) → StreamHistory cfg s' env' pos
  | call {s s' env env' pos pos' c out} : StreamHistory cfg s env pos → May env pos c → execStream cfg pos c s = (.ok out s', pos') →
      Does cfg env pos c out env' pos' → StreamHistory cfg s' env' pos'
  | failed {s s' env env' pos pos' c e} : StreamHistory cfg s env pos → May env pos c → execStream cfg pos c s = (.throw e s', pos') →
      Fails env pos c env' pos' → Agrees s' env' → StreamHistory cfg s' env' (StreamCall.left pos' c)

theorem onTape_det {o : Nat} {op : TapeOp} {out : Out UInt8} {e1 e2 : Env UInt8} {p1 p2 : Positions} (h1 : OnTape env pos o op out e1 p1)
    (h2 : OnTape env pos o op out e2 p2) : e1 = e2 := by
  unfold OnTape at h1 h2
  dsimp only at h1 h2
  cases hx : ((tapeOf env pos o).step op).1 with
  | unit => rw [hx] at h1 h2; rw [h1.2.2, h2.2.2]
  | num n => rw [hx] at h1 h2; rw [h1.2.2, h2.2.2]
  | bytes x =>
    rw [hx] at h1 h2
    obtain ⟨-, n, rfl, -, rfl⟩ := h1
    obtain ⟨-, m, h, -, rfl⟩ := h2
    cases h
    rfl

theorem does_det {c : StreamCall} {out : Out UInt8} {e1 e2 : Env UInt8} {p1 p2 : Positions} (h1 : Does cfg env pos c out e1 p1)
    (h2 : Does cfg env pos c out e2 p2) : e1 = e2 := by
  cases c <;> simp only [Does] at h1 h2
  case make | makeMove | makeSize | copy | move | text =>
    obtain ⟨n, rfl, -, rfl, -⟩ := h1
    obtain ⟨m, h, -, rfl, -⟩ := h2
    cases h
    rfl
  case assign | drop => rw [h1.2.1, h2.2.1]
  all_goals exact onTape_det h1 h2

theorem agrees_eq {s : St UInt8} {o : Nat} {v w : Bytes} {e1 e2 : Env UInt8} (h1 : Agrees s e1) (h2 : Agrees s e2) (hv : e1 o = .val v)
    (hw : e2 o = .val w) : v = w := by
  have a := h1 o
  have b := h2 o
  rw [hv] at a
  rw [hw] at b
  exact shows_unique a b

theorem fails_keep {c : StreamCall} {e1 : Env UInt8} {p1 : Positions} (h : Streams cfg s env pos) (hm : May env pos c) (hf : Fails env pos c e1 p1)
    {s' : St UInt8} (hr : Reach cfg s' e1) : Streams cfg s' e1 (StreamCall.left p1 c) := by
  cases c with
  | puts o r =>
    obtain ⟨hf, rfl⟩ := hf
    refine h.forget hr fun k _ hne _ => ?_
    rcases hf with rfl | rfl
    · rfl
    · rw [Env.upd_ne hne]
  | putsMove o r =>
    obtain ⟨hf, rfl⟩ := hf
    refine h.forget hr fun k _ hne _ => ?_
    rcases hf with rfl | rfl
    · rfl
    · rw [Env.upd_ne hne]
  | makeSize n =>
    obtain ⟨rfl, rfl⟩ := hf
    exact ⟨hr, h.inside⟩
  | readTo o n d =>
    obtain ⟨rfl, q, h1, h2, rfl⟩ := hf
    obtain ⟨p, hp⟩ := Option.isSome_iff_exists.mp hm.1
    obtain ⟨v, h3, h4, h5⟩ := h.inside o p hp
    rw [get_val h3] at h2
    exact h.next hr (fun _ _ _ _ => rfl) ⟨v, h3, h2, h5⟩
  | getline o | getlineMax o n =>
    obtain ⟨rfl, q, h1, h2, rfl⟩ := hf
    obtain ⟨p, hp⟩ := Option.isSome_iff_exists.mp hm
    obtain ⟨v, h3, h4, h5⟩ := h.inside o p hp
    rw [get_val h3] at h2
    exact h.next hr (fun _ _ _ _ => rfl) ⟨v, h3, h2, h5⟩
  | _ => exact hf.elim

/-- C73: in every history, the streams and Strings of the program are what the specification says, and can be observed to be. -/
theorem c73_history (hv : cfg.Valid) (hp : cfg.Physical) (h : StreamHistory cfg s env pos) : Streams cfg s env pos ∧ Agrees s env := by
  have key : Streams cfg s env pos := by
    induction h with
    | start => exact ⟨.init, fun _ _ h => nomatch h⟩
    | string _ hpre hres hpost hag hk ih =>
      refine ⟨.step ih.reach hpre hres hpost hag, fun o p hp => ?_⟩
      rw [hk o (by rw [hp]; nofun)]
      exact ih.inside o p hp
    | call _ hm hx hd ih =>
      have := c73_call hv hp ih hm
      rw [hx] at this
      obtain ⟨env1, h1, h2⟩ := this
      rw [does_det hd h1]
      exact h2
    | @failed s s' env env' pos pos' c e _ hm hx hf hag ih =>
      have := c73_call hv hp ih hm
      rw [hx] at this
      obtain ⟨-, -, env1, h1, h2⟩ := this
      have h3 := h2.agrees hv hp
      have he : env' = env1 := by
        cases c with
        | puts o r | putsMove o r =>
          obtain ⟨p, hpo⟩ := Option.isSome_iff_exists.mp hm.1
          obtain ⟨v, hvo, -, -⟩ := ih.inside o p hpo
          rcases hf.1 with rfl | rfl <;> rcases h1.1 with rfl | rfl
          · rfl
          · rw [← agrees_eq hag h3 hvo Env.upd_self, Env.upd_id hvo]
          · rw [← agrees_eq h3 hag hvo Env.upd_self, Env.upd_id hvo]
          · rfl
        | getline _ | getlineMax _ _ | readTo _ _ _ | makeSize _ => rw [hf.1, h1.1]
        | _ => exact hf.elim
      subst he
      exact fails_keep ih hm hf h2
  exact ⟨key, key.reach.agrees hv hp⟩

/-- C73, copies: a copy of a stream has the same contents and position, and afterwards a call on one of the two (here `puts`) does not
show in the other, nor in the String the stream was made of. -/
theorem c73_copies (hv : cfg.Valid) (hp : cfg.Physical) (h : Streams cfg s env pos) {o n r : Nat} {s1 s2 : St UInt8} {pos1 pos2 : Positions} {out : Out UInt8}
    (hm : May env pos (.copy o)) (hc : execStream cfg pos (.copy o) s = (.ok (.obj n) s1, pos1)) (hm' : May env pos (.puts o r))
    (hx : execStream cfg pos1 (.puts o r) s1 = (.ok out s2, pos2)) :
    Shows s2 n (env.get o) ∧ pos2 n = pos o ∧ ∀ k w, k ≠ o → env k = .val w → Shows s2 k w := by
  have h1 := c73_call hv hp h hm
  rw [hc] at h1
  obtain ⟨env1, ⟨m, h2, hd, rfl, rfl⟩, h3⟩ := h1
  cases h2
  obtain ⟨p, hpo⟩ := Option.isSome_iff_exists.mp hm
  obtain ⟨v, hvo, -, -⟩ := h.inside o p hpo
  have hon : o ≠ n := h.not_dead hpo hd
  obtain ⟨a1, a2, ⟨x, a3⟩, a4⟩ := hm'
  have hrn : r ≠ n := dead_ne hd (live_val a3)
  have hgr : (env.upd n (env o)).get r = env.get r := by unfold Env.get; rw [Env.upd_ne hrn]
  have h4 := c73_call hv hp h3 (c := .puts o r) (by
    refine ⟨?_, ?_, ⟨x, ?_⟩, ?_⟩
    · rw [Positions.set_ne hon]; exact a1
    · rw [Positions.set_ne hrn]; exact a2
    · rw [Env.upd_ne hrn]; exact a3
    · rw [Positions.set_ne hon, hgr]; exact a4)
  rw [hx] at h4
  obtain ⟨env2, h5, h6⟩ := h4
  simp only [Does] at h5
  unfold OnTape at h5
  obtain ⟨rfl, -, rfl⟩ := h5
  refine ⟨h6.reach.shows hv hp ?_, ?_, fun k w hne hw => h6.reach.shows hv hp ?_⟩
  · rw [Env.upd_ne (Ne.symm hon), Env.upd_self, get_val hvo]; exact hvo
  · rw [Positions.set_ne (Ne.symm hon), Positions.set_self]
  · rw [Env.upd_ne hne, Env.upd_ne (dead_ne hd (live_val hw))]; exact hw

/-! ## A program in which the hypotheses hold -/

/-- Run calls that all return; the texts of the Strings `os` afterwards and the positions of the streams. -/
def runStreams (cfg : Cfg UInt8) : List StreamCall → Positions → St UInt8 → List Nat → Option (List (Option Bytes) × List (Option Nat))
  | [], pos, s, os => some (os.map fun n => got (.ok n s), os.map pos)
  | c :: cs, pos, s, os =>
    match execStream cfg pos c s with
    | (.ok _ s', pos') => runStreams cfg cs pos' s' os
    | _ => none

/-- Two streams are made of the slice `b,a` of the String `a,b,a`, and one copied: handles 4, 5, 6.  All share one storage.  Then `,` is written at
position 1, 0 and 2, a line is read from the first and the second is cut. -/
example : runStreams byteCfg [.make 1, .make 1, .copy 4, .seek 4 2, .seek 6 1, .puts 4 3, .puts 5 3, .puts 6 3, .seek 4 1, .getline 4, .truncate 5]
    (fun _ => none) stW [0, 1, 4, 5, 6, 7] =
  some ([some [97, 44, 98, 44, 97], some [98, 44, 97], some [98, 44, 44], some [44], some [98, 44, 97], some [44, 44]],
    [none, none, some 3, some 1, some 2, none]) := by decide +kernel

/-- A stream of size 5 (handle 4) gets the text `a,b,a` twice and goes back 8, to `b,aa,b,a`.  One letter up to a comma is `b,`, one letter of the
line is `a`.  The stream is moved to handle 7, where `a,` is read; it goes back to the start.  A stream is made of `b,a` by moving (handle 9), and
two letters of its line read. -/
example : runStreams byteCfg [.makeSize 5, .puts 4 0, .puts 4 0, .skip 4 (-8), .readTo 4 1 44, .getlineMax 4 1, .move 4, .readTo 7 99 44, .skip 7 (-100),
    .makeMove 1, .getlineMax 9 2]
    (fun _ => none) stW [0, 5, 6, 7, 8, 9, 10] =
  some ([some [97, 44, 98, 44, 97], some [98, 44], some [97], some [97, 44, 98, 44, 97, 97, 44, 98, 44, 97], some [97, 44], some [98, 44, 97],
    some [98, 44]], [none, none, none, some 0, none, some 2, none]) := by decide +kernel

theorem streamsW : Streams byteCfg stW envW fun _ => none := ⟨reachW, fun _ _ h => nomatch h⟩

/-- The first of these calls, by the theorem. -/
example : Ends byteCfg stW (execStream byteCfg (fun _ => none) (.make 1) stW)
    (fun out s' pos' => ∃ env', Does byteCfg envW (fun _ => none) (.make 1) out env' pos' ∧ Streams byteCfg s' env' pos')
    (fun s' pos' => ∃ env', Fails envW (fun _ => none) (.make 1) env' pos' ∧ Reach byteCfg s' env') :=
  c73_call byteCfg_valid byteCfg_physical streamsW ⟨rfl, ⟨_, rfl⟩, by decide⟩

/-! ## What does not hold -/

/-- `reserve`, which is const, is not covered: a stream is made of the slice `b,a` of the String `a,b,a`, and `reserve(1024)` changes the
String. -/
theorem c73_refuted_reserve : Streams byteCfg stW envW (fun _ => none) ∧ Shows stW 0 [97, 44, 98, 44, 97] ∧ ∃ s1 pos1 s2 v,
    execStream byteCfg (fun _ => none) (.make 1) stW = (.ok (.obj 4) s1, pos1) ∧ reserveS byteCfg 4 1024 s1 = .ok () s2 ∧
    got (.ok 0 s2) = some v ∧ v ≠ [97, 44, 98, 44, 97] := by
  refine ⟨streamsW, reachW.shows byteCfg_valid byteCfg_physical rfl, ?_⟩
  have h : (match execStream byteCfg (fun _ => none) (.make 1) stW with
    | (.ok (.obj 4) s1, _) => match reserveS byteCfg 4 1024 s1 with
      | .ok () s2 => got (.ok 0 s2)
      | _ => none
    | _ => none) = some [98, 44, 97, 170, 170] := by decide +kernel
  generalize execStream byteCfg (fun _ => none) (.make 1) stW = r at *
  split at h
  · rename_i s1 pos1
    cases hx : reserveS byteCfg 4 1024 s1 with
    | ok u s2 => rw [hx] at h; exact ⟨s1, pos1, s2, _, rfl, hx, h, by decide⟩
    | throw e s2 => rw [hx] at h; cases h
    | ub => rw [hx] at h; cases h
  · cases h

/-- The state: String 0 is `abc`, stream 1 is made of it, String 2 is a copy; no memory is left. -/
def stFull : St UInt8 := (exec tightByte {} [.cstrCtor [97, 98, 99], .copyCtor 0, .copyCtor 0]).getD {}
def envFull : Env UInt8 := (envLast.upd 1 (.val [97, 98, 99])).upd 2 (.val [97, 98, 99])
def posFull : Positions := fun o => if o = 1 then some 2 else none

theorem streamsFull : Streams tightByte stFull envFull posFull := by
  have hv : tightByte.Valid := byteCfg_valid
  have h1 := Reach.next hv tightByte_physical reachLast (op := .copyCtor 0) (x := .obj 1)
    (s' := (exec tightByte {} [.cstrCtor [97, 98, 99], .copyCtor 0]).getD {}) (env' := envLast.upd 1 (.val [97, 98, 99]))
    (by intro h; cases h) rfl (fun h => h) ⟨1, rfl, rfl, rfl⟩
  have h2 := Reach.next hv tightByte_physical h1 (op := .copyCtor 0) (x := .obj 2) (s' := stFull) (env' := envFull)
    (by intro h; cases h) rfl (fun h => h) ⟨2, rfl, rfl, rfl⟩
  refine ⟨h2, fun o p hp => ?_⟩
  unfold posFull at hp
  split at hp
  · subst_vars
    cases hp
    exact ⟨[97, 98, 99], rfl, by decide, by decide⟩
  · cases hp

/-- A `puts` that failed may leave a stream that is empty while its position is 2, so that the next `puts` throws `out_of_range`. -/
theorem c73_refuted_puts : May envFull posFull (.puts 1 2) ∧ ∃ s1 pos1 s2 pos2,
    execStream tightByte posFull (.puts 1 2) stFull = (.throw .badAlloc s1, pos1) ∧ pos1 1 = some 2 ∧ got (.ok 1 s1) = some [] ∧
    execStream tightByte pos1 (.puts 1 2) s1 = (.throw .outOfRange s2, pos2) := by
  refine ⟨⟨rfl, rfl, ⟨_, rfl⟩, by decide⟩, ?_⟩
  have h : (match execStream tightByte posFull (.puts 1 2) stFull with
    | (.throw .badAlloc s1, pos1) => match execStream tightByte pos1 (.puts 1 2) s1 with
      | (.throw .outOfRange _, _) => some (pos1 1, got (.ok 1 s1))
      | _ => none
    | _ => none) = some (some 2, some []) := by decide +kernel
  generalize execStream tightByte posFull (.puts 1 2) stFull = r at *
  split at h
  · rename_i s1 pos1
    split at h
    · rename_i s2 pos2 hx
      simp only [Option.some.injEq, Prod.mk.injEq] at h
      exact ⟨s1, pos1, s2, pos2, rfl, h.1, h.2, hx⟩
    · cases h
  · cases h

/-- The String is `ab`, newline, `c`; memory for one more request. -/
def oneMore : Cfg UInt8 := { byteCfg with allocOk := fun g n => decide (n < maxCells) && decide (g ≤ 4) }
def stLine : St UInt8 := (exec oneMore {} [.cstrCtor [97, 98, 10, 99]]).getD {}

/-- `read(2, newline)` at the start of this line reads both letters and finds no memory for the newline: it throws, and the letters are
lost, because the position is 2 then. -/
theorem c73_refuted_read : ∃ s', readS oneMore 0 2 10 0 stLine = (.throw .badAlloc s', 2) := by
  have h : (match readS oneMore 0 2 10 0 stLine with
    | (.throw .badAlloc _, q) => q
    | _ => 99) = 2 := by decide +kernel
  generalize readS oneMore 0 2 10 0 stLine = r at *
  split at h
  · subst h; exact ⟨_, rfl⟩
  · cases h

end Bdlib.Rca
