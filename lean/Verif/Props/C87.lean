import Verif.Props.C73
import Verif.Props.C48
import Verif.Prog.Load

/-!
# C87: loading and saving files gives back what it borrowed
-/

namespace Bdlib.Rca
open Bdlib Bdlib.Spec Bdlib.Str

variable {cfg : Cfg UInt8} {s : St UInt8} {env : Env UInt8} {α β : Type}

/-! ## Logic -/

/-- `PRuns` with `LSt` in place of the position. -/
def LRuns (cfg : Cfg UInt8) (m : LM α) (l : LSt) (s : St UInt8) (Q : α → LSt → Env UInt8 → Prop) (E : Exc → LSt → Env UInt8 → Prop) : Prop :=
  Runs cfg (fun s => (m l s).1) s (fun a env' => Q a (m l s).2 env') (fun e env' => E e (m l s).2 env')

theorem LRuns.pure {a : α} {l : LSt} {Q : α → LSt → Env UInt8 → Prop} {E : Exc → LSt → Env UInt8 → Prop} (hr : Reach cfg s env)
    (h : Q a l env) : LRuns cfg (Pure.pure a : LM α) l s Q E := ⟨env, h, hr, Nat.le_refl _⟩

theorem LRuns.mono {m : LM α} {l : LSt} {Q Q' : α → LSt → Env UInt8 → Prop} {E E' : Exc → LSt → Env UInt8 → Prop}
    (h : LRuns cfg m l s Q' E') (hq : ∀ a q env, Q' a q env → Q a q env) (he : ∀ e q env, E' e q env → E e q env) : LRuns cfg m l s Q E :=
  Runs.mono h (fun _ _ h => hq _ _ _ h) (fun _ _ h => he _ _ _ h)

/-- The first step is over, in state `s1`. -/
theorem LRuns.step {m : LM α} {f : α → LM β} {l l1 : LSt} {a : α} {s1 : St UInt8} {Q : β → LSt → Env UInt8 → Prop}
    {E : Exc → LSt → Env UInt8 → Prop} (hm : m l s = (.ok a s1, l1)) (hg : s.gen ≤ s1.gen) (h : LRuns cfg (f a) l1 s1 Q E) :
    LRuns cfg (m >>= f) l s Q E := by
  unfold LRuns Runs at h ⊢
  have e : (m >>= f) l s = f a l1 s1 := by
    show LM.bind m f l s = _
    unfold LM.bind
    rw [hm]
  dsimp only at h ⊢
  rw [e]
  exact sat_mono h (fun _ _ ⟨env2, h4, h5, h6⟩ => ⟨env2, h4, h5, Nat.le_trans hg h6⟩)
    (fun _ _ ⟨env2, h4, h5, h6, h7⟩ => ⟨env2, h4, h5, Nat.le_trans hg h6, fun he => by
      obtain ⟨g, n, ha, hb, hc⟩ := h7 he
      exact ⟨g, n, Nat.lt_of_le_of_lt hg ha, hb, hc⟩⟩)

theorem LRuns.bind {m : LM α} {f : α → LM β} {l : LSt} {Q' : α → LSt → Env UInt8 → Prop} {Q : β → LSt → Env UInt8 → Prop}
    {E : Exc → LSt → Env UInt8 → Prop} (h : LRuns cfg m l s Q' E)
    (hf : ∀ a q s' env', Reach cfg s' env' → Q' a q env' → LRuns cfg (f a) q s' Q E) : LRuns cfg (m >>= f) l s Q E := by
  unfold LRuns Runs at h
  dsimp only at h
  cases hm : m l s with
  | mk r q =>
    rw [hm] at h
    cases r with
    | ub => exact h.elim
    | throw e t =>
      unfold LRuns Runs
      have e' : (m >>= f) l s = (.throw e t, q) := by
        show LM.bind m f l s = _
        unfold LM.bind
        rw [hm]
      dsimp only
      rw [e']
      exact h
    | ok a t =>
      obtain ⟨env1, h1, h2, h3⟩ := h
      exact LRuns.step hm h3 (hf a q t env1 h2 h1)

theorem LRuns.stream {m : PM α} {l : LSt} {Q : α → Nat → Env UInt8 → Prop} {E : Exc → Nat → Env UInt8 → Prop}
    (h : PRuns cfg m l.pos s Q E) : LRuns cfg (LM.stream m) l s (fun a l' env' => l' = { l with pos := l'.pos } ∧ Q a l'.pos env')
      (fun e l' env' => l' = { l with pos := l'.pos } ∧ E e l'.pos env') :=
  Runs.mono h (fun _ _ h => ⟨rfl, h⟩) (fun _ _ h => ⟨rfl, h⟩)

theorem PRuns.withLocal (hv : cfg.Valid) (hp : cfg.Physical) {mk : SM Nat} {body : Nat → PM β} {v : Bytes} {p : Nat}
    {Q : β → Nat → Env UInt8 → Prop} {E : Exc → Nat → Env UInt8 → Prop}
    (hmk : Runs cfg mk s (fun o env1 => env o = .dead ∧ env1 = env.upd o (.val v)) (fun e env' => E e p env'))
    (hbody : ∀ o s', env o = .dead → Reach cfg s' (env.upd o (.val v)) →
      PRuns cfg (body o) p s' (fun a q env2 => env2.Live o ∧ Q a q (env2.upd o .dead)) (fun e q env2 => env2.Live o ∧ E e q (env2.upd o .dead))) :
    PRuns cfg (PM.withLocal cfg mk body) p s Q E := by
  unfold PM.withLocal
  refine PRuns.bind (PRuns.lift (E := E) (Q := fun o q env1 => (env o = .dead ∧ env1 = env.upd o (.val v)) ∧ q = p)
    (Runs.mono hmk (fun _ _ h => ⟨h, rfl⟩) fun _ _ h => h)) fun o q s1 env1 hr1 h1 => ?_
  obtain ⟨⟨hd, rfl⟩, rfl⟩ := h1
  refine PRuns.bind (Q' := fun a q env2 => env2.Live o ∧ Q a q (env2.upd o .dead)) ?_ fun a q s2 env2 hr2 h2 => ?_
  · unfold PRuns
    refine Runs.onThrow (hbody o s1 hd hr1) fun e s' env' hr' h => ?_
    exact Runs.mono (runs_destroy hv hp hr' h.1 (E := fun _ _ => False)) (fun _ _ e => by rw [e]; exact h.2) fun _ _ h => h
  · refine PRuns.bind (PRuns.lift (Q := fun _ q' env' => q' = q ∧ env' = env2.upd o .dead)
      (Runs.mono (runs_destroy hv hp hr2 h2.1 (E := fun _ _ => False)) (fun _ _ e => ⟨rfl, e⟩) fun _ _ h => h.elim)) ?_
    rintro _ _ s3 _ hr3 ⟨rfl, rfl⟩
    exact PRuns.pure hr3 h2.2

/-! ## The steps -/

/-- After `clear` nobody shares the storage. -/
theorem clear_alone (hv : cfg.Valid) (hp : cfg.Physical) (hr : Reach cfg s env) {o : Nat} {v : Bytes} (ho : env o = .val v) :
    ∃ s1, clear o s = .ok () s1 ∧ Reach cfg s1 (env.upd o (.val [])) ∧ shared s1 o = false ∧ s.gen ≤ s1.gen := by
  have h := runs_op hv hp hr (op := .clear o) (m := clear o) (f := fun _ => .unit) (Q := fun _ env' => env' = env.upd o (.val []))
    (E := fun _ _ => False) rfl (live_val ho) (fun _ _ h => h.2) fun _ _ h => nomatch h.1
  unfold Runs at h
  cases hc : clear o s with
  | ub => rw [hc] at h; exact h.elim
  | throw e t => rw [hc] at h; obtain ⟨_, h, _⟩ := h; exact h.elim
  | ok u s1 =>
    rw [hc] at h
    obtain ⟨_, rfl, h1, h2⟩ := h
    refine ⟨s1, rfl, h1, ?_, h2⟩
    obtain ⟨ob, hob, -⟩ := obj_of_view (hr.view_eq hv hp ho)
    have h3 := clear_spec (hr.inv hv hp).1 hob
    rw [hc] at h3
    obtain ⟨-, -, -, _, -, -, h3⟩ := h3
    exact h3

/-- Text at the end of the contents. -/
theorem runs_putsText (hv : cfg.Valid) (hp : cfg.Physical) (hn : cfg.nul = some 0) (hr : Reach cfg s env) {o : Nat} {v : Bytes}
    (ho : env o = .val v) (xs : Bytes) :
    PRuns cfg (putsText cfg o xs) v.length s (fun _ q env' => q = v.length + xs.length ∧ env' = env.upd o (.val (v ++ xs)))
      (fun e q env' => e = .badAlloc ∧ q = v.length ∧ (env' = env ∨ env' = env.upd o (.val []))) := by
  unfold putsText
  refine PRuns.withLocal hv hp (v := xs) (runs_strCtor hv hp hn hr xs ⟨rfl, rfl, Or.inl rfl⟩) fun t s1 hd hr1 => ?_
  have hne : t ≠ o := fun e => (dead_ne hd (live_val ho)) e.symm
  refine PRuns.mono (runs_putsMove hv hp hr1 (o := o) (r := t) (by rw [Env.upd_ne hne.symm]; exact ho) Env.upd_self hne (Nat.le_refl _)) ?_ ?_
  · rintro _ q _ ⟨rfl, rfl⟩
    have e : replaceAt v v.length xs = v ++ xs := by
      unfold replaceAt
      rw [List.take_length, List.drop_eq_nil_of_le (by omega), List.append_nil]
    rw [e]
    refine ⟨?_, rfl, ?_⟩
    · show Env.upd _ _ _ t ≠ _
      rw [Env.upd_ne hne, Env.upd_self]
      split
      · exact movedSlot_live _
      · exact fun h => nomatch h
    · rw [Env.upd_upd, Env.upd_comm _ _ _ hne.symm, Env.upd_gone _ hd]
  · rintro e q env' ⟨⟨rfl, h⟩, rfl⟩
    rcases h with rfl | rfl
    · exact ⟨live_val Env.upd_self, rfl, rfl, Or.inl (Env.upd_gone _ hd)⟩
    · refine ⟨live_val (by rw [Env.upd_ne hne, Env.upd_self]), rfl, rfl, Or.inr ?_⟩
      rw [Env.upd_comm _ _ _ hne.symm, Env.upd_gone _ hd]

/-- The loop: `done` was loaded before. -/
theorem runs_loadLoop (hv : cfg.Valid) (hp : cfg.Physical) (hn : cfg.nul = some 0) {o : Nat} : ∀ (k : Nat) (rest done : Bytes) {s : St UInt8},
    Reach cfg s (env.upd o (.val done)) → rest.length < k → PRuns cfg (loadLoopS cfg o k rest) done.length s
      (fun _ _ env' => env' = env.upd o (.val (done ++ rest)))
      (fun e q env' => e = .badAlloc ∧ q ≤ (done ++ rest).length ∧ ∃ x, x <+: done ++ rest ∧ (x = [] ∨ q = x.length) ∧ env' = env.upd o (.val x))
  | 0, _, _, _, _, h => absurd h (by omega)
  | k + 1, rest, done, s, hr, hk => by
    unfold loadLoopS
    split
    · have : rest = [] := by
        cases rest with
        | nil => rfl
        | cons a l => simp at *
      subst this
      exact PRuns.pure hr (by rw [List.append_nil])
    · rename_i hne
      refine PRuns.bind (Q' := fun _ q env' => q = (done ++ rest.take 1024).length ∧ env' = env.upd o (.val (done ++ rest.take 1024)))
        (PRuns.mono (runs_putsText hv hp hn hr Env.upd_self (rest.take 1024)) ?_ ?_) ?_
      · rintro _ q _ ⟨rfl, rfl⟩
        exact ⟨by rw [List.length_append], by rw [Env.upd_upd]⟩
      · rintro e q env' ⟨rfl, rfl, h⟩
        refine ⟨rfl, by simp, ?_⟩
        rcases h with rfl | rfl
        · exact ⟨done, List.prefix_append _ _, Or.inr rfl, rfl⟩
        · exact ⟨[], List.nil_prefix, Or.inl rfl, by rw [Env.upd_upd]⟩
      · rintro _ _ s1 _ hr1 ⟨rfl, rfl⟩
        have h := runs_loadLoop hv hp hn k (rest.drop 1024) (done ++ rest.take 1024) hr1 (by
          have : rest.length ≠ 0 := by
            intro h
            apply hne
            simp [h]
          simp; omega)
        rw [List.append_assoc, List.take_append_drop] at h
        exact h

theorem lruns_set {b : Bool} {l : LSt} {Q : Unit → LSt → Env UInt8 → Prop} {E : Exc → LSt → Env UInt8 → Prop} (hr : Reach cfg s env)
    (h : Q () { l with loading := b } env) : LRuns cfg (LM.setLoading b) l s Q E := ⟨env, h, hr, Nat.le_refl _⟩

theorem runs_loaded (hv : cfg.Valid) (hp : cfg.Physical) (hr : Reach cfg s env) {o : Nat} {v : Bytes} (ho : env o = .val v) {l : LSt}
    {E : Exc → LSt → Env UInt8 → Prop} :
    LRuns cfg (loadedS o) l s (fun r l' env' => r = 0 ∧ l' = ⟨0, false, l.held⟩ ∧ env' = env) E := by
  unfold loadedS
  refine LRuns.bind (LRuns.mono (LRuns.stream (runs_seek hv hp hr ho 0 .set (E := fun _ _ _ => False))) (fun _ _ _ h => h) fun _ _ _ h => h.2.elim) ?_
  rintro x l1 s1 env1 hr1 ⟨h1, rfl, c, s2, -, -, h⟩
  rw [Stm.seek_zero] at h
  have h2 : l1.pos = 0 := by
    have := congrArg (fun r => r.2.pos) h
    exact this.symm
  rw [h1, h2]
  exact LRuns.step rfl (Nat.le_refl _) (LRuns.pure hr1 ⟨rfl, rfl, rfl⟩)

/-! ## Specification -/

/-- What `loadFile` can give: in the `stdio` build reading ends without an error message where the device fails. -/
def Loaded (mmap : Bool) (sys : Stm.Sys) (bytes : Bytes) : Bytes := if mmap then bytes else bytes.take (sys.readable.getD bytes.length)

/-- What has to work for it. -/
def CanLoad (mmap : Bool) (sys : Stm.Sys) (bytes : Bytes) : Prop :=
  if mmap then sys.lseekOk = true ∧ sys.mmapOk = true ∧ bytes ≠ [] else sys.dupOk = true ∧ sys.fdopenOk = true

instance (mmap : Bool) (sys : Stm.Sys) (bytes : Bytes) : Decidable (CanLoad mmap sys bytes) := by unfold CanLoad; infer_instance

/-- A load with an open descriptor returned `r`. -/
def LoadReturns (mmap : Bool) (sys : Stm.Sys) (bytes : Bytes) (env : Env UInt8) (o : Nat) (l : LSt) (r : Int) (l' : LSt) (env' : Env UInt8) : Prop :=
  if CanLoad mmap sys bytes then r = 0 ∧ env' = env.upd o (.val (Loaded mmap sys bytes)) ∧ l' = ⟨0, false, l.held⟩
  else r = 1 ∧ env' = env.upd o (.val []) ∧ l' = ⟨0, l.loading, l.held⟩

/-- It threw: the stream holds the first part of the file (perhaps nothing) and stands behind it.  What was borrowed is still held. -/
def LoadThrows (mmap : Bool) (sys : Stm.Sys) (bytes : Bytes) (env : Env UInt8) (o : Nat) (l : LSt) (l' : LSt) (env' : Env UInt8) : Prop :=
  (∃ x, x <+: Loaded mmap sys bytes ∧ env' = env.upd o (.val x) ∧ (x = [] ∨ l'.pos = x.length)) ∧ l'.pos ≤ bytes.length ∧
  if mmap then (l'.loading = l.loading ∧ l'.held = l.held) ∨ (l'.loading = true ∧ l'.held = .map :: l.held)
  else l'.loading = true ∧ l'.held = .file :: l.held

/-! ## Loading -/

theorem runs_loadFd (hv : cfg.Valid) (hp : cfg.Physical) (hn : cfg.nul = some 0) (hr : Reach cfg s env) {o : Nat} {v : Bytes}
    (ho : env o = .val v) (mmap : Bool) (sys : Stm.Sys) (bytes : Bytes) (l : LSt) :
    LRuns cfg (loadFdS cfg mmap sys bytes o) l s (LoadReturns mmap sys bytes env o l)
      (fun e l' env' => e = .badAlloc ∧ LoadThrows mmap sys bytes env o l l' env') := by
  obtain ⟨s1, hc, hr1, hs1, hg⟩ := clear_alone hv hp hr ho
  unfold loadFdS
  have h0 : LM.stream (clearS o) l s = (.ok () s1, { l with pos := 0 }) := by
    have e : clearS o l.pos s = (.ok () s1, 0) := by
      show PM.bind (PM.lift (clear o)) _ _ _ = _
      unfold PM.bind PM.lift
      rw [hc]
      rfl
    unfold LM.stream
    rw [e]
  refine LRuns.step h0 hg ?_
  have hres : ∀ (l : LSt), LRuns cfg (LM.stream (PM.lift (reserveS cfg o bytes.length))) l s1 (fun _ l' env' => l' = l ∧ env' = env.upd o (.val []))
      (fun e l' env' => e = .badAlloc ∧ l' = l ∧ env' = env.upd o (.val [])) := fun l =>
    LRuns.mono (LRuns.stream (PRuns.lift (Q := fun _ q env' => q = l.pos ∧ env' = env.upd o (.val []))
      (E := fun e q env' => e = .badAlloc ∧ q = l.pos ∧ env' = env.upd o (.val []))
      (Runs.mono (runs_reserveS hv hp hr1 Env.upd_self hs1) (fun _ _ h => ⟨rfl, h⟩) fun _ _ h => ⟨h.1, rfl, h.2⟩)))
      (fun _ l' _ h => ⟨by rw [h.1, h.2.1], h.2.2⟩) fun _ l' _ h => ⟨h.2.1, by rw [h.1, h.2.2.1], h.2.2.2⟩
  cases mmap with
  | true =>
    rw [if_pos rfl]
    split
    · rename_i hls
      refine LRuns.pure hr1 ?_
      unfold LoadReturns
      rw [if_neg (by unfold CanLoad; rw [if_pos rfl, hls]; exact fun h => nomatch h.1)]
      exact ⟨rfl, rfl, rfl⟩
    · rename_i hls
      refine LRuns.bind (LRuns.mono (hres _) (fun _ _ _ h => h) ?_) ?_
      · rintro e l' env' ⟨rfl, rfl, rfl⟩
        exact ⟨rfl, ⟨[], List.nil_prefix, rfl, Or.inl rfl⟩, Nat.zero_le _, Or.inl ⟨rfl, rfl⟩⟩
      · rintro _ _ s2 _ hr2 ⟨rfl, rfl⟩
        split
        · rename_i hm
          refine LRuns.pure hr2 ?_
          unfold LoadReturns
          rw [if_neg]
          · exact ⟨rfl, rfl, rfl⟩
          · unfold CanLoad
            rw [if_pos rfl]
            rintro ⟨-, h1, h2⟩
            rcases hm with h | h
            · rw [h1] at h; cases h
            · exact h2 (List.length_eq_zero_iff.mp h)
        · rename_i hm
          have hcan : CanLoad true sys bytes := by
            unfold CanLoad
            rw [if_pos rfl]
            refine ⟨by simpa using hls, ?_, ?_⟩
            · cases h : sys.mmapOk with
              | true => rfl
              | false => exact absurd (Or.inl h) hm
            · rintro rfl
              exact hm (Or.inr rfl)
          refine LRuns.step rfl (Nat.le_refl _) (LRuns.step rfl (Nat.le_refl _) ?_)
          refine LRuns.bind (LRuns.mono (LRuns.stream (runs_putsText hv hp hn hr2 Env.upd_self bytes)) (fun _ _ _ h => h) ?_) ?_
          · rintro e l' env' ⟨h1, rfl, h2, h3⟩
            refine ⟨rfl, ⟨[], List.nil_prefix, ?_, Or.inl rfl⟩, by rw [h2]; exact Nat.zero_le _, Or.inr ⟨by rw [h1], by rw [h1]⟩⟩
            rcases h3 with rfl | rfl
            · rfl
            · rw [Env.upd_upd]
          · rintro _ l1 s3 _ hr3 ⟨h1, h2, rfl⟩
            rw [List.nil_append, Env.upd_upd] at hr3
            refine LRuns.step rfl (Nat.le_refl _) (LRuns.mono (runs_loaded hv hp hr3 Env.upd_self (E := fun _ _ _ => False)) ?_ fun _ _ _ h => h.elim)
            rintro _ _ _ ⟨rfl, rfl, rfl⟩
            unfold LoadReturns
            rw [if_pos hcan]
            refine ⟨rfl, rfl, ?_⟩
            rw [h1]
            show LSt.mk 0 false ((Handle.map :: l.held).erase .map) = _
            rw [List.erase_cons_head]
  | false =>
    rw [if_neg (fun h => nomatch h)]
    split
    · rename_i hd
      refine LRuns.pure hr1 ?_
      unfold LoadReturns
      rw [if_neg (by unfold CanLoad; rw [if_neg (fun h => nomatch h), hd]; exact fun h => nomatch h.1)]
      exact ⟨rfl, rfl, rfl⟩
    · rename_i hd
      refine LRuns.step rfl (Nat.le_refl _) ?_
      split
      · rename_i hf
        refine LRuns.step rfl (Nat.le_refl _) (LRuns.pure hr1 ?_)
        unfold LoadReturns
        rw [if_neg (by unfold CanLoad; rw [if_neg (fun h => nomatch h), hf]; exact fun h => nomatch h.2)]
        refine ⟨rfl, rfl, ?_⟩
        show LSt.mk 0 l.loading ((Handle.fd :: l.held).erase .fd) = _
        rw [List.erase_cons_head]
      · rename_i hf
        have hcan : CanLoad false sys bytes := by
          unfold CanLoad
          rw [if_neg (fun h => nomatch h)]
          exact ⟨by simpa using hd, by simpa using hf⟩
        refine LRuns.step rfl (Nat.le_refl _) (LRuns.step rfl (Nat.le_refl _) (LRuns.step rfl (Nat.le_refl _) ?_))
        show LRuns cfg _ (LSt.mk 0 true (.file :: (Handle.fd :: l.held).erase .fd)) _ _ _
        rw [List.erase_cons_head]
        refine LRuns.bind (LRuns.mono (hres _) (fun _ _ _ h => h) ?_) ?_
        · rintro e l' env' ⟨rfl, rfl, rfl⟩
          exact ⟨rfl, ⟨[], List.nil_prefix, rfl, Or.inl rfl⟩, Nat.zero_le _, rfl, rfl⟩
        · rintro _ _ s2 _ hr2 ⟨rfl, rfl⟩
          have hl : (bytes.take (sys.readable.getD bytes.length)).length ≤ bytes.length := by simp; omega
          refine LRuns.bind (LRuns.mono (LRuns.stream (runs_loadLoop hv hp hn (env := env) (o := o) _ _ [] hr2 (Nat.lt_succ_self _))) (fun _ _ _ h => h) ?_) ?_
          · rintro e l' env' ⟨h1, rfl, h2, x, h3, h4, h5⟩
            rw [List.nil_append] at h2 h3
            exact ⟨rfl, ⟨x, h3, h5, h4⟩, by omega, by rw [h1], by rw [h1]⟩
          · rintro _ l1 s3 _ hr3 ⟨h1, rfl⟩
            refine LRuns.step rfl (Nat.le_refl _) (LRuns.mono (runs_loaded hv hp hr3 Env.upd_self (E := fun _ _ _ => False)) ?_ fun _ _ _ h => h.elim)
            rintro _ _ _ ⟨rfl, rfl, rfl⟩
            unfold LoadReturns
            rw [if_pos hcan]
            refine ⟨rfl, rfl, ?_⟩
            rw [h1]
            show LSt.mk 0 false ((Handle.file :: l.held).erase .file) = _
            rw [List.erase_cons_head]

/-- How a call ended: not undefined; returned, or threw `bad_alloc` because a request was refused. -/
def Leaves (cfg : Cfg UInt8) (s : St UInt8) (x : Res UInt8 α × LSt) (Q : α → LSt → Env UInt8 → Prop) (E : LSt → Env UInt8 → Prop) : Prop :=
  (∃ r s' l' env', x = (.ok r s', l') ∧ Reach cfg s' env' ∧ Q r l' env') ∨
  ∃ s' l' env', x = (.throw .badAlloc s', l') ∧ Refused cfg.allocOk s s' ∧ Reach cfg s' env' ∧ E l' env'

theorem LRuns.leaves {m : LM α} {l : LSt} {Q : α → LSt → Env UInt8 → Prop} {E : LSt → Env UInt8 → Prop}
    (h : LRuns cfg m l s Q fun e l' env' => e = .badAlloc ∧ E l' env') : Leaves cfg s (m l s) Q E := by
  unfold LRuns Runs at h
  unfold Leaves
  dsimp only at h
  cases hm : m l s with
  | mk r l' =>
    rw [hm] at h
    cases r with
    | ub => exact h.elim
    | ok a s' => obtain ⟨env', h1, h2, -⟩ := h; exact Or.inl ⟨_, _, _, env', rfl, h2, h1⟩
    | throw e s' => obtain ⟨env', ⟨rfl, h1⟩, h2, -, h3⟩ := h; exact Or.inr ⟨_, _, env', rfl, h3 rfl, h2, h1⟩

/-- `loadFile(fd)`: never undefined; nothing but the stream changes; when it returns it has given back what it borrowed. -/
theorem c87_load_fd_partial (hv : cfg.Valid) (hp : cfg.Physical) (hn : cfg.nul = some 0) (hr : Reach cfg s env) {o : Nat} {v : Bytes}
    (ho : env o = .val v) (mmap : Bool) (sys : Stm.Sys) (bytes : Bytes) (l : LSt) :
    Leaves cfg s (loadFdS cfg mmap sys bytes o l s) (LoadReturns mmap sys bytes env o l) (LoadThrows mmap sys bytes env o l) :=
  (runs_loadFd hv hp hn hr ho mmap sys bytes l).leaves

theorem runs_loadFile (hv : cfg.Valid) (hp : cfg.Physical) (hn : cfg.nul = some 0) (hr : Reach cfg s env) {o : Nat} {v : Bytes}
    (ho : env o = .val v) (mmap : Bool) (sys : Stm.Sys) (file : Option Bytes) (l : LSt) :
    LRuns cfg (loadFileS cfg mmap sys file o) l s
      (fun r l' env' => (∃ bytes, file = some bytes ∧ sys.openOk = true ∧ LoadReturns mmap sys bytes env o l r l' env') ∨
        ((file = none ∨ sys.openOk = false) ∧ r = 1 ∧ env' = env ∧ l' = l))
      (fun e l' env' => e = .badAlloc ∧ ∃ bytes, file = some bytes ∧ LoadThrows mmap sys bytes env o { l with held := .fd :: l.held } l' env') := by
  unfold loadFileS
  cases file with
  | none => exact LRuns.pure hr (Or.inr ⟨Or.inl rfl, rfl, rfl, rfl⟩)
  | some bytes =>
    dsimp only
    split
    · rename_i h
      exact LRuns.pure hr (Or.inr ⟨Or.inr h, rfl, rfl, rfl⟩)
    · rename_i h
      refine LRuns.step rfl (Nat.le_refl _) (LRuns.bind (LRuns.mono (runs_loadFd hv hp hn hr ho mmap sys bytes _) (fun _ _ _ h => h) ?_) ?_)
      · rintro e l' env' ⟨rfl, h⟩
        exact ⟨rfl, bytes, rfl, h⟩
      · intro r l1 s1 env1 hr1 h1
        refine LRuns.step rfl (Nat.le_refl _) (LRuns.pure hr1 (Or.inl ⟨bytes, rfl, by simpa using h, ?_⟩))
        unfold LoadReturns at h1 ⊢
        split
        · rename_i hc
          rw [if_pos hc] at h1
          obtain ⟨rfl, rfl, rfl⟩ := h1
          refine ⟨rfl, rfl, ?_⟩
          show LSt.mk 0 false ((Handle.fd :: l.held).erase .fd) = _
          rw [List.erase_cons_head]
        · rename_i hc
          rw [if_neg hc] at h1
          obtain ⟨rfl, rfl, rfl⟩ := h1
          refine ⟨rfl, rfl, ?_⟩
          show LSt.mk 0 l.loading ((Handle.fd :: l.held).erase .fd) = _
          rw [List.erase_cons_head]

/-- `loadFile(name)`: the same.  If there is no file to open, it does nothing. -/
theorem c87_load_partial (hv : cfg.Valid) (hp : cfg.Physical) (hn : cfg.nul = some 0) (hr : Reach cfg s env) {o : Nat} {v : Bytes}
    (ho : env o = .val v) (mmap : Bool) (sys : Stm.Sys) (file : Option Bytes) (l : LSt) :
    Leaves cfg s (loadFileS cfg mmap sys file o l s)
      (fun r l' env' => (∃ bytes, file = some bytes ∧ sys.openOk = true ∧ LoadReturns mmap sys bytes env o l r l' env') ∨
        ((file = none ∨ sys.openOk = false) ∧ r = 1 ∧ env' = env ∧ l' = l))
      (fun l' env' => ∃ bytes, file = some bytes ∧ LoadThrows mmap sys bytes env o { l with held := .fd :: l.held } l' env') :=
  (runs_loadFile hv hp hn hr ho mmap sys file l).leaves

/-- Whatever is returned, nothing stays borrowed. -/
theorem c87_returned (hv : cfg.Valid) (hp : cfg.Physical) (hn : cfg.nul = some 0) (hr : Reach cfg s env) {o : Nat} {v : Bytes}
    (ho : env o = .val v) {mmap : Bool} {sys : Stm.Sys} {file : Option Bytes} {l l' : LSt} {r : Int} {s' : St UInt8}
    (h : loadFileS cfg mmap sys file o l s = (.ok r s', l')) : l'.held = l.held ∧ (r = 0 ∨ r = 1) ∧ (r = 0 → l'.pos = 0 ∧ l'.loading = false) := by
  have := c87_load_partial hv hp hn hr ho mmap sys file l
  rw [h] at this
  obtain ⟨_, _, _, env', e, -, this⟩ | ⟨_, _, _, e, -⟩ := this
  case inr => cases e
  cases e
  obtain ⟨bytes, -, -, hh⟩ | ⟨-, rfl, -, rfl⟩ := this
  · unfold LoadReturns at hh
    split at hh
    · obtain ⟨rfl, -, rfl⟩ := hh
      exact ⟨rfl, Or.inl rfl, fun _ => ⟨rfl, rfl⟩⟩
    · obtain ⟨rfl, -, rfl⟩ := hh
      exact ⟨rfl, Or.inr rfl, fun h => nomatch h⟩
  · exact ⟨rfl, Or.inr rfl, fun h => nomatch h⟩

/-- Every load that throws leaves one descriptor open that nobody can close, and what the inner function had borrowed. -/
theorem c87_refuted_leak (hv : cfg.Valid) (hp : cfg.Physical) (hn : cfg.nul = some 0) (hr : Reach cfg s env) {o : Nat} {v : Bytes}
    (ho : env o = .val v) {mmap : Bool} {sys : Stm.Sys} {file : Option Bytes} {l l' : LSt} {e : Exc} {s' : St UInt8}
    (h : loadFileS cfg mmap sys file o l s = (.throw e s', l')) :
    ∃ more, l'.held = more ++ .fd :: l.held ∧ (more = [] ∨ more = [if mmap then .map else .file]) ∧ (more ≠ [] → l'.loading = true) := by
  have := c87_load_partial hv hp hn hr ho mmap sys file l
  rw [h] at this
  obtain ⟨_, _, _, _, e, -⟩ | ⟨_, _, _, e, -, -, bytes, -, -, -, hh⟩ := this
  · cases e
  cases e
  cases mmap with
  | true =>
    rw [if_pos rfl] at hh
    rcases hh with ⟨-, h2⟩ | ⟨h1, h2⟩
    · exact ⟨[], h2, Or.inl rfl, fun h => absurd rfl h⟩
    · exact ⟨[.map], h2, Or.inr rfl, fun _ => h1⟩
  | false =>
    rw [if_neg (fun h => nomatch h)] at hh
    exact ⟨[.file], hh.2, Or.inr rfl, fun _ => hh.1⟩

/-- A history of loads: never undefined, no other object ever changes, and the descriptors left open are as many as the loads that threw. -/
theorem c87_history (hv : cfg.Valid) (hp : cfg.Physical) (hn : cfg.nul = some 0) (mmap : Bool) {o : Nat} : ∀ (fs : List (Stm.Sys × Option Bytes))
    {s : St UInt8} {env : Env UInt8} {v : Bytes} (l : LSt), Reach cfg s env → env o = .val v →
    ∃ k l' s' env' x, loadsS cfg mmap o fs l s = some (k, l', s') ∧ Reach cfg s' env' ∧ env' = env.upd o (.val x) ∧
      l'.held.count .fd = l.held.count .fd + k
  | [], s, env, v, l, hr, ho => ⟨0, l, s, env, v, rfl, hr, (Env.upd_id ho).symm, rfl⟩
  | (sys, file) :: fs, s, env, v, l, hr, ho => by
    have h := c87_load_partial hv hp hn hr ho mmap sys file l
    unfold loadsS
    obtain ⟨r, s1, l1, env1, hx, hr1, h1⟩ | ⟨s1, l1, env1, hx, -, hr1, bytes, -, ⟨w, -, rfl, -⟩, -⟩ := h
    · have hheld := (c87_returned hv hp hn hr ho hx).1
      obtain ⟨w, rfl⟩ : ∃ w, env1 = env.upd o (.val w) := by
        rcases h1 with ⟨bytes, -, -, hh⟩ | ⟨-, -, rfl, -⟩
        · unfold LoadReturns at hh
          split at hh
          · exact ⟨_, hh.2.1⟩
          · exact ⟨_, hh.2.1⟩
        · exact ⟨v, (Env.upd_id ho).symm⟩
      obtain ⟨k, l', s', env', x, e1, e2, e3, e4⟩ := c87_history hv hp hn mmap fs l1 hr1 Env.upd_self
      exact ⟨k, l', s', env', x, by rw [hx]; exact e1, e2, by rw [e3, Env.upd_upd], by rw [e4, hheld]⟩
    · obtain ⟨more, hheld, hmore, -⟩ := c87_refuted_leak hv hp hn hr ho hx
      obtain ⟨k, l', s', env', x, e1, e2, e3, e4⟩ := c87_history hv hp hn mmap fs l1 hr1 Env.upd_self
      refine ⟨k + 1, l', s', env', x, by rw [hx]; dsimp only; rw [e1]; rfl, e2, by rw [e3, Env.upd_upd], ?_⟩
      have : more.count .fd = 0 := by
        rcases hmore with rfl | rfl
        · rfl
        · cases mmap <;> rfl
      rw [e4, hheld, List.count_append, List.count_cons_self, this]
      omega

/-! ## Saving -/

theorem runs_writeFile (hv : cfg.Valid) (hp : cfg.Physical) (hr : Reach cfg s env) {o : Nat} {v : Bytes} (ho : env o = .val v) (mmap : Bool)
    (sys : Stm.Sys) (file : Option Bytes) (c : Nat) (l : LSt) :
    LRuns cfg (writeFileS mmap sys file o) l s
      (fun r l' env' => r = Stm.writeFile mmap sys ⟨v, c, l.pos, l.loading⟩ file ∧ env' = env ∧
        l' = { l with held := l'.held } ∧
        (l'.held = l.held ∨ (l'.held.Perm (.map :: l.held) ∧ mmap = true ∧ sys.munmapOk = false ∧ r.1 = 1))) (fun _ _ _ => False) := by
  unfold writeFileS Stm.writeFile
  split
  · exact LRuns.pure hr ⟨rfl, rfl, rfl, Or.inl rfl⟩
  · refine LRuns.step rfl (Nat.le_refl _) ?_
    refine LRuns.bind (Q' := fun r l' env' => r = Stm.writeFd mmap sys ⟨v, c, l.pos, l.loading⟩ ⟨[], 0⟩ ∧ env' = env ∧
        l' = { l with held := l'.held } ∧
        (l'.held = .fd :: l.held ∨ (l'.held = .map :: .fd :: l.held ∧ mmap = true ∧ sys.munmapOk = false ∧ r.1 = 1))) ?_ ?_
    · unfold writeFdS
      refine LRuns.bind (LRuns.mono (LRuns.stream (PRuns.lift (Q := fun x q env' => q = l.pos ∧ x = v ∧ env' = env) (E := fun _ _ _ => False)
        (Runs.mono (runs_contents hv hp hr ho (E := fun _ _ => False)) (fun _ _ h => ⟨rfl, h⟩) fun _ _ h => h))) (fun _ _ _ h => h) fun _ _ _ h => h.2) ?_
      intro x l1 s1 env1 hr1 h
      obtain ⟨h1, h2, rfl, rfl⟩ := h
      rw [h2] at h1
      subst h1
      unfold Stm.writeFd
      cases mmap with
      | true =>
        rw [if_pos rfl, if_pos rfl]
        split
        · exact LRuns.pure hr1 ⟨rfl, rfl, rfl, Or.inl rfl⟩
        · dsimp only
          split
          · exact LRuns.pure hr1 ⟨rfl, rfl, rfl, Or.inl rfl⟩
          · split
            · exact LRuns.pure hr1 ⟨rfl, rfl, rfl, Or.inl rfl⟩
            · refine LRuns.step rfl (Nat.le_refl _) ?_
              split
              · rename_i hmu
                exact LRuns.pure hr1 ⟨rfl, rfl, rfl, Or.inr ⟨rfl, rfl, hmu, rfl⟩⟩
              · refine LRuns.step rfl (Nat.le_refl _) (LRuns.pure hr1 ⟨rfl, rfl, rfl, Or.inl ?_⟩)
                exact List.erase_cons_head Handle.map _
      | false =>
        simp only [Bool.false_eq_true, if_false]
        by_cases hd : sys.dupOk = false
        · simp only [if_pos hd]
          exact LRuns.pure hr1 ⟨rfl, rfl, rfl, Or.inl rfl⟩
        · simp only [if_neg hd]
          refine LRuns.step rfl (Nat.le_refl _) ?_
          by_cases hf : sys.fdopenOk = false
          · simp only [if_pos hf]
            refine LRuns.step rfl (Nat.le_refl _) (LRuns.pure hr1 ⟨rfl, rfl, rfl, Or.inl ?_⟩)
            exact List.erase_cons_head Handle.fd _
          · simp only [if_neg hf]
            refine LRuns.step rfl (Nat.le_refl _) (LRuns.step rfl (Nat.le_refl _) ?_)
            have e : List.erase (Handle.file :: List.erase (.fd :: .fd :: l.held) .fd) .file = .fd :: l.held := by
              rw [List.erase_cons_head, List.erase_cons_head]
            split
            · exact LRuns.step rfl (Nat.le_refl _) (LRuns.pure hr1 ⟨rfl, rfl, rfl, Or.inl e⟩)
            · exact LRuns.step rfl (Nat.le_refl _) (LRuns.pure hr1 ⟨rfl, rfl, rfl, Or.inl e⟩)
    · rintro ⟨r, f⟩ l1 s1 _ hr1 ⟨h1, rfl, h2, h3⟩
      refine LRuns.step rfl (Nat.le_refl _) (LRuns.pure hr1 ?_)
      rw [← h1]
      refine ⟨rfl, rfl, ?_, ?_⟩
      · rw [h2]
      · show l1.held.erase .fd = l.held ∨ _
        rcases h3 with h3 | ⟨h3, h4⟩
        · exact Or.inl (by rw [h3]; exact List.erase_cons_head _ _)
        · refine Or.inr ⟨?_, h4⟩
          show (l1.held.erase .fd).Perm _
          rw [h3]
          exact List.Perm.refl _

/-- `writeFile(name)`: never undefined, never throws, changes no object, writes what C48 says; it gives back what it borrowed, except the
mapping `munmap` refused to take back. -/
theorem c87_save (hv : cfg.Valid) (hp : cfg.Physical) (hr : Reach cfg s env) {o : Nat} {v : Bytes} (ho : env o = .val v) (mmap : Bool)
    (sys : Stm.Sys) (file : Option Bytes) (c : Nat) (l : LSt) :
    ∃ r s' l', writeFileS mmap sys file o l s = (.ok r s', l') ∧ Reach cfg s' env ∧
      r = Stm.writeFile mmap sys ⟨v, c, l.pos, l.loading⟩ file ∧ l'.pos = l.pos ∧ l'.loading = l.loading ∧
      (l'.held = l.held ∨ (l'.held.Perm (.map :: l.held) ∧ mmap = true ∧ sys.munmapOk = false ∧ r.1 = 1)) := by
  have h := runs_writeFile hv hp hr ho mmap sys file c l
  unfold LRuns Runs at h
  dsimp only at h
  cases hm : writeFileS mmap sys file o l s with
  | mk r l' =>
    rw [hm] at h
    cases r with
    | ub => exact h.elim
    | throw e s' => obtain ⟨_, h, _⟩ := h; exact h.elim
    | ok r s' =>
      obtain ⟨_, ⟨h1, rfl, h2, h3⟩, h4, -⟩ := h
      dsimp only at h2
      have h5 : l'.pos = l.pos := by rw [h2]
      have h6 : l'.loading = l.loading := by rw [h2]
      exact ⟨r, s', l', rfl, h4, h1, h5, h6, h3⟩

/-! ## Saving and loading -/

/-- What one stream saved, another loads: both work, then the other holds the same bytes and nothing else has changed. -/
theorem c87_roundtrip_partial (hv : cfg.Valid) (hp : cfg.Physical) (hn : cfg.nul = some 0) (hr : Reach cfg s env) {o o' : Nat} {v v' : Bytes}
    (ho : env o = .val v) (ho' : env o' = .val v') (hne : v ≠ []) (mmap : Bool) {sys : Stm.Sys} (hsys : sys.AllOk) (file : Option Bytes) (l l0 : LSt) :
    ∃ s1 l1 f, writeFileS mmap sys file o l s = (.ok (0, some f) s1, l1) ∧ l1 = l ∧
      Leaves cfg s1 (loadFileS cfg mmap sys (some f) o' l0 s1) (fun r l' env' => r = 0 ∧ env' = env.upd o' (.val v) ∧ l' = ⟨0, false, l0.held⟩)
        (fun l' env' => LoadThrows mmap sys v env o' { l0 with held := .fd :: l0.held } l' env') := by
  obtain ⟨r, s1, l1, h1, h2, h3, h4, h5, h6⟩ := c87_save hv hp hr ho mmap sys file 0 l
  have hok := Stm.c48_write_ok mmap hsys ⟨v, 0, l.pos, l.loading⟩ file
  have hw := Stm.c48_write mmap sys ⟨v, 0, l.pos, l.loading⟩ file hok
  obtain ⟨r1, r2⟩ := r
  rw [← h3] at hok hw
  dsimp only at hok hw
  subst hok hw
  obtain ⟨e1, e2, e3, e4, e5, e6, e7, e8, e9⟩ := hsys
  refine ⟨s1, l1, v, h1, ?_, ?_⟩
  · rcases h6 with h6 | ⟨-, -, h6, -⟩
    · cases l; cases l1; simp_all
    · rw [e5] at h6; cases h6
  · have h := c87_load_partial hv hp hn h2 ho' mmap sys (some v) l0
    have hcan : CanLoad mmap sys v := by
      unfold CanLoad
      split
      · exact ⟨e2, e4, hne⟩
      · exact ⟨e6, e7⟩
    have hl : Loaded mmap sys v = v := by
      unfold Loaded
      rw [e8]
      simp
    obtain ⟨r, s', l', env', q0, q1, ⟨bytes, q3, -, q2⟩ | ⟨q2 | q2, -⟩⟩ | ⟨s', l', env', q0, q1, q2, bytes, q3, q4⟩ := h
    · cases q3
      unfold LoadReturns at q2
      rw [if_pos hcan, hl] at q2
      exact Or.inl ⟨r, s', l', env', q0, q1, q2⟩
    · cases q2
    · rw [e1] at q2; cases q2
    · cases q3
      exact Or.inr ⟨s', l', env', q0, q1, q2, q4⟩

/-! ## Cases -/

/-- What a load of these bytes into stream `o` of state `s` leaves. -/
def loadShows (cfg : Cfg UInt8) (mmap : Bool) (sys : Stm.Sys) (file : Option Bytes) (o : Nat) (l : LSt) (s : St UInt8) :
    Option (Int × LSt × Option Bytes) :=
  match loadFileS cfg mmap sys file o l s with
  | (.ok r s', l') => some (r, l', got (.ok o s'))
  | (.throw _ s', l') => some (-1, l', got (.ok o s'))
  | (.ub, _) => none

/-- Stream 1 shares its text with String 0.  Both builds load it, and give everything back; the second cannot read all. -/
example : loadShows byteCfg true {} (some [5, 0, 6]) 1 ⟨2, false, []⟩ stW = some (0, ⟨0, false, []⟩, some [5, 0, 6]) := by decide +kernel
example : loadShows byteCfg false { readable := some 2 } (some [5, 0, 6]) 1 ⟨2, false, []⟩ stW = some (0, ⟨0, false, []⟩, some [5, 0]) := by
  decide +kernel
example : loadShows byteCfg true { mmapOk := false } (some [5, 0, 6]) 1 ⟨2, true, []⟩ stW = some (1, ⟨0, true, []⟩, some []) := by decide +kernel

/-- By the theorem. -/
example : Leaves byteCfg stW (loadFdS byteCfg false {} [5, 0, 6] 1 ⟨2, false, []⟩ stW) (LoadReturns false {} [5, 0, 6] envW 1 ⟨2, false, []⟩)
    (LoadThrows false {} [5, 0, 6] envW 1 ⟨2, false, []⟩) :=
  c87_load_fd_partial byteCfg_valid byteCfg_physical rfl reachW (v := [98, 44, 97]) rfl _ _ _ _

example : CanLoad true {} [5, 0, 6] ∧ ¬ CanLoad true {} [] ∧ CanLoad false {} [] := by decide

/-- No memory is left: each load throws and leaves a descriptor open; in the `stdio` build also the `FILE`, and `loading` is set. -/
theorem c87_refuted_witness :
    loadShows tightByte true {} (some [5, 0, 6]) 1 ⟨2, false, []⟩ stFull = some (-1, ⟨0, false, [.fd]⟩, some []) ∧
    loadShows tightByte false {} (some [5, 0, 6]) 1 ⟨2, false, []⟩ stFull = some (-1, ⟨0, true, [.file, .fd]⟩, some []) := by
  constructor <;> decide +kernel

/-- Two such loads, and one of a file that is not there. -/
example : (loadsS tightByte true 1 [({}, some [5, 0, 6]), ({}, none), ({}, some [7])] ⟨2, false, []⟩ stFull).map (fun x => (x.1, x.2.1)) =
    some (2, ⟨0, false, [.fd, .fd]⟩) := by decide +kernel

example : ∃ k l' s' env' x, loadsS tightByte true 1 [({}, some [5, 0, 6]), ({}, none), ({}, some [7])] ⟨2, false, []⟩ stFull = some (k, l', s') ∧
    Reach tightByte s' env' ∧ env' = envFull.upd 1 (.val x) ∧ l'.held.count .fd = 0 + k :=
  c87_history (cfg := tightByte) byteCfg_valid tightByte_physical rfl true _ (v := [97, 98, 99]) ⟨2, false, []⟩ streamsFull.reach rfl

/-- Memory for one more request after that for the capacity: the mapping is made, the String is not. -/
def thirdFails : Cfg UInt8 := { byteCfg with allocOk := fun g n => decide (n < maxCells) && decide (g ≤ 3) }

example : loadShows thirdFails true {} (some [5, 0, 6]) 0 ⟨2, false, []⟩ ((exec thirdFails {} [.cstrCtor [97]]).getD {}) =
    some (-1, ⟨0, true, [.map, .fd]⟩, some []) := by decide +kernel

/-- Saving, and loading what was saved. -/
example : ∃ r s' l', writeFileS true {} none 1 ⟨2, false, []⟩ stW = (.ok r s', l') ∧ Reach byteCfg s' envW ∧ r = (0, some [98, 44, 97]) ∧
    l'.held = [] := by
  obtain ⟨r, s', l', h1, h2, h3, -, -, h4⟩ := c87_save byteCfg_valid byteCfg_physical reachW (o := 1) (v := [98, 44, 97]) rfl true {} none 0 ⟨2, false, []⟩
  refine ⟨r, s', l', h1, h2, h3, ?_⟩
  rcases h4 with h | ⟨-, -, h, -⟩
  · exact h
  · cases h

example : ∃ s1 l1 f, writeFileS false {} (some [1]) 1 ⟨2, false, []⟩ stW = (.ok (0, some f) s1, l1) ∧ l1 = ⟨2, false, []⟩ ∧
    Leaves byteCfg s1 (loadFileS byteCfg false {} (some f) 2 ⟨0, false, []⟩ s1)
      (fun r l' env' => r = 0 ∧ env' = envW.upd 2 (.val [98, 44, 97]) ∧ l' = ⟨0, false, []⟩)
      (fun l' env' => LoadThrows false {} [98, 44, 97] envW 2 ⟨0, false, [.fd]⟩ l' env') :=
  c87_roundtrip_partial byteCfg_valid byteCfg_physical rfl reachW (o := 1) (o' := 2) rfl rfl (by decide) false
    ⟨rfl, rfl, rfl, rfl, rfl, rfl, rfl, rfl, rfl⟩ _ _ _

end Bdlib.Rca
