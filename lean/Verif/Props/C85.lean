import Verif.Props.C60
import Verif.Props.C65
import Verif.Prog.Input

/-!
# C85: reading Strings from istreams, with shared storage and without memory

`>>` and `getline` into a String that shares its storage with others: the others keep what they show.  If memory runs out
on the way the String holds the start of what was read, or nothing, and the character that did not fit any more is
gone from the stream as well (`c85_refuted_lost`).
-/

namespace Bdlib.Rca
open Bdlib Bdlib.Spec Bdlib.Str Bdlib.Ios

variable {cfg : Cfg UInt8} {s : St UInt8} {env : Env UInt8} {α β : Type}

/-! ## Logic -/

/-- `Runs` for functions that read from a stream: `Q` and `E` also get the stream left. -/
def IRuns (cfg : Cfg UInt8) (m : IM α) (is : IStream) (s : St UInt8) (Q : α → IStream → Env UInt8 → Prop)
    (E : Exc → IStream → Env UInt8 → Prop) : Prop :=
  Runs cfg (fun s => (m is s).1) s (fun a env' => Q a (m is s).2 env') (fun e env' => E e (m is s).2 env')

variable {is : IStream} {Q : β → IStream → Env UInt8 → Prop} {E : Exc → IStream → Env UInt8 → Prop}

theorem IRuns.lift {m : SM β} (h : Runs cfg m s (fun a env' => Q a is env') (fun e env' => E e is env')) :
    IRuns cfg (IM.lift m) is s Q E := h

theorem IRuns.mono {m : IM β} {Q' : β → IStream → Env UInt8 → Prop} {E' : Exc → IStream → Env UInt8 → Prop}
    (h : IRuns cfg m is s Q' E') (hq : ∀ a q env, Q' a q env → Q a q env) (he : ∀ e q env, E' e q env → E e q env) : IRuns cfg m is s Q E :=
  Runs.mono h (fun _ _ h => hq _ _ _ h) (fun _ _ h => he _ _ _ h)

theorem IRuns.pure {a : β} (hr : Reach cfg s env) (h : Q a is env) : IRuns cfg (Pure.pure a : IM β) is s Q E :=
  ⟨env, h, hr, Nat.le_refl _⟩

theorem IRuns.done {f : IStream → IStream × β} (hr : Reach cfg s env) (h : Q (f is).2 (f is).1 env) : IRuns cfg (IM.io f) is s Q E :=
  ⟨env, h, hr, Nat.le_refl _⟩

theorem IRuns.bind {m : IM α} {f : α → IM β} {Q' : α → IStream → Env UInt8 → Prop} (h : IRuns cfg m is s Q' E)
    (hf : ∀ a q s' env', Reach cfg s' env' → Q' a q env' → IRuns cfg (f a) q s' Q E) : IRuns cfg (m >>= f) is s Q E := by
  unfold IRuns at h ⊢
  unfold Runs at h ⊢
  have hbind : (m >>= f) is s = IM.bind m f is s := rfl
  simp only [hbind, IM.bind] at *
  cases hm : m is s with
  | mk r q =>
    rw [hm] at h
    cases r with
    | ub => exact h
    | throw e t => exact h
    | ok a t =>
      obtain ⟨env1, h1, h2, h3⟩ := h
      have := hf a q t env1 h2 h1
      unfold IRuns Runs at this
      dsimp only at this ⊢
      exact sat_mono this (fun _ _ ⟨env2, h4, h5, h6⟩ => ⟨env2, h4, h5, Nat.le_trans h3 h6⟩)
        (fun _ _ ⟨env2, h4, h5, h6, h7⟩ => ⟨env2, h4, h5, Nat.le_trans h3 h6, fun he => by
          obtain ⟨g, n, ha, hb, hc⟩ := h7 he
          exact ⟨g, n, Nat.lt_of_le_of_lt h3 ha, hb, hc⟩⟩)

theorem IRuns.io {g : IStream → IStream × α} {f : α → IM β} (h : IRuns cfg (f (g is).2) (g is).1 s Q E) :
    IRuns cfg (IM.io g >>= f) is s Q E := h

theorem IRuns.failed {f : Bool → IM β} (h : IRuns cfg (f is.fail) is s Q E) : IRuns cfg (failed >>= f) is s Q E := h

/-! ## The functions -/

/-- `bad_alloc`, stream left `is'`: before anything was read (`o` is as it was), or with `o` empty or holding all that was
read but for the whitespace skipped and the last character. -/
def Broke (env : Env UInt8) (o : Nat) (skipped : Bytes) (is : IStream) (e : Exc) (is' : IStream) (env' : Env UInt8) : Prop :=
  e = .badAlloc ∧ ((is' = is ∧ env' = env) ∨
    ∃ x c, is.unread = skipped ++ x ++ c :: is'.unread ∧ is'.eof = false ∧ is'.fail = false ∧
      (env' = env.upd o (.val x) ∨ env' = env.upd o (.val [])))

theorem runs_blank (hv : cfg.Valid) (hp : cfg.Physical) (hn : cfg.nul = some 0) (hr : Reach cfg s env) {o : Nat} (ho : env.Live o)
    {E : Exc → Env UInt8 → Prop} (hE : E .badAlloc env) :
    Runs cfg (assignCstr cfg 0 o []) s (fun _ env' => env' = env.upd o (.val [])) E := by
  refine runs_op hv hp hr (op := .assignCstr o []) (f := fun _ => .unit) ?_ ⟨ho, ?_⟩ ?_ ?_
  · simp only [run, hn]
  · unfold IsStr
    rw [hn]
    simp
  · intro a env' h
    rcases h with h | ⟨h, -⟩
    · exact h.2
    · cases h
  · intro e env' h
    rcases h with h | ⟨h, h2⟩
    · cases h.1
    · cases h; rw [h2]; exact hE

theorem runs_lineLoopP (hv : cfg.Valid) (hp : cfg.Physical) {o : Nat} {E : Exc → IStream → Env UInt8 → Prop} {r0 : Bytes}
    {t : IStream} {v : Bytes}
    (hE : ∀ x c r e env', r0 = x ++ c :: r → OnlyAt (env.upd o (.val x)) o e env' → E e (good r) env') :
    ∀ (n : Nat) (u : Bytes) (ch : UInt8) (acc : Bytes) {s : St UInt8}, Reach cfg s (env.upd o (.val acc)) → r0 = acc ++ u →
      lineLoop n (good u) ch acc = some (t, v) →
      IRuns cfg (lineLoopP cfg o n ch) (good u) s (fun _ is' env' => is' = t ∧ env' = env.upd o (.val v)) E
  | 0, _, _, _, _, _, _, h => nomatch h
  | n + 1, [], ch, acc, s, hr, _, h => by
    unfold lineLoop at h
    unfold lineLoopP
    rw [get_end] at h
    refine IRuns.io (IRuns.failed ?_)
    rw [get_end]
    dsimp only at h ⊢
    rw [if_neg (by simp [ended])] at h ⊢
    cases h
    exact IRuns.pure hr ⟨rfl, rfl⟩
  | n + 1, c :: u, ch, acc, s, hr, hu, h => by
    unfold lineLoop at h
    unfold lineLoopP
    rw [get_good] at h
    refine IRuns.io (IRuns.failed ?_)
    rw [get_good]
    dsimp only at h ⊢
    by_cases hc : c = 10
    · rw [if_neg (by simp [hc])] at h ⊢
      cases h
      exact IRuns.pure hr ⟨rfl, rfl⟩
    · rw [if_pos ⟨by simp [good], hc⟩] at h
      rw [if_pos ⟨rfl, hc⟩]
      refine IRuns.bind (Q' := fun _ is' env' => is' = good u ∧ env' = env.upd o (.val (acc ++ [c])))
        (IRuns.lift (Runs.mono (runs_append hv hp hr Env.upd_self (E := fun e env' => E e (good u) env')
          fun e env' h => hE acc c u e env' hu h) (fun _ _ e => ⟨rfl, by rw [e, Env.upd_upd]⟩) fun _ _ h => h)) ?_
      rintro _ _ s' _ hr' ⟨rfl, rfl⟩
      exact runs_lineLoopP hv hp hE n u c (acc ++ [c]) hr' (by rw [hu]; simp) h

theorem broke_of {o : Nat} {sk x r u : Bytes} {c : UInt8} {e : Exc} {env' : Env UInt8} (hu : u = sk ++ x ++ c :: r)
    (h : OnlyAt (env.upd o (.val x)) o e env') : Broke env o sk (good u) e (good r) env' := by
  refine ⟨h.1, Or.inr ⟨x, c, hu, rfl, rfl, ?_⟩⟩
  rcases h.2 with h | h
  · exact Or.inl h
  · exact Or.inr (by rw [h, Env.upd_upd])

/-- `getline` does on the machine what it does on byte lists. -/
theorem runs_getlineP (hv : cfg.Valid) (hp : cfg.Physical) (hn : cfg.nul = some 0) (hr : Reach cfg s env) {o : Nat} (ho : env.Live o)
    {n : Nat} {t : IStream} {u v : Bytes} (h : Ios.getline n (good u) = some (t, v)) :
    IRuns cfg (getlineP cfg n o) (good u) s (fun _ is' env' => is' = t ∧ env' = env.upd o (.val v)) (Broke env o [] (good u)) := by
  unfold getlineP
  refine IRuns.bind (Q' := fun _ is' env' => is' = good u ∧ env' = env.upd o (.val []))
    (IRuns.lift (Runs.mono (runs_blank hv hp hn hr ho (E := fun e env' => Broke env o [] (good u) e (good u) env') ⟨rfl, Or.inl ⟨rfl, rfl⟩⟩)
      (fun _ _ e => ⟨rfl, e⟩) fun _ _ h => h)) ?_
  rintro _ _ s' _ hr' ⟨rfl, rfl⟩
  exact runs_lineLoopP hv hp (r0 := u) (fun x c r e env' hx h => broke_of (c := c) (by rw [hx]; simp) h) n u 0 [] hr' rfl h

theorem runs_tokenLoopP (hv : cfg.Valid) (hp : cfg.Physical) {o : Nat} {E : Exc → IStream → Env UInt8 → Prop} {r0 : Bytes}
    {t : IStream} {ch' : UInt8} {v : Bytes}
    (hE : ∀ x c r e env', r0 = x ++ c :: r → OnlyAt (env.upd o (.val x)) o e env' → E e (good r) env') :
    ∀ (n : Nat) (u : Bytes) (ch : UInt8) (acc : Bytes) {s : St UInt8}, Reach cfg s (env.upd o (.val acc)) → r0 = acc ++ ch :: u →
      tokenLoop n (good u) ch acc = some (t, ch', v) →
      IRuns cfg (tokenLoopP cfg o n ch) (good u) s (fun c is' env' => c = ch' ∧ is' = t ∧ env' = env.upd o (.val v)) E
  | 0, _, _, _, _, _, _, h => nomatch h
  | n + 1, u, ch, acc, s, hr, hu, h => by
    unfold tokenLoop at h
    unfold tokenLoopP
    refine IRuns.bind (Q' := fun _ is' env' => is' = good u ∧ env' = env.upd o (.val (acc ++ [ch])))
      (IRuns.lift (Runs.mono (runs_append hv hp hr Env.upd_self (E := fun e env' => E e (good u) env')
        fun e env' h => hE acc ch u e env' hu h) (fun _ _ e => ⟨rfl, by rw [e, Env.upd_upd]⟩) fun _ _ h => h)) ?_
    rintro _ _ s' _ hr' ⟨rfl, rfl⟩
    refine IRuns.io (IRuns.failed ?_)
    cases u with
    | nil =>
      rw [get_end] at h ⊢
      dsimp only at h ⊢
      rw [if_neg (by simp [ended])] at h ⊢
      cases h
      exact IRuns.pure hr' ⟨rfl, rfl, rfl⟩
    | cons c u =>
      rw [get_good] at h ⊢
      dsimp only at h ⊢
      by_cases hc : Ios.isspace c = true
      · rw [if_neg (by simp [hc])] at h ⊢
        cases h
        exact IRuns.pure hr' ⟨rfl, rfl, rfl⟩
      · rw [if_pos ⟨by simp [good], hc⟩] at h
        rw [if_pos ⟨rfl, by simpa using hc⟩]
        exact runs_tokenLoopP hv hp hE n u c (acc ++ [ch]) hr' (by rw [hu]; simp) h

/-- `>>` does on the machine what it does on byte lists. -/
theorem runs_extractP (hv : cfg.Valid) (hp : cfg.Physical) (hn : cfg.nul = some 0) (hr : Reach cfg s env) {o : Nat} (ho : env.Live o)
    {n : Nat} {t : IStream} {u v : Bytes} (h : Ios.extract n (good u) = some (t, v)) :
    IRuns cfg (extractP cfg n o) (good u) s (fun _ is' env' => is' = t ∧ env' = env.upd o (.val v))
      (Broke env o (u.takeWhile space) (good u)) := by
  unfold extractP
  refine IRuns.bind (Q' := fun _ is' env' => is' = good u ∧ env' = env.upd o (.val []))
    (IRuns.lift (Runs.mono (runs_blank hv hp hn hr ho
      (E := fun e env' => Broke env o (u.takeWhile space) (good u) e (good u) env') ⟨rfl, Or.inl ⟨rfl, rfl⟩⟩)
      (fun _ _ e => ⟨rfl, e⟩) fun _ _ h => h)) ?_
  rintro _ _ s' _ hr' ⟨rfl, rfl⟩
  refine IRuns.io (IRuns.failed ?_)
  unfold extract at h
  have hsplit : u = u.takeWhile space ++ u.dropWhile space := (List.takeWhile_append_dropWhile).symm
  cases hd : u.dropWhile space with
  | nil =>
    have hg : getChar (good u) 0 = (ended, 0) := by
      unfold getChar
      rw [isspace_eq, if_neg (by simp [good])]
      show (match u.dropWhile space with | [] => _ | _ :: _ => _) = _
      rw [hd]
      rfl
    rw [hg] at h ⊢
    dsimp only at h ⊢
    rw [if_neg (by simp [ended])] at h ⊢
    cases h
    exact IRuns.pure hr' ⟨rfl, rfl⟩
  | cons c r =>
    have hg : getChar (good u) 0 = (good r, c) := by
      unfold getChar
      rw [isspace_eq, if_neg (by simp [good])]
      show (match u.dropWhile space with | [] => _ | _ :: _ => _) = _
      rw [hd]
      rfl
    rw [hg] at h ⊢
    dsimp only at h ⊢
    rw [if_pos (by simp [good])] at h ⊢
    cases hl : tokenLoop n (good r) c [] with
    | none => rw [hl] at h; cases h
    | some x =>
      obtain ⟨t', ch', v'⟩ := x
      rw [hl] at h
      refine IRuns.bind (runs_tokenLoopP hv hp (r0 := c :: r) (fun x c' r' e env' hx h => broke_of (c := c') ?_ h) n r c [] hr' rfl hl) ?_
      · rw [List.append_assoc, ← hx, ← hd]; exact hsplit
      · rintro ch2 is2 s2 env2 hr2 ⟨rfl, rfl, rfl⟩
        dsimp only at h
        split
        · rename_i hs
          rw [if_pos hs] at h
          cases h
          exact IRuns.done hr2 ⟨rfl, rfl⟩
        · rename_i hs
          rw [if_neg hs] at h
          cases h
          exact IRuns.pure hr2 ⟨rfl, rfl⟩

/-! ## The properties -/

/-- The function returns; `o` shows `v`, the stream is `t`, every other object shows what it did. -/
def Got (cfg : Cfg UInt8) (s : St UInt8) (env : Env UInt8) (m : IM Unit) (is : IStream) (o : Nat) (v : Bytes) (t : IStream) : Prop :=
  ∃ s', m is s = (.ok () s', t) ∧ Shows s' o v ∧ OthersKeep env o s' ∧ Reach cfg s' (env.upd o (.val v))

/-- `bad_alloc`, because a request was refused; every other object shows what it did.  Either nothing was read and nothing
changed, or `skipped`, a text `x` and one more character were read, and `o` shows `x` or nothing. -/
def Lost (cfg : Cfg UInt8) (s : St UInt8) (env : Env UInt8) (m : IM Unit) (u : Bytes) (o : Nat) (skipped : Bytes) : Prop :=
  ∃ s' is', m (good u) s = (.throw .badAlloc s', is') ∧ Refused cfg.allocOk s s' ∧ OthersKeep env o s' ∧
    ((is' = good u ∧ Reach cfg s' env) ∨
      ∃ x c r, u = skipped ++ x ++ c :: r ∧ is' = good r ∧ (Shows s' o x ∨ Shows s' o []) ∧
        (Reach cfg s' (env.upd o (.val x)) ∨ Reach cfg s' (env.upd o (.val []))))

theorem got_or_of (hv : cfg.Valid) (hp : cfg.Physical) {m : IM Unit} {u v sk : Bytes} {o : Nat} {t : IStream}
    (h : IRuns cfg m (good u) s (fun _ is' env' => is' = t ∧ env' = env.upd o (.val v)) (Broke env o sk (good u))) :
    Got cfg s env m (good u) o v t ∨ Lost cfg s env m u o sk := by
  unfold IRuns Runs at h
  dsimp only at h
  cases hm : m (good u) s with
  | mk res q =>
    rw [hm] at h
    cases res with
    | ub => exact h.elim
    | ok a s' =>
      obtain ⟨env', ⟨rfl, rfl⟩, hr, -⟩ := h
      exact Or.inl ⟨s', hm, hr.shows hv hp Env.upd_self, fun p w hne hw => hr.shows hv hp (by rw [Env.upd_ne hne]; exact hw), hr⟩
    | throw e s' =>
      obtain ⟨env', ⟨rfl, hb⟩, hr, -, hf⟩ := h
      refine Or.inr ⟨s', q, hm, hf rfl, ?_, ?_⟩
      · intro p w hne hw
        refine hr.shows hv hp ?_
        rcases hb with ⟨-, rfl⟩ | ⟨x, c, -, -, -, rfl | rfl⟩
        · exact hw
        · rw [Env.upd_ne hne]; exact hw
        · rw [Env.upd_ne hne]; exact hw
      · rcases hb with ⟨h1, rfl⟩ | ⟨x, c, h1, h2, h3, h4⟩
        · exact Or.inl ⟨h1, hr⟩
        · refine Or.inr ⟨x, c, q.unread, h1, ?_, ?_, ?_⟩
          · cases q; dsimp only at h2 h3; rw [h2, h3]; rfl
          · rcases h4 with rfl | rfl
            · exact Or.inl (hr.shows hv hp Env.upd_self)
            · exact Or.inr (hr.shows hv hp Env.upd_self)
          · rcases h4 with rfl | rfl
            · exact Or.inl hr
            · exact Or.inr hr

/-- `getline`, a line with its newline. -/
theorem c85_getline_partial (hv : cfg.Valid) (hp : cfg.Physical) (hn : cfg.nul = some 0) (hr : Reach cfg s env) {o : Nat} (ho : env.Live o)
    {l r : Bytes} (hl : 10 ∉ l) {n : Nat} (hf : l.length < n) :
    Got cfg s env (getlineP cfg n o) (good (l ++ 10 :: r)) o l (good r) ∨ Lost cfg s env (getlineP cfg n o) (l ++ 10 :: r) o [] :=
  got_or_of hv hp (runs_getlineP hv hp hn hr ho (c60_getline hl hf))

/-- `getline`, the text after the last newline. -/
theorem c85_last_line_partial (hv : cfg.Valid) (hp : cfg.Physical) (hn : cfg.nul = some 0) (hr : Reach cfg s env) {o : Nat} (ho : env.Live o)
    {l : Bytes} (hl : 10 ∉ l) {n : Nat} (hf : l.length < n) :
    Got cfg s env (getlineP cfg n o) (good l) o l ended ∨ Lost cfg s env (getlineP cfg n o) l o [] :=
  got_or_of hv hp (runs_getlineP hv hp hn hr ho (c60_last_line hl hf))

theorem takeWhile_blank {w t : Bytes} {c : UInt8} (hw : Blank w) (hc : space c = false) : (w ++ c :: t).takeWhile space = w := by
  induction w with
  | nil => rw [List.nil_append, List.takeWhile_cons_of_neg (by simp [hc])]
  | cons x w ih =>
    rw [List.cons_append, List.takeWhile_cons_of_pos (hw x List.mem_cons_self), ih fun y hy => hw y (List.mem_cons_of_mem _ hy)]

/-- `>>`, a token with whitespace behind it. -/
theorem c85_token_partial (hv : cfg.Valid) (hp : cfg.Physical) (hn : cfg.nul = some 0) (hr : Reach cfg s env) {o : Nat} (ho : env.Live o)
    {w t : Bytes} {c : UInt8} {r : Bytes} (hw : Blank w) (ht : Token t) (hc : space c = true) {n : Nat} (hf : t.length ≤ n) :
    Got cfg s env (extractP cfg n o) (good (w ++ t ++ c :: r)) o t (good (c :: r)) ∨
      Lost cfg s env (extractP cfg n o) (w ++ t ++ c :: r) o w := by
  have h := runs_extractP hv hp hn hr ho (c60_token (r := r) hw ht hc hf)
  have e : (w ++ t ++ c :: r).takeWhile space = w := by
    obtain ⟨h1, h2⟩ := ht
    cases t with
    | nil => exact absurd rfl h1
    | cons x t => rw [List.append_assoc]; exact takeWhile_blank hw (h2 x List.mem_cons_self)
  rw [e] at h
  exact got_or_of hv hp h

/-- `>>`, a token with nothing behind it. -/
theorem c85_last_token_partial (hv : cfg.Valid) (hp : cfg.Physical) (hn : cfg.nul = some 0) (hr : Reach cfg s env) {o : Nat} (ho : env.Live o)
    {w t : Bytes} (hw : Blank w) (ht : Token t) {n : Nat} (hf : t.length ≤ n) :
    Got cfg s env (extractP cfg n o) (good (w ++ t)) o t ended ∨ Lost cfg s env (extractP cfg n o) (w ++ t) o w := by
  have h := runs_extractP hv hp hn hr ho (c60_last_token hw ht hf)
  have e : (w ++ t).takeWhile space = w := by
    obtain ⟨h1, h2⟩ := ht
    cases t with
    | nil => exact absurd rfl h1
    | cons x t => exact takeWhile_blank hw (h2 x List.mem_cons_self)
  rw [e] at h
  exact got_or_of hv hp h

/-- A stream that was at its end or had failed before: the String is emptied, no byte is read. -/
theorem c85_bad (hv : cfg.Valid) (hp : cfg.Physical) (hn : cfg.nul = some 0) (hr : Reach cfg s env) {o : Nat} (ho : env.Live o)
    {is : IStream} (hb : is.eof = true ∨ is.fail = true) {n : Nat} (hf : 0 < n) {m : IM Unit} (hm : m = getlineP cfg n o ∨ m = extractP cfg n o) :
    Got cfg s env m is o [] { is with fail := true } ∨
      ∃ s', m is s = (.throw .badAlloc s', is) ∧ Refused cfg.allocOk s s' ∧ AllKeep env s' ∧ Reach cfg s' env := by
  have h : IRuns cfg m is s (fun _ is' env' => is' = { is with fail := true } ∧ env' = env.upd o (.val []))
      (fun e is' env' => e = .badAlloc ∧ is' = is ∧ env' = env) := by
    have hblank : IRuns cfg (IM.lift (assignCstr cfg 0 o [])) is s (fun _ is' env' => is' = is ∧ env' = env.upd o (.val []))
        (fun e is' env' => e = .badAlloc ∧ is' = is ∧ env' = env) :=
      IRuns.lift (Runs.mono (runs_blank hv hp hn hr ho (E := fun e env' => e = .badAlloc ∧ is = is ∧ env' = env) ⟨rfl, rfl, rfl⟩)
        (fun _ _ e => ⟨rfl, e⟩) fun _ _ h => h)
    rcases hm with rfl | rfl
    · unfold getlineP
      refine IRuns.bind hblank ?_
      rintro _ q s' _ hr' ⟨hq, rfl⟩
      subst q
      cases n with
      | zero => omega
      | succ n =>
        unfold lineLoopP
        have hg : ∀ ch, Ios.get is ch = ({ is with fail := true }, ch) := fun ch => by unfold Ios.get; rw [if_pos hb]
        refine IRuns.io (IRuns.failed ?_)
        rw [hg]
        dsimp only
        rw [if_neg (by simp)]
        exact IRuns.pure hr' ⟨rfl, rfl⟩
    · unfold extractP
      refine IRuns.bind hblank ?_
      rintro _ q s' _ hr' ⟨hq, rfl⟩
      subst q
      have hg : ∀ ch, Ios.getChar is ch = ({ is with fail := true }, ch) := fun ch => by unfold Ios.getChar; rw [if_pos hb]
      refine IRuns.io (IRuns.failed ?_)
      rw [hg]
      dsimp only
      rw [if_neg (by simp)]
      exact IRuns.pure hr' ⟨rfl, rfl⟩
  unfold IRuns Runs at h
  dsimp only at h
  cases hx : m is s with
  | mk res q =>
    rw [hx] at h
    cases res with
    | ub => exact h.elim
    | ok a s' =>
      obtain ⟨env', ⟨rfl, rfl⟩, hr, -⟩ := h
      exact Or.inl ⟨s', hx, hr.shows hv hp Env.upd_self, fun p w hne hw => hr.shows hv hp (by rw [Env.upd_ne hne]; exact hw), hr⟩
    | throw e s' =>
      obtain ⟨env', ⟨rfl, hq, rfl⟩, hr, -, hf⟩ := h
      exact Or.inr ⟨s', by rw [show q = is from hq], hf rfl, allKeep_reach hv hp hr, hr⟩

/-! ## Loops that keep what they read -/

/-- Every object of `env` but `o` holds what it did. -/
def Around (env : Env UInt8) (o : Nat) (env' : Env UInt8) : Prop := ∀ p, p ≠ o → env.Live p → env' p = env p

theorem makesAll_upd {vs : List Bytes} {kept : List Nat} {o : Nat} {v : Slot UInt8} {w : Bytes} {env' : Env UInt8}
    (h : MakesAll (env.upd o v) vs kept env') (hl : v ≠ .dead) : MakesAll (env.upd o (.val w)) vs kept (env'.upd o (.val w)) := by
  have hne : o ∉ kept := fun hm => by have := h.fresh o hm; rw [Env.upd_self] at this; exact hl this
  refine ⟨fun p hp => ?_, h.nodup, ?_, fun p hp => ?_⟩
  · have hpo : p ≠ o := fun e => hne (e ▸ hp)
    have := h.fresh p hp
    rw [Env.upd_ne hpo] at this ⊢
    exact this
  · rw [← h.held]
    exact List.map_congr_left fun p hp => Env.upd_ne (fun e : p = o => hne (e ▸ hp))
  · by_cases hpo : p = o
    · subst hpo; rw [Env.upd_self, Env.upd_self]
    · rw [Env.upd_ne hpo, h.rest p hp, Env.upd_ne hpo, Env.upd_ne hpo]

theorem Broke.around {o : Nat} {sk : Bytes} {is is' : IStream} {e : Exc} {env0 env1 env' : Env UInt8} (h : Broke env1 o sk is e is' env')
    (h1 : Around env0 o env1) : e = .badAlloc ∧ Around env0 o env' := by
  refine ⟨h.1, fun p hp hl => ?_⟩
  rcases h.2 with ⟨-, rfl⟩ | ⟨x, c, -, -, -, rfl | rfl⟩
  · exact h1 p hp hl
  · rw [Env.upd_ne hp]; exact h1 p hp hl
  · rw [Env.upd_ne hp]; exact h1 p hp hl

theorem MakesAll.around {o : Nat} {v : Slot UInt8} {vs : List Bytes} {kept : List Nat} {env' : Env UInt8}
    (h : MakesAll (env.upd o v) vs kept env') : Around env o env' := fun p hp hl => by
  rw [h.keep (p := p) (by intro hd; rw [Env.upd_ne hp] at hd; exact hl hd), Env.upd_ne hp]

theorem runs_keepLinesP (hv : cfg.Valid) (hp : cfg.Physical) (hn : cfg.nul = some 0) {o : Nat} (last : Bytes) (hlast : 10 ∉ last) {n : Nat} :
    ∀ (ls done : List Bytes) (k : Nat) (kept : List Nat) (x : Slot UInt8) {s : St UInt8} {env1 : Env UInt8}, Reach cfg s env1 → x ≠ .dead →
      MakesAll (env.upd o x) done kept env1 → (∀ l ∈ ls, 10 ∉ l) → (linesText ls ++ last).length < n → ls.length < k →
      IRuns cfg (keepLinesP cfg n o k kept) (good (linesText ls ++ last)) s
        (fun ids is' env' => is' = ended ∧ MakesAll (env.upd o (.val last)) (done ++ ls) ids env')
        (fun e _ env' => e = .badAlloc ∧ Around env o env')
  | [], done, k + 1, kept, x, s, env1, hr, hx, hm, _, hlen, _ => by
    have hne : o ∉ kept := fun hmm => by have := hm.fresh o hmm; rw [Env.upd_self] at this; exact hx this
    have ho : env1.Live o := fun hd => by rw [hm.rest o hne, Env.upd_self] at hd; exact hx hd
    unfold keepLinesP
    have e : linesText [] ++ last = last := rfl
    rw [e] at hlen ⊢
    refine IRuns.bind (IRuns.mono (runs_getlineP hv hp hn hr ho (c60_last_line hlast hlen)) (fun _ _ _ h => h)
      fun e q env' h => h.around hm.around) ?_
    rintro _ _ s' _ hr' ⟨rfl, rfl⟩
    refine IRuns.failed ?_
    rw [if_pos (by rfl), List.append_nil]
    exact IRuns.pure hr' ⟨rfl, makesAll_upd hm hx⟩
  | l :: ls, done, k + 1, kept, x, s, env1, hr, hx, hm, hls, hlen, hk => by
    have hne : o ∉ kept := fun hmm => by have := hm.fresh o hmm; rw [Env.upd_self] at this; exact hx this
    have ho : env1.Live o := fun hd => by rw [hm.rest o hne, Env.upd_self] at hd; exact hx hd
    unfold keepLinesP
    have e : linesText (l :: ls) ++ last = l ++ 10 :: (linesText ls ++ last) := by simp [linesText]
    rw [e] at hlen ⊢
    refine IRuns.bind (IRuns.mono (runs_getlineP hv hp hn hr ho (c60_getline (hls l List.mem_cons_self) (by simp at hlen; omega)))
      (fun _ _ _ h => h) fun e q env' h => h.around hm.around) ?_
    rintro _ _ s' _ hr' ⟨rfl, rfl⟩
    refine IRuns.failed ?_
    rw [if_neg (by simp [good])]
    have hm' := makesAll_upd (w := l) hm hx
    refine IRuns.bind (Q' := fun c is' env' => is' = good (linesText ls ++ last) ∧ (env1.upd o (.val l)) c = .dead ∧
        env' = (env1.upd o (.val l)).upd c (.val l))
      (IRuns.lift (Runs.mono (runs_copyCtor hv hp hr' (v := l) Env.upd_self (E := fun _ _ => False)) (fun _ _ h => ⟨rfl, h⟩)
        fun _ _ h => h.elim)) ?_
    rintro c _ s2 _ hr2 ⟨rfl, hd, rfl⟩
    have hm2 := hm'.snoc (w := l) hd
    have ih := runs_keepLinesP (n := n) hv hp hn last hlast ls (done ++ [l]) k (kept ++ [c]) (.val l) hr2 (by simp) hm2
      (fun y hy => hls y (List.mem_cons_of_mem _ hy)) (by simp only [List.length_append, List.length_cons] at hlen ⊢; omega) (by simp at hk; omega)
    rw [List.append_assoc, List.singleton_append] at ih
    exact ih

theorem runs_keepTokensP (hv : cfg.Valid) (hp : cfg.Physical) (hn : cfg.nul = some 0) {o : Nat} {w t : Bytes} (hw : Blank w)
    (ht : t = [] ∨ Token t) {n : Nat} :
    ∀ (ts : List (Bytes × Bytes × UInt8)) (w0 : Bytes) (done : List Bytes) (k : Nat) (kept : List Nat) (x : Slot UInt8) {s : St UInt8}
      {env1 : Env UInt8}, Reach cfg s env1 → x ≠ .dead → MakesAll (env.upd o x) done kept env1 →
      (∀ y ∈ ts, Blank y.1 ∧ Token y.2.1 ∧ space y.2.2 = true) → Blank w0 →
      (w0 ++ (ts.map fun x => x.1 ++ x.2.1 ++ [x.2.2]).flatten ++ w ++ t).length < n → ts.length < k →
      IRuns cfg (keepTokensP cfg n o k kept) (good (w0 ++ (ts.map fun x => x.1 ++ x.2.1 ++ [x.2.2]).flatten ++ w ++ t)) s
        (fun ids is' env' => is' = ended ∧ MakesAll (env.upd o (.val t)) (done ++ ts.map (·.2.1)) ids env')
        (fun e _ env' => e = .badAlloc ∧ Around env o env')
  | [], w0, done, k + 1, kept, x, s, env1, hr, hx, hm, _, hw0, hlen, _ => by
    have hne : o ∉ kept := fun hmm => by have := hm.fresh o hmm; rw [Env.upd_self] at this; exact hx this
    have ho : env1.Live o := fun hd => by rw [hm.rest o hne, Env.upd_self] at hd; exact hx hd
    unfold keepTokensP
    have hw' : Blank (w0 ++ w) := fun c hc => (List.mem_append.mp hc).elim (hw0 c) (hw c)
    have e : w0 ++ (List.map (fun x : Bytes × Bytes × UInt8 => x.1 ++ x.2.1 ++ [x.2.2]) []).flatten ++ w ++ t = (w0 ++ w) ++ t := by simp
    rw [e] at hlen ⊢
    have hf : extract n (good (w0 ++ w ++ t)) = some (ended, t) := by
      rcases ht with rfl | ht
      · rw [List.append_nil]; exact c60_no_token hw' _
      · exact c60_last_token hw' ht (by simp at hlen; omega)
    refine IRuns.bind (IRuns.mono (runs_extractP hv hp hn hr ho hf) (fun _ _ _ h => h) fun e q env' h => h.around hm.around) ?_
    rintro _ _ s' _ hr' ⟨rfl, rfl⟩
    refine IRuns.failed ?_
    rw [if_pos (by rfl), List.map_nil, List.append_nil]
    exact IRuns.pure hr' ⟨rfl, makesAll_upd hm hx⟩
  | y :: ts, w0, done, k + 1, kept, x, s, env1, hr, hx, hm, hts, hw0, hlen, hk => by
    obtain ⟨h1, h2, h3⟩ := hts y List.mem_cons_self
    have hne : o ∉ kept := fun hmm => by have := hm.fresh o hmm; rw [Env.upd_self] at this; exact hx this
    have ho : env1.Live o := fun hd => by rw [hm.rest o hne, Env.upd_self] at hd; exact hx hd
    unfold keepTokensP
    have hw' : Blank (w0 ++ y.1) := fun c hc => (List.mem_append.mp hc).elim (hw0 c) (h1 c)
    have e : w0 ++ (List.map (fun x : Bytes × Bytes × UInt8 => x.1 ++ x.2.1 ++ [x.2.2]) (y :: ts)).flatten ++ w ++ t =
        (w0 ++ y.1) ++ y.2.1 ++ y.2.2 :: ((List.map (fun x : Bytes × Bytes × UInt8 => x.1 ++ x.2.1 ++ [x.2.2]) ts).flatten ++ w ++ t) := by simp
    have e2 : [y.2.2] ++ (List.map (fun x : Bytes × Bytes × UInt8 => x.1 ++ x.2.1 ++ [x.2.2]) ts).flatten ++ w ++ t =
      y.2.2 :: ((List.map (fun x : Bytes × Bytes × UInt8 => x.1 ++ x.2.1 ++ [x.2.2]) ts).flatten ++ w ++ t) := by simp
    rw [e] at hlen ⊢
    generalize hrest : (List.map (fun x : Bytes × Bytes × UInt8 => x.1 ++ x.2.1 ++ [x.2.2]) ts).flatten ++ w ++ t = rest at hlen e e2 ⊢
    refine IRuns.bind (IRuns.mono (runs_extractP hv hp hn hr ho (c60_token hw' h2 h3 (by simp at hlen; omega)))
      (fun _ _ _ h => h) fun e q env' h => h.around hm.around) ?_
    rintro _ _ s' _ hr' ⟨rfl, rfl⟩
    refine IRuns.failed ?_
    rw [if_neg (by simp [good])]
    have hm' := makesAll_upd (w := y.2.1) hm hx
    refine IRuns.bind (Q' := fun c is' env' => is' = good (y.2.2 :: rest) ∧ (env1.upd o (.val y.2.1)) c = .dead ∧
        env' = (env1.upd o (.val y.2.1)).upd c (.val y.2.1))
      (IRuns.lift (Runs.mono (runs_copyCtor hv hp hr' (v := y.2.1) Env.upd_self (E := fun _ _ => False)) (fun _ _ h => ⟨rfl, h⟩)
        fun _ _ h => h.elim)) ?_
    rintro c _ s2 _ hr2 ⟨rfl, hd, rfl⟩
    have hm2 := hm'.snoc (w := y.2.1) hd
    have ih := runs_keepTokensP (n := n) hv hp hn hw ht ts [y.2.2] (done ++ [y.2.1]) k (kept ++ [c]) (.val y.2.1) hr2 (by simp) hm2
      (fun z hz => hts z (List.mem_cons_of_mem _ hz)) (fun z hz => by rw [List.mem_singleton.mp hz]; exact h3)
      (by rw [e2]; simp only [List.length_append, List.length_cons] at hlen ⊢; omega) (by simp at hk; omega)
    rw [e2, List.append_assoc, List.singleton_append] at ih
    exact ih

/-- What a loop that keeps copies does: it ends, with new objects that show `vs`, and `o` shows `v`; objects from before
are untouched.  Or memory runs out, and objects from before but `o` are untouched. -/
def Collects (cfg : Cfg UInt8) (s : St UInt8) (env : Env UInt8) (m : IM (List Nat)) (u : Bytes) (o : Nat) (vs : List Bytes) (v : Bytes) : Prop :=
  (∃ ids s', m (good u) s = (.ok ids s', ended) ∧ ids.Nodup ∧ (∀ i ∈ ids, env i = .dead) ∧
      ids.length = vs.length ∧ (∀ (i id : Nat) (l : Bytes), ids[i]? = some id → vs[i]? = some l → Shows s' id l) ∧ Shows s' o v ∧ OthersKeep env o s') ∨
    ∃ s' t, m (good u) s = (.throw .badAlloc s', t) ∧ Refused cfg.allocOk s s' ∧ OthersKeep env o s'

theorem collects_of (hv : cfg.Valid) (hp : cfg.Physical) {m : IM (List Nat)} {u v : Bytes} {o : Nat} {vs : List Bytes}
    (h : IRuns cfg m (good u) s (fun ids is' env' => is' = ended ∧ MakesAll (env.upd o (.val v)) vs ids env')
      (fun e _ env' => e = .badAlloc ∧ Around env o env')) : Collects cfg s env m u o vs v := by
  unfold IRuns Runs at h
  dsimp only at h
  unfold Collects
  cases hx : m (good u) s with
  | mk res q =>
    rw [hx] at h
    cases res with
    | ub => exact h.elim
    | ok ids s' =>
      obtain ⟨env', ⟨rfl, hm⟩, hr', -⟩ := h
      have hlen : ids.length = vs.length := by simpa using congrArg List.length hm.held
      have hne : o ∉ ids := fun hmm => by have := hm.fresh o hmm; rw [Env.upd_self] at this; cases this
      refine Or.inl ⟨ids, s', rfl, hm.nodup, fun i hi => ?_, hlen, fun i id l hid hl => hr'.shows hv hp ?_, hr'.shows hv hp ?_,
        fun p w hpo hw => hr'.shows hv hp ?_⟩
      · have := hm.fresh i hi
        rwa [Env.upd_ne (fun e : i = o => hne (e ▸ hi))] at this
      · have := congrArg (·[i]?) hm.held
        simp only [List.getElem?_map, hid, hl, Option.map_some] at this
        injection this
      · rw [hm.rest o hne, Env.upd_self]
      · rw [hm.around p hpo (live_val hw)]; exact hw
    | throw e s' =>
      obtain ⟨env', ⟨rfl, ha⟩, hr', -, hf⟩ := h
      exact Or.inr ⟨s', q, rfl, hf rfl, fun p w hpo hw => hr'.shows hv hp (by rw [ha p hpo (live_val hw)]; exact hw)⟩

/-- A loop on `getline` that keeps a copy of every line ended by a newline; the String that is read into is reused. -/
theorem c85_lines_partial (hv : cfg.Valid) (hp : cfg.Physical) (hn : cfg.nul = some 0) (hr : Reach cfg s env) {o : Nat} (ho : env.Live o)
    {ls : List Bytes} {last : Bytes} (hls : ∀ l ∈ ls, 10 ∉ l) (hlast : 10 ∉ last) {n k : Nat} (hf : (linesText ls ++ last).length < n)
    (hk : ls.length < k) : Collects cfg s env (keepLinesP cfg n o k []) (linesText ls ++ last) o ls last :=
  collects_of hv hp (runs_keepLinesP hv hp hn (env := env) (n := n) last hlast ls [] k [] (env o) hr ho (by rw [Env.upd_id rfl]; exact .nil) hls hf hk)

/-- A loop on `>>` that keeps a copy of every token with whitespace behind it. -/
theorem c85_tokens_partial (hv : cfg.Valid) (hp : cfg.Physical) (hn : cfg.nul = some 0) (hr : Reach cfg s env) {o : Nat} (ho : env.Live o)
    {ts : List (Bytes × Bytes × UInt8)} {w t : Bytes} (hts : ∀ x ∈ ts, Blank x.1 ∧ Token x.2.1 ∧ space x.2.2 = true) (hw : Blank w)
    (ht : t = [] ∨ Token t) {n k : Nat} (hf : ((ts.map fun x => x.1 ++ x.2.1 ++ [x.2.2]).flatten ++ w ++ t).length < n) (hk : ts.length < k) :
    Collects cfg s env (keepTokensP cfg n o k []) ((ts.map fun x => x.1 ++ x.2.1 ++ [x.2.2]).flatten ++ w ++ t) o (ts.map (·.2.1)) t :=
  collects_of hv hp (runs_keepTokensP hv hp hn (env := env) (n := n) hw ht ts [] [] k [] (env o) hr ho (by rw [Env.upd_id rfl]; exact .nil) hts
    (fun _ h => nomatch h) hf hk)

/-! ## Cases -/

/-- Object 1 shares its storage with objects 0 and 2. -/
example := c85_getline_partial byteCfg_valid byteCfg_physical rfl reachW (o := 1) (by intro h; cases h) (l := [120, 121]) (r := [122]) (by decide) (n := 3) (by decide)
example := c85_last_line_partial byteCfg_valid byteCfg_physical rfl reachW (o := 1) (by intro h; cases h) (l := [120, 121]) (by decide) (n := 3) (by decide)
example := c85_token_partial byteCfg_valid byteCfg_physical rfl reachW (o := 1) (by intro h; cases h) (w := [32]) (t := [120, 121]) (c := 10) (r := [122])
  (by unfold Blank; decide) (by unfold Token; decide) (by decide) (n := 3) (by decide)
example := c85_last_token_partial byteCfg_valid byteCfg_physical rfl reachW (o := 1) (by intro h; cases h) (w := [32]) (t := [120, 121])
  (by unfold Blank; decide) (by unfold Token; decide) (n := 3) (by decide)
example := c85_bad byteCfg_valid byteCfg_physical rfl reachW (o := 1) (by intro h; cases h) (is := ⟨[120], true, false⟩) (Or.inl rfl) (n := 3) (by decide) (Or.inl rfl)
example := c85_lines_partial byteCfg_valid byteCfg_physical rfl reachW (o := 1) (by intro h; cases h) (ls := [[120, 121], [], [122]]) (last := [119])
  (by decide) (by decide) (n := 9) (k := 4) (by decide) (by decide)
example := c85_tokens_partial byteCfg_valid byteCfg_physical rfl reachW (o := 1) (by intro h; cases h) (ts := [([32], [120, 121], 10), ([], [122], 9)])
  (w := [32]) (t := [119]) (by unfold Blank Token; decide) (by unfold Blank; decide) (Or.inr (by unfold Token; decide)) (n := 9) (k := 4) (by decide) (by decide)

/-- The contents of `o` and the stream afterwards. -/
def left (o : Nat) (r : Res UInt8 α × IStream) : Option Bytes × IStream :=
  (match r.1 with
    | .ok _ s | .throw _ s => got (.ok o s)
    | _ => none, r.2)

example : left 1 (getlineP byteCfg 3 1 (good [120, 121, 10, 122]) stW) = (some [120, 121], good [122]) ∧
    left 0 (getlineP byteCfg 3 1 (good [120, 121, 10, 122]) stW) = (some [97, 44, 98, 44, 97], good [122]) := by decide +kernel
example : left 1 (extractP byteCfg 3 1 (good [32, 120, 121, 10, 122]) stW) = (some [120, 121], good [10, 122]) := by decide +kernel
example : gotAll (keepLinesP byteCfg 9 1 4 [] (good [120, 121, 10, 10, 122, 10, 119]) stW).1 = some [some [120, 121], some [], some [122]] := by decide +kernel

/-! ## Refutation -/

/-- Like `byteCfg`, but the fourth request of memory is refused. -/
def scantCfg : Cfg UInt8 := { byteCfg with allocOk := fun g n => decide (n < maxCells) && decide (g ≠ 4) }

theorem scantCfg_valid : scantCfg.Valid := Or.inl rfl
theorem scantCfg_physical : scantCfg.Physical := by
  intro g n h
  simp [scantCfg]
  omega

/-- One empty String. -/
def stE : St UInt8 := (exec scantCfg {} [.ctor]).getD {}

theorem reachE : Reach scantCfg stE (Env.empty.upd 0 (.val [])) :=
  Reach.next scantCfg_valid scantCfg_physical .init (op := .ctor) (x := .obj 0) trivial rfl (fun h => h) ⟨0, rfl, rfl, rfl⟩

def threw : Res UInt8 α → Bool
  | .throw .badAlloc _ => true
  | _ => false

/-- Refutation: `getline` of `xyz` throws; the String holds less than what is gone from the stream. -/
theorem c85_refuted_lost : threw (getlineP scantCfg 9 0 (good [120, 121, 122, 10]) stE).1 = true ∧
    left 0 (getlineP scantCfg 9 0 (good [120, 121, 122, 10]) stE) = (some [120], good [122, 10]) := by decide +kernel

end Bdlib.Rca
