import Verif.Props.C73

/-!
# C108: streams whose contents are gone

A stream that was moved from, or whose `puts` failed, keeps its position, which then is behind its contents.  `clear()`, assignment and, after a
failed `puts`, `seek` make it a stream like any other; it can be destroyed.  Other calls are not safe.
-/

namespace Bdlib.Rca
open Bdlib Bdlib.Spec Bdlib.Str

variable {cfg : Cfg UInt8} {s : St UInt8} {env : Env UInt8} {pos : Positions}

/-- `Stream b(std::move(a))` as it is (`Stream.h` 58): the String is moved from, the position is copied, so stream `q` keeps it. -/
def moveKeeping (cfg : Cfg UInt8) (pos : Positions) (q : Nat) (s : St UInt8) : Res UInt8 (Out UInt8) × Positions := newStream pos (pos q) (moveCtor cfg q) s

/-- Stream `o`, at position `p`, is unfit for use: nothing is known of its contents.  All else is as it should be. -/
structure Unfit (cfg : Cfg UInt8) (s : St UInt8) (env : Env UInt8) (pos : Positions) (o p : Nat) : Prop where
  rest : Streams cfg s env (pos.set o none)
  stands : pos o = some p
  live : env.Live o

theorem Unfit.mend {o p q : Nat} {s' : St UInt8} {v : Bytes} (h : Unfit cfg s env pos o p) (hr : Reach cfg s' (env.upd o (.val v)))
    (hq : q ≤ v.length) (hm : v.length ≤ maxInt) : Streams cfg s' (env.upd o (.val v)) (pos.set o (some q)) := by
  have := h.rest.next hr (o := o) (q := q) (fun k _ hne _ => by rw [Env.upd_ne hne]) ⟨v, Env.upd_self, hq, hm⟩
  have e : (pos.set o none).set o (some q) = pos.set o (some q) := by
    funext k; unfold Positions.set; split <;> rfl
  rwa [e] at this

theorem PRuns.returns {α : Type} {m : PM α} {p : Nat} {Q : α → Nat → Env UInt8 → Prop} (h : PRuns cfg m p s Q fun _ _ _ => False) :
    ∃ a s' q env', m p s = (.ok a s', q) ∧ s.gen ≤ s'.gen ∧ Q a q env' ∧ Reach cfg s' env' := by
  unfold PRuns Runs at h
  cases hx : m p s with
  | mk r q =>
    simp only [hx] at h
    cases r with
    | ub => exact h.elim
    | throw e s' => obtain ⟨_, h, _⟩ := h; exact h.elim
    | ok a s' => obtain ⟨env', h1, h2, h3⟩ := h; exact ⟨a, s', q, env', rfl, h3, h1, h2⟩

/-- A stream that was moved from is unfit; the new stream has its contents and position, and nothing else changed. -/
theorem c108_moved (hv : cfg.Valid) (hp : cfg.Physical) (h : Streams cfg s env pos) {q p : Nat} (hq : pos q = some p) :
    ∃ n s', moveKeeping cfg pos q s = (.ok (.obj n) s', pos.set n (some p)) ∧ env n = .dead ∧
      Unfit cfg s' ((env.upd q (movedSlot cfg)).upd n (env q)) (pos.set n (some p)) q p := by
  have hm := c73_call hv hp h (c := .move q) (by show (pos q).isSome; rw [hq]; rfl)
  unfold moveKeeping
  simp only [execStream] at hm
  unfold newStream at hm ⊢
  cases hc : moveCtor cfg q s with
  | ub => rw [hc] at hm; exact hm.elim
  | throw e s' => rw [hc] at hm; obtain ⟨-, -, env', hf, -⟩ := hm; exact hf.elim
  | ok n s' =>
    rw [hc] at hm
    obtain ⟨env', ⟨m, h1, h2, rfl, -⟩, h3⟩ := hm
    cases h1
    have hne : q ≠ n := h.not_dead hq h2
    refine ⟨n, s', by rw [hq], h2, ?_, by rw [Positions.set_ne hne]; exact hq, ?_⟩
    · rw [hq] at h3
      have e : (pos.set n (some p)).set q none = (pos.set q none).set n (some p) := by
        funext k
        unfold Positions.set
        by_cases e1 : k = q
        · by_cases e2 : k = n
          · exact absurd (e1.symm.trans e2) hne
          · rw [if_pos e1, if_neg e2, if_pos e1]
        · rw [if_neg e1, if_neg e1]
      rw [e]; exact h3
    · unfold Env.Live
      rw [Env.upd_ne hne, Env.upd_self]
      exact movedSlot_live cfg

/-- A stream whose `puts` failed is unfit: it has its contents, or none, and its position; nothing else changed. -/
theorem c108_failed (hv : cfg.Valid) (hp : cfg.Physical) (h : Streams cfg s env pos) {o r p : Nat} (ho : pos o = some p) (hm : May env pos (.puts o r))
    {e : Exc} {s' : St UInt8} {pos' : Positions} (hx : execStream cfg pos (.puts o r) s = (.throw e s', pos')) :
    e = .badAlloc ∧ pos' = pos ∧ ∃ env', (env' = env ∨ env' = env.upd o (.val [])) ∧ Unfit cfg s' env' pos o p := by
  have hc := c73_call hv hp h hm
  rw [hx] at hc
  obtain ⟨rfl, -, env', hf, hr⟩ := hc
  have hs := fails_keep h hm hf hr
  obtain ⟨h1, rfl⟩ := hf
  refine ⟨rfl, rfl, env', h1, hs, ho, ?_⟩
  obtain ⟨v, h2, -⟩ := h.inside o p ho
  rcases h1 with rfl | rfl
  · exact live_val h2
  · exact live_val Env.upd_self

/-- `clear()` makes it an empty stream. -/
theorem c108_clear (hv : cfg.Valid) (hp : cfg.Physical) {o p : Nat} (h : Unfit cfg s env pos o p) :
    ∃ s', execStream cfg pos (.clear o) s = (.ok .unit s', pos.set o (some 0)) ∧ Streams cfg s' (env.upd o (.val [])) (pos.set o (some 0)) := by
  have hc : PRuns cfg (clearS o) p s (fun _ q env' => q = 0 ∧ env' = env.upd o (.val [])) fun _ _ _ => False := by
    unfold clearS
    refine PRuns.bind (PRuns.lift (Q := fun _ _ env' => env' = env.upd o (.val []))
      (runs_op hv hp h.rest.reach (op := .clear o) rfl h.live (fun _ _ h => h.2) fun _ _ h => nomatch h.1)) ?_
    rintro _ _ s1 _ hr1 rfl
    exact PRuns.goto hr1 ⟨rfl, rfl⟩
  obtain ⟨_, s', q', env', h1, h2, ⟨rfl, rfl⟩, hr⟩ := PRuns.returns hc
  refine ⟨s', ?_, h.mend hr (Nat.le_refl _) (Nat.zero_le _)⟩
  simp only [execStream]
  unfold onStream
  rw [h.stands]
  dsimp only [Option.getD_some]
  rw [h1]

/-- Assigning another stream makes it a stream with that one's contents and position. -/
theorem c108_assign (hv : cfg.Valid) (hp : cfg.Physical) {o p r q : Nat} (h : Unfit cfg s env pos o p) (hne : r ≠ o) (hr : pos r = some q) :
    ∃ s', execStream cfg pos (.assign o r) s = (.ok .unit s', pos.set o (some q)) ∧ Streams cfg s' (env.upd o (env r)) (pos.set o (some q)) := by
  obtain ⟨w, hw, hle, hmx⟩ := h.rest.inside r q (by rw [Positions.set_ne hne]; exact hr)
  have hc : PRuns cfg (assignS cfg o r q) p s (fun _ q' env' => q' = q ∧ env' = env.upd o (.val w)) fun _ _ _ => False := by
    unfold assignS
    refine PRuns.bind (Q' := fun _ _ env' => env' = env.upd o (.val w)) (PRuns.lift ?_) (by
      rintro _ _ s1 _ hr1 rfl
      exact PRuns.goto hr1 ⟨rfl, rfl⟩)
    refine runs_withLocal (v := w) (env := env) hv hp (runs_copyCtor hv hp h.rest.reach hw) fun t s1 hd hr1 => ?_
    have hot : o ≠ t := dead_ne hd h.live
    refine Runs.mono (runs_op hv hp hr1 (op := .swap o t) (Q := fun _ env' => env' = (((env.upd t (.val w)).upd o (.val w)).upd t (env o)))
      (E := fun _ _ => False) rfl ⟨by rw [Env.Live, Env.upd_ne hot]; exact h.live, live_val Env.upd_self⟩ ?_ ?_) ?_ fun _ _ h => h.elim
    · intro _ env' h'
      have := h'.2
      rw [Env.upd_self, Env.upd_ne hot] at this
      exact this
    · intro _ _ h'; cases h'.1
    · rintro _ env' rfl
      refine ⟨by rw [Env.Live, Env.upd_self]; exact h.live, ?_⟩
      funext k
      by_cases e1 : k = t
      · rw [e1, Env.upd_self, Env.upd_ne (Ne.symm hot), hd]
      · rw [Env.upd_ne e1, Env.upd_ne e1]
        by_cases e2 : k = o
        · rw [e2, Env.upd_self, Env.upd_self]
        · rw [Env.upd_ne e2, Env.upd_ne e2, Env.upd_ne e1]
  obtain ⟨_, s', q', env', h1, h2, ⟨rfl, rfl⟩, hr'⟩ := PRuns.returns hc
  rw [hw]
  refine ⟨s', ?_, h.mend hr' hle hmx⟩
  simp only [execStream]
  unfold onStream
  rw [h.stands, hr]
  dsimp only [Option.getD_some]
  rw [h1]

/-- `seek`, if the contents are there. -/
theorem c108_seek (hv : cfg.Valid) (hp : cfg.Physical) {o p k : Nat} (h : Unfit cfg s env pos o p) {v : Bytes} (ho : env o = .val v)
    (hk : k ≤ v.length) (hmx : v.length ≤ maxInt) :
    ∃ s', execStream cfg pos (.seek o k) s = (.ok (.num k) s', pos.set o (some k)) ∧ Streams cfg s' env (pos.set o (some k)) := by
  have hc := runs_seek hv hp h.rest.reach ho k .set (p := p) (E := fun _ _ _ => False)
  obtain ⟨x, s', q', env', h1, h2, ⟨rfl, c, s2, hcp, hcl, hs⟩, hr⟩ := PRuns.returns hc
  have : Stm.seek ⟨v, c, p, false⟩ k .set = ((k : Int), ⟨v, c, k, false⟩) := by
    unfold Stm.seek Stm.newpos Stm.clampPos
    unfold maxInt at hmx
    dsimp only
    rw [if_neg (by omega), if_neg (by omega)]
    congr 2
    unfold two64
    omega
  rw [this] at hs
  simp only [Prod.mk.injEq, Stm.Stream.mk.injEq, true_and, and_true] at hs
  obtain ⟨rfl, rfl⟩ := hs
  have hf := h.mend (q := k) (by rw [Env.upd_id ho]; exact hr) hk hmx
  rw [Env.upd_id ho] at hf
  refine ⟨s', ?_, hf⟩
  simp only [execStream]
  unfold onStream
  rw [h.stands]
  dsimp only [Option.getD_some]
  rw [h1]
  rfl

/-- It can be destroyed. -/
theorem c108_drop (hv : cfg.Valid) (hp : cfg.Physical) {o p : Nat} (h : Unfit cfg s env pos o p) :
    ∃ s', execStream cfg pos (.drop o) s = (.ok .unit s', pos.set o none) ∧ Streams cfg s' (env.upd o .dead) (pos.set o none) := by
  have hc := runs_destroy hv hp h.rest.reach h.live (E := fun _ _ => False)
  unfold Runs at hc
  simp only [execStream]
  cases hx : destroy cfg o s with
  | ub => rw [hx] at hc; exact hc.elim
  | throw e s' => rw [hx] at hc; obtain ⟨_, hc, _⟩ := hc; exact hc.elim
  | ok _ s' =>
    rw [hx] at hc
    obtain ⟨_, rfl, hr, -⟩ := hc
    refine ⟨s', rfl, hr, fun k p' hk => ?_⟩
    have hne : k ≠ o := fun e => by rw [e, Positions.set_self] at hk; cases hk
    rw [Env.upd_ne hne]
    exact h.rest.inside k p' hk

/-! ## Cases -/

/-- A stream over `abc` (handle 2; the Strings 0 and 1 are `abc` and `x`) at position 2 is moved (to handle 3). -/
def spent (cfg : Cfg UInt8) : Option (St UInt8 × Positions) :=
  match execStream cfg (fun _ => none) (.make 0) ((exec cfg {} [.cstrCtor [97, 98, 99], .cstrCtor [120]]).getD {}) with
  | (.ok _ s, pos) =>
    match execStream cfg pos (.seek 2 2) s with
    | (.ok _ s, pos) =>
      match moveKeeping cfg pos 2 s with
      | (.ok _ s, pos) => some (s, pos)
      | _ => none
    | _ => none
  | _ => none

/-- How a call ended: the position of stream 2, and what text was returned or, with no result, what text stream 2 has. -/
inductive Then where
  | num (n : Nat) (q : Option Nat)
  | unit (q : Option Nat) (v : Option Bytes)
  | text (q : Option Nat) (v : Option Bytes)
  | threw (e : Exc) (q : Option Nat)
  | undefined
  | lost
  deriving DecidableEq

def andThen (cfg : Cfg UInt8) (c : StreamCall) : Then :=
  match spent cfg with
  | none => .lost
  | some (s, pos) =>
    match execStream cfg pos c s with
    | (.ok (.num n) _, pos) => .num n (pos 2)
    | (.ok .unit s, pos) => .unit (pos 2) (got (.ok 2 s))
    | (.ok (.obj n) s, pos) => .text (pos 2) (got (.ok n s))
    | (.ok _ _, _) => .lost
    | (.throw e _, pos) => .threw e (pos 2)
    | (.ub, _) => .undefined

/-- The library as its tests build it: what was moved from is empty. -/
def testByte : Cfg UInt8 := { byteCfg with resetMoved := true }

/-- The new stream has the contents and the position; the old one can be cleared, and assigned to. -/
example : andThen byteCfg (.text 3) = .text (some 2) (some [97, 98, 99]) ∧ andThen byteCfg (.tell 3) = .num 2 (some 2) ∧
    andThen byteCfg (.clear 2) = .unit (some 0) (some []) ∧ andThen byteCfg (.assign 2 3) = .unit (some 2) (some [97, 98, 99]) := by
  decide +kernel

/-- Used again without that, a stream that was moved from still has its length, no text, and is undefined to read a line of.  `puts` succeeds, and
writes `x` behind two bytes nobody wrote (what the memory happened to hold: 170 here). -/
theorem c108_refuted_moved : andThen byteCfg (.length 2) = .num 3 (some 2) ∧ andThen byteCfg (.text 2) = .text (some 2) none ∧
    andThen byteCfg (.getline 2) = .undefined ∧ andThen byteCfg (.puts 2 1) = .unit (some 3) (some [170, 170, 120]) := by
  decide +kernel

/-- In the build for tests it is empty, and its position is still 2: `puts` throws `out_of_range`, `getline()` finds no memory for 2^64 - 2 bytes, reading
up to a letter is undefined, and reading one letter reads none and moves the position on. -/
theorem c108_refuted_empty : andThen testByte (.length 2) = .num 0 (some 2) ∧ andThen testByte (.puts 2 1) = .threw .outOfRange (some 2) ∧
    andThen testByte (.getline 2) = .threw .badAlloc (some 2) ∧ andThen testByte (.readTo 2 5 10) = .undefined ∧
    andThen testByte (.read 2 1) = .text (some 3) (some []) := by
  decide +kernel

/-- The hypotheses are met: a stream is made of the second String, and moved. -/
example : ∃ n s1 pos1, execStream byteCfg (fun _ => none) (.make 1) stW = (.ok (.obj n) s1, pos1) ∧ ∃ m s2, moveKeeping byteCfg pos1 n s1 =
    (.ok (.obj m) s2, pos1.set m (some 0)) ∧ ∃ s3, execStream byteCfg (pos1.set m (some 0)) (.clear n) s2 = (.ok .unit s3, (pos1.set m (some 0)).set n (some 0)) := by
  have h := c73_call byteCfg_valid byteCfg_physical streamsW (c := .make 1) ⟨rfl, ⟨_, rfl⟩, by decide⟩
  cases hx : execStream byteCfg (fun _ => none) (.make 1) stW with
  | mk r pos1 =>
    rw [hx] at h
    cases r with
    | ub => exact h.elim
    | throw e s' => obtain ⟨-, -, _, hf, -⟩ := h; exact hf.elim
    | ok x s1 =>
      obtain ⟨env', ⟨n, rfl, -, -, rfl⟩, hs⟩ := h
      obtain ⟨m, s2, h2, -, hu⟩ := c108_moved byteCfg_valid byteCfg_physical hs (q := n) (p := 0) (by rw [Positions.set_self])
      obtain ⟨s3, h3, -⟩ := c108_clear byteCfg_valid byteCfg_physical hu
      exact ⟨n, s1, _, rfl, m, s2, h2, s3, h3⟩

/-- A `puts` that failed, and the calls after it. -/
example : ∃ s1 env1, execStream tightByte posFull (.puts 1 2) stFull = (.throw .badAlloc s1, posFull) ∧ Unfit tightByte s1 env1 posFull 1 2 := by
  obtain ⟨hm, s1, pos1, s2, pos2, h1, -, -, -⟩ := c73_refuted_puts
  obtain ⟨-, rfl, env1, -, hu⟩ := c108_failed (cfg := tightByte) byteCfg_valid tightByte_physical streamsFull (o := 1) (p := 2) rfl hm h1
  exact ⟨s1, env1, h1, hu⟩

end Bdlib.Rca
