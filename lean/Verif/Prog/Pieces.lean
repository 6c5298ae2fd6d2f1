import Verif.Prog.Build

/-!
# Compound functions: several replacements, splitting, joining, and the small operators
-/

namespace Bdlib.Rca
open Bdlib Bdlib.Spec Bdlib.Str

section
variable {cfg : Cfg UInt8} {s : St UInt8} {env env0 : Env UInt8} {E : Exc → Env UInt8 → Prop} {ls : List Nat}

theorem movedSlot_live {T : Type} (cfg : Cfg T) : movedSlot cfg ≠ .dead := by
  unfold movedSlot; split <;> nofun

theorem runs_moveAssign {T : Type} [DecidableEq T] {cfg : Cfg T} {s : St T} {env : Env T} {E : Exc → Env T → Prop}
    (hv : cfg.Valid) (hp : cfg.Physical) (hr : Reach cfg s env) {o r : Nat} {v w : List T} (ho : env o = .val v)
    (hw : env r = .val w) (hne : o ≠ r) :
    Runs cfg (moveAssign cfg o r) s (fun _ env' => env' = (env.upd r (movedSlot cfg)).upd o (.val w)) E :=
  runs_op hv hp hr (op := .moveAssign o r) rfl ⟨live_val ho, live_val hw⟩
    (fun a env' h => by
      have := h.2
      rw [if_neg hne] at this
      rw [this, hw])
    (fun e env' h => nomatch h.1)

/-! ## subst -/

theorem runs_substLoopP (hv : cfg.Valid) (hp : cfg.Physical) {L : Libc} {fuel new : Nat} (hdn : env0 new = .dead) :
    ∀ (kvs : List (Nat × Nat)) (kws : List (Bytes × Bytes)) (v : Bytes) {r : Bytes} {s : St UInt8},
      Reach cfg s (env0.upd new (.val v)) →
      kvs.map (fun x => (env0 x.1, env0 x.2)) = kws.map (fun x => (Slot.val x.1, Slot.val x.2)) →
      (∀ i w, subst L fuel (kws.take i) v = .ret w → w.length ≤ maxInt) →
      subst L fuel kws v = .ret r →
      Runs cfg (substLoopP cfg L fuel new kvs) s (fun _ env' => env' = env0.upd new (.val r)) (Mess env0 [new])
  | [], [], v, r, s, hr, _, _, hf => by
    cases hf
    exact Runs.pure hr rfl
  | [], _ :: _, _, _, _, _, hm, _, _ => by cases hm
  | _ :: _, [], _, _, _, _, hm, _, _ => by cases hm
  | (ko, ro) :: kvs, (k, rp) :: kws, v, r, s, hr, hm, hl, hf => by
    simp at hm
    obtain ⟨⟨hk, hrp⟩, hm⟩ := hm
    unfold subst at hf
    cases hsb : sub L fuel v k rp (-1) with
    | exc e => rw [hsb] at hf; cases hf
    | ub => rw [hsb] at hf; cases hf
    | more => rw [hsb] at hf; cases hf
    | ret w =>
      rw [hsb, Eff.ret_bind] at hf
      unfold substLoopP
      have lk : ∀ {p : Nat} {x : Bytes}, env0 p = .val x → (env0.upd new (.val v)) p = .val x := fun h => by
        rw [Env.upd_ne (dead_ne hdn (live_val h)), h]
      have h0 : v.length ≤ maxInt := hl 0 v (by simp [subst])
      refine Runs.bind (Q' := fun _ env' => env' = env0.upd new (.val w)) (runs_withLocal hv hp
        (Runs.mono (runs_subP hv hp hr Env.upd_self (lk hk) (lk hrp) h0 hsb) (fun _ _ h => h) fun e env' h => ?_) fun t s1 hdt hr1 => ?_)
        fun _ s2 env2 hr2 e => ?_
      · exact h.mess (fun p hp => by rw [Env.upd_ne (by simpa using hp)]) (fun p hp => by
          simp at hp; subst hp; exact live_val Env.upd_self)
      · have hne : new ≠ t := dead_ne hdt (live_val Env.upd_self)
        refine Runs.mono (runs_moveAssign (E := fun _ _ => False) hv hp hr1 (o := new) (r := t) (by rw [Env.upd_ne hne, Env.upd_self]) Env.upd_self hne)
          (fun _ env' e => ?_) (fun _ _ h => h.elim)
        subst e
        have hdt' : env0 t = .dead := by rw [← hdt, Env.upd_ne hne.symm]
        refine ⟨fun hc => ?_, ?_⟩
        · rw [Env.upd_ne hne.symm, Env.upd_self] at hc
          exact movedSlot_live cfg hc
        · env_eq
      · subst e
        refine runs_substLoopP hv hp hdn kvs kws w hr2 (by simpa using hm) (fun i x hx => hl (i + 1) x ?_) hf
        simp only [List.take_succ_cons]
        unfold subst
        rw [hsb, Eff.ret_bind]
        exact hx

theorem runs_substP (hv : cfg.Valid) (hp : cfg.Physical) {L : Libc} (hr : Reach cfg s env) {fuel o : Nat} {kvs : List (Nat × Nat)}
    {kws : List (Bytes × Bytes)} {v r : Bytes} (h : env o = .val v)
    (hm : kvs.map (fun x => (env x.1, env x.2)) = kws.map (fun x => (Slot.val x.1, Slot.val x.2)))
    (hl : ∀ i w, subst L fuel (kws.take i) v = .ret w → w.length ≤ maxInt) (hf : subst L fuel kws v = .ret r) :
    Runs cfg (substP cfg L fuel o kvs) s (Returns env r) (NoMemory env) := by
  unfold substP
  refine runs_building hv hp (runs_copyCtor hv hp hr h) fun new s1 hdn hr1 => ?_
  exact Runs.mono (runs_substLoopP hv hp hdn kvs kws v hr1 hm hl hf) (fun _ _ e => ⟨hdn, e⟩)
    fun e env' h => ⟨(h.drop hdn (by simp)).1, (h.drop hdn (by simp)).2.nil⟩

/-! ## split -/

/-- New objects `ids` hold `vs`; nothing else changed. -/
structure MakesAll (env : Env UInt8) (vs : List Bytes) (ids : List Nat) (env' : Env UInt8) : Prop where
  fresh : ∀ p ∈ ids, env p = .dead
  nodup : ids.Nodup
  held : ids.map env' = vs.map .val
  rest : ∀ p, p ∉ ids → env' p = env p

theorem MakesAll.nil : MakesAll env [] [] env := ⟨fun _ h => (nomatch h), by simp, rfl, fun _ _ => rfl⟩

theorem MakesAll.live {vs : List Bytes} {ids : List Nat} {env' : Env UInt8} (h : MakesAll env vs ids env') {p : Nat} (hp : p ∈ ids) :
    env'.Live p := by
  have : env' p ∈ ids.map env' := List.mem_map_of_mem hp
  rw [h.held] at this
  simp at this
  obtain ⟨w, -, hw⟩ := this
  exact live_val hw.symm

theorem MakesAll.snoc {vs : List Bytes} {ids : List Nat} {env' : Env UInt8} (h : MakesAll env vs ids env') {o : Nat} {w : Bytes}
    (hd : env' o = .dead) : MakesAll env (vs ++ [w]) (ids ++ [o]) (env'.upd o (.val w)) := by
  have ho : o ∉ ids := fun hm => h.live hm hd
  refine ⟨fun p hp => ?_, ?_, ?_, fun p hp => ?_⟩
  · simp at hp
    rcases hp with hp | rfl
    · exact h.fresh p hp
    · rw [← h.rest p ho, hd]
  · rw [List.nodup_append]
    refine ⟨h.nodup, by simp, fun a ha b hb e => ?_⟩
    simp at hb
    exact ho (by rw [← hb, ← e]; exact ha)
  · rw [List.map_append, List.map_append, ← h.held]
    congr 1
    · exact List.map_congr_left fun p hp => Env.upd_ne (fun e : p = o => ho (e ▸ hp))
    · simp [Env.upd_self]
  · simp at hp
    rw [Env.upd_ne hp.2]
    exact h.rest p hp.1

theorem MakesAll.keep {vs : List Bytes} {ids : List Nat} {env' : Env UInt8} (h : MakesAll env vs ids env') {p : Nat} (hp : env.Live p) :
    env' p = env p := h.rest p fun hm => hp (h.fresh p hm)

theorem runs_splitLoopP (hv : cfg.Valid) (hp : cfg.Physical) {L : Libc} {o delim cap : Nat} {v d : Bytes} (ho : env o = .val v)
    (hd : env delim = .val d) (hl : v.length ≤ maxInt) :
    ∀ (fuel it : Nat) (vs : List Bytes) (ids : List Nat) {it' : Nat} {vs' : List Bytes} {s : St UInt8} {env1 : Env UInt8},
      Reach cfg s env1 → MakesAll env vs ids env1 → splitLoop L v d cap fuel it vs = .ret (it', vs') →
      Runs cfg (splitLoopP L o delim cap fuel it ids) s (fun r env' => r.1 = it' ∧ MakesAll env vs' r.2 env') E := by
  intro fuel
  induction fuel with
  | zero => intro it vs ids it' vs' s env1 _ _ hf; cases hf
  | succ fuel ih =>
    intro it vs ids it' vs' s env1 hr hm hf
    have hlen : ids.length = vs.length := by
      have := congrArg List.length hm.held
      simpa using this
    unfold splitLoop at hf
    unfold splitLoopP
    rw [hlen]
    by_cases hc : ¬ vs.length < cap
    · rw [if_pos hc] at hf ⊢
      cases hf
      exact Runs.pure hr ⟨rfl, hm⟩
    · rw [if_neg hc] at hf ⊢
      have ho1 := (hm.keep (live_val ho)).trans ho
      have hd1 := (hm.keep (live_val hd)).trans hd
      refine Runs.bind (runs_contents hv hp hr ho1) fun v1 s1 env2 hr1 e => ?_
      obtain ⟨e1, rfl⟩ := e
      subst v1
      refine Runs.bind (runs_contents hv hp hr1 hd1) fun d1 s2 env3 hr2 e => ?_
      obtain ⟨e1, rfl⟩ := e
      subst d1
      dsimp only at hf ⊢
      by_cases hi : trimIt v d it ≥ v.length
      · rw [if_pos hi] at hf ⊢
        cases hf
        exact Runs.pure hr2 ⟨rfl, hm⟩
      · rw [if_neg hi] at hf ⊢
        cases hfi : find_ L v d (trimIt v d it) with
        | exc e => rw [hfi] at hf; cases hf
        | ub => rw [hfi] at hf; cases hf
        | more => rw [hfi] at hf; cases hf
        | ret p =>
          rw [hfi, Eff.ret_bind] at hf
          refine Runs.bind (runs_liftE rfl hr2) fun p' s3 env4 hr3 e => ?_
          obtain ⟨e1, rfl⟩ := e
          subst p'
          have hq : (if p = npos then v.length - trimIt v d it else p) ≤ v.length := by
            rcases find_le hfi with h | h
            · rw [if_pos h]; omega
            · split <;> omega
          generalize (if p = npos then v.length - trimIt v d it else p) = q at hf hq ⊢
          rw [slice_nat hl hq, Eff.ret_bind] at hf
          refine Runs.bind (runs_substring hv hp hr3 ho1 (sliceOk_nat (i := trimIt v d it) hl hq)) fun piece s4 env5 hr4 e => ?_
          obtain ⟨hd4, rfl⟩ := e
          refine ih _ _ _ hr4 (hm.snoc hd4) ?_
          rw [sliceSpec_nat]
          exact hf

theorem runs_charCtor (hv : cfg.Valid) (hp : cfg.Physical) (hn : cfg.nul = some 0) (hr : Reach cfg s env) (c : UInt8) (hE : E .badAlloc env) :
    Runs cfg (charCtor cfg 0 c) s (fun o env' => env o = .dead ∧ env' = env.upd o (.val [c])) E :=
  runs_op hv hp hr (op := .charCtor c) (f := .obj) (by unfold run; rw [hn]) (by show cfg.nul.isSome = true; rw [hn]; rfl)
    (fun a env' h => by
      rcases h with ⟨o, h1, h2, h3⟩ | ⟨h, -⟩
      · cases h2; exact ⟨h1, h3⟩
      · cases h)
    (fun e env' h => by
      rcases h with ⟨o, h1, h2, h3⟩ | ⟨h, h2⟩
      · cases h2
      · cases h; rw [h2]; exact hE)

theorem runs_splitP (hv : cfg.Valid) (hp : cfg.Physical) (hn : cfg.nul = some 0) {L : Libc} (hr : Reach cfg s env)
    {fuel o delim limit : Nat} {v d : Bytes} {vs : List Bytes} (ho : env o = .val v) (hd : env delim = .val d) (hl : v.length ≤ maxInt)
    (hf : split L fuel v d limit = .ret vs) :
    Runs cfg (splitP cfg L fuel o delim limit) s (fun ids env' => MakesAll env vs ids env') (NoMemory env) := by
  unfold splitP
  unfold split at hf
  refine Runs.bind (runs_length hv hp hr ho) fun n s1 env1 hr1 e => ?_
  obtain ⟨e1, rfl⟩ := e
  subst n
  by_cases h0 : v.length = 0
  · rw [if_pos h0] at hf ⊢
    cases hf
    exact Runs.pure hr1 MakesAll.nil
  rw [if_neg h0] at hf ⊢
  by_cases h1 : limit = 1
  · rw [if_pos h1] at hf ⊢
    cases hf
    refine Runs.bind (runs_copyCtor hv hp hr1 ho) fun c s2 env2 hr2 e => ?_
    obtain ⟨hdc, rfl⟩ := e
    exact Runs.pure hr2 (MakesAll.nil.snoc hdc)
  rw [if_neg h1] at hf ⊢
  cases hlp : splitLoop L v d (sub64 limit 1) fuel 0 [] with
  | exc e => rw [hlp] at hf; cases hf
  | ub => rw [hlp] at hf; cases hf
  | more => rw [hlp] at hf; cases hf
  | ret x =>
    obtain ⟨it, vs1⟩ := x
    rw [hlp, Eff.ret_bind] at hf
    dsimp only at hf
    refine runs_withLocal hv hp (runs_charCtor hv hp hn hr1 32 ⟨rfl, rfl⟩) fun t s2 hdt hr2 => ?_
    have hot : (env1.upd t (.val [32])) o = .val v := by rw [Env.upd_ne (dead_ne hdt (live_val ho)), ho]
    have hdt' : (env1.upd t (.val [32])) delim = .val d := by rw [Env.upd_ne (dead_ne hdt (live_val hd)), hd]
    have hlt : (env1.upd t (.val [32])).Live t := live_val Env.upd_self
    have fin : ∀ {ws : List Bytes} {ids : List Nat} {env' : Env UInt8}, MakesAll (env1.upd t (.val [32])) ws ids env' →
        env'.Live t ∧ MakesAll env1 ws ids (env'.upd t .dead) := fun {ws ids env'} h => by
      have ht : t ∉ ids := fun hm => hlt (h.fresh t hm)
      refine ⟨fun hc => hlt (by rw [← h.keep hlt]; exact hc), fun p hp => ?_, h.nodup, ?_, fun p hp => ?_⟩
      · have hne : p ≠ t := fun e => ht (e ▸ hp)
        rw [← h.fresh p hp, Env.upd_ne hne]
      · rw [← h.held]
        exact List.map_congr_left fun p hp => Env.upd_ne (fun e : p = t => ht (e ▸ hp))
      · by_cases e : p = t
        · subst e; rw [Env.upd_self, hdt]
        · rw [Env.upd_ne e, h.rest p hp, Env.upd_ne e]
    refine Runs.bind (runs_splitLoopP hv hp hot hdt' hl fuel 0 [] [] hr2 MakesAll.nil hlp) fun r s3 env3 hr3 e => ?_
    obtain ⟨it', ids⟩ := r
    obtain ⟨e1, hm⟩ := e
    dsimp only at e1 hm ⊢
    subst e1
    by_cases h2 : limit ≠ npos
    · rw [if_pos h2] at hf ⊢
      have ho3 := (hm.keep (live_val hot)).trans hot
      have hd3 := (hm.keep (live_val hdt')).trans hdt'
      refine Runs.bind (runs_contents hv hp hr3 ho3) fun v1 s4 env4 hr4 e => ?_
      obtain ⟨e1, rfl⟩ := e
      subst v1
      refine Runs.bind (runs_contents hv hp hr4 hd3) fun d1 s5 env5 hr5 e => ?_
      obtain ⟨e1, rfl⟩ := e
      subst d1
      refine Runs.bind (runs_substring hv hp hr5 ho3 (sliceOk_rest (i := trimIt v d it') hl)) fun piece s6 env6 hr6 e => ?_
      obtain ⟨hd6, rfl⟩ := e
      rw [slice_rest hl, Eff.ret_bind] at hf
      cases hf
      have := hm.snoc (w := sliceSpec v (trimIt v d it') (-1)) hd6
      rw [sliceSpec_rest] at this
      rw [sliceSpec_rest] at hr6
      exact Runs.pure hr6 (fin this)
    · rw [if_neg h2] at hf ⊢
      cases hf
      exact Runs.pure hr3 (fin hm)

/-! ## join -/

theorem runs_totalP (hv : cfg.Valid) (hp : cfg.Physical) {env : Env UInt8} {E : Exc → Env UInt8 → Prop} : ∀ (os : List Nat) (a : List Bytes) {s : St UInt8}, Reach cfg s env →
    os.map env = a.map .val → Runs cfg (totalP os) s (fun n env' => n = totalLength a ∧ env' = env) E
  | [], [], s, hr, _ => Runs.pure hr ⟨rfl, rfl⟩
  | [], _ :: _, _, _, h => by cases h
  | _ :: _, [], _, _, h => by cases h
  | o :: os, x :: a, s, hr, h => by
    simp at h
    unfold totalP
    refine Runs.bind (runs_length hv hp hr h.1) fun n s1 env1 hr1 e => ?_
    obtain ⟨e1, e2⟩ := e
    subst n
    subst e2
    refine Runs.bind (runs_totalP hv hp os a hr1 h.2) fun n s2 env2 hr2 e => ?_
    obtain ⟨e1, rfl⟩ := e
    subst n
    exact Runs.pure hr2 ⟨by simp [totalLength], rfl⟩

theorem runs_quotedP (hv : cfg.Valid) (hp : cfg.Physical) (hn : cfg.nul = some 0) (hr : Reach cfg s env) {o : Nat} {v : Bytes}
    (h : env o = .val v) : Runs cfg (quotedP cfg o) s (Returns env ([34] ++ v ++ [34])) (NoMemory env) := by
  unfold quotedP
  refine runs_building hv hp (runs_charCtor hv hp hn hr 34 ⟨rfl, rfl⟩) fun t s1 hdt hr1 => ?_
  have hot : (env.upd t (.val [34])) o = .val v := by rw [Env.upd_ne (dead_ne hdt (live_val h)), h]
  have fin : ∀ {e : Exc} {env' : Env UInt8}, Mess env [t] e env' → env'.Live t ∧ NoMemory env e (env'.upd t .dead) :=
    fun h => ⟨(h.drop hdt (by simp)).1, (h.drop hdt (by simp)).2.nil⟩
  have out : ∀ (w : Bytes) (p : Nat), p ∉ [t] → (env.upd t (.val w)) p = env p := fun w p h => by rw [Env.upd_ne (by simpa using h)]
  have lv : ∀ (w : Bytes), ∀ p ∈ [t], (env.upd t (.val w)).Live p := fun w p h => by
    simp at h; subst h; exact live_val Env.upd_self
  refine Runs.bind (runs_appendAll hv hp hr1 Env.upd_self hot fun e env' h => fin (h.mess (out _) (lv _) (by simp))) fun _ s2 env2 hr2 e => ?_
  subst e
  rw [Env.upd_upd] at hr2
  refine Runs.mono (runs_withLocal (Q := fun _ env' => env' = env.upd t (.val ([34] ++ v ++ [34]))) (E := Mess env [t]) hv hp
    (runs_charCtor hv hp hn hr2 34 (NoMemory.mess ⟨rfl, rfl⟩ (out _) (lv _))) fun q s3 hdq hr3 => ?_) (fun _ _ e => ⟨hdt, e⟩) fun _ _ h => fin h
  have hne : t ≠ q := dead_ne hdq (live_val Env.upd_self)
  have hdq' : env q = .dead := by rw [← hdq, Env.upd_ne hne.symm]
  refine Runs.mono (runs_appendAll (E := Mess env [q, t]) hv hp hr3 (v := [34] ++ v) (w := [34]) (by rw [Env.upd_ne hne, Env.upd_self]) Env.upd_self
    fun e env' h => h.mess (fun p hp => ?_) (fun p hp => ?_) (by simp)) (fun _ env' e => ?_) fun e env' h => h.drop hdq' (by simp [hne.symm])
  · simp at hp
    rw [Env.upd_ne hp.1, Env.upd_ne hp.2]
  · simp at hp
    rcases hp with rfl | rfl
    · exact live_val Env.upd_self
    · exact live_val (by rw [Env.upd_ne hne, Env.upd_self])
  · subst e
    refine ⟨live_val (by rw [Env.upd_ne hne.symm, Env.upd_self]), ?_⟩
    env_eq

theorem runs_joinLoopP (hv : cfg.Valid) (hp : cfg.Physical) (hn : cfg.nul = some 0) {delim str : Nat} {quoted : Bool} {d : Bytes}
    (hds : env0 str = .dead) (hd : env0 delim = .val d) :
    ∀ (os : List Nat) (a : List Bytes) (first : Bool) (acc : Bytes) {s : St UInt8}, Reach cfg s (env0.upd str (.val acc)) →
      os.map env0 = a.map .val →
      Runs cfg (joinLoopP cfg delim quoted str os first) s (fun _ env' => env' = env0.upd str (.val (joinLoop d quoted a first acc)))
        (Mess env0 [str]) := by
  have out : ∀ (w : Bytes) (p : Nat), p ∉ [str] → (env0.upd str (.val w)) p = env0 p := fun w p h => by rw [Env.upd_ne (by simpa using h)]
  have lv : ∀ (w : Bytes), ∀ p ∈ [str], (env0.upd str (.val w)).Live p := fun w p h => by
    simp at h; subst h; exact live_val Env.upd_self
  have lk : ∀ {p : Nat} {x : Bytes} (w : Bytes), env0 p = .val x → (env0.upd str (.val w)) p = .val x := fun w h => by
    rw [Env.upd_ne (dead_ne hds (live_val h)), h]
  intro os
  induction os with
  | nil =>
    intro a first acc s hr h
    cases a with
    | nil => exact Runs.pure hr rfl
    | cons _ _ => cases h
  | cons o os ih =>
    intro a first acc s hr h
    cases a with
    | nil => cases h
    | cons x a =>
      simp at h
      unfold joinLoopP joinLoop
      refine Runs.bind (Q' := fun _ env' => env' = env0.upd str (.val (if first then acc else acc ++ d))) ?_ fun _ s1 env1 hr1 e => ?_
      · unfold joinSepP
        cases first with
        | true => exact Runs.pure hr rfl
        | false =>
          refine Runs.mono (runs_appendAll (E := Mess env0 [str]) hv hp hr Env.upd_self (lk _ hd) fun e env' h => h.mess (out _) (lv _) (by simp))
            (fun _ _ e => ?_) fun _ _ h => h
          rw [e, Env.upd_upd]; rfl
      subst e
      generalize (if first then acc else acc ++ d) = acc at hr1 ⊢
      unfold joinOneP
      cases quoted with
      | false =>
        refine Runs.bind (runs_appendAll hv hp hr1 Env.upd_self (lk _ h.1) fun e env' h => h.mess (out _) (lv _) (by simp)) fun _ s2 env2 hr2 e => ?_
        subst e
        rw [Env.upd_upd] at hr2
        exact ih a false _ hr2 h.2
      | true =>
        refine Runs.bind (Q' := fun _ env' => env' = env0.upd str (.val (acc ++ ([34] ++ x ++ [34])))) (runs_withLocal hv hp
          (Runs.mono (runs_quotedP hv hp hn hr1 (lk _ h.1)) (fun _ _ h => h) fun _ _ h => h.mess (out _) (lv _)) fun t s2 hdt hr2 => ?_)
          fun _ s2 env2 hr2 e => ?_
        · have hne : str ≠ t := dead_ne hdt (live_val Env.upd_self)
          have hdt' : env0 t = .dead := by rw [← hdt, Env.upd_ne hne.symm]
          refine Runs.mono (runs_appendMove (E := Mess env0 [t, str]) hv hp hr2 (v := acc) (w := [34] ++ x ++ [34]) (by rw [Env.upd_ne hne, Env.upd_self])
            Env.upd_self fun e env' h => h.mess (fun p hp => ?_) (fun p hp => ?_) (by simp)) (fun _ env' e => ?_) fun e env' h => h.drop hdt' (by simp [hne.symm])
          · simp at hp
            rw [Env.upd_ne hp.1, Env.upd_ne hp.2]
          · simp at hp
            rcases hp with rfl | rfl
            · exact live_val Env.upd_self
            · exact live_val (by rw [Env.upd_ne hne, Env.upd_self])
          · subst e
            refine ⟨live_val (by rw [Env.upd_ne hne.symm, Env.upd_self]), ?_⟩
            env_eq
        · subst e
          exact ih a false _ hr2 h.2

theorem runs_joinP (hv : cfg.Valid) (hp : cfg.Physical) (hn : cfg.nul = some 0) (hr : Reach cfg s env) {os : List Nat} {a : List Bytes}
    {delim : Nat} {quoted : Bool} {d r : Bytes} (ho : os.map env = a.map .val) (hd : env delim = .val d) (hf : join a d quoted = .ret r) :
    Runs cfg (joinP cfg os delim quoted) s (Returns env r) (NoMemory env) := by
  have hlen : os.length = a.length := by simpa using congrArg List.length ho
  unfold joinP
  unfold join at hf
  rw [hlen]
  by_cases h0 : a.length = 0
  · rw [if_pos h0] at hf ⊢
    cases hf
    exact runs_ctor hv hp hr
  rw [if_neg h0] at hf ⊢
  refine Runs.bind (runs_length hv hp hr hd) fun n s1 env1 hr1 e => ?_
  obtain ⟨e1, rfl⟩ := e
  subst n
  refine Runs.bind (runs_totalP hv hp os a hr1 ho) fun n s2 env2 hr2 e => ?_
  obtain ⟨e1, rfl⟩ := e
  subst n
  dsimp only at hf ⊢
  generalize (sub64 (a.length * d.length) 1 + (if quoted then a.length * 2 else 0) + totalLength a) % two64 = size at hf ⊢
  unfold Str.alloc at hf
  split at hf
  case isFalse => cases hf
  cases hf
  refine runs_building hv hp (runs_sizeCtor hv hp hr2 _ ⟨rfl, rfl⟩) fun str s3 hds hr3 => ?_
  exact Runs.mono (runs_joinLoopP hv hp hn hds hd os a true [] hr3 ho) (fun _ _ e => ⟨hds, e⟩)
    fun e env' h => ⟨(h.drop hds (by simp)).1, (h.drop hds (by simp)).2.nil⟩

/-! ## Operators -/

end

section
variable {T : Type} [DecidableEq T] {cfg : Cfg T} {s : St T} {env : Env T} {E : Exc → Env T → Prop}

theorem runs_moveCtor (hv : cfg.Valid) (hp : cfg.Physical) (hr : Reach cfg s env) {r : Nat} {v : List T} (h : env r = .val v) :
    Runs cfg (moveCtor cfg r) s (fun o env' => env o = .dead ∧ env' = (env.upd r (movedSlot cfg)).upd o (.val v)) E :=
  runs_op hv hp hr (op := .moveCtor r) rfl (live_val h)
    (fun a env' ⟨o, h1, h2, h3⟩ => by
      cases h2
      have hne : a ≠ r := fun e => by subst e; rw [Env.upd_self] at h1; exact movedSlot_live cfg h1
      rw [Env.upd_ne hne] at h1
      rw [h] at h3
      exact ⟨h1, h3⟩)
    (fun e env' ⟨o, h1, h2, h3⟩ => nomatch h2)

theorem runs_plus (hv : cfg.Valid) (hp : cfg.Physical) (hr : Reach cfg s env) {o r : Nat} {v w : List T} (h : env o = .val v)
    (hw : env r = .val w) : Runs cfg (plus cfg o r) s (Returns env (v ++ w)) (NoMemory env) := by
  unfold plus
  refine runs_withLocal hv hp (runs_copyCtor hv hp hr h) fun t s1 hdt hr1 => ?_
  refine Runs.bind (runs_appendAll hv hp hr1 (v := v) (w := w) Env.upd_self (by rw [Env.upd_ne (dead_ne hdt (live_val hw)), hw])
    fun e env' h => ?_) fun _ s2 env2 hr2 e => ?_
  · have : Mess env [t] e env' := h.mess (fun p hp => by rw [Env.upd_ne (by simpa using hp)]) (fun p hp => by
      simp at hp; subst hp; exact live_val Env.upd_self) (by simp)
    exact ⟨(this.drop hdt (by simp)).1, (this.drop hdt (by simp)).2.nil⟩
  · subst e
    rw [Env.upd_upd] at hr2
    refine Runs.mono (runs_moveCtor (E := fun _ _ => False) hv hp hr2 Env.upd_self) (fun n env' ⟨h1, h2⟩ => ?_) fun _ _ h => h.elim
    subst h2
    have hne : n ≠ t := fun e => by subst e; rw [Env.upd_self] at h1; cases h1
    rw [Env.upd_ne hne] at h1
    refine ⟨fun hc => ?_, h1, ?_⟩
    · rw [Env.upd_ne hne.symm, Env.upd_self] at hc
      exact movedSlot_live cfg hc
    · env_eq

theorem runs_postInc (hv : cfg.Valid) (hp : cfg.Physical) (hr : Reach cfg s env) {o : Nat} {v : List T} (h : env o = .val v) :
    Runs cfg (postInc cfg o) s (fun n env' => env n = .dead ∧ env' = (env.upd n (.val v)).upd o (.val (v.drop 1))) E := by
  unfold postInc
  refine Runs.mono (E' := fun _ _ => False) (runs_building hv hp (runs_copyCtor hv hp hr h) fun n s1 hd hr1 => ?_) (fun _ _ h => h) fun _ _ h => h.elim
  exact Runs.mono (runs_dropFront (E := fun _ _ => False) hv hp hr1 (v := v) (by rw [Env.upd_ne (dead_ne hd (live_val h)), h]))
    (fun _ _ e => ⟨hd, e⟩) fun _ _ h => h.elim

theorem runs_postDec (hv : cfg.Valid) (hp : cfg.Physical) (hr : Reach cfg s env) {o : Nat} {v : List T} (h : env o = .val v) (hne : v ≠ []) :
    Runs cfg (postDec cfg o) s (fun n env' => env n = .dead ∧ env' = (env.upd n (.val v)).upd o (.val v.dropLast)) E := by
  unfold postDec
  refine Runs.mono (E' := fun _ _ => False) (runs_building hv hp (runs_copyCtor hv hp hr h) fun n s1 hd hr1 => ?_) (fun _ _ h => h) fun _ _ h => h.elim
  exact Runs.mono (runs_popBack (E := fun _ _ => False) hv hp hr1 (v := v) (by rw [Env.upd_ne (dead_ne hd (live_val h)), h]) hne)
    (fun _ _ e => ⟨hd, e⟩) fun _ _ h => h.elim

theorem toSize_nat {i : Int} (h : 0 ≤ i) (h' : i < 9223372036854775808) : toSize i = i.toNat := by
  unfold toSize two64; omega

theorem toSize_neg {i : Int} (h : i < 0) (h' : -9223372036854775808 ≤ i) : 9223372036854775808 ≤ toSize i := by
  unfold toSize two64; omega

theorem runs_sliceAssign (hv : cfg.Valid) (hp : cfg.Physical) (hr : Reach cfg s env) {o r : Nat} {v w : List T} {start len : Int}
    (h : env o = .val v) (hw : env r = .val w) (hself : r = o → start.toNat = 0 ∨ min (toSize len) w.length ≤ start.toNat) (hlo : 0 ≤ start) (hhi : start ≤ v.length) (hln : toSize len ≠ 0)
    (hE : ∀ e env', OnlyAt env o e env' → E e env') :
    Runs cfg (sliceAssign cfg o start len r) s (fun _ env' => env' = env.upd o (.val (replaceAt v start.toNat (w.take (toSize len))))) E := by
  have hlt := hr.len_lt hv hp h
  unfold maxCells at hlt
  have hst := toSize_nat hlo (by omega)
  unfold sliceAssign
  rw [hst]
  refine runs_op hv hp hr (op := .replaceRca o start.toNat r (toSize len)) rfl ⟨has_val h, has_val hw, by rw [get_val hw]; exact hself⟩
    (fun a env' h1 => ?_) (fun e env' h1 => ?_)
  all_goals
    unfold Post at h1
    dsimp only at h1
    rw [if_neg hln] at h1
    unfold Checked at h1
    rw [if_pos (by rw [get_val h]; omega), get_val h, get_val hw] at h1
    rcases h1 with ⟨h1, h2⟩ | h1
  · exact h2
  · cases h1.1
  · cases h1
  · exact hE _ _ (noMem_only h1)

theorem runs_sliceAssign_out (hv : cfg.Valid) (hp : cfg.Physical) (hr : Reach cfg s env) {o r : Nat} {v w : List T} {start len : Int}
    (h : env o = .val v) (hw : env r = .val w) (hmin : -9223372036854775808 ≤ start) (hmax : start < 9223372036854775808)
    (hout : start < 0 ∨ v.length < start) (hln : toSize len ≠ 0) :
    Runs cfg (sliceAssign cfg o start len r) s (fun _ _ => False) (fun e env' => e = .outOfRange ∧ env' = env) := by
  have hlt := hr.len_lt hv hp h
  unfold maxCells at hlt
  have hst : v.length < toSize start := by
    rcases hout with h | h
    · have := toSize_neg h hmin; omega
    · rw [toSize_nat (by omega) hmax]; omega
  unfold sliceAssign
  refine runs_op hv hp hr (op := .replaceRca o (toSize start) r (toSize len)) rfl ⟨has_val h, has_val hw, fun e => by
      subst e
      rw [hw] at h
      cases h
      rw [get_val hw]
      omega⟩
    (fun a env' h1 => ?_) (fun e env' h1 => ?_)
  all_goals
    unfold Post at h1
    dsimp only at h1
    rw [if_neg hln] at h1
    unfold Checked at h1
    rw [if_neg (by rw [get_val h]; omega)] at h1
    obtain ⟨h1, h2⟩ := h1
    cases h1
  exact ⟨rfl, h2⟩

theorem runs_sliceAssignSlice (hv : cfg.Valid) (hp : cfg.Physical) (hr : Reach cfg s env) {o r : Nat} {v w : List T} {start len start' len' : Int}
    (h : env o = .val v) (hw : env r = .val w) (hs : SliceOk w.length start' len') (hlo : 0 ≤ start) (hhi : start ≤ v.length)
    (hln : toSize len ≠ 0) (hE : ∀ e env', OnlyAt env o e env' → E e env') :
    Runs cfg (sliceAssignSlice cfg o start len r start' len') s
      (fun _ env' => env' = env.upd o (.val (replaceAt v start.toNat ((sliceSpec w start' len').take (toSize len))))) E := by
  have hlt := hr.len_lt hv hp h
  unfold maxCells at hlt
  have hst := toSize_nat hlo (by omega)
  unfold sliceAssignSlice
  rw [hst]
  refine runs_withLocal hv hp (runs_substring hv hp hr hw hs) fun t s1 hdt hr1 => ?_
  generalize sliceSpec w start' len' = x at hr1 ⊢
  have hne : o ≠ t := dead_ne hdt (live_val h)
  have h1 : (env.upd t (.val x)) o = .val v := by rw [Env.upd_ne hne, h]
  refine runs_op hv hp hr1 (op := .replaceMove o start.toNat t (toSize len)) rfl ⟨has_val h1, has_val Env.upd_self, fun e => absurd e.symm hne⟩
    (fun a env' h2 => ?_) (fun e env' h2 => ?_)
  all_goals
    unfold Post at h2
    dsimp only at h2
    rw [if_neg hln] at h2
    unfold Checked at h2
    rw [if_pos (by rw [get_val h1]; omega), get_val h1, get_val Env.upd_self] at h2
    rcases h2 with ⟨-, h2, h3⟩ | ⟨-, ⟨h2, h3⟩ | h2⟩
  · subst h3
    refine ⟨fun hc => ?_, ?_⟩
    · rw [Env.upd_ne hne.symm, Env.upd_self] at hc
      exact movedSlot_live cfg hc
    · env_eq
  · subst h3
    refine ⟨live_val (by rw [Env.upd_ne hne.symm, Env.upd_self]), ?_⟩
    env_eq
  · cases h2.1
  · cases h2
  · cases h2
  · have h3 := noMem_only h2
    refine ⟨h3.live (live_val Env.upd_self), hE _ _ ⟨h3.1, ?_⟩⟩
    rcases h3.2 with rfl | rfl
    · exact Or.inl (Env.upd_gone _ hdt)
    · exact Or.inr (by env_eq)

theorem runs_sliceAssignMove (hv : cfg.Valid) (hp : cfg.Physical) (hr : Reach cfg s env) {o r : Nat} {v w : List T} {start len : Int}
    (h : env o = .val v) (hw : env r = .val w) (hne : r ≠ o) (hlo : 0 ≤ start) (hhi : start ≤ v.length)
    (hln : toSize len ≠ 0) {P : Prop} (hP : (start = 0 ∧ v.length < w.length ∧ (toSize len = npos ∨ toSize len = w.length)) ↔ P) :
    Runs cfg (sliceAssignMove cfg o start len r) s
      (fun _ env' => (P ∧ env' = (env.upd r (movedSlot cfg)).upd o (.val (replaceAt v start.toNat (w.take (toSize len))))) ∨
        (¬ P ∧ env' = env.upd o (.val (replaceAt v start.toNat (w.take (toSize len))))))
      (fun e env' => ¬ P ∧ OnlyAt env o e env') := by
  have hlt := hr.len_lt hv hp h
  unfold maxCells at hlt
  have hst := toSize_nat hlo (by omega)
  have h0 : start.toNat = 0 ↔ start = 0 := by omega
  unfold sliceAssignMove
  rw [hst]
  refine runs_op hv hp hr (op := .replaceMove o start.toNat r (toSize len)) rfl ⟨has_val h, has_val hw, fun e => absurd e hne⟩
    (fun a env' h2 => ?_) (fun e env' h2 => ?_)
  all_goals
    unfold Post at h2
    dsimp only at h2
    rw [if_neg hln] at h2
    unfold Checked at h2
    rw [if_pos (by rw [get_val h]; omega), get_val h, get_val hw, h0, hP] at h2
    rcases h2 with ⟨hc, h2, h3⟩ | ⟨hc, ⟨h2, h3⟩ | h2⟩
  · exact Or.inl ⟨hc, h3⟩
  · exact Or.inr ⟨hc, h3⟩
  · cases h2.1
  · cases h2
  · cases h2
  · exact ⟨hc, noMem_only h2⟩

theorem runs_crefAssign (hv : cfg.Valid) (hp : cfg.Physical) (hr : Reach cfg s env) {o r i j : Nat} {v w : List T}
    (h : env o = .val v) (hw : env r = .val w) (hi : i < v.length) (hj : j < w.length)
    (hE : ∀ e env', OnlyAt env o e env' → E e env') :
    Runs cfg (crefAssign cfg o i r j) s (fun _ env' => env' = env.upd o (.val (v.set i w[j]))) E := by
  unfold crefAssign
  refine Runs.bind (runs_read hv hp hr hw hj) fun x s1 env1 hr1 e => ?_
  obtain ⟨e1, rfl⟩ := e
  subst x
  exact runs_op hv hp hr1 (op := .write o i w[j]) rfl ⟨has_val h, by rw [get_val h]; exact hi⟩
    (fun a env' h1 => by
      rcases h1 with ⟨-, h1⟩ | ⟨h1, -⟩
      · rwa [get_val h] at h1
      · cases h1)
    (fun e env' h1 => by
      rcases h1 with ⟨h1, -⟩ | h1
      · cases h1
      · exact hE _ _ (noMem_only h1))

end

end Bdlib.Rca
