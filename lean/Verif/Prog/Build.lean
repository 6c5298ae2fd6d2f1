import Verif.Prog.Simple

/-!
# Compound functions: tokens, replacing, splitting, joining
-/

namespace Bdlib.Rca
open Bdlib Bdlib.Spec Bdlib.Str

/-- Two ways to write the same values. -/
macro "env_eq" : tactic =>
  `(tactic| (funext q; simp only [Env.upd]; (repeat' split) <;> first | rfl | (subst_vars; simp_all)))

/-! ## Slices with natural arguments -/

section
variable {T : Type}

theorem sliceSpec_nat (v : List T) (i k : Nat) : sliceSpec v i k = (v.drop i).take k := by
  have h : sliceFrom v.length i = i := by unfold sliceFrom; rw [if_neg (by omega)]; simp
  unfold sliceSpec
  dsimp only
  rw [h, if_neg (by omega), if_neg (by omega)]
  simp

theorem sliceSpec_rest (v : List T) (i : Nat) : sliceSpec v i (-1) = v.drop i := by
  have h : sliceFrom v.length i = i := by unfold sliceFrom; rw [if_neg (by omega)]; simp
  unfold sliceSpec
  dsimp only
  rw [h, if_pos rfl]

theorem sliceOk_nat {n i k : Nat} (hn : n ≤ maxInt) (hk : k ≤ n) : SliceOk n i k := by
  unfold maxInt at hn
  by_cases hi : n ≤ i
  · exact ⟨by omega, .inl (by omega)⟩
  · exact ⟨by omega, .inr (.inr (.inl ⟨by omega, by simp only [sliceFrom]; split <;> omega⟩))⟩

theorem sliceOk_rest {n i : Nat} (hn : n ≤ maxInt) : SliceOk n i (-1) := by
  unfold maxInt at hn
  exact ⟨by omega, .inr (.inl ⟨rfl, by omega⟩)⟩

theorem slice_nat {v : List T} {i k : Nat} (hv : v.length ≤ maxInt) (hk : k ≤ v.length) : Str.slice v i k = .ret ((v.drop i).take k) := by
  by_cases h : i + k ≤ v.length
  · exact slice_in hv h
  · unfold Str.slice
    rw [toInt32_le hv]
    dsimp only
    rw [if_neg (by omega : ¬ ((k : Int) = -1))]
    by_cases hi : v.length ≤ i
    · rw [if_pos (by omega), List.drop_of_length_le (by omega)]; simp
    · unfold maxInt at hv
      rw [if_neg (by omega), if_neg (by omega), if_neg (by omega), if_neg (by omega), if_pos (by omega)]
      have e : (((v.length : Int) - i) % (two64 : Int)).toNat = v.length - i := by unfold two64; omega
      rw [e]
      simp only [Int.toNat_natCast]
      rw [rdN_le (by omega)]
      congr 1
      rw [List.take_of_length_le (by simp), List.take_of_length_le (by simp; omega)]

theorem slice_nat_ret {v r : List T} {i k : Nat} (hv : v.length ≤ maxInt) (hk : k ≤ v.length) (h : Str.slice v i k = .ret r) :
    sliceSpec v i k = r := by
  rw [slice_nat hv hk] at h
  cases h
  exact sliceSpec_nat v i k

theorem scanUp_lt {p : Nat → Eff Bool} : ∀ (k i m : Nat), scanUp p i k = .ret (some m) → m < i + k
  | 0, i, m, h => by cases h
  | k + 1, i, m, h => by
    unfold scanUp at h
    cases hp : p i with
    | ret b =>
      rw [hp, Eff.ret_bind] at h
      cases b with
      | true => cases h; omega
      | false =>
        have := scanUp_lt k (i + 1) m h
        omega
    | exc e => rw [hp] at h; cases h
    | ub => rw [hp] at h; cases h
    | more => rw [hp] at h; cases h

theorem find_le {L : Libc} {v d : Bytes} {it p : Nat} (h : find_ L v d it = .ret p) : p = npos ∨ p ≤ v.length := by
  unfold find_ at h
  split at h
  · cases h; omega
  split at h
  · cases h
  dsimp only at h
  split at h
  · split at h
    · rename_i i hi
      cases h
      unfold memmem at hi
      have := List.mem_of_find?_eq_some hi
      simp at this
      omega
    · cases h; exact Or.inl rfl
  · split at h
    · cases hs : scanUp (fun i => matchAt L v d i (min d.length (v.length - it - i))) it (v.length - it - d.length + 1 - it) with
      | ret m =>
        rw [hs, Eff.ret_bind] at h
        cases m with
        | none => cases h; exact Or.inl rfl
        | some m =>
          cases h
          have := scanUp_lt _ _ _ hs
          omega
      | exc e => rw [hs] at h; cases h
      | ub => rw [hs] at h; cases h
      | more => rw [hs] at h; cases h
    · cases h; exact Or.inl rfl

theorem findItem_le [DecidableEq T] {v : List T} {x : T} {p : Nat} (h : findItem v x = .ret p) : p = npos ∨ p ≤ v.length := by
  rcases findItem_spec_ (v := v) x (Nat.zero_le _) with ⟨m, h1, h2, h3, h4⟩ | ⟨h1, h2⟩
  · unfold findItem at h
    rw [h4] at h
    cases h
    have : m < v.length := by
      rcases Nat.lt_or_ge m v.length with h | h
      · exact h
      · rw [List.getElem?_eq_none h] at h2; cases h2
    omega
  · unfold findItem at h
    rw [h2] at h
    cases h
    exact Or.inl rfl

end

/-! ## What an exception leaves behind inside a function -/

/-- `bad_alloc` while the local objects `ls` exist: nothing else changed. -/
def Mess {T : Type} (env0 : Env T) (ls : List Nat) (e : Exc) (env' : Env T) : Prop :=
  e = .badAlloc ∧ (∀ p, p ∉ ls → env' p = env0 p) ∧ ∀ p ∈ ls, env'.Live p

section
variable {T : Type} [DecidableEq T] {cfg : Cfg T} {s : St T} {env env0 : Env T} {E : Exc → Env T → Prop} {ls : List Nat}

omit [DecidableEq T] in
theorem Mess.drop {o : Nat} {e : Exc} {env' : Env T} (h : Mess env0 (o :: ls) e env') (hd : env0 o = .dead) (ho : o ∉ ls) :
    env'.Live o ∧ Mess env0 ls e (env'.upd o .dead) := by
  obtain ⟨h1, h2, h3⟩ := h
  refine ⟨h3 o List.mem_cons_self, h1, fun p hp => ?_, fun p hp => ?_⟩
  · by_cases e : p = o
    · subst e; rw [Env.upd_self, hd]
    · rw [Env.upd_ne e]; exact h2 p (by simp [e, hp])
  · have : p ≠ o := fun e => ho (e ▸ hp)
    intro hl
    rw [Env.upd_ne this] at hl
    exact h3 p (List.mem_cons_of_mem _ hp) hl

omit [DecidableEq T] in
theorem Mess.nil {e : Exc} {env' : Env T} (h : Mess env0 [] e env') : NoMemory env0 e env' :=
  ⟨h.1, funext fun p => h.2.1 p (by simp)⟩

omit [DecidableEq T] in
theorem NoMemory.mess {e : Exc} {env' : Env T} (h : NoMemory env e env') (hm : ∀ p, p ∉ ls → env p = env0 p) (hl : ∀ p ∈ ls, env.Live p) :
    Mess env0 ls e env' := by
  obtain ⟨h1, rfl⟩ := h
  exact ⟨h1, hm, hl⟩

theorem OnlyAt.mess {o : Nat} {e : Exc} {env' : Env T} (h : OnlyAt env o e env') (hm : ∀ p, p ∉ ls → env p = env0 p) (hl : ∀ p ∈ ls, env.Live p)
    (ho : o ∈ ls) : Mess env0 ls e env' := by
  refine ⟨h.1, fun p hp => ?_, fun p hp => h.live (hl p hp)⟩
  rcases h.2 with rfl | rfl
  · exact hm p hp
  · rw [Env.upd_ne (fun e : p = o => hp (by rw [e]; exact ho))]; exact hm p hp

theorem runs_appendMove (hv : cfg.Valid) (hp : cfg.Physical) (hr : Reach cfg s env) {o r : Nat} {v w : List T} (h : env o = .val v)
    (hw : env r = .val w) (hE : ∀ e env', OnlyAt env o e env' → E e env') :
    Runs cfg (appendMove cfg o r npos) s (fun _ env' => env' = env.upd o (.val (v ++ w))) E := by
  have hns : ¬ Longer (env.get o) (env.get r) (env.get o).length npos := by
    rintro ⟨-, -, h3⟩
    rw [get_val hw] at h3
    have := hr.len_lt hv hp hw
    unfold npos at h3
    unfold maxCells at this
    omega
  have ht := take_npos hv hp hr hw
  refine runs_op hv hp hr (op := .appendMove o r npos) rfl ⟨has_val h, has_val hw⟩ (fun a env' h1 => ?_) (fun e env' h1 => ?_)
  · rcases h1 with ⟨h1, -⟩ | ⟨-, ⟨-, h1⟩ | ⟨h1, -⟩⟩
    · exact (hns h1).elim
    · rw [get_val h, get_val hw, ht] at h1; exact h1
    · cases h1
  · rcases h1 with ⟨h1, -⟩ | ⟨-, ⟨h1, -⟩ | h1⟩
    · exact (hns h1).elim
    · cases h1
    · exact hE _ _ (noMem_only h1)

theorem runs_appendAll (hv : cfg.Valid) (hp : cfg.Physical) (hr : Reach cfg s env) {o r : Nat} {v w : List T} (h : env o = .val v)
    (hw : env r = .val w) (hE : ∀ e env', OnlyAt env o e env' → E e env') :
    Runs cfg (appendRca cfg o r npos) s (fun _ env' => env' = env.upd o (.val (v ++ w))) E :=
  Runs.mono (runs_appendRca hv hp hr h hw hE) (fun _ _ e => by rw [e, take_npos hv hp hr hw]) fun _ _ h => h

end

section
variable {cfg : Cfg UInt8} {s : St UInt8} {env env0 : Env UInt8} {E : Exc → Env UInt8 → Prop} {ls : List Nat}

/-! ## newsplit -/

theorem runs_newsplitP (hv : cfg.Valid) (hp : cfg.Physical) (hr : Reach cfg s env) {o : Nat} {delim : UInt8} {v first rest : Bytes}
    (h : env o = .val v) (hl : v.length ≤ maxInt) (hf : newsplit v delim = .ret (first, rest)) :
    Runs cfg (newsplitP cfg o delim) s (fun n env' => env n = .dead ∧ env' = (env.upd n (.val first)).upd o (.val rest)) E := by
  unfold newsplitP
  refine Runs.bind (runs_length hv hp hr h) fun _ s1 env1 hr1 e => ?_
  obtain ⟨rfl, rfl⟩ := e
  unfold newsplit at hf
  by_cases h0 : v.length = 0
  · rw [if_pos h0] at hf ⊢
    cases hf
    refine Runs.mono (runs_ctor hv hp hr1 (E := E)) (fun n env' ⟨hd, e⟩ => ⟨hd, ?_⟩) (fun _ _ h => h)
    subst e
    exact (Env.upd_id (by rw [Env.upd_ne (dead_ne hd (live_val h)), h])).symm
  · rw [if_neg h0] at hf ⊢
    refine Runs.bind (runs_contents hv hp hr1 h) fun v' s2 env2 hr2 e => ?_
    obtain ⟨e1, rfl⟩ := e
    subst v'
    cases hfi : findItem v delim with
    | exc e => rw [hfi] at hf; cases hf
    | ub => rw [hfi] at hf; cases hf
    | more => rw [hfi] at hf; cases hf
    | ret p =>
      rw [hfi, Eff.ret_bind] at hf
      refine Runs.bind (runs_liftE rfl hr2) fun p' s3 env3 hr3 e => ?_
      obtain ⟨e1, rfl⟩ := e
      subst p'
      dsimp only at hf ⊢
      have hq : (if p = npos then v.length else p) ≤ v.length := by
        rcases findItem_le hfi with h | h
        · rw [if_pos h]; exact Nat.le_refl _
        · split <;> omega
      generalize (if p = npos then v.length else p) = q at hf hq ⊢
      have hz : Str.slice v 0 q = .ret ((v.drop 0).take q) := slice_nat hl hq
      rw [hz, Eff.ret_bind] at hf
      cases hf
      have hss : sliceSpec v 0 q = v.take q := by simpa using sliceSpec_nat v 0 q
      refine Runs.mono (runs_building (E := fun _ _ => False) hv hp (runs_substring hv hp hr3 h (sliceOk_nat (i := 0) hl hq)) fun n s4 hd hr4 => ?_)
        (Q := fun n env' => env3 n = .dead ∧ env' = (env3.upd n (.val (v.take q))).upd o (.val (plusEq v ((if delim = 32 then skipRun v q (v.length - q) else q) + 1))))
        (fun n env' h => by simpa using h) (fun _ _ h => h.elim)
      have ho : (env3.upd n (.val (sliceSpec v 0 q))) o = .val v := by rw [Env.upd_ne (dead_ne hd (live_val h)), h]
      refine Runs.bind (runs_contents hv hp hr4 ho) fun _ s5 env5 hr5 e => ?_
      obtain ⟨rfl, rfl⟩ := e
      refine Runs.mono (runs_dropFront hv hp hr5 ho (E := fun _ _ => False)) (fun _ _ e => ⟨hd, ?_⟩) (fun _ _ h => h.elim)
      rw [e, plusEq_eq, hss]

/-! ## sub -/

theorem runs_subLoopP (hv : cfg.Valid) (hp : cfg.Physical) {L : Libc} {str new search repl : Nat} {limit : Int} {d r : Bytes}
    {env0 : Env UInt8} (hdn : env0 new = .dead) (hds : env0 str = .dead) (hne : new ≠ str) (hd : env0 search = .val d) (hrp : env0 repl = .val r) :
    ∀ (fuel : Nat) (rem acc : Bytes) (cnt : Int) {rem' acc' : Bytes} {s : St UInt8},
      Reach cfg s ((env0.upd new (.val acc)).upd str (.val rem)) → rem.length ≤ maxInt →
      subLoop L d r limit fuel rem acc cnt = .ret (rem', acc') →
      Runs cfg (subLoopP cfg L str new search repl limit fuel cnt) s
        (fun _ env' => env' = (env0.upd new (.val acc')).upd str (.val rem')) (Mess env0 [str, new]) := by
  have lk : ∀ {p : Nat} {w : Bytes} (a b : Bytes), env0 p = .val w → ((env0.upd new (.val a)).upd str (.val b)) p = .val w := fun a b h => by
    rw [Env.upd_ne (dead_ne hds (live_val h)), Env.upd_ne (dead_ne hdn (live_val h)), h]
  have ln : ∀ (a b : Bytes), ((env0.upd new (.val a)).upd str (.val b)) new = .val a := fun a b => by
    rw [Env.upd_ne hne, Env.upd_self]
  have out : ∀ (a b : Bytes) p, p ∉ [str, new] → ((env0.upd new (.val a)).upd str (.val b)) p = env0 p := fun a b p h => by
    simp at h
    rw [Env.upd_ne h.1, Env.upd_ne h.2]
  have lv : ∀ (a b : Bytes), ∀ p ∈ [str, new], ((env0.upd new (.val a)).upd str (.val b)).Live p := fun a b p h => by
    simp at h
    rcases h with rfl | rfl
    · exact live_val Env.upd_self
    · exact live_val (ln a b)
  intro fuel
  induction fuel with
  | zero => intro rem acc cnt rem' acc' s _ _ hf; cases hf
  | succ fuel ih =>
    intro rem acc cnt rem' acc' s hr hl hf
    unfold subLoop at hf
    unfold subLoopP
    cases hfi : Str.find L rem d with
    | exc e => rw [hfi] at hf; cases hf
    | ub => rw [hfi] at hf; cases hf
    | more => rw [hfi] at hf; cases hf
    | ret p =>
      rw [hfi, Eff.ret_bind] at hf
      refine Runs.bind (runs_findP hv hp hr Env.upd_self (lk acc rem hd) hfi) fun p' s1 env1 hr1 e => ?_
      obtain ⟨e1, rfl⟩ := e
      subst p'
      by_cases hpn : p = npos
      · rw [if_pos hpn] at hf ⊢
        cases hf
        exact Runs.pure hr1 rfl
      · rw [if_neg hpn] at hf ⊢
        have hq : p ≤ rem.length := (find_le hfi).resolve_left hpn
        have hz : Str.slice rem 0 p = .ret ((rem.drop 0).take p) := slice_nat hl hq
        rw [hz, Eff.ret_bind] at hf
        have hss : sliceSpec rem 0 p = rem.take p := by simpa using sliceSpec_nat rem 0 p
        dsimp only at hf
        simp only [List.drop_zero] at hf
        -- newStr += search_str(0, pos)
        refine Runs.bind (Q' := fun _ env' => env' = (env0.upd new (.val (acc ++ rem.take p))).upd str (.val rem))
          (runs_withLocal hv hp (runs_substring hv hp hr1 Env.upd_self (sliceOk_nat (i := 0) hl hq)) fun t s2 hdt hr2 => ?_)
          fun _ s3 env3 hr3 e => ?_
        · have htn : new ≠ t := dead_ne hdt (live_val (ln acc rem))
          refine Runs.mono (runs_appendMove (E := fun e env' => OnlyAt (((env0.upd new (.val acc)).upd str (.val rem)).upd t (.val (sliceSpec rem 0 p))) new e env')
            hv hp hr2 (v := acc) (w := sliceSpec rem 0 p) (by rw [Env.upd_ne htn, ln]) Env.upd_self (fun _ _ h => h)) (fun _ env' e => ?_) (fun e env' h => ?_)
          · subst e
            refine ⟨live_val (by rw [Env.upd_ne htn.symm, Env.upd_self]), ?_⟩
            rw [Env.upd_comm _ _ _ htn, Env.upd_upd, Env.upd_id (o := t) (x := .dead), Env.upd_comm _ _ _ hne.symm, Env.upd_upd, hss]
            exact hdt
          · have h' : Mess ((env0.upd new (.val acc)).upd str (.val rem)) [t, new] e env' :=
              h.mess (fun p hp => by rw [Env.upd_ne (by simp at hp; exact hp.1)]) (fun p hp => by
                simp at hp
                rcases hp with rfl | rfl
                · exact live_val Env.upd_self
                · exact live_val (by rw [Env.upd_ne htn, ln])) (by simp)
            obtain ⟨h1, h2⟩ := h'.drop hdt (by simp [htn.symm])
            refine ⟨h1, h2.1, fun p hp => ?_, fun p hp => ?_⟩
            · rw [h2.2.1 p (by simp at hp; simp [hp.2])]
              exact out acc rem p hp
            · by_cases e : p = new
              · subst e; exact h2.2.2 p (by simp)
              · intro hc
                rw [h2.2.1 p (by simp [e])] at hc
                exact lv acc rem p hp hc
        · subst e
          -- newStr += replacement
          refine Runs.bind (runs_appendAll hv hp hr3 (ln _ _) (lk _ _ hrp) fun e env' h => h.mess (out _ _) (lv _ _) (by simp)) fun _ s4 env4 hr4 e => ?_
          subst e
          rw [Env.upd_comm _ _ _ hne.symm, Env.upd_upd] at hr4
          refine Runs.bind (runs_length hv hp hr4 (lk _ _ hd)) fun _ s5 env5 hr5 e => ?_
          obtain ⟨rfl, rfl⟩ := e
          refine Runs.bind (runs_dropFront hv hp hr5 Env.upd_self) fun _ s6 env6 hr6 e => ?_
          subst e
          rw [Env.upd_upd] at hr6
          rw [plusEq_eq] at hf
          by_cases hlim : limit ≠ -1 ∧ cnt + 1 = limit
          · rw [if_pos hlim] at hf ⊢
            cases hf
            exact Runs.pure hr6 rfl
          · rw [if_neg hlim] at hf ⊢
            exact ih _ _ _ hr6 (by simp; omega) hf

theorem runs_subP (hv : cfg.Valid) (hp : cfg.Physical) {L : Libc} (hr : Reach cfg s env) {fuel o search repl : Nat} {limit : Int}
    {v d r res : Bytes} (h : env o = .val v) (hd : env search = .val d) (hrp : env repl = .val r) (hl : v.length ≤ maxInt)
    (hf : sub L fuel v d r limit = .ret res) :
    Runs cfg (subP cfg L fuel o search repl limit) s (Returns env res) (NoMemory env) := by
  unfold sub at hf
  cases hlp : subLoop L d r limit fuel v [] 0 with
  | exc e => rw [hlp] at hf; cases hf
  | ub => rw [hlp] at hf; cases hf
  | more => rw [hlp] at hf; cases hf
  | ret x =>
    obtain ⟨rem, new'⟩ := x
    rw [hlp, Eff.ret_bind] at hf
    unfold subP
    refine Runs.bind (runs_length hv hp hr h) fun _ s1 env1 hr1 e => ?_
    obtain ⟨rfl, rfl⟩ := e
    refine runs_building hv hp (runs_sizeCtor hv hp hr1 _ ⟨rfl, rfl⟩) fun new s2 hdn hr2 => ?_
    have hon : (env1.upd new (.val [])) o = .val v := by rw [Env.upd_ne (dead_ne hdn (live_val h)), h]
    refine Runs.mono (runs_withLocal (Q := fun _ env' => env' = env1.upd new (.val res)) (E := fun e env' => Mess env1 [new] e env') hv hp
      (runs_copyCtor hv hp hr2 hon) fun str s3 hds hr3 => ?_) (fun _ _ e => ⟨hdn, e⟩) (fun e env' h => ?_)
    · have hne : new ≠ str := dead_ne hds (live_val Env.upd_self)
      have hds' : env1 str = .dead := by rw [← hds, Env.upd_ne hne.symm]
      refine Runs.bind (Runs.mono (E := fun e env2 => env2.Live str ∧ Mess env1 [new] e (env2.upd str .dead))
        (runs_subLoopP hv hp hdn hds' hne hd hrp fuel v [] 0 hr3 hl hlp) (fun _ _ h => h) fun e env' h => h.drop hds' (by simp [hne.symm]))
        fun _ s4 env4 hr4 e => ?_
      subst e
      refine Runs.bind (runs_length hv hp hr4 Env.upd_self) fun _ s5 env5 hr5 e => ?_
      obtain ⟨rfl, rfl⟩ := e
      by_cases h0 : rem.length ≠ 0
      · rw [if_pos h0]
        dsimp only at hf
        rw [if_pos h0] at hf
        cases hf
        refine Runs.mono (runs_appendAll (E := fun e env' => Mess env1 [str, new] e env') hv hp hr5 (v := new') (w := rem) (by rw [Env.upd_ne hne, Env.upd_self]) Env.upd_self
          fun e env' h => h.mess (fun p hp => ?_) (fun p hp => ?_) (by simp)) (fun _ env' e => ?_) fun e env' h => h.drop hds' (by simp [hne.symm])
        · simp at hp; rw [Env.upd_ne hp.1, Env.upd_ne hp.2]
        · simp at hp
          rcases hp with rfl | rfl
          · exact live_val Env.upd_self
          · exact live_val (by rw [Env.upd_ne hne, Env.upd_self])
        · subst e
          refine ⟨live_val (by rw [Env.upd_ne hne.symm, Env.upd_self]), ?_⟩
          env_eq
      · rw [if_neg h0]
        dsimp only at hf
        rw [if_neg h0] at hf
        cases hf
        refine Runs.pure hr5 ⟨live_val Env.upd_self, ?_⟩
        rw [Env.upd_upd, Env.upd_id]
        rw [Env.upd_ne hne.symm, hds']
    · obtain ⟨h1, h2⟩ := h.drop hdn (by simp)
      exact ⟨h1, h2.nil⟩

end

end Bdlib.Rca
