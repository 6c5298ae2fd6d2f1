import Verif.Prog.Table
import Verif.Hash.Lemmas
import Verif.Nest.Hash
import Verif.Prog.Pieces

/-!
# Reasoning about tables of Strings
-/

namespace Bdlib.Rca
open Bdlib Bdlib.Spec Bdlib.Str Bdlib.Hash Bdlib.Nest

variable {cfg : Cfg UInt8} {lib : Lib} {s : St UInt8} {env env' : Env UInt8} {α β : Type} {w : Tabs}

/-- `Runs` with tables. -/
def TRuns (cfg : Cfg UInt8) (m : TM α) (w : Tabs) (s : St UInt8) (Q : α → Tabs → Env UInt8 → Prop) (E : Exc → Tabs → Env UInt8 → Prop) : Prop :=
  match m w s with
  | (.ok a s', w') => ∃ env', Q a w' env' ∧ Reach cfg s' env'
  | (.throw e s', w') => ∃ env', E e w' env' ∧ Reach cfg s' env'
  | (.ub, _) => False

section
variable {Q : β → Tabs → Env UInt8 → Prop} {E : Exc → Tabs → Env UInt8 → Prop}

theorem TRuns.pure {a : β} (hr : Reach cfg s env) (h : Q a w env) : TRuns cfg (Pure.pure a : TM β) w s Q E := ⟨env, h, hr⟩

theorem TRuns.bind {m : TM α} {f : α → TM β} {Q' : α → Tabs → Env UInt8 → Prop} (h : TRuns cfg m w s Q' E)
    (hf : ∀ a w' s' env', Reach cfg s' env' → Q' a w' env' → TRuns cfg (f a) w' s' Q E) : TRuns cfg (m >>= f) w s Q E := by
  show TRuns cfg (TM.bind m f) w s Q E
  unfold TRuns TM.bind
  unfold TRuns at h
  match hm : m w s, h with
  | (.ok a s', w'), ⟨env', h1, h2⟩ => exact hf a w' s' env' h2 h1
  | (.throw e s', w'), h => exact h
  | (.ub, w'), h => exact h

theorem TRuns.mono {m : TM β} {Q' : β → Tabs → Env UInt8 → Prop} {E' : Exc → Tabs → Env UInt8 → Prop} (h : TRuns cfg m w s Q' E')
    (hq : ∀ a w env, Q' a w env → Q a w env) (he : ∀ e w env, E' e w env → E e w env) : TRuns cfg m w s Q E := by
  unfold TRuns at *
  match hm : m w s, h with
  | (.ok a s', w'), ⟨env', h1, h2⟩ => exact ⟨env', hq _ _ _ h1, h2⟩
  | (.throw e s', w'), ⟨env', h1, h2⟩ => exact ⟨env', he _ _ _ h1, h2⟩

theorem TRuns.lift {m : SM β} {Q' : β → Env UInt8 → Prop} (h : Runs cfg m s Q' fun _ _ => False) (hq : ∀ a env', Q' a env' → Q a w env') :
    TRuns cfg (TM.lift m) w s Q E := by
  unfold TRuns TM.lift
  unfold Runs at h
  match hm : m s, h with
  | .ok a s', ⟨env', h1, h2, _⟩ => exact ⟨env', hq _ _ h1, h2⟩
  | .throw e s', ⟨_, h, _⟩ => exact h.elim

/-- A step on Strings, then the rest. -/
theorem TRuns.str {m : SM α} {f : α → TM β} {Q' : α → Env UInt8 → Prop} (h : Runs cfg m s Q' fun _ _ => False)
    (hf : ∀ a s' env', Reach cfg s' env' → Q' a env' → TRuns cfg (f a) w s' Q E) : TRuns cfg (TM.lift m >>= f) w s Q E :=
  TRuns.bind (Q' := fun a w' env' => w' = w ∧ Q' a env') (TRuns.lift h fun _ _ h => ⟨rfl, h⟩) fun a w' s' env' hr h => by
    obtain ⟨rfl, h⟩ := h; exact hf a s' env' hr h

/-- Memory, then the rest. -/
theorem TRuns.alloc {f : Unit → TM β} (hr : Reach cfg s env) (hf : TRuns cfg (f ()) { w with asked := w.asked + 1 } s Q E)
    (he : (∃ n, lib.fits n = false) → E .badAlloc { w with asked := w.asked + 1 } env) : TRuns cfg (TM.alloc lib.fits >>= f) w s Q E := by
  show TRuns cfg (TM.bind (TM.alloc lib.fits) f) w s Q E
  unfold TRuns TM.bind TM.alloc
  cases h : lib.fits w.asked with
  | true => exact hf
  | false => exact ⟨env, he ⟨_, h⟩, hr⟩

theorem TRuns.allocs {Q : Unit → Tabs → Env UInt8 → Prop} (hr : Reach cfg s env) (hq : Q () { w with asked := w.asked + 1 } env)
    (he : (∃ n, lib.fits n = false) → E .badAlloc { w with asked := w.asked + 1 } env) : TRuns cfg (TM.alloc lib.fits) w s Q E := by
  unfold TRuns TM.alloc
  cases h : lib.fits w.asked with
  | true => exact ⟨env, hq, hr⟩
  | false => exact ⟨env, he ⟨_, h⟩, hr⟩

theorem TRuns.set {i : Nat} {t : UMap Nat Nat} {f : Unit → TM β} (h : TRuns cfg (f ()) { w with tab := setFn w.tab i t } s Q E) :
    TRuns cfg (TM.set i t >>= f) w s Q E := h

theorem TRuns.sets {Q : Unit → Tabs → Env UInt8 → Prop} {i : Nat} {t : UMap Nat Nat} (hr : Reach cfg s env)
    (h : Q () { w with tab := setFn w.tab i t } env) : TRuns cfg (TM.set i t) w s Q E := ⟨env, h, hr⟩

theorem TRuns.get {i : Nat} {f : UMap Nat Nat → TM β} (h : TRuns cfg (f (w.tab i)) w s Q E) : TRuns cfg (TM.get i >>= f) w s Q E := h

theorem TRuns.onThrow {m : TM β} {c : TM Unit} {E' : Exc → Tabs → Env UInt8 → Prop} (h : TRuns cfg m w s Q E')
    (hc : ∀ e w' s' env', Reach cfg s' env' → E' e w' env' → TRuns cfg c w' s' (fun _ => E e) fun _ _ _ => False) :
    TRuns cfg (TM.onThrow m c) w s Q E := by
  unfold TRuns TM.onThrow
  unfold TRuns at h
  match hm : m w s, h with
  | (.ok a s', w'), h => exact h
  | (.throw e s', w'), ⟨env', h1, h2⟩ =>
    have := hc e w' s' env' h2 h1
    unfold TRuns at this
    dsimp only
    match hm : c w' s', this with
    | (.ok a s', w'), h => exact h
    | (.throw e s', w'), ⟨env', h1, h2⟩ => exact h1.elim

end

/-! ## Strings as keys -/

/-- The key type: Strings, compared by their texts. -/
def ty (cfg : Cfg UInt8) (lib : Lib) (env : Env UInt8) : Types Nat Nat where
  eq a b := decide (env.get a = env.get b)
  hash a := djb (fun x => (cfg.hasher x).toNat) (env.get a)
  dflt := 0
  grow := lib.grow

theorem ty_laws (cfg : Cfg UInt8) (lib : Lib) (env : Env UInt8) (ok : Nat → Prop) : Laws (ty cfg lib env) ok where
  refl a _ := by simp [ty]
  symm a b _ _ h := by simp only [ty, decide_eq_true_eq] at *; exact h.symm
  trans a b d _ _ _ h1 h2 := by simp only [ty, decide_eq_true_eq] at *; exact h1.trans h2
  hash a b _ _ h := by simp only [ty, decide_eq_true_eq] at *; rw [h]

variable {E : Exc → Env UInt8 → Prop}

theorem runs_scanP (hv : cfg.Valid) (hp : cfg.Physical) (hL : lib.L.Ok) {k : Nat} {v : Text} (hk' : env k = .val v) : ∀ (l : List (Nat × Nat)) {s : St UInt8},
    Reach cfg s env → (∀ p ∈ l, env.Has p.1) →
    Runs cfg (scanP lib k l) s (fun r env' => r = l.find? (fun p => (ty cfg lib env).eq p.1 k) ∧ env' = env) E
  | [], s, hr, _ => Runs.pure hr ⟨rfl, rfl⟩
  | p :: l, s, hr, h => by
    obtain ⟨x, hx⟩ := h p (List.mem_cons_self ..)
    unfold scanP
    refine Runs.bind (runs_eqP hv hp hL hr hk' hx) fun a s1 env1 hr1 e => ?_
    obtain ⟨rfl, e⟩ := e
    replace e := e.symm
    subst e
    have he : (ty cfg lib env).eq p.1 k = decide (v = x) := by
      unfold ty; dsimp only; rw [get_val hk', get_val hx]; exact decide_eq_decide.2 eq_comm
    rw [List.find?_cons, he]
    by_cases hvx : v = x
    · rw [if_pos (by simp [hvx]), decide_eq_true hvx]
      exact Runs.pure hr1 ⟨rfl, rfl⟩
    · rw [if_neg (by simp [hvx]), decide_eq_false hvx]
      exact runs_scanP hv hp hL hk' l hr1 fun q hq => h q (List.mem_cons_of_mem _ hq)

theorem runs_hashP (hv : cfg.Valid) (hp : cfg.Physical) (hr : Reach cfg s env) {k : Nat} (hk : env.Has k) :
    Runs cfg (hash cfg k) s (fun h env' => h.toNat = (ty cfg lib env).hash k ∧ env' = env) E := by
  obtain ⟨v, hk⟩ := hk
  refine Runs.mono (runs_hash hv hp hr hk) (fun h env' e => ⟨?_, e.2⟩) fun _ _ h => h
  unfold ty; dsimp only; rw [get_val hk]; exact e.1

theorem runs_bucketP (hv : cfg.Valid) (hp : cfg.Physical) (hr : Reach cfg s env) {k : Nat} (hk : env.Has k) (t : UMap Nat Nat) :
    Runs cfg (bucketP cfg t k) s (fun i env' => i = (ty cfg lib env).hash k % t.n ∧ env' = env) E := by
  unfold bucketP
  refine Runs.bind (runs_hashP (lib := lib) hv hp hr hk) fun h s1 env1 hr1 e => ?_
  obtain ⟨e, rfl⟩ := e
  exact Runs.pure hr1 ⟨by rw [e], rfl⟩

/-- Copying a String about which nothing need be known. -/
theorem runs_copyAny (hv : cfg.Valid) (hp : cfg.Physical) (hr : Reach cfg s env) {r : Nat} (h : env.Live r) :
    Runs cfg (copyCtor r) s (fun o env' => env o = .dead ∧ env' = env.upd o (env r)) E :=
  runs_op hv hp hr (op := .copyCtor r) rfl h
    (fun a env' ⟨o, h1, h2, h3⟩ => by cases h2; exact ⟨h1, h3⟩) (fun e env' ⟨o, h1, h2, h3⟩ => nomatch h2)

/-! ## One table -/

/-- Table `t` has the entries `f`. -/
structure TabOk (cfg : Cfg UInt8) (lib : Lib) (env : Env UInt8) (t : UMap Nat Nat) (f : Text → Option (Nat × Nat)) : Prop where
  wf : Hash.WF (ty cfg lib env) env.Has t
  rep : ∀ k p, f k = some p ↔ p ∈ t.entries ∧ env p.1 = .val k
  live : ∀ p ∈ t.entries, env.Live p.2

variable {t : UMap Nat Nat} {f : Text → Option (Nat × Nat)}

theorem TabOk.bound (h : TabOk cfg lib env t f) {p : Nat × Nat} (hp : p ∈ t.entries) : ∃ k, f k = some p ∧ env p.1 = .val k := by
  obtain ⟨k, hk⟩ := entries_ok h.wf hp
  exact ⟨k, (h.rep k p).2 ⟨hp, hk⟩, hk⟩

theorem TabOk.key (h : TabOk cfg lib env t f) {k : Text} {a b : Nat} (hk : f k = some (a, b)) : env a = .val k := ((h.rep k _).1 hk).2
theorem TabOk.value (h : TabOk cfg lib env t f) {k : Text} {a b : Nat} (hk : f k = some (a, b)) : env.Live b := h.live _ ((h.rep k _).1 hk).1

/-- Strings that are not in the table do not matter, nor do the values. -/
theorem TabOk.frame (h : TabOk cfg lib env t f) (hf : ∀ k a b, f k = some (a, b) → env' a = env a ∧ env'.Live b) : TabOk cfg lib env' t f := by
  have hb : ∀ i, ∀ p ∈ t.bkt i, p ∈ t.entries := fun i p hp => by rw [mem_entries h.wf, h.wf.place i p hp]; exact hp
  have he : ∀ p ∈ t.entries, env' p.1 = env p.1 := fun p hp => by
    obtain ⟨k, hk, _⟩ := h.bound hp
    exact (hf k _ _ hk).1
  have hg : ∀ p ∈ t.entries, env'.get p.1 = env.get p.1 := fun p hp => by unfold Env.get; rw [he p hp]
  refine ⟨⟨h.wf.pos, fun i p hp => ?_, fun i => ?_, fun i p hp => ?_, h.wf.count⟩, fun k p => ?_, fun p hp => ?_⟩
  · have := h.wf.place i p hp
    unfold ty at this ⊢
    dsimp only at this ⊢
    rw [hg p (hb i p hp)]; exact this
  · refine (h.wf.once i).imp_of_mem fun {p q} hp hq hpq => ?_
    unfold ty at hpq ⊢
    dsimp only at hpq ⊢
    rw [hg p (hb i p hp), hg q (hb i q hq)]; exact hpq
  · obtain ⟨v, hv⟩ := h.wf.good i p hp
    exact ⟨v, by rw [he p (hb i p hp), hv]⟩
  · rw [h.rep k p]
    constructor
    · rintro ⟨h1, h2⟩; exact ⟨h1, by rw [he p h1, h2]⟩
    · rintro ⟨h1, h2⟩; exact ⟨h1, by rw [← he p h1, h2]⟩
  · obtain ⟨k, hk, _⟩ := h.bound hp
    exact (hf k _ _ hk).2

theorem TabOk.empty {n : Nat} : TabOk cfg lib env (UMap.empty n) fun _ => none where
  wf := wf_empty n
  rep k p := by rw [entries_empty]; simp
  live := by rw [entries_empty]; nofun

theorem entries_clear (t : UMap Nat Nat) : t.clear.entries = [] := by simp [UMap.clear, UMap.entries]

theorem TabOk.clear (h : TabOk cfg lib env t f) : TabOk cfg lib env' t.clear fun _ => none where
  wf := ⟨h.wf.pos, nofun, fun _ => List.Pairwise.nil, nofun, by rw [entries_clear]; rfl⟩
  rep k p := by rw [entries_clear]; simp
  live := by rw [entries_clear]; nofun

/-- Looking for a text. -/
theorem TabOk.find (h : TabOk cfg lib env t f) {k : Nat} (hk : env.Has k) : t.find (ty cfg lib env) k = f (env.get k) := by
  cases hf : f (env.get k) with
  | some p =>
    obtain ⟨h1, h2⟩ := (h.rep _ p).1 hf
    refine (find_some (ty_laws ..) h.wf hk).2 ⟨h1, ?_⟩
    unfold ty; dsimp only; rw [get_val h2]; simp
  | none =>
    refine (find_none (ty_laws ..) h.wf hk).2 fun p hp => ?_
    obtain ⟨x, h1, h2⟩ := h.bound hp
    unfold ty; dsimp only; rw [get_val h2]
    refine decide_eq_false fun e => ?_
    rw [e, hf] at h1; cases h1

theorem TabOk.push (h : TabOk cfg lib env t f) {k : Text} {a b : Nat} (ha : env a = .val k) (hb : env.Live b) (hk : f k = none) :
    TabOk cfg lib env (t.push (ty cfg lib env) (a, b)) fun x => if x = k then some (a, b) else f x := by
  have hn := (find_none (ty_laws ..) h.wf (has_val ha)).1 (by rw [h.find (has_val ha), get_val ha, hk])
  obtain ⟨h1, h2⟩ := wf_push (ty_laws ..) h.wf (p := (a, b)) (has_val ha) hn
  refine ⟨h1, fun x p => ?_, fun p hp => ?_⟩
  · rw [h2.mem_iff, List.mem_cons]
    by_cases hx : x = k
    · subst hx
      rw [if_pos rfl]
      constructor
      · intro e; injection e with e; subst e; exact ⟨Or.inl rfl, ha⟩
      · rintro ⟨e | h3, h4⟩
        · rw [e]
        · rw [(h.rep x p).2 ⟨h3, h4⟩] at hk; cases hk
    · rw [if_neg hx, h.rep x p]
      constructor
      · rintro ⟨h3, h4⟩; exact ⟨Or.inr h3, h4⟩
      · rintro ⟨e | h3, h4⟩
        · subst e; rw [ha] at h4; injection h4 with h4; exact absurd h4.symm hx
        · exact ⟨h3, h4⟩
  · rcases List.mem_cons.1 (h2.mem_iff.1 hp) with rfl | hp
    · exact hb
    · exact h.live p hp

theorem TabOk.rehash (h : TabOk cfg lib env t f) (n : Nat) : TabOk cfg lib env (t.rehash (ty cfg lib env) n) f := by
  obtain ⟨h1, h2⟩ := wf_rehash (ty_laws ..) h.wf n
  exact ⟨h1, fun k p => by rw [h2.mem_iff, h.rep], fun p hp => h.live p (h2.mem_iff.1 hp)⟩

theorem eraseP_find {q : Nat × Nat → Bool} {p : Nat × Nat} : ∀ {l : List (Nat × Nat)}, l.find? q = some p →
    l.eraseP (fun x => decide (x = p)) = l.eraseP q
  | [], h => rfl
  | a :: l, h => by
    rw [List.find?_cons] at h
    rw [List.eraseP_cons, List.eraseP_cons]
    cases ha : q a with
    | true => rw [ha] at h; injection h with h; subst h; simp
    | false =>
      rw [ha] at h
      have hpq : q p = true := List.find?_some h
      have hne : a ≠ p := fun e => by rw [e, hpq] at ha; cases ha
      rw [decide_eq_false hne]
      simp only [cond_false]
      rw [eraseP_find h]

/-- An entry goes. -/
theorem TabOk.erase (h : TabOk cfg lib env t f) {k : Nat} (hk : env.Has k) {p : Nat × Nat} (hf : f (env.get k) = some p) :
    TabOk cfg lib env (UMap.mk t.n (setFn t.bkt ((ty cfg lib env).hash k % t.n)
      ((t.bkt ((ty cfg lib env).hash k % t.n)).eraseP fun x => decide (x = p))) (t.count - 1)) fun x => if x = env.get k then none else f x := by
  have hfind := (h.find hk).trans hf
  have he := erase_some (ty_laws ..) h.wf hk hfind
  have heq : (t.erase (ty cfg lib env) k).2 = UMap.mk t.n (setFn t.bkt ((ty cfg lib env).hash k % t.n)
      ((t.bkt ((ty cfg lib env).hash k % t.n)).eraseP fun x => decide (x = p))) (t.count - 1) := by
    unfold UMap.erase
    rw [hfind]
    rw [eraseP_find (q := fun q => (ty cfg lib env).eq q.1 k)]
    exact hfind
  rw [heq] at he
  obtain ⟨h1, h2⟩ := he
  have hmem := fun q => h2.mem_iff (a := q)
  obtain ⟨hpm, hpk⟩ := (h.rep _ p).1 hf
  have honce : ∀ q ∈ (UMap.mk t.n (setFn t.bkt ((ty cfg lib env).hash k % t.n)
      ((t.bkt ((ty cfg lib env).hash k % t.n)).eraseP fun x => decide (x = p))) (t.count - 1)).entries, env.get p.1 ≠ env.get q.1 := by
    have hpw : (p :: (UMap.mk t.n (setFn t.bkt ((ty cfg lib env).hash k % t.n)
      ((t.bkt ((ty cfg lib env).hash k % t.n)).eraseP fun x => decide (x = p))) (t.count - 1)).entries).Pairwise fun a b => env.get a.1 ≠ env.get b.1 :=
      (h2.pairwise_iff fun {a b} hab e => hab e.symm).1 ((entries_once (ty_laws ..) h.wf).imp fun {a b} hab => by
        unfold ty at hab; exact of_decide_eq_false hab)
    exact (List.pairwise_cons.1 hpw).1
  refine ⟨h1, fun x q => ?_, fun q hq => h.live q ((hmem q).2 (List.mem_cons_of_mem _ hq))⟩
  by_cases hx : x = env.get k
  · subst hx
    rw [if_pos rfl]
    constructor
    · nofun
    · rintro ⟨h3, h4⟩
      exact absurd (by rw [get_val hpk, get_val h4]) (honce q h3)
  · rw [if_neg hx, h.rep x q, hmem q, List.mem_cons]
    constructor
    · rintro ⟨rfl | h3, h4⟩
      · rw [hpk] at h4; injection h4 with h4; exact absurd h4.symm hx
      · exact ⟨h3, h4⟩
    · rintro ⟨h3, h4⟩; exact ⟨Or.inr h3, h4⟩

theorem runs_lookP (hv : cfg.Valid) (hp : cfg.Physical) (hL : lib.L.Ok) (hr : Reach cfg s env) (h : TabOk cfg lib env t f) {k : Nat}
    (hk : env.Has k) : Runs cfg (lookP cfg lib t k) s (fun r env' => r = f (env.get k) ∧ env' = env) E := by
  unfold lookP
  obtain ⟨v, hk'⟩ := id hk
  refine Runs.bind (runs_bucketP (lib := lib) hv hp hr hk t) fun i s1 env1 hr1 e => ?_
  obtain ⟨rfl, rfl⟩ := e
  refine Runs.mono (runs_scanP hv hp hL hk' _ hr1 fun p hp => h.wf.good _ p hp) (fun r env' e => ⟨?_, e.2⟩) fun _ _ h => h
  rw [e.1]; exact h.find hk

theorem putAt_push {u : UMap Nat Nat} {p : Nat × Nat} : putAt u ((ty cfg lib env).hash p.1 % u.n) p = u.push (ty cfg lib env) p := rfl

theorem runs_refillP (hv : cfg.Valid) (hp : cfg.Physical) : ∀ (l : List (Nat × Nat)) {s : St UInt8} (u : UMap Nat Nat),
    Reach cfg s env → (∀ p ∈ l, env.Has p.1) →
    Runs cfg (refillP cfg l u) s (fun r env' => r = l.foldl (UMap.push (ty cfg lib env)) u ∧ env' = env) E
  | [], s, u, hr, _ => Runs.pure hr ⟨rfl, rfl⟩
  | p :: l, s, u, hr, h => by
    unfold refillP
    refine Runs.bind (runs_bucketP (lib := lib) hv hp hr (h p (List.mem_cons_self ..)) u) fun i s1 env1 hr1 e => ?_
    obtain ⟨rfl, e⟩ := e
    replace e := e.symm
    subst e
    exact runs_refillP hv hp l _ hr1 fun q hq => h q (List.mem_cons_of_mem _ hq)

/-! ## All tables -/

/-- What the tables are. -/
structure TabsOk (cfg : Cfg UInt8) (lib : Lib) (env : Env UInt8) (w : Tabs) (m : Tables) : Prop where
  tab : ∀ i, TabOk cfg lib env (w.tab i) (m i)
  apart : Apart m

end Bdlib.Rca
