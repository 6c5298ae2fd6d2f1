import Verif.Prog.Model
import Verif.Rca.Growth
import Verif.Str.Cut

/-!
# Compound functions: searching, trimming, cutting, repeating
-/

namespace Bdlib.Rca
open Bdlib Bdlib.Spec Bdlib.Str

section
variable {T : Type} [DecidableEq T] {cfg : Cfg T} {s : St T} {env : Env T} {E : Exc → Env T → Prop}

theorem Reach.view (hv : cfg.Valid) (hp : cfg.Physical) (hr : Reach cfg s env) {o : Nat} {v : List T} (h : env o = .val v) :
    s.view o = some v := by
  have := (hr.inv hv hp).2.2 o
  rw [h] at this
  exact this

theorem Reach.len_lt (hv : cfg.Valid) (hp : cfg.Physical) (hr : Reach cfg s env) {o : Nat} {v : List T} (h : env o = .val v) :
    v.length < maxCells := by
  obtain ⟨hwf, hc, -⟩ := hr.inv hv hp
  have hview := hr.view hv hp h
  obtain ⟨ob, ho, hvo⟩ := view_some hview
  by_cases hne : v = []
  · rw [hne]; show 0 < maxCells; decide
  · cases hr' : ob.ref with
    | none =>
      unfold St.viewOf at hvo
      rw [hr'] at hvo
      simp at hvo
      rw [← hvo.2] at hne
      exact absurd rfl hne
    | some a =>
      obtain ⟨b, hb, hle⟩ := hwf.le ho hr'
      rw [St.viewOf_some hr' hb hle] at hvo
      cases hvo
      have := hc a b hb
      have := List.length_take_le' ob.sublen (b.cells.drop ob.offset)
      unfold window
      simp at *
      omega

theorem take_npos (hv : cfg.Valid) (hp : cfg.Physical) (hr : Reach cfg s env) {o : Nat} {v : List T} (h : env o = .val v) :
    v.take npos = v := by
  apply List.take_of_length_le
  have := hr.len_lt hv hp h
  unfold maxCells at this
  unfold npos
  omega

theorem runs_contents (hv : cfg.Valid) (hp : cfg.Physical) (hr : Reach cfg s env) {o : Nat} {v : List T} (h : env o = .val v) :
    Runs cfg (contents o) s (fun l env' => l = v ∧ env' = env) E := by
  unfold contents
  have hview := hr.view hv hp h
  refine sat_bind ?_
  rw [length_spec hview]
  show (readRange o 0 v.length s).Sat _ _
  refine readRange_view (hr.inv hv hp).1 hview (by omega) ⟨env, ⟨?_, rfl⟩, hr, Nat.le_refl _⟩
  unfold window
  simp

theorem runs_liftE {α : Type} {e : Eff α} {a : α} (he : e = .ret a) (hr : Reach cfg s env) :
    Runs cfg (liftE e) s (fun x env' => x = a ∧ env' = env) E := by
  subst he
  exact Runs.pure hr ⟨rfl, rfl⟩

/-- Equal start addresses and equal lengths mean equal contents. -/
theorem runs_sameStart (hv : cfg.Valid) (hp : cfg.Physical) (hr : Reach cfg s env) {o r : Nat} {v w : List T}
    (h : env o = .val v) (hw : env r = .val w) :
    Runs cfg (sameStart o r) s (fun same env' => (same = true → v.length = w.length → v = w) ∧ env' = env) E := by
  obtain ⟨hwf, -, -⟩ := hr.inv hv hp
  obtain ⟨a, ho, hva⟩ := view_some (hr.view hv hp h)
  obtain ⟨b, hro, hvb⟩ := view_some (hr.view hv hp hw)
  unfold sameStart
  refine sat_bind ?_
  rw [getObj_eq ho]
  refine sat_bind ?_
  rw [getObj_eq hro]
  refine ⟨env, ⟨fun hs hl => ?_, rfl⟩, hr, Nat.le_refl _⟩
  unfold sameAddr at hs
  cases ha : a.ref with
  | none =>
    cases hb : b.ref with
    | none =>
      unfold St.viewOf at hva hvb
      rw [ha] at hva
      rw [hb] at hvb
      simp at hva hvb
      rw [hva.2, hvb.2]
    | some y => rw [ha, hb] at hs; cases hs
  | some x =>
    cases hb : b.ref with
    | none => rw [ha, hb] at hs; cases hs
    | some y =>
      rw [ha, hb] at hs
      obtain ⟨rfl, hoff⟩ := of_decide_eq_true hs
      obtain ⟨bx, hbx, hle⟩ := hwf.le ho ha
      obtain ⟨by', hby, hle'⟩ := hwf.le hro hb
      rw [hbx] at hby
      cases hby
      rw [St.viewOf_some ha hbx hle] at hva
      rw [St.viewOf_some hb hbx hle'] at hvb
      cases hva
      cases hvb
      rw [window_length hle, window_length hle'] at hl
      rw [hoff, hl]

end

section
variable {cfg : Cfg UInt8} {s : St UInt8} {env : Env UInt8} {E : Exc → Env UInt8 → Prop}

theorem runs_findP (hv : cfg.Valid) (hp : cfg.Physical) {L : Libc} (hr : Reach cfg s env) {o r : Nat} {v w : Bytes} {n : Nat}
    (h : env o = .val v) (hw : env r = .val w) (hf : Str.find L v w = .ret n) :
    Runs cfg (findP L o r) s (fun x env' => x = n ∧ env' = env) E := by
  unfold findP
  refine Runs.bind (runs_contents hv hp hr h) fun _ s1 env1 hr1 e => ?_
  obtain ⟨rfl, rfl⟩ := e
  refine Runs.bind (runs_contents hv hp hr1 hw) fun _ s2 env2 hr2 e => ?_
  obtain ⟨rfl, rfl⟩ := e
  exact runs_liftE hf hr2

theorem runs_compareP (hv : cfg.Valid) (hp : cfg.Physical) {L : Libc} (hr : Reach cfg s env) {o r : Nat} {v w : Bytes}
    (h : env o = .val v) (hw : env r = .val w) {x : Int}
    (hf : ∀ same : Bool, (same = true → v.length = w.length → v = w) → Str.compare L same v w = .ret x) :
    Runs cfg (compareP L o r) s (fun y env' => y = x ∧ env' = env) E := by
  unfold compareP
  refine Runs.bind (runs_sameStart hv hp hr h hw) fun same s1 env1 hr1 e => ?_
  obtain ⟨hsame, rfl⟩ := e
  refine Runs.bind (runs_contents hv hp hr1 h) fun _ s2 env2 hr2 e => ?_
  obtain ⟨rfl, rfl⟩ := e
  refine Runs.bind (runs_contents hv hp hr2 hw) fun _ s3 env3 hr3 e => ?_
  obtain ⟨rfl, rfl⟩ := e
  exact runs_liftE (hf _ hsame) hr3

theorem runs_chompOneP (hv : cfg.Valid) (hp : cfg.Physical) (hr : Reach cfg s env) {o : Nat} {c : UInt8} {v r : Bytes}
    (h : env o = .val v) (hf : chompOne v c = .ret r) :
    Runs cfg (chompOneP o c) s (fun _ env' => env' = env.upd o (.val r)) E := by
  unfold chompOneP
  refine Runs.bind (runs_length hv hp hr h) fun _ s1 env1 hr1 e => ?_
  obtain ⟨rfl, rfl⟩ := e
  unfold chompOne at hf
  by_cases hn : v.length = 0
  · rw [if_neg (not_not_intro hn)] at hf ⊢
    cases hf
    exact Runs.pure hr1 (Env.upd_id h).symm
  · rw [if_pos hn] at hf ⊢
    have hlt : v.length - 1 < v.length := by omega
    refine Runs.bind (runs_read hv hp hr1 h hlt) fun _ s2 env2 hr2 e => ?_
    obtain ⟨rfl, rfl⟩ := e
    rw [rd_lt hlt, Eff.ret_bind] at hf
    by_cases hc : v[v.length - 1] = c
    · rw [if_pos hc] at hf
      cases hf
      rw [if_pos (by rw [hc])]
      refine Runs.mono (runs_popBack hv hp hr2 h (by intro e; rw [e] at hn; exact hn rfl) (E := E)) (fun _ _ e => ?_) (fun _ _ h => h)
      rw [e, List.dropLast_eq_take]
    · rw [if_neg hc] at hf
      cases hf
      rw [if_neg (by intro e; cases e; exact hc rfl)]
      exact Runs.pure hr2 (Env.upd_id h).symm

theorem runs_chompP (hv : cfg.Valid) (hp : cfg.Physical) (hr : Reach cfg s env) {o : Nat} {v r : Bytes}
    (h : env o = .val v) (hf : chomp v = .ret r) : Runs cfg (chompP o) s (fun _ env' => env' = env.upd o (.val r)) E := by
  unfold chomp at hf
  cases h1 : chompOne v 10 with
  | ret v1 =>
    rw [h1, Eff.ret_bind] at hf
    unfold chompP
    refine Runs.bind (runs_chompOneP hv hp hr h h1) fun _ s1 env1 hr1 e => ?_
    subst e
    refine Runs.mono (runs_chompOneP hv hp hr1 Env.upd_self hf (E := E)) (fun _ _ e => ?_) (fun _ _ h => h)
    rw [e, Env.upd_upd]
  | exc e => rw [h1] at hf; cases hf
  | ub => rw [h1] at hf; cases hf
  | more => rw [h1] at hf; cases hf

theorem runs_ltrimP (hv : cfg.Valid) (hp : cfg.Physical) {L : Libc} {o : Nat} : ∀ (v : Bytes) (fuel : Nat) {s : St UInt8} {env : Env UInt8},
    Reach cfg s env → env o = .val v → v.length < fuel →
    Runs cfg (ltrimP L o fuel) s (fun _ env' => env' = env.upd o (.val (ltrim L v))) E
  | [], fuel + 1, s, env, hr, h, _ => by
    unfold ltrimP
    refine Runs.bind (runs_length hv hp hr h) fun _ s1 env1 hr1 e => ?_
    obtain ⟨rfl, rfl⟩ := e
    exact Runs.pure hr1 (Env.upd_id h).symm
  | x :: v, fuel + 1, s, env, hr, h, hlt => by
    unfold ltrimP
    refine Runs.bind (runs_length hv hp hr h) fun _ s1 env1 hr1 e => ?_
    obtain ⟨rfl, rfl⟩ := e
    rw [if_pos (by simp)]
    refine Runs.bind (runs_read hv hp hr1 h (i := 0) (by simp)) fun _ s2 env2 hr2 e => ?_
    obtain ⟨rfl, rfl⟩ := e
    dsimp only [List.getElem_cons_zero]
    unfold ltrim
    by_cases hc : L.isspace x = true
    · rw [if_pos hc, if_pos hc]
      refine Runs.bind (runs_dropFront hv hp hr2 h) fun _ s3 env3 hr3 e => ?_
      subst e
      refine Runs.mono (runs_ltrimP hv hp v fuel hr3 Env.upd_self (by simp at hlt; omega)) (fun _ _ e => ?_) (fun _ _ h => h)
      rw [e, Env.upd_upd]
    · rw [if_neg hc, if_neg hc]
      exact Runs.pure hr2 (Env.upd_id h).symm

theorem runs_rtrimP (hv : cfg.Valid) (hp : cfg.Physical) {L : Libc} {o : Nat} {w r : Bytes} : ∀ (n fuel : Nat) {s : St UInt8} {env : Env UInt8},
    Reach cfg s env → n ≤ w.length → env o = .val (w.take n) → n < fuel → rtrim L w n = .ret r →
    Runs cfg (rtrimP L o fuel) s (fun _ env' => env' = env.upd o (.val r)) E
  | 0, fuel + 1, s, env, hr, _, h, _, hf => by
    unfold rtrimP
    refine Runs.bind (runs_length hv hp hr h) fun _ s1 env1 hr1 e => ?_
    obtain ⟨rfl, rfl⟩ := e
    unfold rtrim at hf
    cases hf
    exact Runs.pure hr1 (Env.upd_id h).symm
  | n + 1, fuel + 1, s, env, hr, hn, h, hlt, hf => by
    have hl : (w.take (n + 1)).length = n + 1 := by rw [List.length_take]; omega
    unfold rtrimP
    refine Runs.bind (runs_length hv hp hr h) fun _ s1 env1 hr1 e => ?_
    obtain ⟨rfl, rfl⟩ := e
    rw [if_pos (by omega)]
    refine Runs.bind (runs_read hv hp hr1 h (i := (w.take (n + 1)).length - 1) (by omega)) fun _ s2 env2 hr2 e => ?_
    obtain ⟨rfl, rfl⟩ := e
    have hx : (w.take (n + 1))[(w.take (n + 1)).length - 1]'(by omega) = w[n] := by
      rw [List.getElem_take]; congr 1; omega
    unfold rtrim at hf
    rw [rd_lt (by omega), Eff.ret_bind] at hf
    dsimp only
    rw [hx]
    by_cases hc : L.isspace w[n] = true
    · rw [if_pos hc] at hf ⊢
      refine Runs.bind (runs_popBack hv hp hr2 h (by intro e; rw [e] at hl; cases hl)) fun _ s3 env3 hr3 e => ?_
      subst e
      refine Runs.mono (runs_rtrimP hv hp n fuel hr3 (by omega) ?_ (by omega) hf) (fun _ _ e => ?_) (fun _ _ h => h)
      · rw [Env.upd_self, List.dropLast_eq_take, hl, List.take_take]
        congr 2
        omega
      · rw [e, Env.upd_upd]
    · rw [if_neg hc] at hf ⊢
      cases hf
      exact Runs.pure hr2 (Env.upd_id h).symm

theorem ltrim_len (L : Libc) : ∀ v : Bytes, (ltrim L v).length ≤ v.length
  | [] => Nat.le_refl _
  | x :: v => by
    unfold ltrim
    split
    · have := ltrim_len L v
      simp; omega
    · exact Nat.le_refl _

theorem runs_trimP (hv : cfg.Valid) (hp : cfg.Physical) {L : Libc} (hr : Reach cfg s env) {o fuel : Nat} {v r : Bytes}
    (h : env o = .val v) (hfuel : v.length < fuel) (hf : trim L v = .ret r) :
    Runs cfg (trimP L fuel o) s (fun _ env' => env' = env.upd o (.val r)) E := by
  unfold trimP
  refine Runs.bind (runs_ltrimP hv hp v fuel hr h hfuel) fun _ s1 env1 hr1 e => ?_
  subst e
  have := ltrim_len L v
  refine Runs.mono (runs_rtrimP hv hp (ltrim L v).length fuel hr1 (Nat.le_refl _) (by rw [Env.upd_self, List.take_length])
    (by omega) hf (E := E)) (fun _ _ e => ?_) (fun _ _ h => h)
  rw [e, Env.upd_upd]

theorem runs_mulLoopP (hv : cfg.Valid) (hp : cfg.Physical) {o new : Nat} {v : Bytes} {env : Env UInt8} (hd : env new = .dead)
    (ho : env o = .val v) : ∀ (k : Nat) (acc : Bytes) {s : St UInt8}, Reach cfg s (env.upd new (.val acc)) →
    Runs cfg (mulLoopP cfg o new k) s (fun _ env' => env' = env.upd new (.val (mulLoop v k acc)))
      (fun e env' => e = .badAlloc ∧ env'.Live new ∧ env'.upd new .dead = env)
  | 0, acc, s, hr => Runs.pure hr rfl
  | k + 1, acc, s, hr => by
    have ho' : env.upd new (.val acc) o = .val v := by rw [Env.upd_ne (dead_ne hd (live_val ho)), ho]
    unfold mulLoopP
    refine Runs.bind (runs_appendRca hv hp hr Env.upd_self ho' fun e env' h => ?_) fun _ s1 env1 hr1 e => ?_
    · exact ⟨h.1, h.live (live_val Env.upd_self), h.gone hd⟩
    · subst e
      rw [Env.upd_upd, take_npos hv hp hr ho'] at hr1
      exact runs_mulLoopP hv hp hd ho k _ hr1

theorem ok_onThrow {α : Type} {T : Type} {m : M T α} {c : M T Unit} {s : St T} {Q : α → St T → Prop} (h : (m s).Ok Q) : (m.onThrow c s).Ok Q := by
  unfold M.onThrow
  cases hm : m s with
  | ok a s' => rw [hm] at h; exact h
  | ub => trivial
  | throw e s' => dsimp only; cases c s' <;> trivial

/-- A size no machine has is refused. -/
theorem runs_sizeCtor_big (hv : cfg.Valid) (hp : cfg.Physical) (hr : Reach cfg s env) {n : Nat} (hn : maxCells ≤ n) :
    Runs cfg (sizeCtor cfg n) s (fun _ _ => False) (fun e env' => e = .badAlloc ∧ env' = env) := by
  have h := runs_sizeCtor (E := fun e env' => e = .badAlloc ∧ env' = env) hv hp hr n ⟨rfl, rfl⟩
  have h2 : (sizeCtor cfg n s).Ok fun o s' => ∃ g, s'.At o g ∧ n ≤ g.cap := by
    unfold sizeCtor
    apply ok_bind
    show ((do (if n ≠ 0 then reservePub cfg.base s.objs.length n else pure ()).onThrow (destroy cfg.base s.objs.length)
              return s.objs.length : M UInt8 Nat) { s with objs := s.objs ++ [some {}] }).Ok _
    have hn0 : n ≠ 0 := by
      have : 0 < maxCells := by decide
      omega
    rw [if_pos hn0]
    apply ok_bind
    apply ok_onThrow
    refine ok_mono (rcaReserve_geo_none (ob := {}) (s := { s with objs := s.objs ++ [some {}] }) ?_ rfl rfl) ?_
    · simp [St.obj]
    · rintro _ s' ⟨g, hat, -, hcap, -⟩
      refine ⟨g, hat, ?_⟩
      rwa [if_neg (by simp [Cfg.base])] at hcap
  unfold Runs at h ⊢
  cases hm : sizeCtor cfg n s with
  | ub => rw [hm] at h; exact h
  | throw e s' => rw [hm] at h; exact h
  | ok o s' =>
    rw [hm] at h h2
    obtain ⟨env', -, hr', -⟩ := h
    obtain ⟨g, ⟨ob, b, -, -, -, -, hb, -, hcap, -⟩, hle⟩ := h2
    have := (hr'.inv hv hp).2.1 _ _ hb
    omega

/-- How a function ends that returns a new object: the object holds `r` and nothing else changed; or memory ran
out and nothing changed. -/
def Returns {T : Type} (env : Env T) (r : List T) (o : Nat) (env' : Env T) : Prop := env o = .dead ∧ env' = env.upd o (.val r)
def NoMemory {T : Type} (env : Env T) (e : Exc) (env' : Env T) : Prop := e = .badAlloc ∧ env' = env

theorem runs_mulP (hv : cfg.Valid) (hp : cfg.Physical) (hr : Reach cfg s env) {o : Nat} {times : Int} {v r : Bytes} (h : env o = .val v)
    (hf : mul v times = .ret r) : Runs cfg (mulP cfg o times) s (Returns env r) (NoMemory env) := by
  unfold mulP
  refine Runs.bind (runs_length hv hp hr h) fun _ s1 env1 hr1 e => ?_
  obtain ⟨rfl, rfl⟩ := e
  unfold mul Str.alloc at hf
  split at hf
  case isFalse => cases hf
  cases hf
  refine runs_building hv hp (runs_sizeCtor hv hp hr1 _ ⟨rfl, rfl⟩) fun new s2 hd hr2 => ?_
  exact Runs.mono (runs_mulLoopP hv hp hd h _ _ hr2) (fun _ _ e => ⟨hd, e⟩) fun _ _ e => ⟨e.2.1, e.1, e.2.2⟩

theorem runs_mulP_exc (hv : cfg.Valid) (hp : cfg.Physical) (hr : Reach cfg s env) {o : Nat} {times : Int} {v : Bytes} {x : Exc} (h : env o = .val v)
    (hf : mul v times = .exc x) : Runs cfg (mulP cfg o times) s (fun _ _ => False) (NoMemory env) := by
  unfold mulP
  refine Runs.bind (runs_length hv hp hr h) fun _ s1 env1 hr1 e => ?_
  obtain ⟨rfl, rfl⟩ := e
  unfold mul Str.alloc at hf
  split at hf
  · cases hf
  · rename_i hn
    unfold building
    exact Runs.bind (runs_sizeCtor_big hv hp hr1 (Nat.le_of_not_lt hn)) fun _ _ _ _ h => h.elim

end

end Bdlib.Rca
