import Verif.Deep.Looks
import Verif.Props.C72

/-!
# Algorithms on arrays of objects: proofs
-/

namespace Bdlib.Deep
open Bdlib Bdlib.Spec Bdlib.Rca Bdlib.Str
open Pg (undef)

/-! ## Handles -/

/-- What the objects behind the handles hold. -/
def inHand {T : Type} (env : Env T) (H ts : List Nat) : Hand T := ⟨H.map env, ts.map env⟩

/-- The handle of an object. -/
def Place.handle (H ts : List Nat) : Place → Option Nat
  | .elem i => H[i]?
  | .temp t => ts[t]?

/-- All handles are different. -/
structure Apart (H ts : List Nat) : Prop where
  left : H.Nodup
  right : ts.Nodup
  none : ∀ h ∈ ts, h ∉ H

section
variable {T : Type} {env : Env T} {H ts : List Nat}

theorem map_upd {env : Env T} {x : Slot T} {h : Nat} : ∀ {l : List Nat} {i : Nat}, l.Nodup → l[i]? = some h → l.map (env.upd h x) = (l.map env).set i x
  | [], i, _, hi => by cases hi
  | y :: l, 0, hn, hi => by
    cases hi
    simp only [List.map_cons, List.set_cons_zero, Env.upd_self]
    congr 1
    exact List.map_congr_left fun z hz => Env.upd_ne fun e => (List.nodup_cons.mp hn).1 (e ▸ hz)
  | y :: l, i + 1, hn, hi => by
    have hi' : l[i]? = some h := hi
    simp only [List.map_cons, List.set_cons_succ]
    rw [map_upd (List.nodup_cons.mp hn).2 hi', Env.upd_ne]
    intro e
    exact (List.nodup_cons.mp hn).1 (e ▸ List.mem_of_getElem? hi')

theorem map_upd_out {x : Slot T} {h : Nat} {l : List Nat} (hn : h ∉ l) : l.map (env.upd h x) = l.map env :=
  List.map_congr_left fun _ hz => Env.upd_ne fun e => hn (e ▸ hz)

theorem place_has {pl : Place} (h : (inHand env H ts).Has pl) : ∃ x, pl.handle H ts = some x ∧ (inHand env H ts).get pl = env x := by
  cases pl with
  | elem i =>
    have hi : i < H.length := by simpa [inHand, Hand.Has] using h
    exact ⟨H[i], List.getElem?_eq_getElem hi, by simp [inHand, Hand.get, hi]⟩
  | temp i =>
    have hi : i < ts.length := by simpa [inHand, Hand.Has] using h
    exact ⟨ts[i], List.getElem?_eq_getElem hi, by simp [inHand, Hand.get, hi]⟩

theorem hand_put (ha : Apart H ts) {pl : Place} {x : Nat} (h : pl.handle H ts = some x) (y : Slot T) :
    inHand (env.upd x y) H ts = (inHand env H ts).put pl y := by
  cases pl with
  | elem i =>
    have hx : x ∉ ts := fun hm => ha.none x hm (List.mem_of_getElem? h)
    simp only [inHand, Hand.put]
    rw [map_upd ha.left h, map_upd_out hx]
  | temp i =>
    have hx : x ∉ H := fun hm => ha.none x (List.mem_of_getElem? h) hm
    simp only [inHand, Hand.put]
    rw [map_upd ha.right h, map_upd_out hx]

theorem handle_inj (ha : Apart H ts) {d s : Place} {x : Nat} (hd : d.handle H ts = some x) (hs : s.handle H ts = some x) : d = s := by
  cases d with
  | elem i =>
    cases s with
    | elem j =>
      have := (List.getElem?_inj (List.getElem?_eq_some_iff.mp hd).1 ha.left).1 (Eq.trans hd hs.symm)
      rw [this]
    | temp j => exact absurd (List.mem_of_getElem? hd) (ha.none x (List.mem_of_getElem? hs))
  | temp i =>
    cases s with
    | elem j => exact absurd (List.mem_of_getElem? hs) (ha.none x (List.mem_of_getElem? hd))
    | temp j =>
      have := (List.getElem?_inj (List.getElem?_eq_some_iff.mp hd).1 ha.right).1 (Eq.trans hd hs.symm)
      rw [this]

theorem handle_mem {d : Place} {x : Nat} (hd : d.handle H ts = some x) : x ∈ H ∨ x ∈ ts := by
  cases d with
  | elem i => exact .inl (List.mem_of_getElem? hd)
  | temp i => exact .inr (List.mem_of_getElem? hd)
end

/-! ## Running an algorithm -/

/-- The code ends as specified, in state `w`. -/
def Came {T S : Type} (x : Outcome T) (r : Res S Nat) (w : S) : Prop :=
  (∃ k, x = .ret (.num k) ∧ r = .ok k w) ∨ ∃ e, x = .exc e ∧ r = .throw e w

/-- Comparisons come out as specified and change nothing. -/
def CmpLaw {c : Conf} {n : Nat} (R : c.elt.Mem → Env (Ty n) → Prop) (cmp : Cmp n → Nat → Nat → Pg c.elt.Mem Bool) : Prop :=
  ∀ q {s env}, R s env → ∀ {x y}, q.Ok (env x) (env y) → ∃ s', cmp q x y s = .ok (q.says (env x) (env y)) s' ∧ R s' env

section
variable {c : Conf} {n : Nat} {mv : Slot (Ty n)} {R : c.elt.Mem → Env (Ty n) → Prop} {cmp : Cmp n → Nat → Nat → Pg c.elt.Mem Bool}

theorem deletes_all (hc : Good mv R) {s : St Nat} : ∀ (ts : List Nat) {m : c.elt.Mem} {env : Env (Ty n)}, R m env → (∀ h ∈ ts, env h ≠ .dead) →
    ts.Nodup → ∃ m' env', deletes c ts (⟨m, s⟩ : World c) = .ok () ⟨m', s⟩ ∧ R m' env' ∧ (∀ h ∈ ts, env' h = .dead) ∧ ∀ h, h ∉ ts → env' h = env h
  | [], m, env, hR, _, _ => ⟨m, env, rfl, hR, by simp, fun _ _ => rfl⟩
  | t :: ts, m, env, hR, hl, hn => by
    obtain ⟨ht, hn'⟩ := List.nodup_cons.mp hn
    obtain ⟨m1, h1, hR1⟩ := hc.delete hR (hl t List.mem_cons_self)
    obtain ⟨m2, env2, h2, hR2, hd, ho⟩ := deletes_all hc (s := s) ts hR1 (fun h hm => by
      have hne : h ≠ t := fun e => ht (e ▸ hm)
      rw [Env.upd_ne hne]; exact hl h (List.mem_cons_of_mem _ hm)) hn'
    refine ⟨m2, env2, ?_, hR2, fun h hm => ?_, fun h hm => ?_⟩
    · show (elts (c.elt.delete t) >>= _) (⟨m, s⟩ : World c) = _
      rw [pbind_ok (elts_ok (w := (⟨m, s⟩ : World c)) h1)]
      exact h2
    · by_cases hmt : h ∈ ts
      · exact hd h hmt
      · rcases List.mem_cons.mp hm with rfl | hm
        · rw [ho h hmt, Env.upd_self]
        · exact absurd hm hmt
    · rw [List.mem_cons, not_or] at hm
      rw [ho h hm.2, Env.upd_ne hm.1]

/-- The outcome of an algorithm that works on the objects `H` and its own `ts`. -/
def Worked (R : c.elt.Mem → Env (Ty n) → Prop) (s : St Nat) (H ts : List Nat) (env : Env (Ty n))
    (e : Outcome (Ty (n + 1)) × List (Slot (Ty n))) (r : Res (World c) Nat) : Prop :=
  ∃ m' env', Came e.1 r (⟨m', s⟩ : World c) ∧ R m' env' ∧ H.map env' = e.2 ∧ (∀ h ∈ H, env' h ≠ .dead) ∧ (∀ h ∈ ts, env' h = .dead) ∧
    ∀ h, h ∉ H → h ∉ ts → env' h = env h

theorem exec_ok (hc : Good mv R) (hcmp : CmpLaw R cmp) {first : Start} {s : St Nat} {H : List Nat}
    (hH : ∀ {i h}, H[i]? = some h → ∀ ts m, (Place.elem i).get c first ts (⟨m, s⟩ : World c) = .ok h ⟨m, s⟩) :
    ∀ (A : Algo n) {ts : List Nat} {m : c.elt.Mem} {env : Env (Ty n)}, R m env → (∀ h, h ∈ H ∨ h ∈ ts → env h ≠ .dead) → Apart H ts →
      A.Ok mv (inHand env H ts) → Worked R s H ts env (A.effect mv (inHand env H ts)) (A.exec c cmp first ts (⟨m, s⟩ : World c)) := by
  have hget : ∀ {ts : List Nat} {env : Env (Ty n)} {pl : Place}, (inHand env H ts).Has pl →
      ∃ x, pl.handle H ts = some x ∧ (inHand env H ts).get pl = env x ∧ ∀ m, pl.get c first ts (⟨m, s⟩ : World c) = .ok x ⟨m, s⟩ := by
    intro ts env pl h
    obtain ⟨x, h1, h2⟩ := place_has h
    refine ⟨x, h1, h2, fun m => ?_⟩
    cases pl with
    | elem i => exact hH h1 ts m
    | temp t =>
      have h1' : ts[t]? = some x := h1
      show (match ts[t]? with
        | some h => (pure h : P c Nat)
        | none => undef) (⟨m, s⟩ : World c) = _
      rw [h1']
      rfl
  have out : ∀ {ts : List Nat} {pl : Place} {x h : Nat}, pl.handle H ts = some x → h ∉ H → h ∉ ts → h ≠ x := by
    rintro ts pl x h hx hn ht rfl
    exact (handle_mem hx).elim hn ht
  intro A
  induction A with
  | done r =>
    intro ts m env hR hl ha _
    obtain ⟨m', env', h1, h2, h3, h4⟩ := deletes_all hc (s := s) ts hR (fun h hm => hl h (.inr hm)) ha.right
    refine ⟨m', env', .inl ⟨r, rfl, ?_⟩, h2, List.map_congr_left fun h hm => h4 h fun ht => ha.none h ht hm, fun h hm => ?_, h3,
      fun h _ ht => h4 h ht⟩
    · show (deletes c ts >>= fun _ => pure r) _ = _
      rw [pbind_ok h1]; rfl
    · rw [h4 h fun ht => ha.none h ht hm]; exact hl h (.inl hm)
  | raise e =>
    intro ts m env hR hl ha _
    obtain ⟨m', env', h1, h2, h3, h4⟩ := deletes_all hc (s := s) ts hR (fun h hm => hl h (.inr hm)) ha.right
    refine ⟨m', env', .inr ⟨e, rfl, ?_⟩, h2, List.map_congr_left fun h hm => h4 h fun ht => ha.none h ht hm, fun h hm => ?_, h3,
      fun h _ ht => h4 h ht⟩
    · show (deletes c ts >>= fun _ => (throwing e : P c Nat)) _ = _
      rw [pbind_ok h1]; rfl
    · rw [h4 h fun ht => ha.none h ht hm]; exact hl h (.inl hm)
  | move d s' k ih =>
    intro ts m env hR hl ha ⟨hd, hs, hk⟩
    obtain ⟨x, hx, _, gx⟩ := hget hd
    obtain ⟨y, hy, vy, gy⟩ := hget hs
    obtain ⟨m1, h1, hR1⟩ := hc.assignMove hR (hl x (handle_mem hx)) (hl y (handle_mem hy))
    have he : inHand (if x = y then env else (env.upd y mv).upd x (env y)) H ts = (inHand env H ts).move mv d s' := by
      unfold Hand.move
      by_cases hxy : x = y
      · subst hxy
        rw [if_pos rfl, if_pos (handle_inj ha hx hy)]
      · rw [if_neg hxy, if_neg (fun e => hxy (by rw [e] at hx; exact Option.some.inj (hx.symm.trans hy))), hand_put ha hx, hand_put ha hy, vy]
    rw [← he] at hk
    have hlive : ∀ h, h ∈ H ∨ h ∈ ts → (if x = y then env else (env.upd y mv).upd x (env y)) h ≠ .dead := by
      intro h hm
      split
      · exact hl h hm
      · by_cases h1 : h = x
        · subst h1; rw [Env.upd_self]; exact hl y (handle_mem hy)
        · rw [Env.upd_ne h1]
          by_cases h2 : h = y
          · subst h2; rw [Env.upd_self]; exact hc.ne
          · rw [Env.upd_ne h2]; exact hl h hm
    obtain ⟨m', env', r1, r2, r3, r4, r5, r6⟩ := ih hR1 hlive ha hk
    rw [he] at r1 r3
    refine ⟨m', env', ?_, r2, r3, r4, r5, fun h hn ht => ?_⟩
    · show Came _ ((Place.get c first ts d >>= _) (⟨m, s⟩ : World c)) _
      rw [pbind_ok (gx m), pbind_ok (gy m)]
      erw [pbind_ok (elts_ok (w := (⟨m, s⟩ : World c)) h1)]
      exact r1
    · rw [r6 h hn ht]
      split
      · rfl
      · rw [Env.upd_ne (out hx hn ht), Env.upd_ne (out hy hn ht)]
  | copy d s' k ih =>
    intro ts m env hR hl ha ⟨hd, hs, hk⟩
    obtain ⟨x, hx, _, gx⟩ := hget hd
    obtain ⟨y, hy, vy, gy⟩ := hget hs
    obtain ⟨m1, h1, hR1⟩ := hc.assign hR (hl x (handle_mem hx)) (hl y (handle_mem hy))
    have he : inHand (env.upd x (env y)) H ts = (inHand env H ts).put d ((inHand env H ts).get s') := by rw [hand_put ha hx, vy]
    rw [← he] at hk
    obtain ⟨m', env', r1, r2, r3, r4, r5, r6⟩ := ih hR1 (fun h hm => by
      by_cases h1 : h = x
      · subst h1; rw [Env.upd_self]; exact hl y (handle_mem hy)
      · rw [Env.upd_ne h1]; exact hl h hm) ha hk
    rw [he] at r1 r3
    refine ⟨m', env', ?_, r2, r3, r4, r5, fun h hn ht => ?_⟩
    · show Came _ ((Place.get c first ts d >>= _) (⟨m, s⟩ : World c)) _
      rw [pbind_ok (gx m), pbind_ok (gy m)]
      erw [pbind_ok (elts_ok (w := (⟨m, s⟩ : World c)) h1)]
      exact r1
    · rw [r6 h hn ht, Env.upd_ne (out hx hn ht)]
  | take s' k ih =>
    intro ts m env hR hl ha ⟨hs, hk⟩
    obtain ⟨y, hy, vy, gy⟩ := hget hs
    have hyl := hl y (handle_mem hy)
    obtain ⟨t, m1, h1, hd, hty, hR1⟩ := hc.newMove hR hyl
    have htH : t ∉ H := fun hm => hl t (.inl hm) hd
    have htt : t ∉ ts := fun hm => hl t (.inr hm) hd
    have ha' : Apart H (t :: ts) := ⟨ha.left, List.nodup_cons.mpr ⟨htt, ha.right⟩, fun h hm => by
      rcases List.mem_cons.mp hm with rfl | hm
      · exact htH
      · exact ha.none h hm⟩
    have he : inHand ((env.upd y mv).upd t (env y)) H (t :: ts) = ((inHand env H ts).put s' mv).push ((inHand env H ts).get s') := by
      rw [← hand_put ha hy, vy]
      simp only [inHand, Hand.push, List.map_cons, Env.upd_self]
      rw [map_upd_out htH, map_upd_out htt]
    rw [← he] at hk
    obtain ⟨m', env', r1, r2, r3, r4, r5, r6⟩ := ih hR1 (fun h hm => by
      by_cases h1 : h = t
      · subst h1; rw [Env.upd_self]; exact hyl
      · rw [Env.upd_ne h1]
        by_cases h2 : h = y
        · subst h2; rw [Env.upd_self]; exact hc.ne
        · rw [Env.upd_ne h2]; exact hl h (hm.imp_right fun hm => (List.mem_cons.mp hm).resolve_left h1)) ha' hk
    rw [he] at r1 r3
    refine ⟨m', env', ?_, r2, r3, r4, fun h hm => r5 h (List.mem_cons_of_mem _ hm), fun h hn ht => ?_⟩
    · show Came _ ((Place.get c first ts s' >>= _) (⟨m, s⟩ : World c)) _
      rw [pbind_ok (gy m)]
      erw [pbind_ok (elts_ok (w := (⟨m, s⟩ : World c)) h1)]
      exact r1
    · by_cases h1 : h = t
      · subst h1; rw [r5 h List.mem_cons_self, hd]
      · rw [r6 h hn (by rw [List.mem_cons, not_or]; exact ⟨h1, ht⟩), Env.upd_ne h1,
          Env.upd_ne (out hy hn ht)]
  | dup s' k ih =>
    intro ts m env hR hl ha ⟨hs, hk⟩
    obtain ⟨y, hy, vy, gy⟩ := hget hs
    have hyl := hl y (handle_mem hy)
    obtain ⟨t, m1, h1, hd, hR1⟩ := hc.newCopy hR hyl
    have htH : t ∉ H := fun hm => hl t (.inl hm) hd
    have htt : t ∉ ts := fun hm => hl t (.inr hm) hd
    have ha' : Apart H (t :: ts) := ⟨ha.left, List.nodup_cons.mpr ⟨htt, ha.right⟩, fun h hm => by
      rcases List.mem_cons.mp hm with rfl | hm
      · exact htH
      · exact ha.none h hm⟩
    have he : inHand (env.upd t (env y)) H (t :: ts) = (inHand env H ts).push ((inHand env H ts).get s') := by
      rw [vy]
      simp only [inHand, Hand.push, List.map_cons, Env.upd_self]
      rw [map_upd_out htH, map_upd_out htt]
    rw [← he] at hk
    obtain ⟨m', env', r1, r2, r3, r4, r5, r6⟩ := ih hR1 (fun h hm => by
      by_cases h1 : h = t
      · subst h1; rw [Env.upd_self]; exact hyl
      · rw [Env.upd_ne h1]; exact hl h (hm.imp_right fun hm => (List.mem_cons.mp hm).resolve_left h1)) ha' hk
    rw [he] at r1 r3
    refine ⟨m', env', ?_, r2, r3, r4, fun h hm => r5 h (List.mem_cons_of_mem _ hm), fun h hn ht => ?_⟩
    · show Came _ ((Place.get c first ts s' >>= _) (⟨m, s⟩ : World c)) _
      rw [pbind_ok (gy m)]
      erw [pbind_ok (elts_ok (w := (⟨m, s⟩ : World c)) h1)]
      exact r1
    · by_cases h1 : h = t
      · subst h1; rw [r5 h List.mem_cons_self, hd]
      · rw [r6 h hn (by rw [List.mem_cons, not_or]; exact ⟨h1, ht⟩), Env.upd_ne h1]
  | drop k ih =>
    intro ts m env hR hl ha ⟨h0, hk⟩
    cases ts with
    | nil => exact absurd rfl h0
    | cons t ts =>
      obtain ⟨htt, hnt⟩ := List.nodup_cons.mp ha.right
      have htH := ha.none t List.mem_cons_self
      obtain ⟨m1, h1, hR1⟩ := hc.delete hR (hl t (.inr List.mem_cons_self))
      have he : inHand (env.upd t .dead) H ts = (inHand env H (t :: ts)).pop := by
        simp only [inHand, Hand.pop, List.map_cons, List.tail_cons]
        rw [map_upd_out htH, map_upd_out htt]
      rw [← he] at hk
      obtain ⟨m', env', r1, r2, r3, r4, r5, r6⟩ := ih hR1 (fun h hm => by
        have hne : h ≠ t := fun e => hm.elim (e ▸ htH) (e ▸ htt)
        rw [Env.upd_ne hne]
        exact hl h (hm.imp_right (List.mem_cons_of_mem _))) ⟨ha.left, hnt, fun h hm => ha.none h (List.mem_cons_of_mem _ hm)⟩ hk
      rw [he] at r1 r3
      refine ⟨m', env', ?_, r2, r3, r4, fun h hm => ?_, fun h hn ht => ?_⟩
      · show Came _ ((elts (c.elt.delete t) >>= fun _ => Algo.exec c cmp first k ts) (⟨m, s⟩ : World c)) _
        rw [pbind_ok (elts_ok (w := (⟨m, s⟩ : World c)) h1)]
        exact r1
      · rcases List.mem_cons.mp hm with rfl | hm
        · rw [r6 h htH htt, Env.upd_self]
        · exact r5 h hm
      · rw [List.mem_cons, not_or] at ht
        rw [r6 h hn ht.2, Env.upd_ne ht.1]
  | test q x' y' k ih =>
    intro ts m env hR hl ha ⟨hx, hy, hq, hk⟩
    obtain ⟨x, hx, vx, gx⟩ := hget hx
    obtain ⟨y, hy, vy, gy⟩ := hget hy
    rw [vx, vy] at hq hk
    obtain ⟨m1, h1, hR1⟩ := hcmp q hR hq
    obtain ⟨m', env', r1, r2, r3, r4, r5, r6⟩ := ih _ hR1 hl ha hk
    have ee : (Algo.test q x' y' k).effect mv (inHand env H ts) = (k (q.says (env x) (env y))).effect mv (inHand env H ts) := by
      show (k (q.says _ _)).effect mv _ = _
      rw [vx, vy]
    refine ⟨m', env', ?_, r2, by rw [ee]; exact r3, r4, r5, r6⟩
    rw [ee]
    show Came _ ((Place.get c first ts x' >>= _) (⟨m, s⟩ : World c)) _
    rw [pbind_ok (gx m), pbind_ok (gy m)]
    erw [pbind_ok (elts_ok (w := (⟨m, s⟩ : World c)) h1)]
    exact r1
end

/-! ## Values assigned in place -/

theorem overwrite_set {T : Type} {cs l : List T} {i k : Nat} {x : T} (hl : i + l.length ≤ cs.length) (hk : k < l.length) :
    overwrite (overwrite cs i l) (i + k) [x] = overwrite cs i (l.set k x) := by
  have hlen : (overwrite cs i l).length = cs.length := overwrite_length hl
  apply List.ext_getElem?
  intro j
  rw [getElem?_overwrite (by omega), getElem?_overwrite (by omega), getElem?_overwrite (by omega), List.length_set, List.length_singleton,
    List.getElem?_set]
  by_cases h1 : j < i
  · rw [if_pos (by omega), if_pos h1, if_pos h1]
  · rw [if_neg h1, if_neg h1]
    by_cases h2 : j < i + k
    · rw [if_pos h2, if_pos (by omega), if_pos (by omega), if_neg (by omega)]
    · rw [if_neg h2]
      by_cases h3 : j < i + k + 1
      · have hj : j = i + k := by omega
        subst hj
        rw [if_pos h3, if_pos (by omega), Nat.sub_self, if_pos (by omega), if_pos (by omega)]
        rfl
      · rw [if_neg h3]
        by_cases h4 : j < i + l.length
        · rw [if_pos h4, if_pos h4, if_neg (by omega)]
        · rw [if_neg h4, if_neg h4]

/-- The object owns its buffer, has no remembered hash, and its window is in the buffer. -/
structure Sole {T : Type} (s : St T) (o : Nat) (ob : Obj) (a : Nat) (b : Block T) (k : Nat) : Prop where
  obj : s.obj o = some ob
  ref : ob.ref = some a
  blk : s.blk a = some b
  refs : b.refs = 1
  hash : ob.hash = 0
  len : ob.sublen = k
  fits : ob.offset + k ≤ b.cells.length

theorem Sole.goc {T : Type} {cfg : Cfg T} {s : St T} {o a k : Nat} {ob : Obj} {b : Block T} (hn : cfg.nul = none) (h : Sole s o ob a b k) :
    Rca.getOwnCopy cfg o s = .ok () s := by
  have hrca : rcaReserve cfg o k cfg.scale s = .ok () s := by
    unfold rcaReserve
    rw [bind_ok (getObj_eq h.obj), h.ref]
    simp only [pure_bind']
    rw [bind_ok (arefReserve_noop h.blk h.fits), bind_ok (getObj_eq h.obj)]
    exact congrArg _ (setObj_self h.obj)
  unfold Rca.getOwnCopy
  rw [bind_ok (show Rca.length o s = .ok k s by unfold Rca.length; rw [bind_ok (getObj_eq h.obj), h.len]; rfl)]
  unfold Rca.aboutToModify
  rw [bind_ok (getObj_eq h.obj)]
  have e : ({ ob with hash := 0 } : Obj) = ob := by have := h.hash; cases ob; simp_all
  rw [e, bind_ok (show putObj o ob s = .ok () s from congrArg _ (setObj_self h.obj))]
  rw [bind_ok (show Rca.isShared o s = .ok false s by
    unfold Rca.isShared
    rw [bind_ok (getObj_eq h.obj), h.ref]
    show M.bind (getBlk a) _ s = _
    unfold M.bind getBlk
    rw [h.blk]
    show Bdlib.Res.ok (decide (b.refs > 1)) s = _
    rw [h.refs]
    rfl)]
  show Rca.reserve cfg o k cfg.scale s = _
  unfold Rca.reserve
  rw [hn]
  exact hrca

theorem Sole.goc_deep {c : Conf} {w : World c} {o a k : Nat} {ob : Obj} {b : Block Nat} (h : Sole w.arrs o ob a b k) :
    getOwnCopy c o w = .ok () w := by
  unfold getOwnCopy
  rw [pbind_ok (arrs_ok (show Rca.length o w.arrs = .ok k w.arrs by unfold Rca.length; rw [bind_ok (getObj_eq h.obj), h.len]; rfl))]
  unfold aboutToModify
  erw [pbind_ok (arrs_ok (getObj_eq h.obj))]
  have e : ({ ob with hash := 0 } : Obj) = ob := by have := h.hash; cases ob; simp_all
  rw [e]
  erw [pbind_ok (arrs_ok (show putObj o ob w.arrs = .ok () w.arrs from congrArg _ (setObj_self h.obj)))]
  erw [pbind_ok (arrs_ok (show Rca.isShared o w.arrs = .ok false w.arrs by
    unfold Rca.isShared
    rw [bind_ok (getObj_eq h.obj), h.ref]
    show M.bind (getBlk a) _ w.arrs = _
    unfold M.bind getBlk
    rw [h.blk]
    show Bdlib.Res.ok (decide (b.refs > 1)) w.arrs = _
    rw [h.refs]
    rfl))]
  show reserve c o k c.scale w = _
  unfold reserve
  rw [pbind_ok (arrs_ok (getObj_eq h.obj)), h.ref]
  show (arefReserve c a k c.scale ob.offset ob.sublen >>= _) w = _
  have hf := h.fits
  have ha : arefReserve c a k c.scale ob.offset ob.sublen w = .ok ob.offset w := by
    unfold arefReserve
    rw [pbind_ok (arrs_ok (getBlk_eq h.blk))]
    simp only
    rw [if_neg (by omega), if_neg (by unfold sub64; rw [if_pos (by omega)]; omega)]
    rfl
  rw [pbind_ok ha]
  erw [pbind_ok (arrs_ok (getObj_eq h.obj))]
  exact arrs_ok (show putObj o ob w.arrs = .ok () w.arrs from congrArg _ (setObj_self h.obj))

theorem Sole.cbegin {T : Type} {s : St T} {o a k : Nat} {ob : Obj} {b : Block T} (h : Sole s o ob a b k) :
    cbeginI o s = .ok (some ⟨a, b.gen, ob.offset⟩) s := by
  unfold cbeginI
  rw [bind_ok (getObj_eq h.obj), h.ref]
  show M.bind (getBlk a) _ s = _
  unfold M.bind getBlk
  rw [h.blk]
  rfl

/-- Assigning one element after the other. -/
theorem reach_inplace {T : Type} [DecidableEq T] {cfg : Cfg T} (hv : cfg.Valid) (hp : cfg.Physical) (hn : cfg.nul = none) {s : St T} {env : Env T}
    (hr : Reach cfg s env) {o a : Nat} {ob : Obj} {b : Block T} {v v' : List T} (ho : env o = .val v) (h : Sole s o ob a b v.length)
    (hw : window b.cells ob.offset v.length = v) (hl : v'.length = v.length) :
    Reach cfg (s.setBlk a (some { b with cells := overwrite b.cells ob.offset v' })) (env.upd o (.val v')) := by
  have hfit := h.fits
  have hlt : a < s.heap.length := St.blk_lt h.blk
  have main : ∀ k, k ≤ v.length → Reach cfg (s.setBlk a (some { b with cells := overwrite b.cells ob.offset (v'.take k ++ v.drop k) }))
      (env.upd o (.val (v'.take k ++ v.drop k))) := by
    intro k
    induction k with
    | zero =>
      intro _
      have e : overwrite b.cells ob.offset v = b.cells := by
        have hvl : (window b.cells ob.offset v.length).length = v.length := by rw [hw]
        apply List.ext_getElem?
        intro j
        rw [getElem?_overwrite (by omega)]
        by_cases h1 : j < ob.offset
        · rw [if_pos h1]
        · rw [if_neg h1]
          by_cases h2 : j < ob.offset + v.length
          · rw [if_pos h2]
            have := getElem?_window (cells := b.cells) (i := ob.offset) (n := v.length) (j - ob.offset)
            rw [hw, if_pos (by omega)] at this
            rw [this]
            congr 1; omega
          · rw [if_neg h2]
      simp only [List.take_zero, List.nil_append, List.drop_zero, e]
      rw [Env.upd_id ho]
      have : s.setBlk a (some b) = s := by
        unfold St.setBlk
        have hg : s.heap[a]? = some (some b) := by
          have := h.blk
          unfold St.blk at this
          cases hx : s.heap[a]? with
          | none => rw [hx] at this; cases this
          | some y => rw [hx] at this; simp at this; rw [this]
        have : s.heap.set a (some b) = s.heap := by
          apply List.ext_getElem?
          intro j
          rw [List.getElem?_set]
          by_cases hj : a = j
          · subst hj; rw [if_pos rfl, if_pos hlt, hg]
          · rw [if_neg hj]
        rw [this]
      rw [this]; exact hr
    | succ k ih =>
      intro hk
      have hkv : k < v.length := hk
      have hkv' : k < v'.length := by omega
      generalize hl0 : v'.take k ++ v.drop k = l at ih
      have hll : l.length = v.length := by rw [← hl0]; simp; omega
      have hset : l.set k v'[k] = v'.take (k + 1) ++ v.drop (k + 1) := by
        have e0 : k - (v'.take k).length = 0 := by simp; omega
        have e1 : (v'.take k).length ≤ k := by simp; omega
        have e2 : v'.take (k + 1) = v'.take k ++ [v'[k]] := List.take_succ_eq_append_getElem hkv'
        rw [← hl0, List.set_append_right _ _ e1, e0, List.drop_eq_getElem_cons hkv, List.set_cons_zero, e2, List.append_assoc]
        rfl
      have hrk := ih (by omega)
      have how : (overwrite b.cells ob.offset l).length = b.cells.length := overwrite_length (by omega)
      have hS : Sole (s.setBlk a (some { b with cells := overwrite b.cells ob.offset l })) o ob a
          { b with cells := overwrite b.cells ob.offset l } v.length :=
        ⟨h.obj, h.ref, St.blk_setBlk_self _ hlt, h.refs, h.hash, h.len, by show _ ≤ (overwrite _ _ _).length; rw [how]; exact hfit⟩
      have hpre : Spec.Pre cfg (shared (s.setBlk a (some { b with cells := overwrite b.cells ob.offset l }))) (env.upd o (.val l))
          (.write o k v'[k]) := ⟨⟨l, Env.upd_self⟩, by rw [show (env.upd o (.val l)).get o = l by unfold Env.get; rw [Env.upd_self]]; omega⟩
      obtain ⟨out, s', env', h1, h2, h3⟩ := hrk.call hv hp hpre
      have hrun : Rca.run cfg (.write o k v'[k]) (s.setBlk a (some { b with cells := overwrite b.cells ob.offset l })) =
          .ok .unit (s.setBlk a (some { b with cells := overwrite b.cells ob.offset (l.set k v'[k]) })) := by
        show ((Rca.getOwnCopy cfg o >>= fun _ => writeRange o k [v'[k]]) >>= fun _ => (pure Out.unit : M T (Out T))) _ = _
        rw [bind_assoc', bind_ok (hS.goc hn), bind_ok (writeRange_do hS.obj hS.ref hS.blk (by
          show _ ≤ (overwrite _ _ _).length
          rw [how]; omega))]
        show Bdlib.Res.ok _ _ = _
        simp only
        rw [overwrite_set (by omega) (by omega)]
        congr 1
        simp only [St.setBlk, List.set_set]
      rw [hrun] at h1
      cases h1
      have he : env' = env.upd o (.val (l.set k v'[k])) := by
        rcases h2 with ⟨_, h2⟩ | ⟨h2, _⟩
        · rw [h2]
          have : (env.upd o (.val l)).get o = l := by unfold Env.get; rw [Env.upd_self]
          rw [this, Env.upd_upd]
        · cases h2
      rw [he, hset] at h3
      exact h3
  have := main v.length (Nat.le_refl _)
  rw [List.take_of_length_le (by omega), List.drop_length, List.append_nil] at this
  exact this

/-! ## `algorithm(a.begin(), a.end())` -/

section
variable {T U : Type}

theorem turned_map (rev : Bool) (f : T → U) (l : List T) : turned rev (l.map f) = (turned rev l).map f := by
  cases rev
  · rfl
  · exact List.map_reverse.symm

theorem turned_turned (rev : Bool) (l : List T) : turned rev (turned rev l) = l := by
  cases rev
  · rfl
  · exact List.reverse_reverse l

theorem mem_turned {rev : Bool} {l : List T} {x : T} : x ∈ turned rev l ↔ x ∈ l := by
  cases rev
  · exact .rfl
  · exact List.mem_reverse

theorem nodup_turned {rev : Bool} {l : List T} (h : l.Nodup) : (turned rev l).Nodup := by
  cases rev
  · exact h
  · exact List.pairwise_reverse.mpr (h.imp fun e => e.symm)

theorem length_turned {rev : Bool} {l : List T} : (turned rev l).length = l.length := by
  cases rev
  · rfl
  · exact List.length_reverse

theorem it_down {s : St T} (a g : Nat) : ∀ (n i : Nat), n ≤ i → It.down (T := T) (some ⟨a, g, i⟩) n s = .ok (some ⟨a, g, i - n⟩) s
  | 0, i, _ => rfl
  | n + 1, i, h => by
    show ((It.back (some ⟨a, g, i⟩)) >>= fun q => q.down n) s = _
    have : It.back (T := T) (some ⟨a, g, i⟩) s = .ok (some ⟨a, g, i - 1⟩) s := by
      show (if i = 0 then _ else _ : M T It) s = _
      rw [if_neg (by omega)]; rfl
    rw [bind_ok this, it_down a g n (i - 1) (by omega)]
    congr 3; omega
end

section
variable {c : Conf} {n : Nat} {mv : Slot (Ty n)} {R : c.elt.Mem → Env (Ty n) → Prop} {cmp : Cmp n → Nat → Nat → Pg c.elt.Mem Bool}
  {θ : Slot (Ty n) → UInt64} {us : Env (Ty n)} {σ : St (Slot (Ty n))} {w : World c} {ea : Env (Slot (Ty n))}

theorem algorithm_begun (rev back : Bool) {o a k : Nat} {ob : Obj} {b : Block Nat} {w1 : World c} (f : Nat → Algo n) (hw : getOwnCopy c o w = .ok () w1)
    (h : Sole w1.arrs o ob a b k) :
    algorithm c cmp rev back o f w = (f k).exec c cmp (startOf rev (some ⟨a, b.gen, ob.offset⟩) (some ⟨a, b.gen, ob.offset + k⟩)) [] w1 := by
  have hb : ∀ {w0 : World c}, getOwnCopy c o w0 = .ok () w1 → beginAt c o w0 = .ok (some ⟨a, b.gen, ob.offset⟩) w1 := fun hw => by
    unfold beginAt
    rw [pbind_ok hw]
    exact arrs_ok h.cbegin
  have he : ∀ {w0 : World c}, getOwnCopy c o w0 = .ok () w1 → endAt c o w0 = .ok (some ⟨a, b.gen, ob.offset + k⟩) w1 := fun hw => by
    unfold endAt
    rw [pbind_ok (hb hw)]
    refine arrs_ok ?_
    rw [bind_ok (show Rca.length o w1.arrs = .ok k w1.arrs by unfold Rca.length; rw [bind_ok (getObj_eq h.obj), h.len]; rfl)]
    rfl
  have hm : arrs (It.minus (some ⟨a, b.gen, ob.offset + k⟩) (some ⟨a, b.gen, ob.offset⟩)) w1 = .ok k w1 := by
    refine arrs_ok ?_
    show (if _ then _ else _ : M Nat Nat) _ = _
    rw [if_pos ⟨rfl, rfl, Nat.le_add_right _ _⟩]
    show Bdlib.Res.ok (ob.offset + k - ob.offset) _ = _
    rw [Nat.add_sub_cancel_left]
  unfold algorithm
  cases back with
  | true =>
    rw [if_pos rfl, pbind_ok (he hw), pbind_ok (hb h.goc_deep), pbind_ok hm]
  | false =>
    rw [if_neg (by decide), pbind_ok (hb hw), pbind_ok (he h.goc_deep), pbind_ok hm]

theorem algorithm_stuck (rev back : Bool) {o : Nat} {w1 : World c} (f : Nat → Algo n) {e : Exc} (hw : getOwnCopy c o w = .throw e w1) :
    algorithm c cmp rev back o f w = .throw e w1 := by
  have hb : beginAt c o w = .throw e w1 := by unfold beginAt; exact pbind_throw hw
  unfold algorithm
  cases back with
  | true =>
    rw [if_pos rfl]
    exact pbind_throw (by unfold endAt; exact pbind_throw hb)
  | false =>
    rw [if_neg (by decide)]
    exact pbind_throw hb

/-- The array gets what the algorithm makes of its elements; nothing else changes. -/
theorem algorithm_ok (hc : Good mv R) (hcmp : CmpLaw R cmp) (hR : Rel R us σ w) (hA : Reach (c.val θ mv) σ ea) {o : Nat} {v : List (Slot (Ty n))}
    (ho : ea o = .val v) (rev back : Bool) (f : Nat → Algo n) (hok : (f v.length).Ok mv ⟨turned rev v, []⟩) :
    (∃ w' σ', algorithm c cmp rev back o f w = .throw .badAlloc w' ∧ Rel R us σ' w' ∧
      Reach (c.val θ mv) σ' (if shared σ o then ea.upd o (.val []) else ea)) ∨
    ∃ w' σ', Came ((f v.length).effect mv ⟨turned rev v, []⟩).1 (algorithm c cmp rev back o f w) w' ∧ Rel R us σ' w' ∧
      Reach (c.val θ mv) σ' (ea.upd o (.val (turned rev ((f v.length).effect mv ⟨turned rev v, []⟩).2))) := by
  have hv := val_valid c θ mv
  have hp := val_phys (θ := θ) hc
  have hm := match_getOwnCopy (θ := θ) hc hR (fit_of hc hA ⟨v, ho⟩)
  obtain ⟨out, σ1, ea1, h1, h2, h3⟩ := hA.call hv hp (op := .begin o) ⟨v, ho⟩
  rcases own_or hv hp hA ho with ⟨s', ob, a, B, hg, hM⟩ | ⟨s', hg, -, -⟩
  · rw [hg] at hm
    obtain ⟨_, w1, us', hw, hR1, rfl⟩ := hm
    have e1 : Rca.run (c.val θ mv) (.begin o) σ = .ok .unit s' := by
      show (Rca.getOwnCopy (c.val θ mv) o >>= fun _ => (pure Out.unit : M (Slot (Ty n)) (Out (Slot (Ty n))))) σ = _
      rw [bind_ok hg]; rfl
    rw [e1] at h1; cases h1
    have hea : ea1 = ea := by
      rcases h2 with ⟨_, h2⟩ | ⟨h2, _⟩
      · exact h2
      · cases h2
    subst hea
    right
    obtain ⟨env, hRE⟩ := hR1
    obtain ⟨b, hb, rfl⟩ := hRE.like.blk_inv hM.own.blk
    have hfit : ob.offset + v.length ≤ b.cells.length := by simpa [mapBlk] using hM.fits
    have hobj : w1.arrs.obj o = some ob := by rw [← hRE.like.obj]; exact hM.own.obj
    have hS : Sole w1.arrs o ob a b v.length := ⟨hobj, hM.own.ref, hb, hM.own.refs, hM.own.hash, hM.len, hfit⟩
    have hSσ : Sole σ1 o ob a (mapBlk env b) v.length :=
      ⟨hM.own.obj, hM.own.ref, hM.own.blk, hM.own.refs, hM.own.hash, hM.len, hM.fits⟩
    rw [algorithm_begun rev back f hw hS]
    let W := window b.cells ob.offset v.length
    have hWl : W.length = v.length := window_length hfit
    have hWv : W.map env = v := by
      have := hM.win
      simp only [mapBlk] at this
      rw [window_map] at this
      exact this
    have hWi : ∀ {i h}, W[i]? = some h → (b.cells)[ob.offset + i]? = some h ∧ i < v.length := by
      intro i h hi
      have hi' : (window b.cells ob.offset v.length)[i]? = some h := hi
      rw [getElem?_window] at hi'
      split at hi'
      · exact ⟨hi', by assumption⟩
      · cases hi'
    let H := turned rev W
    have hHv : H.map env = turned rev v := by rw [← hWv]; exact (turned_map rev env W).symm
    have hmemW : ∀ h ∈ H, h ∈ W := fun h hm => mem_turned.mp hm
    have hmem : ∀ h ∈ H, h ∈ b.cells := fun h hm => mem_window (hmemW h hm)
    have hhand : inHand env H [] = ⟨turned rev v, []⟩ := by unfold inHand; rw [hHv]; rfl
    have hHi : ∀ {i h}, H[i]? = some h → ∀ ts m,
        (Place.elem i).get c (startOf rev (some ⟨a, b.gen, ob.offset⟩) (some ⟨a, b.gen, ob.offset + v.length⟩)) ts (⟨m, w1.arrs⟩ : World c) =
          .ok h ⟨m, w1.arrs⟩ := by
      intro i h hi ts m
      refine arrs_ok (w := (⟨m, w1.arrs⟩ : World c)) ?_
      cases rev with
      | false =>
        refine (bind_ok (show It.plus (some ⟨a, b.gen, ob.offset⟩) i w1.arrs = .ok (some ⟨a, b.gen, ob.offset + i⟩) w1.arrs from rfl)).trans ?_
        exact loadPtr_of hb rfl (hWi hi).1
      | true =>
        have hi' : W.reverse[i]? = some h := hi
        have hil : i < v.length := by
          have := (List.getElem?_eq_some_iff.mp hi').1
          rw [List.length_reverse, hWl] at this
          exact this
        rw [List.getElem?_reverse (by rw [hWl]; exact hil), hWl] at hi'
        refine (bind_ok (show It.down (some ⟨a, b.gen, ob.offset + v.length⟩) (i + 1) w1.arrs = _ from
          it_down a b.gen (i + 1) (ob.offset + v.length) (by omega))).trans ?_
        refine loadPtr_of hb rfl ?_
        show b.cells[ob.offset + v.length - (i + 1)]? = _
        rw [show ob.offset + v.length - (i + 1) = ob.offset + (v.length - 1 - i) by omega]
        exact (hWi hi').1
    obtain ⟨m', env', r1, r2, r3, r4, r5, r6⟩ := exec_ok hc hcmp
      (first := startOf rev (some ⟨a, b.gen, ob.offset⟩) (some ⟨a, b.gen, ob.offset + v.length⟩)) (s := w1.arrs) (H := H) hHi (f v.length)
      (ts := []) hRE.reach (fun h hm => hm.elim (fun hm => hRE.live hb (hmem h hm)) fun hm => by cases hm)
      ⟨nodup_turned (nodup_window (hRE.nodup_blk hb) _ _), .nil, fun h hm => by cases hm⟩ (by rw [hhand]; exact hok)
    rw [hhand] at r1 r3
    have hblk := hRE.block (us' := us') r2 hb (fun x hx => by
        by_cases hxH : x ∈ H
        · exact r4 x hxH
        · rw [r6 x hxH (by simp)]; exact hRE.live hb hx)
      (fun a' x hne hx => r6 x (fun hxH => hne (hRE.disj a' a x hx (by rw [cellsAt_some hb]; exact hmem x hxH))) (by simp))
      (fun a' x hx => (hRE.cell a' x hx).2)
      fun x hx => by
        rw [r6 x (fun hxH => hx a (by rw [cellsAt_some hb]; exact hmem x hxH)) (by simp)]
        exact hRE.rest x hx
    have r3' : W.map env' = turned rev ((f v.length).effect mv ⟨turned rev v, []⟩).2 := by
      rw [← r3, turned_map, turned_turned]
    have hlen : (turned rev ((f v.length).effect mv ⟨turned rev v, []⟩).2).length = v.length := by rw [← r3', ← hWv]; simp
    have hmap : mapBlk env' b =
        { mapBlk env b with cells := overwrite (mapBlk env b).cells ob.offset (turned rev ((f v.length).effect mv ⟨turned rev v, []⟩).2) } := by
      have := overwrite_map (env := env) (env' := env') (hRE.nodup_blk hb) hfit r3' fun x hx hxw => r6 x (fun hm => hxw (hmemW x hm)) (by simp)
      unfold mapBlk
      simp only
      rw [this]
    rw [hmap] at hblk
    exact ⟨⟨m', w1.arrs⟩, _, r1, ⟨env', hblk⟩, reach_inplace hv hp rfl h3 ho hSσ hM.win hlen⟩
  · rw [hg] at hm
    obtain ⟨w1, hw, hR1⟩ := hm
    have e1 : Rca.run (c.val θ mv) (.begin o) σ = .throw .badAlloc s' := by
      show (Rca.getOwnCopy (c.val θ mv) o >>= fun _ => (pure Out.unit : M (Slot (Ty n)) (Out (Slot (Ty n))))) σ = _
      exact bind_throw' hg
    rw [e1] at h1; cases h1
    left
    have hea : ea1 = if shared σ o then ea.upd o (.val []) else ea := by
      rcases h2 with ⟨h2, _⟩ | ⟨_, h2⟩
      · cases h2
      · exact h2
    rw [← hea]
    exact ⟨w1, σ1, algorithm_stuck rev back f hw, hR1, h3⟩
end

/-! ## The comparisons -/

theorem tower_length {p : Params} (hp : p.Good) : ∀ (n : Nat) (E : Envs n) {s : (tower p n).Mem} {env : Env (Ty n)}, Keeps p (n := n) s (E.put env) →
    ∀ {x : Nat} {v : List (Ty n)}, env x = .val v → ∃ s', lenAt p n x s = .ok (v.length) s' ∧ Keeps p (n := n) s' (E.put env)
  | 0, E, s, env, h, x, v, hx => by
    have := runs_length (T := UInt8) (E := fun _ _ => False) hp.valid hp.phys (env := env) h hx
    unfold Runs at this
    show ∃ s', Pg.ofM (Rca.length x) s = _ ∧ _
    unfold Pg.ofM
    cases hs : Rca.length x s with
    | ub => rw [hs] at this; exact this.elim
    | throw e s' => rw [hs] at this; obtain ⟨_, h, _⟩ := this; exact h.elim
    | ok k s' =>
      rw [hs] at this
      obtain ⟨env', ⟨h1, rfl⟩, h3, -⟩ := this
      subst h1
      exact ⟨s', rfl, h3⟩
  | n + 1, E, w, env, h, x, v, hx => by
    have hk := h
    obtain ⟨σ, ⟨env', hR⟩, hA⟩ := h
    exact ⟨w, arrs_ok ((hR.frame (tower_good hp n E.1) hA).len hx), hk⟩

theorem tower_cmp {p : Params} (hp : p.Good) (n : Nat) (E : Envs n) :
    CmpLaw (c := level p n) (n := n) (fun m env => Keeps p (n := n) m (E.put env)) (cmpAt p) := by
  intro q
  cases q with
  | eq =>
    intro s env h x y hok
    obtain ⟨r, s', h1, h2, h3⟩ := tower_eq hp n E h hok.1 hok.2
    refine ⟨s', ?_, h2⟩
    show eqAt p n x y s = .ok (decide (env x = env y)) s'
    rw [h1]
    congr 1
    rw [Bool.eq_iff_iff, decide_eq_true_iff]; exact h3
  | less =>
    intro s env h x y hok
    obtain ⟨v, u, hx, hy, hl⟩ := hok
    have := runs_compare_sign (E := fun _ _ => False) hp.valid hp.phys hp.libc (env := env) h hx hy hl
    unfold Runs at this
    show ∃ s', Pg.bind (Pg.ofM (compareP p.libc x y)) (fun r => pure (decide (r < 0))) s = _ ∧ _
    unfold Pg.bind Pg.ofM
    cases hs : compareP p.libc x y s with
    | ub => rw [hs] at this; exact this.elim
    | throw e s' => rw [hs] at this; obtain ⟨_, h, _⟩ := this; exact h.elim
    | ok r s' =>
      rw [hs] at this
      obtain ⟨env', ⟨h1, rfl⟩, h3, -⟩ := this
      refine ⟨s', ?_, h3⟩
      show Res.ok (decide (r < 0)) s' = .ok (Cmp.says (n := 0) .less (env' x) (env' y)) s'
      rw [show env' x = .val v from hx, show env' y = .val u from hy]
      show _ = Res.ok (decide (v < u)) s'
      congr 1
      exact decide_eq_decide.mpr h1.1
  | shorter =>
    intro s env h x y hok
    obtain ⟨v, u, hx, hy⟩ := hok
    obtain ⟨s1, h1, k1⟩ := tower_length hp n E h hx
    obtain ⟨s2, h2, k2⟩ := tower_length hp n E k1 hy
    refine ⟨s2, ?_, k2⟩
    show Pg.bind (lenAt p n x) (fun i => Pg.bind (lenAt p n y) fun j => pure (decide (i < j))) s = _
    unfold Pg.bind
    rw [h1]
    simp only
    rw [h2, hx, hy]
    rfl

end Bdlib.Deep
