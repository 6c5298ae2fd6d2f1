import Verif.Nest.Model
import Verif.Spec.Touch

/-!
# What the loops over elements do

`Holds c w env`: the memory of the strings was produced by in-contract calls and holds `env`.
-/

namespace Bdlib.Nest
open Bdlib Bdlib.Spec Bdlib.Rca
open P (strs arrs undef)

variable {c : Conf} {w : World} {env : Env UInt8}

theorem pbind_ok {α β : Type} {m : P α} {f : α → P β} {w w' : World} {a : α} (h : m w = .ok a w') :
    (m >>= f) w = f a w' := by
  show P.bind m f w = _
  simp only [P.bind, h]

theorem pbind_throw {α β : Type} {m : P α} {f : α → P β} {w w' : World} {e : Exc} (h : m w = .throw e w') :
    (m >>= f) w = .throw e w' := by
  show P.bind m f w = _
  simp only [P.bind, h]

theorem strs_ok {α : Type} {m : M UInt8 α} {a : α} {s : St UInt8} (h : m w.strs = .ok a s) :
    strs m w = .ok a { w with strs := s } := by
  simp only [P.strs, h]

theorem arrs_ok {α : Type} {m : M Nat α} {a : α} {s : St Nat} (h : m w.arrs = .ok a s) :
    arrs m w = .ok a { w with arrs := s } := by
  simp only [P.arrs, h]

theorem arrs_throw {α : Type} {m : M Nat α} {e : Exc} {s : St Nat} (h : m w.arrs = .throw e s) :
    arrs m w = .throw e { w with arrs := s } := by
  simp only [P.arrs, h]

/-- The parameters make sense. -/
structure Conf.Good (c : Conf) : Prop where
  valid : c.str.Valid
  phys : c.str.Physical
  arr : ∀ g n, maxCells ≤ n → c.allocOk g n = false

theorem mapOut_inv {T α : Type} {m : M T α} {f : α → Out T} {s s' : St T} {x : Out T} (h : mapOut m f s = .ok x s') :
    ∃ a, m s = .ok a s' ∧ x = f a := by
  unfold mapOut at h
  change M.bind m _ s = _ at h
  unfold M.bind at h
  cases hm : m s with
  | ok a s1 =>
    rw [hm] at h
    cases h
    exact ⟨a, rfl, rfl⟩
  | throw e s1 => rw [hm] at h; cases h
  | ub => rw [hm] at h; cases h

theorem res_ok {T : Type} {r : Bdlib.Res T (Out T)} {x : Out T} {s : St T} (h : result r = some (.ret x, s)) :
    r = .ok x s := by
  cases r with
  | ok a t => simp only [result, Option.some.injEq, Prod.mk.injEq, Outcome.ret.injEq] at h; rw [h.1, h.2]
  | throw e t => simp [result] at h
  | ub => simp [result] at h

section Calls
variable {cfg : Cfg UInt8} {s : St UInt8} (hv : cfg.Valid) (hp : cfg.Physical)
include hv hp

theorem do_ctor (h : Reach cfg s env) :
    ∃ o s', ctor s = .ok o s' ∧ env o = .dead ∧ Reach cfg s' (env.upd o (.val [])) := by
  obtain ⟨out, s', env', hr, ⟨o, hd, rfl, rfl⟩, hR⟩ := h.call hv hp (op := .ctor) trivial
  obtain ⟨a, hm, ha⟩ := mapOut_inv (res_ok hr)
  cases ha
  exact ⟨o, s', hm, hd, hR⟩

theorem do_copyCtor (h : Reach cfg s env) {r : Nat} (hr : env r ≠ .dead) :
    ∃ o s', copyCtor r s = .ok o s' ∧ env o = .dead ∧ Reach cfg s' (env.upd o (env r)) := by
  obtain ⟨out, s', env', hr, ⟨o, hd, rfl, rfl⟩, hR⟩ := h.call hv hp (op := .copyCtor r) hr
  obtain ⟨a, hm, ha⟩ := mapOut_inv (res_ok hr)
  cases ha
  exact ⟨o, s', hm, hd, hR⟩

theorem movedSlot_ne : movedSlot cfg ≠ .dead := by
  unfold movedSlot
  split <;> intro h <;> cases h

theorem do_moveCtor (h : Reach cfg s env) {r : Nat} (hr : env r ≠ .dead) :
    ∃ o s', moveCtor cfg r s = .ok o s' ∧ env o = .dead ∧ o ≠ r ∧
      Reach cfg s' ((env.upd r (movedSlot cfg)).upd o (env r)) := by
  obtain ⟨out, s', env', hr', ⟨o, hd, rfl, rfl⟩, hR⟩ := h.call hv hp (op := .moveCtor r) hr
  obtain ⟨a, hm, ha⟩ := mapOut_inv (res_ok hr')
  cases ha
  have hne : o ≠ r := by
    rintro rfl
    rw [Env.upd_self] at hd
    exact movedSlot_ne hv hp hd
  exact ⟨o, s', hm, by rwa [Env.upd_ne hne] at hd, hne, hR⟩

theorem do_copyAssign (h : Reach cfg s env) {o r : Nat} (ho : env o ≠ .dead) (hr : env r ≠ .dead) :
    ∃ s', Rca.copyAssign o r s = .ok () s' ∧ Reach cfg s' (env.upd o (env r)) := by
  obtain ⟨out, s', env', hr', ⟨rfl, rfl⟩, hR⟩ := h.call hv hp (op := .copyAssign o r) ⟨ho, hr⟩
  obtain ⟨a, hm, _⟩ := mapOut_inv (res_ok hr')
  exact ⟨s', hm, hR⟩

theorem do_moveAssign (h : Reach cfg s env) {o r : Nat} (ho : env o ≠ .dead) (hr : env r ≠ .dead) :
    ∃ s', Rca.moveAssign cfg o r s = .ok () s' ∧
      Reach cfg s' (if o = r then env else (env.upd r (movedSlot cfg)).upd o (env r)) := by
  obtain ⟨out, s', env', hr', ⟨rfl, rfl⟩, hR⟩ := h.call hv hp (op := .moveAssign o r) ⟨ho, hr⟩
  obtain ⟨a, hm, _⟩ := mapOut_inv (res_ok hr')
  exact ⟨s', hm, hR⟩

theorem do_destroy (h : Reach cfg s env) {o : Nat} (ho : env o ≠ .dead) :
    ∃ s', Rca.destroy cfg o s = .ok () s' ∧ Reach cfg s' (env.upd o .dead) := by
  obtain ⟨out, s', env', hr', ⟨rfl, rfl⟩, hR⟩ := h.call hv hp (op := .destroy o) ho
  obtain ⟨a, hm, _⟩ := mapOut_inv (res_ok hr')
  exact ⟨s', hm, hR⟩

end Calls

/-! ## Loops -/

section Loops
variable (hc : c.Good)
include hc

theorem copies_ok {t : Nat} : ∀ (k : Nat) {w : World} {env : Env UInt8}, Reach c.str w.strs env → env t ≠ .dead →
    ∃ hs s' env', copies t k w = .ok hs { w with strs := s' } ∧ Reach c.str s' env' ∧ hs.length = k ∧ hs.Nodup ∧
      (∀ h ∈ hs, env h = .dead ∧ env' h = env t) ∧ ∀ h, h ∉ hs → env' h = env h
  | 0, w, env, hR, _ => ⟨[], w.strs, env, rfl, hR, rfl, .nil, by simp, fun _ _ => rfl⟩
  | k + 1, w, env, hR, ht => by
    obtain ⟨o, s1, h1, hd, hR1⟩ := do_copyCtor hc.valid hc.phys hR ht
    have hto : t ≠ o := fun he => ht (he ▸ hd)
    obtain ⟨hs, s2, env2, h2, hR2, hl, hn, hin, hout⟩ := copies_ok k (w := { w with strs := s1 }) hR1
      (by rw [Env.upd_ne hto]; exact ht)
    have hoh : o ∉ hs := by
      intro hm
      have := (hin o hm).1
      rw [Env.upd_self] at this
      exact ht this
    refine ⟨o :: hs, s2, env2, ?_, hR2, by simp [hl], List.nodup_cons.2 ⟨hoh, hn⟩, ?_, ?_⟩
    · show (strs (Rca.copyCtor t) >>= _) w = _
      rw [pbind_ok (strs_ok h1), pbind_ok h2]
      rfl
    · intro h hm
      rcases List.mem_cons.1 hm with rfl | hm
      · exact ⟨hd, by rw [hout _ hoh, Env.upd_self]⟩
      · have := hin h hm
        have hne : h ≠ o := fun he => hoh (he ▸ hm)
        rw [Env.upd_ne hne, Env.upd_ne hto] at this
        exact this
    · intro h hm
      simp only [List.mem_cons, not_or] at hm
      rw [hout h hm.2, Env.upd_ne hm.1]

theorem fresh_ok (k : Nat) (hR : Reach c.str w.strs env) :
    ∃ hs s' env', fresh c k w = .ok hs { w with strs := s' } ∧ Reach c.str s' env' ∧ hs.length = k ∧ hs.Nodup ∧
      (∀ h ∈ hs, env h = .dead ∧ env' h = .val []) ∧ ∀ h, h ∉ hs → env' h = env h := by
  obtain ⟨t, s1, h1, hd, hR1⟩ := do_ctor hc.valid hc.phys hR
  have ht : (env.upd t (.val [])) t ≠ .dead := by rw [Env.upd_self]; intro h; cases h
  obtain ⟨hs, s2, env2, h2, hR2, hl, hn, hin, hout⟩ := copies_ok hc k (w := { w with strs := s1 }) hR1 ht
  have htn : t ∉ hs := fun hm => ht (hin t hm).1
  obtain ⟨s3, h3, hR3⟩ := do_destroy hc.valid hc.phys hR2 (o := t) (by rw [hout t htn]; exact ht)
  refine ⟨hs, s3, _, ?_, hR3, hl, hn, ?_, ?_⟩
  · show (strs Rca.ctor >>= _) w = _
    rw [pbind_ok (strs_ok h1), pbind_ok h2]
    exact pbind_ok (strs_ok (w := { w with strs := s2 }) h3)
  · intro h hm
    have hne : h ≠ t := fun he => htn (he ▸ hm)
    have := hin h hm
    rw [Env.upd_ne hne, Env.upd_self] at this
    exact ⟨this.1, by rw [Env.upd_ne hne]; exact this.2⟩
  · intro h hm
    by_cases hne : h = t
    · subst hne; rw [Env.upd_self, hd]
    · rw [Env.upd_ne hne, hout h hm, Env.upd_ne hne]

theorem newMoves_ok : ∀ (ss : List Nat) {w : World} {env : Env UInt8}, Reach c.str w.strs env →
    (∀ h ∈ ss, env h ≠ .dead) → ss.Nodup →
    ∃ hs s' env', newMoves c ss w = .ok hs { w with strs := s' } ∧ Reach c.str s' env' ∧ hs.length = ss.length ∧
      hs.Nodup ∧ (∀ h ∈ hs, env h = .dead) ∧ hs.map env' = ss.map env ∧
      (∀ h ∈ ss, env' h = movedSlot c.str) ∧ ∀ h, h ∉ hs → h ∉ ss → env' h = env h
  | [], w, env, hR, _, _ => ⟨[], w.strs, env, rfl, hR, rfl, .nil, by simp, rfl, by simp, fun _ _ _ => rfl⟩
  | r :: ss, w, env, hR, hl, hnd => by
    have hr := hl r List.mem_cons_self
    obtain ⟨hrs, hss⟩ := List.nodup_cons.1 hnd
    obtain ⟨o, s1, h1, hd, hor, hR1⟩ := do_moveCtor hc.valid hc.phys hR hr
    have key : ∀ h ∈ ss, ((env.upd r (movedSlot c.str)).upd o (env r)) h = env h := by
      intro h hm
      have h1 : h ≠ o := fun he => hl h (List.mem_cons_of_mem _ hm) (he ▸ hd)
      have h2 : h ≠ r := fun he => hrs (he ▸ hm)
      rw [Env.upd_ne h1, Env.upd_ne h2]
    obtain ⟨hs, s2, env2, h2, hR2, hlen, hn, hin, hmap, hmv, hout⟩ := newMoves_ok ss (w := { w with strs := s1 }) hR1
      (fun h hm => by rw [key h hm]; exact hl h (List.mem_cons_of_mem _ hm)) hss
    have hoh : o ∉ hs := by
      intro hm
      have := hin o hm
      rw [Env.upd_self] at this
      exact hr this
    have hrh : r ∉ hs := by
      intro hm
      have := hin r hm
      rw [Env.upd_ne (Ne.symm hor), Env.upd_self] at this
      exact movedSlot_ne hc.valid hc.phys this
    have hos : o ∉ ss := fun hm => hl o (List.mem_cons_of_mem _ hm) hd
    refine ⟨o :: hs, s2, env2, ?_, hR2, by simp [hlen], List.nodup_cons.2 ⟨hoh, hn⟩, ?_, ?_, ?_, ?_⟩
    · show (strs (Rca.moveCtor c.str r) >>= _) w = _
      rw [pbind_ok (strs_ok h1), pbind_ok h2]
      rfl
    · intro h hm
      rcases List.mem_cons.1 hm with rfl | hm
      · exact hd
      · have := hin h hm
        have h1 : h ≠ o := fun he => hoh (he ▸ hm)
        have h2 : h ≠ r := fun he => hrh (he ▸ hm)
        rwa [Env.upd_ne h1, Env.upd_ne h2] at this
    · rw [List.map_cons, List.map_cons, hmap, hout o hoh hos, Env.upd_self]
      congr 1
      exact List.map_congr_left key
    · intro h hm
      rcases List.mem_cons.1 hm with rfl | hm
      · rw [hout h hrh hrs, Env.upd_ne (Ne.symm hor), Env.upd_self]
      · exact hmv h hm
    · intro h h1 h2
      simp only [List.mem_cons, not_or] at h1 h2
      rw [hout h h1.2 h2.2, Env.upd_ne h1.1, Env.upd_ne h2.1]

theorem deletes_ok : ∀ (hs : List Nat) {w : World} {env : Env UInt8}, Reach c.str w.strs env →
    (∀ h ∈ hs, env h ≠ .dead) → hs.Nodup →
    ∃ s' env', deletes c hs w = .ok () { w with strs := s' } ∧ Reach c.str s' env' ∧
      (∀ h ∈ hs, env' h = .dead) ∧ ∀ h, h ∉ hs → env' h = env h
  | [], w, env, hR, _, _ => ⟨w.strs, env, rfl, hR, by simp, fun _ _ => rfl⟩
  | r :: hs, w, env, hR, hl, hnd => by
    obtain ⟨hrs, hss⟩ := List.nodup_cons.1 hnd
    obtain ⟨s1, h1, hR1⟩ := do_destroy hc.valid hc.phys hR (hl r List.mem_cons_self)
    obtain ⟨s2, env2, h2, hR2, hin, hout⟩ := deletes_ok hs (w := { w with strs := s1 }) hR1
      (fun h hm => by
        have hne : h ≠ r := fun he => hrs (he ▸ hm)
        rw [Env.upd_ne hne]
        exact hl h (List.mem_cons_of_mem _ hm)) hss
    refine ⟨s2, env2, ?_, hR2, ?_, ?_⟩
    · show (strs (Rca.destroy c.str r) >>= _) w = _
      rw [pbind_ok (strs_ok h1), h2]
    · intro h hm
      rcases List.mem_cons.1 hm with rfl | hm
      · rw [hout h hrs, Env.upd_self]
      · exact hin h hm
    · intro h hm
      simp only [List.mem_cons, not_or] at hm
      rw [hout h hm.2, Env.upd_ne hm.1]

/-- No destination is a source that is read later. -/
def Later : List Nat → List Nat → Prop
  | d :: ds, _ :: ss => d ∉ ss ∧ Later ds ss
  | _, _ => True

omit hc in
theorem map_congr_of {ss : List Nat} {e1 e2 : Env UInt8} (h : ∀ x ∈ ss, e1 x = e2 x) : ss.map e1 = ss.map e2 :=
  List.map_congr_left h

theorem assigns_ok : ∀ (ds ss : List Nat) {w : World} {env : Env UInt8}, Reach c.str w.strs env →
    (∀ h ∈ ds, env h ≠ .dead) → (∀ h ∈ ss, env h ≠ .dead) → ds.Nodup → ds.length = ss.length → Later ds ss →
    ∃ s' env', assigns ds ss w = .ok () { w with strs := s' } ∧ Reach c.str s' env' ∧
      ds.map env' = ss.map env ∧ ∀ h, h ∉ ds → env' h = env h
  | [], [], w, env, hR, _, _, _, _, _ => ⟨w.strs, env, rfl, hR, rfl, fun _ _ => rfl⟩
  | [], _ :: _, _, _, _, _, _, _, hl, _ => by simp at hl
  | _ :: _, [], _, _, _, _, _, _, hl, _ => by simp at hl
  | d :: ds, r :: ss, w, env, hR, hd, hs, hn, hl, hlat => by
    obtain ⟨hdn, hdss⟩ := List.nodup_cons.1 hn
    obtain ⟨hdl, hlat⟩ := hlat
    have hr := hs r List.mem_cons_self
    obtain ⟨s1, h1, hR1⟩ := do_copyAssign hc.valid hc.phys hR (hd d List.mem_cons_self) hr
    have live : ∀ h, env h ≠ .dead → (env.upd d (env r)) h ≠ .dead := by
      intro h hh
      by_cases he : h = d
      · subst he; rw [Env.upd_self]; exact hr
      · rw [Env.upd_ne he]; exact hh
    obtain ⟨s2, env2, h2, hR2, hmap, hout⟩ := assigns_ok ds ss (w := { w with strs := s1 }) hR1
      (fun h hm => live h (hd h (List.mem_cons_of_mem _ hm))) (fun h hm => live h (hs h (List.mem_cons_of_mem _ hm)))
      hdss (by simpa using hl) hlat
    refine ⟨s2, env2, ?_, hR2, ?_, ?_⟩
    · show (strs (Rca.copyAssign d r) >>= _) w = _
      rw [pbind_ok (strs_ok h1), h2]
    · rw [List.map_cons, List.map_cons, hmap, hout d hdn, Env.upd_self]
      congr 1
      exact map_congr_of fun x hx => Env.upd_ne fun he => hdl (he ▸ hx)
    · intro h hm
      simp only [List.mem_cons, not_or] at hm
      rw [hout h hm.2, Env.upd_ne hm.1]

theorem assignMoves_ok : ∀ (ds ss : List Nat) {w : World} {env : Env UInt8}, Reach c.str w.strs env →
    (∀ h ∈ ds, env h ≠ .dead) → (∀ h ∈ ss, env h ≠ .dead) → ds.Nodup → ss.Nodup → ds.length = ss.length →
    Later ds ss → (∀ i, i < ds.length → ds[i]? ≠ ss[i]?) →
    ∃ s' env', assignMoves c ds ss w = .ok () { w with strs := s' } ∧ Reach c.str s' env' ∧
      ds.map env' = ss.map env ∧ (∀ h ∈ ss, h ∉ ds → env' h = movedSlot c.str) ∧
      ∀ h, h ∉ ds → h ∉ ss → env' h = env h
  | [], [], w, env, hR, _, _, _, _, _, _, _ => ⟨w.strs, env, rfl, hR, rfl, by simp, fun _ _ _ => rfl⟩
  | [], _ :: _, _, _, _, _, _, _, _, hl, _, _ => by simp at hl
  | _ :: _, [], _, _, _, _, _, _, _, hl, _, _ => by simp at hl
  | d :: ds, r :: ss, w, env, hR, hd, hs, hn, hsn, hl, hlat, hne => by
    obtain ⟨hdn, hdss⟩ := List.nodup_cons.1 hn
    obtain ⟨hrn, hrss⟩ := List.nodup_cons.1 hsn
    obtain ⟨hdl, hlat⟩ := hlat
    have hr := hs r List.mem_cons_self
    have hdr : d ≠ r := by simpa using hne 0 (by simp)
    obtain ⟨s1, h1, hR1⟩ := do_moveAssign hc.valid hc.phys hR (hd d List.mem_cons_self) hr
    rw [if_neg hdr] at hR1
    have live : ∀ h, env h ≠ .dead → ((env.upd r (movedSlot c.str)).upd d (env r)) h ≠ .dead := by
      intro h hh
      by_cases he : h = d
      · subst he; rw [Env.upd_self]; exact hr
      · rw [Env.upd_ne he]
        by_cases he : h = r
        · subst he; rw [Env.upd_self]; exact movedSlot_ne hc.valid hc.phys
        · rw [Env.upd_ne he]; exact hh
    obtain ⟨s2, env2, h2, hR2, hmap, hmv, hout⟩ := assignMoves_ok ds ss (w := { w with strs := s1 }) hR1
      (fun h hm => live h (hd h (List.mem_cons_of_mem _ hm))) (fun h hm => live h (hs h (List.mem_cons_of_mem _ hm)))
      hdss hrss (by simpa using hl) hlat (fun i hi => by simpa using hne (i + 1) (by simp; omega))
    refine ⟨s2, env2, ?_, hR2, ?_, ?_, ?_⟩
    · show (strs (Rca.moveAssign c.str d r) >>= _) w = _
      rw [pbind_ok (strs_ok h1), h2]
    · rw [List.map_cons, List.map_cons, hmap, hout d hdn hdl, Env.upd_self]
      congr 1
      exact map_congr_of fun x hx => by
        have h1 : x ≠ d := fun he => hdl (he ▸ hx)
        have h2 : x ≠ r := fun he => hrn (he ▸ hx)
        rw [Env.upd_ne h1, Env.upd_ne h2]
    · intro h hm hd'
      simp only [List.mem_cons, not_or] at hd'
      by_cases hms : h ∈ ss
      · exact hmv h hms hd'.2
      · rcases List.mem_cons.1 hm with rfl | hm
        · rw [hout h hd'.2 hms, Env.upd_ne hd'.1, Env.upd_self]
        · exact absurd hm hms
    · intro h h1 h2
      simp only [List.mem_cons, not_or] at h1 h2
      rw [hout h h1.2 h2.2, Env.upd_ne h1.1, Env.upd_ne h2.1]

end Loops

end Bdlib.Nest
