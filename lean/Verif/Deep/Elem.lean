import Verif.Deep.Spec
import Verif.Spec.Touch

/-!
# What the loops over elements do

What the operations of the element class have to do (`Laws`), and what follows for the loops.
-/

namespace Bdlib.Deep
open Bdlib Bdlib.Spec Bdlib.Rca
open Pg (undef)

variable {c : Conf} {T : Type} {mv : Slot T} {θ : Slot T → UInt64} {R : c.elt.Mem → Env T → Prop} {w : World c} {env : Env T}

theorem pbind_ok {α β : Type} {m : P c α} {f : α → P c β} {w w' : World c} {a : α} (h : m w = .ok a w') :
    (m >>= f) w = f a w' := by
  show Pg.bind m f w = _
  simp only [Pg.bind, h]

theorem pbind_throw {α β : Type} {m : P c α} {f : α → P c β} {w w' : World c} {e : Exc} (h : m w = .throw e w') :
    (m >>= f) w = .throw e w' := by
  show Pg.bind m f w = _
  simp only [Pg.bind, h]

theorem elts_ok {α : Type} {m : Pg c.elt.Mem α} {a : α} {s : c.elt.Mem} (h : m w.elts = .ok a s) :
    elts m w = .ok a { w with elts := s } := by
  simp only [elts, h]

theorem elts_throw {α : Type} {m : Pg c.elt.Mem α} {e : Exc} {s : c.elt.Mem} (h : m w.elts = .throw e s) :
    elts m w = .throw e { w with elts := s } := by
  simp only [elts, h]

theorem arrs_ok {α : Type} {m : M Nat α} {a : α} {s : St Nat} (h : m w.arrs = .ok a s) :
    arrs m w = .ok a { w with arrs := s } := by
  simp only [arrs, h]

theorem arrs_throw {α : Type} {m : M Nat α} {e : Exc} {s : St Nat} (h : m w.arrs = .throw e s) :
    arrs m w = .throw e { w with arrs := s } := by
  simp only [arrs, h]

/-- The operations of the class act on values: `R s env` says that the memory `s` holds `env`; `mv` is what remains
of an object that was moved from. -/
structure Laws {T : Type} (K : Class) (mv : Slot T) (R : K.Mem → Env T → Prop) : Prop where
  ne : mv ≠ .dead
  new : ∀ {s env}, R s env → ∃ o s', K.new s = .ok o s' ∧ env o = .dead ∧ R s' (env.upd o (.val []))
  newCopy : ∀ {s env}, R s env → ∀ {r}, env r ≠ .dead →
    ∃ o s', K.newCopy r s = .ok o s' ∧ env o = .dead ∧ R s' (env.upd o (env r))
  newMove : ∀ {s env}, R s env → ∀ {r}, env r ≠ .dead →
    ∃ o s', K.newMove r s = .ok o s' ∧ env o = .dead ∧ o ≠ r ∧ R s' ((env.upd r mv).upd o (env r))
  assign : ∀ {s env}, R s env → ∀ {o r}, env o ≠ .dead → env r ≠ .dead →
    ∃ s', K.assign o r s = .ok () s' ∧ R s' (env.upd o (env r))
  assignMove : ∀ {s env}, R s env → ∀ {o r}, env o ≠ .dead → env r ≠ .dead →
    ∃ s', K.assignMove o r s = .ok () s' ∧ R s' (if o = r then env else (env.upd r mv).upd o (env r))
  delete : ∀ {s env}, R s env → ∀ {o}, env o ≠ .dead → ∃ s', K.delete o s = .ok () s' ∧ R s' (env.upd o .dead)

/-- The parameters make sense. -/
structure Good {T : Type} {c : Conf} (mv : Slot T) (R : c.elt.Mem → Env T → Prop) : Prop extends Laws c.elt mv R where
  arr : ∀ g n, maxCells ≤ n → c.allocOk g n = false

/-! ## Loops -/

section Loops
variable (hc : Good mv R)
include hc

theorem copies_ok {t : Nat} : ∀ (k : Nat) {w : World c} {env : Env T}, R w.elts env → env t ≠ .dead →
    ∃ hs s' env', copies c t k w = .ok hs { w with elts := s' } ∧ R s' env' ∧ hs.length = k ∧ hs.Nodup ∧
      (∀ h ∈ hs, env h = .dead ∧ env' h = env t) ∧ ∀ h, h ∉ hs → env' h = env h
  | 0, w, env, hR, _ => ⟨[], w.elts, env, rfl, hR, rfl, .nil, by simp, fun _ _ => rfl⟩
  | k + 1, w, env, hR, ht => by
    obtain ⟨o, s1, h1, hd, hR1⟩ := hc.newCopy hR ht
    have hto : t ≠ o := fun he => ht (he ▸ hd)
    obtain ⟨hs, s2, env2, h2, hR2, hl, hn, hin, hout⟩ := copies_ok k (w := { w with elts := s1 }) hR1
      (by rw [Env.upd_ne hto]; exact ht)
    have hoh : o ∉ hs := by
      intro hm
      have := (hin o hm).1
      rw [Env.upd_self] at this
      exact ht this
    refine ⟨o :: hs, s2, env2, ?_, hR2, by simp [hl], List.nodup_cons.2 ⟨hoh, hn⟩, ?_, ?_⟩
    · show (elts (c.elt.newCopy t) >>= _) w = _
      rw [pbind_ok (elts_ok h1), pbind_ok h2]
      rfl
    · intro h hm
      rcases List.mem_cons.1 hm with rfl | hm
      · exact ⟨hd, by rw [hout _ hoh, Env.upd_self]⟩
      · have := hin h hm
        have hne : h ≠ o := fun he => hoh (he ▸ hm)
        rw [Env.upd_ne hne, Env.upd_ne hto] at this
        exact this
    · intro h hm
      simp only [List.mem_cons, not_or] at hm
      rw [hout h hm.2, Env.upd_ne hm.1]

theorem fresh_ok (k : Nat) (hR : R w.elts env) :
    ∃ hs s' env', fresh c k w = .ok hs { w with elts := s' } ∧ R s' env' ∧ hs.length = k ∧ hs.Nodup ∧
      (∀ h ∈ hs, env h = .dead ∧ env' h = .val []) ∧ ∀ h, h ∉ hs → env' h = env h := by
  obtain ⟨t, s1, h1, hd, hR1⟩ := hc.new hR
  have ht : (env.upd t (.val [])) t ≠ .dead := by rw [Env.upd_self]; intro h; cases h
  obtain ⟨hs, s2, env2, h2, hR2, hl, hn, hin, hout⟩ := copies_ok hc k (w := { w with elts := s1 }) hR1 ht
  have htn : t ∉ hs := fun hm => ht (hin t hm).1
  obtain ⟨s3, h3, hR3⟩ := hc.delete hR2 (o := t) (by rw [hout t htn]; exact ht)
  refine ⟨hs, s3, _, ?_, hR3, hl, hn, ?_, ?_⟩
  · show (elts c.elt.new >>= _) w = _
    rw [pbind_ok (elts_ok h1), pbind_ok h2]
    exact pbind_ok (elts_ok (w := { w with elts := s2 }) h3)
  · intro h hm
    have hne : h ≠ t := fun he => htn (he ▸ hm)
    have := hin h hm
    rw [Env.upd_ne hne, Env.upd_self] at this
    exact ⟨this.1, by rw [Env.upd_ne hne]; exact this.2⟩
  · intro h hm
    by_cases hne : h = t
    · subst hne; rw [Env.upd_self, hd]
    · rw [Env.upd_ne hne, hout h hm, Env.upd_ne hne]

theorem newMoves_ok : ∀ (ss : List Nat) {w : World c} {env : Env T}, R w.elts env →
    (∀ h ∈ ss, env h ≠ .dead) → ss.Nodup →
    ∃ hs s' env', newMoves c ss w = .ok hs { w with elts := s' } ∧ R s' env' ∧ hs.length = ss.length ∧
      hs.Nodup ∧ (∀ h ∈ hs, env h = .dead) ∧ hs.map env' = ss.map env ∧
      (∀ h ∈ ss, env' h = mv) ∧ ∀ h, h ∉ hs → h ∉ ss → env' h = env h
  | [], w, env, hR, _, _ => ⟨[], w.elts, env, rfl, hR, rfl, .nil, by simp, rfl, by simp, fun _ _ _ => rfl⟩
  | r :: ss, w, env, hR, hl, hnd => by
    have hr := hl r List.mem_cons_self
    obtain ⟨hrs, hss⟩ := List.nodup_cons.1 hnd
    obtain ⟨o, s1, h1, hd, hor, hR1⟩ := hc.newMove hR hr
    have key : ∀ h ∈ ss, ((env.upd r mv).upd o (env r)) h = env h := by
      intro h hm
      have h1 : h ≠ o := fun he => hl h (List.mem_cons_of_mem _ hm) (he ▸ hd)
      have h2 : h ≠ r := fun he => hrs (he ▸ hm)
      rw [Env.upd_ne h1, Env.upd_ne h2]
    obtain ⟨hs, s2, env2, h2, hR2, hlen, hn, hin, hmap, hmv, hout⟩ := newMoves_ok ss (w := { w with elts := s1 }) hR1
      (fun h hm => by rw [key h hm]; exact hl h (List.mem_cons_of_mem _ hm)) hss
    have hoh : o ∉ hs := by
      intro hm
      have := hin o hm
      rw [Env.upd_self] at this
      exact hr this
    have hrh : r ∉ hs := by
      intro hm
      have := hin r hm
      rw [Env.upd_ne (Ne.symm hor), Env.upd_self] at this
      exact hc.ne this
    have hos : o ∉ ss := fun hm => hl o (List.mem_cons_of_mem _ hm) hd
    refine ⟨o :: hs, s2, env2, ?_, hR2, by simp [hlen], List.nodup_cons.2 ⟨hoh, hn⟩, ?_, ?_, ?_, ?_⟩
    · show (elts (c.elt.newMove r) >>= _) w = _
      rw [pbind_ok (elts_ok h1), pbind_ok h2]
      rfl
    · intro h hm
      rcases List.mem_cons.1 hm with rfl | hm
      · exact hd
      · have := hin h hm
        have h1 : h ≠ o := fun he => hoh (he ▸ hm)
        have h2 : h ≠ r := fun he => hrh (he ▸ hm)
        rwa [Env.upd_ne h1, Env.upd_ne h2] at this
    · rw [List.map_cons, List.map_cons, hmap, hout o hoh hos, Env.upd_self]
      congr 1
      exact List.map_congr_left key
    · intro h hm
      rcases List.mem_cons.1 hm with rfl | hm
      · rw [hout h hrh hrs, Env.upd_ne (Ne.symm hor), Env.upd_self]
      · exact hmv h hm
    · intro h h1 h2
      simp only [List.mem_cons, not_or] at h1 h2
      rw [hout h h1.2 h2.2, Env.upd_ne h1.1, Env.upd_ne h2.1]

theorem deletes_ok : ∀ (hs : List Nat) {w : World c} {env : Env T}, R w.elts env →
    (∀ h ∈ hs, env h ≠ .dead) → hs.Nodup →
    ∃ s' env', deletes c hs w = .ok () { w with elts := s' } ∧ R s' env' ∧
      (∀ h ∈ hs, env' h = .dead) ∧ ∀ h, h ∉ hs → env' h = env h
  | [], w, env, hR, _, _ => ⟨w.elts, env, rfl, hR, by simp, fun _ _ => rfl⟩
  | r :: hs, w, env, hR, hl, hnd => by
    obtain ⟨hrs, hss⟩ := List.nodup_cons.1 hnd
    obtain ⟨s1, h1, hR1⟩ := hc.delete hR (hl r List.mem_cons_self)
    obtain ⟨s2, env2, h2, hR2, hin, hout⟩ := deletes_ok hs (w := { w with elts := s1 }) hR1
      (fun h hm => by
        have hne : h ≠ r := fun he => hrs (he ▸ hm)
        rw [Env.upd_ne hne]
        exact hl h (List.mem_cons_of_mem _ hm)) hss
    refine ⟨s2, env2, ?_, hR2, ?_, ?_⟩
    · show (elts (c.elt.delete r) >>= _) w = _
      rw [pbind_ok (elts_ok h1), h2]
    · intro h hm
      rcases List.mem_cons.1 hm with rfl | hm
      · rw [hout h hrs, Env.upd_self]
      · exact hin h hm
    · intro h hm
      simp only [List.mem_cons, not_or] at hm
      rw [hout h hm.2, Env.upd_ne hm.1]

/-- No destination is a source that is read later. -/
def Later : List Nat → List Nat → Prop
  | d :: ds, _ :: ss => d ∉ ss ∧ Later ds ss
  | _, _ => True

omit hc in
theorem map_congr_of {ss : List Nat} {e1 e2 : Env T} (h : ∀ x ∈ ss, e1 x = e2 x) : ss.map e1 = ss.map e2 :=
  List.map_congr_left h

theorem assigns_ok : ∀ (ds ss : List Nat) {w : World c} {env : Env T}, R w.elts env →
    (∀ h ∈ ds, env h ≠ .dead) → (∀ h ∈ ss, env h ≠ .dead) → ds.Nodup → ds.length = ss.length → Later ds ss →
    ∃ s' env', assigns c ds ss w = .ok () { w with elts := s' } ∧ R s' env' ∧
      ds.map env' = ss.map env ∧ ∀ h, h ∉ ds → env' h = env h
  | [], [], w, env, hR, _, _, _, _, _ => ⟨w.elts, env, rfl, hR, rfl, fun _ _ => rfl⟩
  | [], _ :: _, _, _, _, _, _, _, hl, _ => by simp at hl
  | _ :: _, [], _, _, _, _, _, _, hl, _ => by simp at hl
  | d :: ds, r :: ss, w, env, hR, hd, hs, hn, hl, hlat => by
    obtain ⟨hdn, hdss⟩ := List.nodup_cons.1 hn
    obtain ⟨hdl, hlat⟩ := hlat
    have hr := hs r List.mem_cons_self
    obtain ⟨s1, h1, hR1⟩ := hc.assign hR (hd d List.mem_cons_self) hr
    have live : ∀ h, env h ≠ .dead → (env.upd d (env r)) h ≠ .dead := by
      intro h hh
      by_cases he : h = d
      · subst he; rw [Env.upd_self]; exact hr
      · rw [Env.upd_ne he]; exact hh
    obtain ⟨s2, env2, h2, hR2, hmap, hout⟩ := assigns_ok ds ss (w := { w with elts := s1 }) hR1
      (fun h hm => live h (hd h (List.mem_cons_of_mem _ hm))) (fun h hm => live h (hs h (List.mem_cons_of_mem _ hm)))
      hdss (by simpa using hl) hlat
    refine ⟨s2, env2, ?_, hR2, ?_, ?_⟩
    · show (elts (c.elt.assign d r) >>= _) w = _
      rw [pbind_ok (elts_ok h1), h2]
    · rw [List.map_cons, List.map_cons, hmap, hout d hdn, Env.upd_self]
      congr 1
      exact map_congr_of fun x hx => Env.upd_ne fun he => hdl (he ▸ hx)
    · intro h hm
      simp only [List.mem_cons, not_or] at hm
      rw [hout h hm.2, Env.upd_ne hm.1]

theorem assignMoves_ok : ∀ (ds ss : List Nat) {w : World c} {env : Env T}, R w.elts env →
    (∀ h ∈ ds, env h ≠ .dead) → (∀ h ∈ ss, env h ≠ .dead) → ds.Nodup → ss.Nodup → ds.length = ss.length →
    Later ds ss → (∀ i, i < ds.length → ds[i]? ≠ ss[i]?) →
    ∃ s' env', assignMoves c ds ss w = .ok () { w with elts := s' } ∧ R s' env' ∧
      ds.map env' = ss.map env ∧ (∀ h ∈ ss, h ∉ ds → env' h = mv) ∧
      ∀ h, h ∉ ds → h ∉ ss → env' h = env h
  | [], [], w, env, hR, _, _, _, _, _, _, _ => ⟨w.elts, env, rfl, hR, rfl, by simp, fun _ _ _ => rfl⟩
  | [], _ :: _, _, _, _, _, _, _, _, hl, _, _ => by simp at hl
  | _ :: _, [], _, _, _, _, _, _, _, hl, _, _ => by simp at hl
  | d :: ds, r :: ss, w, env, hR, hd, hs, hn, hsn, hl, hlat, hne => by
    obtain ⟨hdn, hdss⟩ := List.nodup_cons.1 hn
    obtain ⟨hrn, hrss⟩ := List.nodup_cons.1 hsn
    obtain ⟨hdl, hlat⟩ := hlat
    have hr := hs r List.mem_cons_self
    have hdr : d ≠ r := by simpa using hne 0 (by simp)
    obtain ⟨s1, h1, hR1⟩ := hc.assignMove hR (hd d List.mem_cons_self) hr
    rw [if_neg hdr] at hR1
    have live : ∀ h, env h ≠ .dead → ((env.upd r mv).upd d (env r)) h ≠ .dead := by
      intro h hh
      by_cases he : h = d
      · subst he; rw [Env.upd_self]; exact hr
      · rw [Env.upd_ne he]
        by_cases he : h = r
        · subst he; rw [Env.upd_self]; exact hc.ne
        · rw [Env.upd_ne he]; exact hh
    obtain ⟨s2, env2, h2, hR2, hmap, hmv, hout⟩ := assignMoves_ok ds ss (w := { w with elts := s1 }) hR1
      (fun h hm => live h (hd h (List.mem_cons_of_mem _ hm))) (fun h hm => live h (hs h (List.mem_cons_of_mem _ hm)))
      hdss hrss (by simpa using hl) hlat (fun i hi => by simpa using hne (i + 1) (by simp; omega))
    refine ⟨s2, env2, ?_, hR2, ?_, ?_, ?_⟩
    · show (elts (c.elt.assignMove d r) >>= _) w = _
      rw [pbind_ok (elts_ok h1), h2]
    · rw [List.map_cons, List.map_cons, hmap, hout d hdn hdl, Env.upd_self]
      congr 1
      exact map_congr_of fun x hx => by
        have h1 : x ≠ d := fun he => hdl (he ▸ hx)
        have h2 : x ≠ r := fun he => hrn (he ▸ hx)
        rw [Env.upd_ne h1, Env.upd_ne h2]
    · intro h hm hd'
      simp only [List.mem_cons, not_or] at hd'
      by_cases hms : h ∈ ss
      · exact hmv h hms hd'.2
      · rcases List.mem_cons.1 hm with rfl | hm
        · rw [hout h hd'.2 hms, Env.upd_ne hd'.1, Env.upd_self]
        · exact absurd hm hms
    · intro h h1 h2
      simp only [List.mem_cons, not_or] at h1 h2
      rw [hout h h1.2 h2.2, Env.upd_ne h1.1, Env.upd_ne h2.1]

end Loops

end Bdlib.Deep
