import Verif.Deep.Cells

/-!
# Storage of arrays of objects stays in step
-/

namespace Bdlib.Deep
open Bdlib Bdlib.Spec Bdlib.Rca
open Pg (undef)

variable {c : Conf} {T : Type} {mv : Slot T} {θ : Slot T → UInt64} {R : c.elt.Mem → Env T → Prop} {us : Env T} {env : Env T} {σ : St (Slot T)} {w : World c}

theorem RelE.freed (h : RelE R env us σ w) (f : List (List (Slot T))) (g : List (List Nat)) :
    RelE R env us { σ with freed := f } { w with arrs := { w.arrs with freed := g } } :=
  ⟨h.reach, ⟨h.like.blk, h.like.len, h.like.objs, h.like.gen⟩, h.nodup, h.disj, h.cell, h.rest⟩

theorem RelE.attempt (h : RelE R env us σ w) (g : Nat) :
    RelE R env us { σ with gen := g } { w with arrs := { w.arrs with gen := g } } :=
  ⟨h.reach, ⟨h.like.blk, h.like.len, h.like.objs, rfl⟩, h.nodup, h.disj, h.cell, h.rest⟩

theorem mem_window_of {cs : List Nat} {i n j : Nat} (hj : j < cs.length) (h1 : i ≤ j) (h2 : j < i + n) :
    cs[j] ∈ window cs i n := by
  have : (window cs i n)[j - i]? = some cs[j] := by
    rw [getElem?_window, if_pos (by omega), ← List.getElem?_eq_getElem hj]
    congr 1; omega
  exact List.mem_of_getElem? this

theorem of_mem_window {cs : List Nat} (hn : cs.Nodup) {i n j : Nat} (hj : j < cs.length) (h : cs[j] ∈ window cs i n) :
    i ≤ j ∧ j < i + n := by
  obtain ⟨k, hk, he⟩ := List.getElem_of_mem h
  have hkn : k < n := by
    have : (window cs i n).length ≤ n := by unfold window; exact List.length_take_le _ _
    omega
  have e2 : (window cs i n)[k]? = cs[i + k]? := by rw [getElem?_window, if_pos hkn]
  rw [List.getElem?_eq_getElem hk, he, ← List.getElem?_eq_getElem hj] at e2
  have := (List.getElem?_inj hj hn).1 e2
  omega

theorem junk_val (g i n : Nat) : junkFrom (c.val θ mv) g i n = List.replicate (n - i) (.val []) := by
  unfold junkFrom Conf.val
  simp only
  rw [List.eq_replicate_iff]
  exact ⟨by simp, by simp⟩

theorem map_new {fs : List Nat} {e : Env T} (h : ∀ x ∈ fs, e x = .val []) :
    fs.map e = List.replicate fs.length (.val []) := by
  rw [List.eq_replicate_iff]
  refine ⟨by simp, fun b hb => ?_⟩
  obtain ⟨x, hx, rfl⟩ := List.mem_map.1 hb
  exact h x hx

theorem alloc_yes {T : Type} {cfg : Cfg T} {n : Nat} {s : St T} (h : cfg.allocOk (s.gen + 1) n = true) :
    alloc cfg n s = .ok (s.gen + 1) { s with gen := s.gen + 1 } := by
  unfold alloc; simp only [h, if_true]

theorem alloc_no {T : Type} {cfg : Cfg T} {n : Nat} {s : St T} (h : cfg.allocOk (s.gen + 1) n = false) :
    alloc cfg n s = .throw .badAlloc { s with gen := s.gen + 1 } := by
  unfold alloc; simp only [h, Bool.false_eq_true, if_false]

theorem bind_throw' {T α β : Type} {m : M T α} {f : α → M T β} {s s' : St T} {e : Exc} (h : m s = .throw e s') :
    (m >>= f) s = .throw e s' := by
  show M.bind m f s = _
  unfold M.bind; rw [h]

theorem match_arefReserve (hc : Good mv R) (h : Rel R us σ w) {a n off sub : Nat} {sc : Nat → Nat}
    (hs : ∀ B, σ.blk a = some B → B.cells = [] → sub = 0) :
    Match R us (arefReserve c a n sc off sub w) (Rca.arefReserve (c.val θ mv) a n sc off sub σ)
      fun x y us' _ _ => x = y ∧ us' = us := by
  obtain ⟨env, h⟩ := h
  unfold arefReserve Rca.arefReserve
  cases hb : w.arrs.blk a with
  | none => rw [bind_ub (getBlk_ub (by rw [h.like.blk, hb]; rfl))]; trivial
  | some b =>
  have hB := h.like.blk_some hb
  have hlen : (mapBlk env b).cells.length = b.cells.length := by simp [mapBlk]
  have hsub : b.cells.length = 0 → sub = 0 := fun h0 => hs _ hB (by
    apply List.eq_nil_of_length_eq_zero; rw [hlen]; exact h0)
  rw [bind_ok (getBlk_eq hB), pbind_ok (arrs_ok (getBlk_eq hb))]
  simp only [hlen]
  have hnd := h.nodup_blk hb
  refine match_ite (fun _ => ?_) fun hbig => match_ite (fun hsh => ?_) fun _ => match_pure ⟨env, h⟩ ⟨rfl, rfl⟩
  · -- growth
    generalize max (sc b.cells.length) n = N
    cases hok : c.allocOk (w.arrs.gen + 1) N with
    | false =>
      rw [bind_throw' (alloc_no (by rw [h.like.gen]; exact hok)), pbind_throw (arrs_throw (alloc_no hok))]
      refine ⟨_, rfl, env, ?_⟩
      rw [h.like.gen]
      exact h.attempt _
    | true =>
    rw [bind_ok (alloc_yes (by rw [h.like.gen]; exact hok)), pbind_ok (arrs_ok (alloc_yes hok)), h.like.gen]
    have h := h.attempt (w.arrs.gen + 1)
    revert h
    generalize ({ σ with gen := w.arrs.gen + 1 } : St (Slot T)) = σ1
    generalize hw1 : ({ w with arrs := { w.arrs with gen := w.arrs.gen + 1 } } : World c) = w1
    intro h
    generalize w.arrs.gen + 1 = g
    have hb1 : w1.arrs.blk a = some b := by rw [← hw1]; exact hb
    obtain ⟨fs, s2, env2, e2, hR2, hl2, hn2, hin2, hout2⟩ := fresh_ok hc (N - sub) h.reach
    rw [pbind_ok e2]
    have hold2 : ∀ x ∈ b.cells, x ∉ fs := fun x hx hf => h.live hb1 hx (hin2 x hf).1
    refine match_ite (fun h0 => ?_) fun h0 => match_ite (fun hle => ?_) fun _ => match_undef
    · have hs0 := hsub h0
      rw [if_pos hs0]
      refine ⟨0, { elts := s2, arrs := w1.arrs.setBlk a (some { b with gen := g, cells := fs }) }, us, rfl, ⟨env2, ?_⟩, rfl, rfl⟩
      have hbn : b.cells = [] := List.eq_nil_of_length_eq_zero h0
      have := h.replace hR2 hb1 (x := some { b with gen := g, cells := fs }) (cs := fs) rfl hn2
        (fun y hy => ⟨(hin2 y hy).1, by rw [(hin2 y hy).2]; intro hh; cases hh⟩) (by rw [hbn]; simp)
        (fun y hy _ => hout2 y hy)
      have e : (some ({ b with gen := g, cells := fs } : Block Nat)).map (mapBlk env2) =
          some { mapBlk env b with gen := g, cells := junkFrom (c.val θ mv) g 0 N } := by
        simp only [Option.map_some, mapBlk]
        rw [junk_val, map_new fun x hx => (hin2 x hx).2, hl2, hs0]
      rw [e] at this
      exact this
    · have hcl : ∀ x ∈ b.cells, env2 x = env x := fun x hx => hout2 x (hold2 x hx)
      obtain ⟨ms, s3, env3, e3, hR3, hl3, hn3, hin3, hm3, hmv3, hout3⟩ := newMoves_ok hc (window b.cells off sub)
        (w := { w1 with elts := s2 }) hR2 (fun x hx => by rw [hcl x (mem_window hx)]; exact h.live hb1 (mem_window hx))
        (nodup_window hnd _ _)
      have hms : ∀ y ∈ ms, y ∉ fs := fun y hy hf => by
        have := hin3 y hy
        rw [(hin2 y hf).2] at this; cases this
      have hmd : ∀ y ∈ ms, env y = .dead := fun y hy => by rw [← hout2 y (hms y hy)]; exact hin3 y hy
      have hmc : ∀ y ∈ ms, y ∉ b.cells := fun y hy hbc => h.live hb1 hbc (hmd y hy)
      have hlive3 : ∀ x ∈ b.cells, env3 x ≠ .dead := by
        intro x hx
        by_cases hwx : x ∈ window b.cells off sub
        · rw [hmv3 x hwx]; exact hc.ne
        · rw [hout3 x (fun hm => hmc x hm hx) hwx, hcl x hx]; exact h.live hb1 hx
      obtain ⟨s4, env4, e4, hR4, hin4, hout4⟩ := deletes_ok hc b.cells (w := { w1 with elts := s3 }) hR3 hlive3 hnd
      rw [pbind_ok e3, pbind_ok e4]
      have hf3 : ∀ y ∈ fs, env4 y = .val [] := by
        intro y hy
        have hyc : y ∉ b.cells := fun hx => hold2 y hx hy
        rw [hout4 y hyc, hout3 y (fun hm => hms y hm hy) (fun hwx => hyc (mem_window hwx))]
        exact (hin2 y hy).2
      have hm4 : ms.map env4 = (window b.cells off sub).map env := by
        rw [map_congr_of fun y hy => hout4 y (hmc y hy), hm3]
        exact map_congr_of fun y hy => hcl y (mem_window hy)
      refine ⟨0,
        ⟨s4, St.setBlk { w1.arrs with freed := b.cells :: w1.arrs.freed } a (some { b with gen := g, cells := ms ++ fs })⟩,
        us, rfl, ⟨env4, ?_⟩, rfl, rfl⟩
      have := (h.freed ((window (mapBlk env b).cells 0 off ++ (window (mapBlk env b).cells off sub).map (c.val θ mv).moved
        ++ (mapBlk env b).cells.drop (off + sub)) :: σ1.freed) (b.cells :: w1.arrs.freed)).replace hR4 hb1
        (x := some { b with gen := g, cells := ms ++ fs }) (cs := ms ++ fs) rfl
        (List.nodup_append.2 ⟨hn3, hn2, fun y hy z hz he => hms y hy (he ▸ hz)⟩)
        (fun y hy => by
          rcases List.mem_append.1 hy with hy | hy
          · refine ⟨hmd y hy, ?_⟩
            have hmem : env4 y ∈ ms.map env4 := List.mem_map_of_mem hy
            rw [hm4] at hmem
            obtain ⟨z, hz, he⟩ := List.mem_map.1 hmem
            rw [← he]; exact h.live hb1 (mem_window hz)
          · exact ⟨(hin2 y hy).1, by rw [hf3 y hy]; intro hh; cases hh⟩)
        hin4 (fun y hy hyc => by
          rw [hout4 y hyc, hout3 y (fun hm => hy (List.mem_append_left _ hm)) (fun hwx => hyc (mem_window hwx)),
            hout2 y fun hf => hy (List.mem_append_right _ hf)])
      have e : (some ({ b with gen := g, cells := ms ++ fs } : Block Nat)).map (mapBlk env4) =
          some { mapBlk env b with
            gen := g
            cells := window (mapBlk env b).cells off sub ++ junkFrom (c.val θ mv) g sub N } := by
        simp only [Option.map_some, mapBlk]
        rw [junk_val, List.map_append, map_new hf3, hl2, hm4, window_map]
      rw [e] at this
      exact this
  · -- shift to the beginning
    refine match_ite (fun hle => ?_) fun _ => match_undef
    have hoff : 0 < off := by
      rcases Nat.eq_zero_or_pos off with h0 | h0
      · subst h0; simp only [sub64, Nat.zero_le, if_true, Nat.sub_zero] at hsh; omega
      · exact h0
    have hdl : (window b.cells 0 sub).length = sub := window_len (by omega)
    have hsl : (window b.cells off sub).length = sub := window_len hle
    obtain ⟨s', env', e1, hR, hm, hmv, hout⟩ := assignMoves_ok hc (window b.cells 0 sub) (window b.cells off sub) h.reach
      (fun x hx => h.live hb (mem_window hx)) (fun x hx => h.live hb (mem_window hx)) (nodup_window hnd _ _)
      (nodup_window hnd _ _) (by rw [hdl, hsl]) (by
        apply later_of
        intro x y hxy hy
        rw [hsl] at hy
        rw [getElem?_window, getElem?_window, if_pos (by omega), if_pos hy]
        intro he
        have := (List.getElem?_inj (by omega) hnd).1 he
        omega) (by
        intro x hx
        rw [hdl] at hx
        rw [getElem?_window, getElem?_window, if_pos hx, if_pos hx]
        intro he
        have := (List.getElem?_inj (by omega) hnd).1 he
        omega)
    rw [pbind_ok e1]
    refine ⟨0, { w with elts := s' }, us, rfl, ⟨env', ?_⟩, rfl, rfl⟩
    have hcells : b.cells.map env' = overwrite (overwrite (mapBlk env b).cells off
        ((window (mapBlk env b).cells off sub).map (c.val θ mv).moved)) 0 (window (mapBlk env b).cells off sub) := by
      have hwl : (window (mapBlk env b).cells off sub).length = sub := window_len (by rw [hlen]; exact hle)
      apply List.ext_getElem?
      intro j
      rw [getElem?_overwrite (by omega), hwl, if_neg (by omega), getElem?_overwrite (by rw [hlen]; omega), List.length_map,
        hwl, List.getElem?_map]
      by_cases hj : j < b.cells.length
      · rw [List.getElem?_eq_getElem hj]
        simp only [Option.map_some]
        by_cases h1 : j < 0 + sub
        · rw [if_pos h1, getElem?_window, if_pos (by omega)]
          have e1 : ((window b.cells 0 sub).map env')[j]? = some (env' b.cells[j]) := by
            rw [List.getElem?_map, getElem?_window, if_pos (by omega), Nat.zero_add, List.getElem?_eq_getElem hj]; rfl
          rw [hm, List.getElem?_map, getElem?_window, if_pos (by omega)] at e1
          rw [← e1, ← List.getElem?_map]
          rfl
        · rw [if_neg h1]
          have hnd0 : b.cells[j] ∉ window b.cells 0 sub := fun hx => by have := of_mem_window hnd hj hx; omega
          by_cases h2 : j < off
          · rw [if_pos h2, hout _ hnd0 (fun hx => by have := of_mem_window hnd hj hx; omega)]
            show _ = (b.cells.map env)[j]?
            rw [List.getElem?_map, List.getElem?_eq_getElem hj]; rfl
          · rw [if_neg h2]
            by_cases h3 : j < off + sub
            · rw [if_pos h3, hmv _ (mem_window_of hj (by omega) h3) hnd0, List.getElem?_map,
                List.getElem?_eq_getElem (by rw [hwl]; omega)]
              rfl
            · rw [if_neg h3, hout _ hnd0 (fun hx => by have := of_mem_window hnd hj hx; omega)]
              show _ = (b.cells.map env)[j]?
              rw [List.getElem?_map, List.getElem?_eq_getElem hj]; rfl
      · rw [List.getElem?_eq_none (by omega), if_neg (by omega), if_neg (by omega), if_neg (by omega),
          List.getElem?_eq_none (by rw [hlen]; omega)]
        rfl
    have := h.block (us' := us) hR hb (fun x hx => by
        by_cases hd : x ∈ window b.cells 0 sub
        · have hmem : env' x ∈ (window b.cells 0 sub).map env' := List.mem_map_of_mem hd
          rw [hm] at hmem
          obtain ⟨z, hz, he⟩ := List.mem_map.1 hmem
          rw [← he]; exact h.live hb (mem_window hz)
        · by_cases hs' : x ∈ window b.cells off sub
          · rw [hmv x hs' hd]; exact hc.ne
          · rw [hout x hd hs']; exact h.live hb hx)
      (fun a' x hne hx => hout x
        (fun hd => hne (h.disj a' a x hx (by rw [cellsAt_some hb]; exact mem_window hd)))
        (fun hd => hne (h.disj a' a x hx (by rw [cellsAt_some hb]; exact mem_window hd))))
      (fun a' x hx => (h.cell a' x hx).2)
      (fun x hx => by
        rw [hout x (fun hd => hx a (by rw [cellsAt_some hb]; exact mem_window hd))
          (fun hd => hx a (by rw [cellsAt_some hb]; exact mem_window hd))]
        exact h.rest x hx)
    have e : mapBlk env' b = { mapBlk env b with
        cells := overwrite (overwrite (mapBlk env b).cells off
          ((window (mapBlk env b).cells off sub).map (c.val θ mv).moved)) 0 (window (mapBlk env b).cells off sub) } := by
      rw [← hcells]
      rfl
    rw [e] at this
    exact this

end Bdlib.Deep
