import Verif.Deep.Sim

/-!
# Code that touches elements stays in step
-/

namespace Bdlib.Deep
open Bdlib Bdlib.Spec Bdlib.Rca
open Pg (undef)

variable {c : Conf} {T : Type} {mv : Slot T} {θ : Slot T → UInt64} {R : c.elt.Mem → Env T → Prop} {us : Env T} {env : Env T} {σ : St (Slot T)} {w : World c}

/-! ## Copies between cells -/

/-- The loop of `std::copy` from cells `[j, j + n)` of block `a`, unless it starts inside the source range. -/
theorem match_copyFrom (hc : Good mv R) (h : RelE R env us σ w) {o i n a j : Nat} {b : Block Nat}
    (hb : w.arrs.blk a = some b) (hj : j + n ≤ b.cells.length)
    (hin : ∀ ob, w.arrs.obj o = some ob → ob.ref = some a → ¬ (j < ob.offset + i ∧ ob.offset + i < j + n)) :
    Match R us ((do let ds ← arrs (readRange o i n); assigns c ds (window b.cells j n)) w)
      (writeRange o i ((window b.cells j n).map env) σ) fun _ _ us' w' _ => us' = us ∧ w'.arrs = w.arrs := by
  have hwl : (window b.cells j n).length = n := window_len hj
  rcases writeRange_inv (o := o) (i := i) (s := σ) (xs := (window b.cells j n).map env) with
    he | ⟨hnil, ⟨ob, ho⟩, he⟩ | ⟨ob, a', B, ho, hr, hB, hle, he⟩
  · rw [he]; trivial
  · have h0 : n = 0 := by
      have := congrArg List.length hnil
      simpa [hwl] using this
    subst h0
    rw [he]
    refine ⟨(), w, us, ?_, ⟨env, h⟩, rfl, rfl⟩
    rw [h.like.obj] at ho
    rw [pbind_ok (arrs_ok (readRange_nil ho))]
    rfl
  · rw [he]
    obtain ⟨b', hb', rfl⟩ := h.like.blk_inv hB
    rw [h.like.obj] at ho
    have hle' : ob.offset + i + n ≤ b'.cells.length := by simpa [mapBlk, hwl] using hle
    have hlat : Later (window b'.cells (ob.offset + i) n) (window b.cells j n) := by
      by_cases haa : a' = a
      · subst haa
        rw [hb] at hb'
        cases hb'
        have hno := hin ob ho hr
        apply later_of
        intro x y hxy hy
        rw [hwl] at hy
        rw [getElem?_window, getElem?_window, if_pos (by omega), if_pos hy]
        intro he
        have := (List.getElem?_inj (by omega) (h.nodup_blk hb)).1 he
        omega
      · apply later_disjoint
        intro x hx hx'
        exact haa (h.disj a' a x (by rw [cellsAt_some hb']; exact mem_window hx)
          (by rw [cellsAt_some hb]; exact mem_window hx'))
    obtain ⟨s', env', h1, hR, hm, hout⟩ := assigns_ok hc (window b'.cells (ob.offset + i) n) (window b.cells j n) h.reach
      (fun x hx => h.live hb' (mem_window hx)) (fun x hx => h.live hb (mem_window hx))
      (nodup_window (h.nodup_blk hb') _ _) (by rw [window_len hle', hwl]) hlat
    refine ⟨(), { w with elts := s' }, us, ?_, ⟨env', ?_⟩, rfl, rfl⟩
    · rw [pbind_ok (arrs_ok (readRange_do ho hr hb' hle'))]
      exact h1
    · refine h.wrote hR hb' hle' hm ?_ hout
      intro x hx
      obtain ⟨y, hy, rfl⟩ := List.mem_map.1 hx
      exact h.live hb (mem_window hy)

theorem match_copyRange (hc : Good mv R) (h : Rel R us σ w) {r n o pos : Nat} :
    Match R us (copyRange c r n o pos w) (Rca.copyRange r n o pos σ) fun _ _ us' w' _ => us' = us ∧ w'.arrs = w.arrs := by
  obtain ⟨env, h⟩ := h
  unfold copyRange Rca.copyRange
  cases hro : w.arrs.obj r with
  | none =>
    rw [bind_ub (getObj_ub (by rw [h.like.obj]; exact hro))]; trivial
  | some rb =>
  rw [bind_ok (getObj_eq (by rw [h.like.obj]; exact hro)), pbind_ok (arrs_ok (getObj_eq hro))]
  cases hoo : w.arrs.obj o with
  | none =>
    rw [bind_ub (getObj_ub (by rw [h.like.obj]; exact hoo))]; trivial
  | some ob =>
  rw [bind_ok (getObj_eq (by rw [h.like.obj]; exact hoo)), pbind_ok (arrs_ok (getObj_eq hoo))]
  refine match_ite (fun _ => match_undef) fun hno => ?_
  cases hx : readRange r 0 n σ with
  | ub => show Match R us _ (M.bind _ _ σ) _; unfold M.bind; rw [hx]; trivial
  | throw e σ' =>
    exact (readRange_nothrow hx).elim
  | ok xs σ' =>
    obtain ⟨rfl, rb', hrb', hcase⟩ := readRange_inv hx
    rw [h.like.obj, hro] at hrb'
    cases hrb'
    rw [bind_ok hx]
    rcases hcase with ⟨rfl, rfl⟩ | ⟨a, B, hra, hB, hle, rfl⟩
    · rw [pbind_ok (arrs_ok (readRange_nil hro)), pbind_ok (arrs_ok (readRange_nil hoo)),
        writeRange_nil (by rw [h.like.obj]; exact hoo)]
      exact ⟨(), w, us, rfl, ⟨env, h⟩, rfl, rfl⟩
    · obtain ⟨b, hb, rfl⟩ := h.like.blk_inv hB
      have hle' : rb.offset + 0 + n ≤ b.cells.length := by simpa [mapBlk] using hle
      rw [pbind_ok (arrs_ok (readRange_do hro hra hb hle'))]
      have e : window (mapBlk env b).cells (rb.offset + 0) n = (window b.cells (rb.offset + 0) n).map env := window_map
      rw [e]
      refine match_copyFrom hc h hb hle' ?_
      rintro ob' ho' hr' ⟨h1, h2⟩
      rw [hoo] at ho'
      cases ho'
      exact hno ⟨by rw [hra, hr'], by omega, by omega⟩

theorem match_shiftRight (hc : Good mv R) (h : Rel R us σ w) {o pos k : Nat} :
    Match R us (shiftRight c o pos k w) (Rca.shiftRight o pos k σ) fun _ _ us' w' _ => us' = us ∧ w'.arrs = w.arrs := by
  obtain ⟨env, h⟩ := h
  unfold shiftRight Rca.shiftRight
  cases hoo : w.arrs.obj o with
  | none =>
    rw [bind_ub (getObj_ub (by rw [h.like.obj]; exact hoo))]; trivial
  | some ob =>
  rw [bind_ok (getObj_eq (by rw [h.like.obj]; exact hoo)), pbind_ok (arrs_ok (getObj_eq hoo))]
  generalize hn : ob.sublen - pos = n
  cases hr : ob.ref with
  | none =>
    by_cases h0 : n = 0
    · subst h0
      have e0 := readRange_nil (T := Slot T) (s := σ) (i := pos) (o := o) (ob := ob) (by rw [h.like.obj]; exact hoo)
      rw [bind_ok e0, pbind_ok (arrs_ok (readRange_nil hoo)), pbind_ok (arrs_ok (readRange_nil hoo))]
      have : writeRange o (pos + k) ([] : List (Slot T)) σ = .ok () σ := by
        unfold writeRange; rw [bind_ok (getObj_eq (by rw [h.like.obj]; exact hoo))]; rfl
      rw [this]
      exact ⟨(), w, us, rfl, ⟨env, h⟩, rfl, rfl⟩
    · have : readRange o pos n σ = .ub := by
        unfold readRange
        rw [bind_ok (getObj_eq (by rw [h.like.obj]; exact hoo)), if_neg h0, hr]; rfl
      rw [bind_ub this]; trivial
  | some a =>
    by_cases h0 : n = 0
    · subst h0
      have e0 := readRange_nil (T := Slot T) (s := σ) (i := pos) (o := o) (ob := ob) (by rw [h.like.obj]; exact hoo)
      rw [bind_ok e0, pbind_ok (arrs_ok (readRange_nil hoo)), pbind_ok (arrs_ok (readRange_nil hoo))]
      have : writeRange o (pos + k) ([] : List (Slot T)) σ = .ok () σ := by
        unfold writeRange; rw [bind_ok (getObj_eq (by rw [h.like.obj]; exact hoo))]; rfl
      rw [this]
      exact ⟨(), w, us, rfl, ⟨env, h⟩, rfl, rfl⟩
    cases hb : w.arrs.blk a with
    | none =>
      have : readRange o pos n σ = .ub := by
        unfold readRange
        rw [bind_ok (getObj_eq (by rw [h.like.obj]; exact hoo)), if_neg h0, hr]
        simp only
        show M.bind _ _ σ = _
        unfold M.bind getBlk
        rw [h.like.blk, hb]; rfl
      rw [bind_ub this]; trivial
    | some b =>
      have hB := h.like.blk_some hb
      by_cases hle : ob.offset + pos + n ≤ b.cells.length
      · rw [bind_ok (readRange_do (by rw [h.like.obj]; exact hoo) hr hB (by simpa [mapBlk] using hle)),
          pbind_ok (arrs_ok (readRange_do hoo hr hb hle))]
        have e : window (mapBlk env b).cells (ob.offset + pos) n = (window b.cells (ob.offset + pos) n).map env := window_map
        rw [e]
        have hsl : (window b.cells (ob.offset + pos) n).length = n := window_len hle
        rcases writeRange_inv (o := o) (i := pos + k) (s := σ) (xs := (window b.cells (ob.offset + pos) n).map env) with
          he | ⟨hnil, _, _⟩ | ⟨ob', a', B, ho, hr', hB', hle2, he⟩
        · rw [he]; trivial
        · exfalso
          have := congrArg List.length hnil
          rw [List.length_map, hsl] at this
          exact h0 this
        · rw [h.like.obj, hoo] at ho
          cases ho
          rw [hr] at hr'
          cases hr'
          rw [hB] at hB'
          cases hB'
          rw [he]
          have hle2' : ob.offset + (pos + k) + n ≤ b.cells.length := by simpa [mapBlk, hsl] using hle2
          rw [pbind_ok (arrs_ok (readRange_do hoo hr hb hle2'))]
          have hdl : (window b.cells (ob.offset + (pos + k)) n).length = n := window_len hle2'
          have hnd := h.nodup_blk hb
          obtain ⟨s', env', h1, hR, hm, hout⟩ := assigns_ok hc (window b.cells (ob.offset + (pos + k)) n).reverse
            (window b.cells (ob.offset + pos) n).reverse h.reach
            (fun x hx => h.live hb (mem_window (List.mem_reverse.1 hx)))
            (fun x hx => h.live hb (mem_window (List.mem_reverse.1 hx)))
            (List.pairwise_reverse.2 ((nodup_window hnd _ _).imp Ne.symm)) (by rw [List.length_reverse, List.length_reverse, hdl, hsl]) (by
              apply later_of
              intro x y hxy hy
              rw [List.length_reverse, hsl] at hy
              rw [List.getElem?_reverse (by rw [hdl]; omega), List.getElem?_reverse (by rw [hsl]; omega), hdl, hsl,
                getElem?_window, getElem?_window, if_pos (by omega), if_pos (by omega)]
              intro he
              have := (List.getElem?_inj (by omega) hnd).1 he
              omega)
          refine ⟨(), { w with elts := s' }, us, h1, ⟨env', ?_⟩, rfl, rfl⟩
          refine h.wrote hR hb hle2' ?_ ?_ fun x hx => hout x fun hx' => hx (List.mem_reverse.1 hx')
          · rw [List.map_reverse, List.map_reverse] at hm
            exact List.reverse_inj.1 hm
          · intro x hx
            obtain ⟨y, hy, rfl⟩ := List.mem_map.1 hx
            exact h.live hb (mem_window hy)
      · have : readRange o pos n σ = .ub := by
          unfold readRange
          rw [bind_ok (getObj_eq (by rw [h.like.obj]; exact hoo)), if_neg h0, hr]
          simp only
          rw [bind_ok (by unfold getBlk; rw [hB] : getBlk a σ = .ok _ σ), if_neg (by simpa [mapBlk] using hle)]
          rfl
        rw [bind_ub this]; trivial

/-! ## Replacing the objects of a block by new ones -/

theorem RelE.replace (h : RelE R env us σ w) {s' : c.elt.Mem} {env' : Env T} (hR : R s' env') {a : Nat}
    {b : Block Nat} (hb : w.arrs.blk a = some b) {x : Option (Block Nat)} {cs : List Nat}
    (hx : ((x.map Block.cells).getD []) = cs) (hnd : cs.Nodup) (hnew : ∀ y ∈ cs, env y = .dead ∧ env' y ≠ .dead)
    (hold : ∀ y ∈ b.cells, env' y = .dead) (hsame : ∀ y, y ∉ cs → y ∉ b.cells → env' y = env y) :
    RelE R env' us (σ.setBlk a (x.map (mapBlk env'))) { elts := s', arrs := w.arrs.setBlk a x } := by
  have hat : ∀ a', cellsAt (w.arrs.setBlk a x) a' = if a' = a then cs else cellsAt w.arrs a' := by
    intro a'
    unfold cellsAt
    by_cases he : a' = a
    · subst he
      rw [St.blk_setBlk_self _ (St.blk_lt hb), if_pos rfl]
      rw [← hx]
      cases x <;> rfl
    · rw [St.blk_setBlk_ne _ he, if_neg he]
  have hfresh : ∀ y ∈ cs, ∀ a', y ∉ cellsAt w.arrs a' := fun y hy a' hm => (h.cell a' y hm).1 (hnew y hy).1
  have hother : ∀ a' y, a' ≠ a → y ∈ cellsAt w.arrs a' → env' y = env y := fun a' y hne hy =>
    hsame y (fun hcs => hfresh y hcs a' hy) fun hbc =>
      hne (h.disj a' a y hy (by rw [cellsAt_some hb]; exact hbc))
  refine ⟨hR, ⟨fun a' => ?_, ?_, h.like.objs, h.like.gen⟩, fun a' => ?_, fun a1 a2 y h1 h2 => ?_, fun a' y hy => ?_,
    fun y hy => ?_⟩
  · by_cases he : a' = a
    · subst he
      rw [St.blk_setBlk_self _ (by rw [h.like.len]; exact St.blk_lt hb)]
      show _ = ((w.arrs.setBlk a' x).blk a').map _
      rw [St.blk_setBlk_self _ (St.blk_lt hb)]
    · rw [St.blk_setBlk_ne _ he, h.like.blk]
      show _ = ((w.arrs.setBlk a x).blk a').map _
      rw [St.blk_setBlk_ne _ he]
      cases hb' : w.arrs.blk a' with
      | none => rfl
      | some b' =>
        simp only [Option.map_some, mapBlk]
        have : b'.cells.map env = b'.cells.map env' :=
          List.map_congr_left fun y hy => (hother a' y he (by rw [cellsAt_some hb']; exact hy)).symm
        rw [this]
  · simp only [St.setBlk, List.length_set]; exact h.like.len
  · show (cellsAt (w.arrs.setBlk a x) a').Nodup
    rw [hat]; split
    · exact hnd
    · exact h.nodup a'
  · change y ∈ cellsAt (w.arrs.setBlk a x) a1 at h1
    change y ∈ cellsAt (w.arrs.setBlk a x) a2 at h2
    rw [hat] at h1 h2
    split at h1
    · rename_i e1
      split at h2
      · rename_i e2; rw [e1, e2]
      · exact (hfresh y h1 a2 h2).elim
    · split at h2
      · exact (hfresh y h2 a1 h1).elim
      · exact h.disj a1 a2 y h1 h2
  · change y ∈ cellsAt (w.arrs.setBlk a x) a' at hy
    rw [hat] at hy
    split at hy
    · exact ⟨(hnew y hy).2, by rw [h.rest y (hfresh y hy)]; exact (hnew y hy).1⟩
    · rename_i he
      rw [hother a' y he hy]; exact h.cell a' y hy
  · have hcs : y ∉ cs := by
      have := hy a
      change y ∉ cellsAt (w.arrs.setBlk a x) a at this
      rwa [hat, if_pos rfl] at this
    by_cases hbc : y ∈ b.cells
    · rw [hold y hbc]; exact (h.cell a y (by rw [cellsAt_some hb]; exact hbc)).2
    · rw [hsame y hcs hbc]
      refine h.rest y fun a' hm => ?_
      by_cases he : a' = a
      · subst he; rw [cellsAt_some hb] at hm; exact hbc hm
      · have := hy a'
        change y ∉ cellsAt (w.arrs.setBlk a x) a' at this
        rw [hat, if_neg he] at this
        exact this hm

end Bdlib.Deep
