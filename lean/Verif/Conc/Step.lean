import Verif.Conc.Inv

/-!
# Every step keeps the invariant
-/

namespace Bdlib.Conc
open Bdlib

variable {T : Type}

/-- What must be true of the outcome of a step. -/
def Good (v : Vals T) (t : Nat) (act : Act T) : Out T → Prop
  | .stuck => True
  | .ub => False
  | .ok s' seen => Inv s' (effect v t act) ∧ seen = sees v t act

theorem used_false {s : Sys T} {t o : Nat} (h : ¬ s.used t o) :
    ¬ (s.find t o).isSome ∧ ∀ q f g, s.pc t = .copy q f g → q.obj ≠ some o := by
  unfold Sys.used at h
  simp only [Bool.or_eq_true, not_or] at h
  refine ⟨h.1, fun q f g e ho => ?_⟩
  rw [e] at h
  exact h.2 (decide_eq_true ho)

theorem good_access {s : Sys T} {v v0 : Vals T} {t : Nat} {act : Act T} {r : Ref} {f : Blk T → Out T} (hI : Inv s v0)
    (hr : r ∈ s.refs) (h : ∀ b, s.heap r.blk = some b → r.off + r.len ≤ b.data.length →
      b.refs = (count s.refs r.blk : Int) → Good v t act (f b)) :
    Good v t act (s.access r.blk f) := by
  obtain ⟨b, hb, hl⟩ := hI.live r hr
  unfold Sys.access
  rw [hb]
  exact h b hb hl (hI.cnt _ _ hb)

theorem setPc_same {s : Sys T} {t : Nat} {p : Pc T} (h : s.pc t = p) : s.setPc t p = s := by
  unfold Sys.setPc
  have : (fun t' => if t' = t then p else s.pc t') = s.pc := by
    funext t'
    by_cases e : t' = t
    · subst e; rw [if_pos rfl, h]
    · rw [if_neg e]
  rw [this]

theorem window_splice {d xs : List T} {off : Nat} (rest : List T) (h : off ≤ d.length) :
    window (d.take off ++ xs ++ rest) off xs.length = xs := by
  have hl : (d.take off).length = off := by rw [List.length_take]; omega
  unfold window
  rw [List.append_assoc, List.drop_append_of_le_length (by omega), List.drop_of_length_le (by omega), List.nil_append,
    List.take_append_of_le_length (Nat.le_refl _), List.take_of_length_le (Nat.le_refl _)]

theorem window_window {d : List T} {off len off' len' : Nat} (h : off' + len' ≤ len) :
    window d (off + off') len' = ((window d off len).drop off').take len' := by
  unfold window
  apply List.ext_getElem?
  intro k
  simp only [List.getElem?_take, List.getElem?_drop]
  by_cases h1 : k < len'
  · simp [h1, show off' + k < len by omega, Nat.add_assoc]
  · simp [h1]

section
variable {w : Option (Nat → T)} {s : Sys T} {v : Vals T} {t : Nat}

theorem good_make (hI : Inv s v) (hpc : s.pc t = .idle)
    (o : Nat) (xs : List T) : Good v t (.make o xs) (step w s t (.make o xs)) := by
  unfold step
  rw [hpc]
  dsimp only
  by_cases hf : (s.find t o).isSome
  · rw [if_pos hf]; trivial
  · rw [if_neg hf]
    refine ⟨?_, rfl⟩
    have := inv_fresh (v' := effect v t (.make o xs)) (o := o) (n := xs.length) hI (Or.inl hpc) (find_none hf) rfl
      (fun t1 o1 h => upd_ne _ _ h) (upd_same _ _ _ _)
    rw [setPc_same (by exact hpc)] at this
    exact this

theorem good_dup (hI : Inv s v) (hpc : s.pc t = .idle)
    (o t' o' : Nat) : Good v t (.dup o t' o') (step w s t (.dup o t' o')) := by
  unfold step
  rw [hpc]
  dsimp only
  cases hf : s.find t o with
  | none => trivial
  | some r =>
    dsimp only
    obtain ⟨hr, hrt, hro⟩ := find_some hf
    by_cases hf' : s.used t' o'
    · rw [if_pos hf']; trivial
    · rw [if_neg hf']
      obtain ⟨hu1, hu2⟩ := used_false hf'
      refine good_access hI hr fun b hb hl hc => ⟨?_, rfl⟩
      refine inv_add (t := t) (t' := t') (o' := o') hI (Or.inl hpc) hu2 hr hrt hb (find_none hu1) rfl rfl rfl hl
        (fun t1 o1 h => upd_ne _ _ h) ?_
      show v.upd t' o' (v t o) t' o' = _
      rw [upd_same]
      have := hI.val r hr o hro b hb
      rw [hrt, hpc] at this
      exact this

theorem good_move (hI : Inv s v) (hpc : s.pc t = .idle)
    (o t' o' : Nat) : Good v t (.move o t' o') (step w s t (.move o t' o')) := by
  unfold step
  rw [hpc]
  dsimp only
  cases hf : s.find t o with
  | none => trivial
  | some r =>
    dsimp only
    obtain ⟨hr, hrt, hro⟩ := find_some hf
    by_cases hf' : s.used t' o'
    · rw [if_pos hf']; trivial
    · rw [if_neg hf']
      obtain ⟨hu1, hu2⟩ := used_false hf'
      refine ⟨inv_move (t := t) (t' := t') (o' := o') hI hpc hu2 (find_none hu1) hr hrt hro rfl rfl rfl rfl rfl
        (fun t1 o1 h h' => (upd_ne _ _ h').trans (upd_ne _ _ h)) (upd_same _ _ _ _), rfl⟩

theorem good_window (hI : Inv s v) (hpc : s.pc t = .idle)
    (o off len : Nat) : Good v t (.window o off len) (step w s t (.window o off len)) := by
  unfold step
  rw [hpc]
  dsimp only
  cases hf : s.find t o with
  | none => trivial
  | some r =>
    dsimp only
    obtain ⟨hr, hrt, hro⟩ := find_some hf
    by_cases hl : off + len ≤ r.len
    · rw [if_pos hl]
      refine ⟨?_, rfl⟩
      have := inv_setRef (p := .idle) (v' := effect v t (.window o off len)) (r' := { r with off := r.off + off, len := len })
        hI hpc hr hrt hro rfl hrt (Or.inr hro) (Or.inl ⟨by dsimp only; omega, by dsimp only; omega⟩)
        (fun t1 o1 h => upd_ne _ _ h) ?_ (fun _ _ => rfl) nofun ?_
      · rw [setPc_same (by exact hpc)] at this
        exact this
      · intro _ b hb
        show v.upd t o _ t o = _
        rw [upd_same]
        have := hI.val r hr o hro b hb
        rw [hrt, hpc] at this
        rw [this]
        show some _ = some _
        rw [pend_idle, window_window hl]
      · have hp := hI.pcs t
        rw [hpc] at hp
        intro q hq hqt
        rcases List.mem_cons.mp hq with rfl | hq
        · exact fun e => by rw [hro] at e; cases e
        · exact hp q (List.mem_of_mem_erase hq) hqt
    · rw [if_neg hl]; trivial

theorem good_get (hI : Inv s v) (hpc : s.pc t = .idle)
    (o : Nat) : Good v t (.get o) (step w s t (.get o)) := by
  unfold step
  rw [hpc]
  dsimp only
  cases hf : s.find t o with
  | none => trivial
  | some r =>
    dsimp only
    obtain ⟨hr, hrt, hro⟩ := find_some hf
    refine good_access hI hr fun b hb hl hc => ⟨hI, ?_⟩
    have := hI.val r hr o hro b hb
    rw [hrt, hpc] at this
    exact this.symm

theorem good_put (hI : Inv s v) (hpc : s.pc t = .idle)
    (o : Nat) (f : List T → List T) : Good v t (.put o f) (step w s t (.put o f)) := by
  unfold step
  rw [hpc]
  dsimp only
  cases hf : s.find t o with
  | none => trivial
  | some r =>
    dsimp only
    obtain ⟨hr, hrt, hro⟩ := find_some hf
    have hp := hI.pcs t
    rw [hpc] at hp
    refine good_access hI hr fun b hb hl hc => ⟨?_, rfl⟩
    have hval : ∀ b, s.heap r.blk = some b → effect v t (.put o f) t o = some (f (window b.data r.off r.len)) := by
      intro b hb
      show v.upd t o _ t o = _
      rw [upd_same]
      have := hI.val r hr o hro b hb
      rw [hrt, hpc] at this
      rw [this]
      rfl
    by_cases hs : b.refs > 1
    · rw [if_pos hs]
      refine inv_enter hI hpc hr hrt hro (fun t1 o1 h => upd_ne _ _ h) ?_ ?_ nofun ?_
      · intro b hb
        rw [hval b hb]
        simp [pend]
      · intro q xs hq
        simp [pend, hq]
      · obtain ⟨q, hq, e⟩ := other_of_count hr (by omega)
        exact ⟨hr, hrt, ⟨q, (hI.nodup.mem_erase_iff.mp hq).2, (hI.nodup.mem_erase_iff.mp hq).1, e⟩, hp⟩
    · rw [if_neg hs]
      refine inv_enter hI hpc hr hrt hro (fun t1 o1 h => upd_ne _ _ h) ?_ ?_ nofun ?_
      · intro b hb
        rw [hval b hb]
        simp [pend]
      · intro q xs hq
        simp [pend, hq]
      · exact ⟨hr, hrt, sole_of_count hI.nodup hr (by omega), hp⟩

theorem good_clear (hI : Inv s v) (hpc : s.pc t = .idle)
    (o : Nat) : Good v t (.clear o) (step w s t (.clear o)) := by
  unfold step
  rw [hpc]
  dsimp only
  cases hf : s.find t o with
  | none => trivial
  | some r =>
    dsimp only
    obtain ⟨hr, hrt, hro⟩ := find_some hf
    have hp := hI.pcs t
    rw [hpc] at hp
    refine good_access hI hr fun b hb hl hc => ⟨?_, rfl⟩
    by_cases hs : b.refs > 1
    · rw [if_pos hs]
      refine inv_enter hI hpc hr hrt hro (fun t1 o1 h => upd_ne _ _ h) ?_ ?_ nofun ?_
      · intro b hb
        show v.upd t o _ t o = _
        rw [upd_same]
        simp [pend]
      · intro q xs hq
        simp [pend, hq]
      · obtain ⟨q, hq, e⟩ := other_of_count hr (by omega)
        exact ⟨hr, hrt, ⟨q, (hI.nodup.mem_erase_iff.mp hq).2, (hI.nodup.mem_erase_iff.mp hq).1, e⟩, hp⟩
    · rw [if_neg hs]
      have := inv_setRef (p := .idle) (v' := effect v t (.clear o)) (r' := { r with off := 0, len := 0 })
        hI hpc hr hrt hro rfl hrt (Or.inr hro) (Or.inr ⟨rfl, rfl⟩)
        (fun t1 o1 h => upd_ne _ _ h) ?_ (fun _ _ => rfl) nofun ?_
      · rw [setPc_same (by exact hpc)] at this
        exact this
      · intro _ b hb
        show v.upd t o _ t o = _
        rw [upd_same]
        simp [window]
      · intro q hq hqt
        rcases List.mem_cons.mp hq with rfl | hq
        · exact fun e => by rw [hro] at e; cases e
        · exact hp q (List.mem_of_mem_erase hq) hqt

theorem good_drop (hI : Inv s v) (hpc : s.pc t = .idle)
    (o : Nat) : Good v t (.drop o) (step w s t (.drop o)) := by
  unfold step
  rw [hpc]
  dsimp only
  cases hf : s.find t o with
  | none => trivial
  | some r =>
    dsimp only
    obtain ⟨hr, hrt, hro⟩ := find_some hf
    cases w with
    | none =>
      refine ⟨?_, rfl⟩
      refine inv_setRef hI hpc hr hrt hro rfl hrt (Or.inl rfl) (Or.inl ⟨Nat.le_refl _, Nat.le_refl _⟩)
        (fun t1 o1 h => upd_ne _ _ h) nofun (fun _ _ => rfl) nofun ?_
      exact ⟨List.mem_cons_self, hrt, rfl⟩
    | some f =>
      refine good_access hI hr fun b hb hl hc => ⟨?_, rfl⟩
      refine inv_setRef hI hpc hr hrt hro rfl hrt (Or.inl rfl) (Or.inl ⟨Nat.le_refl _, Nat.le_refl _⟩)
        (fun t1 o1 h => upd_ne _ _ h) nofun (fun _ _ => rfl) nofun ?_
      refine ⟨List.mem_cons_self, hrt, rfl, fun h1 q hq hqb => ?_⟩
      rcases List.mem_cons.mp hq with rfl | hq
      · rfl
      · have h1 : b.refs = 1 := of_decide_eq_true h1
        have h2 := sole_of_count hI.nodup hr (by omega) q (List.mem_of_mem_erase hq) hqb
        exact absurd h2 (hI.nodup.mem_erase_iff.mp hq).1

theorem good_assign (hI : Inv s v) (hpc : s.pc t = .idle)
    (o o' : Nat) : Good v t (.assign o o') (step w s t (.assign o o')) := by
  unfold step
  rw [hpc]
  dsimp only
  cases hf : s.find t o with
  | none => trivial
  | some r =>
    cases hf' : s.find t o' with
    | none => trivial
    | some q =>
      dsimp only
      obtain ⟨hr, hrt, hro⟩ := find_some hf
      obtain ⟨hq, hqt, hqo⟩ := find_some hf'
      refine good_access hI hq fun b hb hl hc => ⟨?_, rfl⟩
      have h1 := inv_setRef (p := .release { r with obj := none }) (v' := v) (r' := { r with obj := none })
        hI hpc hr hrt hro rfl hrt (Or.inl rfl) (Or.inl ⟨Nat.le_refl _, Nat.le_refl _⟩)
        (fun _ _ _ => rfl) nofun (fun _ _ => rfl) nofun ⟨List.mem_cons_self, hrt, rfl⟩
      have hin : ∃ r0 ∈ ((s.setRef r { r with obj := none }).setPc t (.release { r with obj := none })).refs,
          r0.thr = t ∧ r0.blk = q.blk := by
        by_cases e : q = r
        · subst e; exact ⟨_, List.mem_cons_self, hrt, rfl⟩
        · exact ⟨q, List.mem_cons_of_mem _ (hI.nodup.mem_erase_iff.mpr ⟨e, hq⟩), hqt, rfl⟩
      obtain ⟨r0, hr0, hr0t, hr0b⟩ := hin
      have h2 := inv_add (t := t) (t' := t) (o' := o) (v' := effect v t (.assign o o')) (r := r0) (b := b)
        (rn := { q with obj := some o }) h1 (Or.inr ⟨{ r with obj := none }, by simp [Sys.setPc]⟩) ?_ hr0 hr0t ?_ ?_ hr0b.symm hqt rfl hl
        (fun t1 o1 h => upd_ne _ _ h) ?_
      · rw [hr0b] at h2
        exact h2
      · intro q1 f _ e
        simp [Sys.setPc] at e
      · rw [hr0b]; exact hb
      · intro q' hq' hq't hq'o
        rcases List.mem_cons.mp hq' with rfl | hq'
        · cases hq'o
        · have h3 := hI.nodup.mem_erase_iff.mp hq'
          exact h3.1 (hI.keys q' h3.2 r hr (hq't.trans hrt.symm) (hq'o.trans hro.symm))
      · show v.upd t o (v t o') t o = _
        rw [upd_same]
        have := hI.val q hq o' hqo b hb
        rw [hqt, hpc] at this
        exact this

theorem good_go (hI : Inv s v) (hcalm : ∀ t', t' ≠ t → ¬ (s.pc t).clash (s.pc t')) :
    Good v t .go (step w s t .go) := by
  have hp := hI.pcs t
  unfold step
  cases hpc : s.pc t with
  | idle => trivial
  | write r f =>
    dsimp only
    rw [hpc] at hp
    obtain ⟨hr, hrt, hs, hn⟩ := hp
    refine good_access hI hr fun b hb hl hc => ⟨?_, rfl⟩
    refine inv_modify (r' := { r with len := _ }) hI (fun t' ht q _ _ e h => hcalm t' ht (by rw [hpc, e]; exact h.symm)) hr hrt hs hb rfl hrt rfl ?_ hn ?_ ?_ ?_
    · simp only [List.length_append, List.length_take, List.length_drop]
      omega
    · intro q xs hq; rw [hpc]; simp [pend, hq]
    · intro o ho
      have := hI.val r hr o ho b hb
      rw [hrt, hpc] at this
      dsimp only
      rw [window_splice _ (by omega)]
      simpa [pend, effect] using this
    · intro a e; rw [hpc] at e; cases e
  | cow r f =>
    dsimp only
    rw [hpc] at hp
    obtain ⟨hr, hrt, ⟨q, hq, hne, hqb⟩, hn⟩ := hp
    refine good_access hI hr fun b hb hl hc => ⟨?_, rfl⟩
    refine inv_remove hI (fun t' ht q e h => hcalm t' ht (by
      rcases e with ⟨_, e⟩ | e <;> rw [hpc, e] <;> exact h.symm)) hr hrt hb ?_ (fun _ _ => rfl) ?_ (Or.inl ⟨⟨q, hq, hne, hqb⟩, nofun⟩) ?_
    · intro q xs hq; rw [hpc]; simp [pend, hq]
    · intro a e; rw [hpc] at e; cases e
    · refine ⟨hrt, fun q hq => hn q (List.mem_of_mem_erase hq), (Nat.eq_zero_or_pos r.len).imp (fun h => ⟨h, rfl⟩) id, ?_⟩
      cases ho : r.obj with
      | none => exact absurd ho (hn r hr hrt)
      | some o =>
        refine ⟨o, { b with refs := b.refs - 1 }, rfl, rfl, by simp [Sys.setBlk, Sys.setPc], hl, ?_, ?_⟩
        · have := hI.val r hr o ho b hb
          rw [hrt, hpc] at this
          simpa [pend, effect] using this
        · intro q hq hqt hqo
          have h3 := hI.nodup.mem_erase_iff.mp hq
          exact h3.1 (hI.keys q h3.2 r hr (hqt.trans hrt.symm) (hqo.trans ho.symm))
  | copy r f got =>
    dsimp only
    rw [hpc] at hp
    obtain ⟨hrt, hn, hle, o, b, hgot, ho, hb, hl, hv, hno⟩ := hp
    have hfin : ∀ all, all = window b.data r.off r.len →
        Inv { (s.setBlk s.next (some ⟨1, f all⟩)).setPc t .idle with
          next := s.next + 1, refs := { r with blk := s.next, off := 0, len := (f all).length } :: s.refs } (effect v t .go) := by
      rintro _ rfl
      have := inv_fresh (t := t) (o := o) (n := (f (window b.data r.off r.len)).length) (xs := f (window b.data r.off r.len)) hI
        (Or.inr ⟨_, _, _, hpc⟩) hno rfl (fun _ _ _ => rfl) hv
      have e : ({ r with blk := s.next, off := 0, len := (f (window b.data r.off r.len)).length } : Ref) =
          ⟨t, some o, s.next, 0, (f (window b.data r.off r.len)).length⟩ := by
        cases r; simp at hrt ho; subst hrt ho; rfl
      rw [e]
      exact this
    by_cases h0 : r.len = 0
    · rw [if_pos h0]
      refine ⟨hfin got ?_, rfl⟩
      rw [hgot]
      unfold window
      rw [h0, List.take_zero, List.take_nil]
    rw [if_neg h0]
    unfold Sys.access
    rw [hb]
    dsimp only
    have hlt : got.length < r.len := hle.resolve_left fun h => h0 h.1
    have hin : r.off + got.length < b.data.length := by omega
    rw [List.getElem?_eq_getElem hin]
    dsimp only
    have hstep : got ++ [b.data[r.off + got.length]] = (window b.data r.off r.len).take (got.length + 1) := by
      rw [List.take_add_one, ← hgot]
      congr 1
      unfold window
      rw [List.getElem?_take, if_pos hlt, List.getElem?_drop, List.getElem?_eq_getElem hin]
      rfl
    split
    · rename_i hmore
      refine ⟨?_, rfl⟩
      refine inv_pc hI (fun _ _ => by rw [hpc]; rfl) (fun _ _ => rfl) ?_ nofun ?_
      · intro a e; rw [hpc] at e; cases e
      · refine ⟨hrt, hn, Or.inr (by simpa using hmore), o, b, ?_, ho, hb, hl, hv, hno⟩
        rw [List.length_append]
        exact hstep
    rename_i hmore
    refine ⟨hfin _ ?_, rfl⟩
    rw [hstep, List.take_of_length_le (by unfold window; simp; omega)]
  | detach r =>
    dsimp only
    rw [hpc] at hp
    obtain ⟨hr, hrt, ⟨q, hq, hne, hqb⟩, hn⟩ := hp
    refine good_access hI hr fun b hb hl hc => ⟨?_, rfl⟩
    refine inv_remove hI (fun t' ht q e h => hcalm t' ht (by
      rcases e with ⟨_, e⟩ | e <;> rw [hpc, e] <;> exact h.symm)) hr hrt hb ?_ (fun _ _ => rfl) ?_ (Or.inl ⟨⟨q, hq, hne, hqb⟩, nofun⟩) ?_
    · intro q xs hq; rw [hpc]; simp [pend, hq]
    · intro a e; rw [hpc] at e; cases e
    · exact fun q hq => hn q (List.mem_of_mem_erase hq)
  | wipe r last =>
    dsimp only
    rw [hpc] at hp
    obtain ⟨hr, hrt, ho, hs⟩ := hp
    cases last with
    | false =>
      refine ⟨?_, rfl⟩
      refine inv_pc hI (fun _ _ => by rw [hpc]; rfl) (fun _ _ => rfl) ?_ nofun ⟨hr, hrt, ho⟩
      intro a e; rw [hpc] at e; cases e
    | true =>
      refine good_access hI hr fun b hb hl hc => ⟨?_, rfl⟩
      refine inv_data hI (fun t' ht q _ _ e h => hcalm t' ht (by rw [hpc, e]; exact h.symm)) hr hrt (hs rfl) hb ?_ ?_ (fun _ _ => rfl) ?_ ?_ nofun ⟨hr, hrt, ho⟩
      · cases w <;> simp
      · intro q xs hq; rw [hpc]; rfl
      · intro o e; rw [ho] at e; cases e
      · intro a e; rw [hpc] at e; cases e
  | release r =>
    dsimp only
    rw [hpc] at hp
    obtain ⟨hr, hrt, ho⟩ := hp
    have hn : ∀ q ∈ s.refs.erase r, q.thr = t → q.obj ≠ none := by
      intro q hq hqt e
      have h3 := hI.nodup.mem_erase_iff.mp hq
      exact h3.1 (hI.keys q h3.2 r hr (hqt.trans hrt.symm) (e.trans ho.symm))
    refine good_access hI hr fun b hb hl hc => ⟨?_, rfl⟩
    have h0 : ∀ a, s.pc t ≠ .free a := by intro a e; rw [hpc] at e; cases e
    by_cases hlt : b.refs - 1 < 1
    · rw [if_pos hlt]
      have hsole := sole_of_count hI.nodup hr (by omega)
      refine inv_remove hI (fun t' ht q e h => hcalm t' ht (by
      rcases e with ⟨_, e⟩ | e <;> rw [hpc, e] <;> exact h.symm)) hr hrt hb (fun _ _ _ => by rw [hpc]; rfl) (fun _ _ => rfl) h0 (Or.inr ⟨rfl, hsole⟩) ?_
      refine ⟨by simp [Sys.setBlk, Sys.setPc], fun q hq e => ?_, hn⟩
      have h3 := hI.nodup.mem_erase_iff.mp hq
      exact h3.1 (hsole q h3.2 e)
    · rw [if_neg hlt]
      obtain ⟨q, hq, e⟩ := other_of_count hr (by omega)
      have h3 := hI.nodup.mem_erase_iff.mp hq
      exact inv_remove hI (fun t' ht q e h => hcalm t' ht (by
      rcases e with ⟨_, e⟩ | e <;> rw [hpc, e] <;> exact h.symm)) hr hrt hb (fun _ _ _ => by rw [hpc]; rfl) (fun _ _ => rfl) h0
        (Or.inl ⟨⟨q, h3.2, h3.1, e⟩, nofun⟩) hn
  | free a =>
    dsimp only
    rw [hpc] at hp
    obtain ⟨h1, h2, h3⟩ := hp
    unfold Sys.access
    cases hb : s.heap a with
    | none => exact absurd hb h1
    | some b => exact ⟨inv_free hI (fun t' ht q _ _ e h => hcalm t' ht (by rw [hpc, e]; exact h.symm)) hpc, rfl⟩

theorem good_step (hI : Inv s v) (act : Act T)
    (hcalm : act = .go → ∀ t', t' ≠ t → ¬ (s.pc t).clash (s.pc t')) :
    Good v t act (step w s t act) := by
  by_cases hg : act = .go
  · subst hg; exact good_go hI (hcalm rfl)
  · cases hpc : s.pc t with
    | idle =>
      cases act with
      | make o xs => exact good_make hI hpc o xs
      | dup o t' o' => exact good_dup hI hpc o t' o'
      | move o t' o' => exact good_move hI hpc o t' o'
      | window o off len => exact good_window hI hpc o off len
      | get o => exact good_get hI hpc o
      | put o f => exact good_put hI hpc o f
      | clear o => exact good_clear hI hpc o
      | drop o => exact good_drop hI hpc o
      | assign o o' => exact good_assign hI hpc o o'
      | go => exact absurd rfl hg
    | _ =>
      unfold step
      rw [hpc]
      cases act <;> first | exact absurd rfl hg | trivial

end

theorem Calm.inv {w : Option (Nat → T)} {s : Sys T} {v : Vals T} (h : Calm w s v) : Inv s v := by
  induction h with
  | init => exact inv_init
  | step h hc hs ih =>
    have := good_step (w := w) ih hc (act := ‹_›)
    rw [hs] at this
    exact this.1

end Bdlib.Conc
