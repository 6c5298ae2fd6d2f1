import Verif.Elems.Ops

/-! The calls that throw, on arrays whose elements may throw. -/

namespace Bdlib.Elems

open Spec.Elems (Is)

variable {V α β : Type} {k : Nat}

theorem left_users {w : W V} {o r off sub : Nat} {xs : List V} (ho : w.objs[o]? = some (some ⟨some r, off, sub⟩)) {q : Nat} (hq : r ≠ q) (c : Nat) :
    users (left w o r (some ⟨none, 0, 0⟩) xs c) q = users w q := by
  have := countP_upd (p := fun x => refOf x == some q) (b := some ⟨none, 0, 0⟩) ho
  rw [if_neg (by simpa [refOf] using hq), if_neg (by simp [refOf])] at this
  unfold left
  split <;> simpa [users] using this

theorem copyAssign_ok {w : W V} {o p : Nat} {l m : List V} (hi : Inv w k) (h : Is (shown w) o l) (hp : Is (shown w) p m) {X : Exc → W V → Prop} :
    OK (copyAssign o p) w (fun _ w' => Inv w' k ∧ shown w' = (shown w).set o (some m)) X := by
  rcases hi.cases hp with ⟨hpo, rfl⟩ | ⟨q, poff, zs, hpo, hqb, hql, hqv, hqu⟩
  · -- the other is empty, without a buffer
    refine OK.bind (P := fun ob w' => ob = ⟨none, 0, 0⟩ ∧ w = w') (Y := fun _ _ => False) ?_ ?_ (fun _ _ hf => hf.elim)
    · refine OK.bind (Y := fun _ _ => False) (obj_ok hpo) ?_ (fun _ _ hf => hf.elim)
      rintro _ _ ⟨rfl, rfl⟩
      exact ⟨rfl, rfl⟩
    rintro _ _ ⟨rfl, rfl⟩
    rcases hi.cases h with ⟨ho, rfl⟩ | ⟨r, off, xs, ho, hb, hl, hv, hu⟩
    · refine OK.bind (P := fun _ w' => w = w') (Y := fun _ _ => False) ?_ ?_ (fun _ _ hf => hf.elim)
      · refine OK.bind (Y := fun _ _ => False) (obj_ok ho) ?_ (fun _ _ hf => hf.elim)
        rintro _ _ ⟨rfl, rfl⟩
        exact rfl
      · rintro _ _ rfl
        show Inv { w with objs := _ } k ∧ shown { w with objs := _ } = _
        rw [set_same ho, set_same h]
        exact ⟨hi, rfl⟩
    · refine OK.bind (Y := fun _ _ => False) (checkDealloc_left ho hb) ?_ (fun _ _ hf => hf.elim)
      rintro _ w' ⟨h1, h2⟩
      have := hi.left (y := some ⟨none, 0, 0⟩) ho hb (.inr rfl) w.clock
      rw [← h2] at this
      show Inv { w' with objs := w'.objs.set o _ } k ∧ shown { w' with objs := w'.objs.set o _ } = _
      rw [h1]
      exact this
  · refine OK.bind (P := fun ob w' => ob = ⟨some q, poff, m.length⟩ ∧ w' = { w with blks := w.blks.set q (some ⟨zs.map some, users w q + 1⟩) })
      (Y := fun _ _ => False) ?_ ?_ (fun _ _ hf => hf.elim)
    · refine OK.bind (Y := fun _ _ => False) (obj_ok hpo) ?_ (fun _ _ hf => hf.elim)
      rintro _ _ ⟨rfl, rfl⟩
      refine OK.bind (Y := fun _ _ => False) (blk_ok hqb) ?_ (fun _ _ hf => hf.elim)
      rintro _ _ ⟨rfl, rfl⟩
      exact ⟨rfl, rfl⟩
    rintro _ _ ⟨rfl, rfl⟩
    have hqll : q < w.blks.length := (List.getElem?_eq_some_iff.mp hqb).1
    rcases hi.cases h with ⟨ho, rfl⟩ | ⟨r, off, xs, ho, hb, hl, hv, hu⟩
    · refine OK.bind (P := fun _ w' => w' = { w with blks := w.blks.set q (some ⟨zs.map some, users w q + 1⟩) }) (Y := fun _ _ => False) ?_ ?_ (fun _ _ hf => hf.elim)
      · refine OK.bind (Y := fun _ _ => False) (obj_ok (by exact ho)) ?_ (fun _ _ hf => hf.elim)
        rintro _ _ ⟨rfl, rfl⟩
        exact rfl
      · rintro _ _ rfl
        have := hi.joined (sub := m.length) ho hqb hql
        rw [hqv] at this
        exact this
    · by_cases hrq : r = q
      · -- the same buffer already
        subst hrq
        rw [hb] at hqb
        have hxz : xs = zs := by
          simp only [Option.some.injEq, Blk.mk.injEq, and_true] at hqb
          exact (List.map_inj_right (fun _ _ h => Option.some.inj h)).mp hqb
        subst hxz
        refine OK.bind (P := fun _ w' => w' = w) (Y := fun _ _ => False) ?_ ?_ (fun _ _ hf => hf.elim)
        · refine OK.bind (Y := fun _ _ => False) (obj_ok (by exact ho)) ?_ (fun _ _ hf => hf.elim)
          rintro _ _ ⟨rfl, rfl⟩
          refine OK.bind (Y := fun _ _ => False) (blk_ok (b := ⟨xs.map some, users w r + 1⟩) (by simp [hqll])) ?_ (fun _ _ hf => hf.elim)
          rintro _ _ ⟨rfl, rfl⟩
          simp only
          rw [if_neg (by omega)]
          show _ = _
          simp only [List.set_set, Nat.add_sub_cancel]
          rw [set_same hb]
        · rintro _ _ rfl
          have := hi.window (off' := poff) (sub' := m.length) ho hb hql
          rw [hqv] at this
          exact this
      · have hb1 : ({ w with blks := w.blks.set q (some ⟨zs.map some, users w q + 1⟩) } : W V).blks[r]? = some (some ⟨xs.map some, users w r⟩) := by
          simpa [List.getElem?_set_ne (Ne.symm hrq)] using hb
        refine OK.bind (Y := fun _ _ => False) (checkDealloc_left (w := { w with blks := w.blks.set q (some ⟨zs.map some, users w q + 1⟩) }) (by exact ho) (by exact hb1)) ?_ (fun _ _ hf => hf.elim)
        rintro _ w' ⟨h1, h2⟩
        show Inv { w' with objs := w'.objs.set o _ } k ∧ shown { w' with objs := w'.objs.set o _ } = _
        rw [h1, h2]
        obtain ⟨g1, g2⟩ := hi.left (y := some ⟨none, 0, 0⟩) ho hb (.inr rfl) w.clock
        have hol : o < w.objs.length := (List.getElem?_eq_some_iff.mp ho).1
        have hb2 : (left w o r (some ⟨none, 0, 0⟩) xs w.clock).blks[q]? = some (some ⟨zs.map some, users (left w o r (some ⟨none, 0, 0⟩) xs w.clock) q⟩) := by
          rw [left_users ho hrq]
          unfold left
          split <;> simpa [List.getElem?_set_ne hrq] using hqb
        have ho2 : (left w o r (some ⟨none, 0, 0⟩) xs w.clock).objs[o]? = some (some ⟨none, 0, 0⟩) := by
          unfold left
          split <;> simp [hol]
        obtain ⟨g3, g4⟩ := g1.joined (sub := m.length) ho2 hb2 hql
        have heq : joined (left w o r (some ⟨none, 0, 0⟩) xs w.clock) o q poff m.length zs =
            left { w with blks := w.blks.set q (some ⟨zs.map some, users w q + 1⟩) } o r (some ⟨some q, poff, m.length⟩) xs w.clock := by
          unfold joined
          rw [left_users ho hrq]
          unfold left
          have hus : users { w with blks := w.blks.set q (some ⟨zs.map some, users w q + 1⟩) } r = users w r := rfl
          rw [hus]
          split <;> simp [List.set_comm _ _ hrq]
        rw [heq] at g3 g4
        rw [g2] at g4
        refine ⟨g3, ?_⟩
        rw [g4, hqv]
        simp

theorem Inv.more {w : W V} (h : Inv w k) : Inv w (k + 1) := ⟨h.obs, h.blk, Nat.le_succ_of_le h.out⟩

variable (F : Faults) (E : Ty V)

theorem over_self (xs l : List V) (off : Nat) (h : off + l.length ≤ xs.length) : ((over xs off l).drop off).take l.length = l := by
  rw [over_eq _ _ _ h]
  rw [List.append_assoc, List.drop_left' (by simp; omega), List.take_left' rfl]

theorem is_set {env : Spec.Elems.Arrays V} {o : Nat} {l m : List V} (h : Is env o l) : Is (env.set o (some m)) o m := by
  rw [Is, List.getElem?_set_self (List.getElem?_eq_some_iff.mp h).1]

theorem is_other {env : Spec.Elems.Arrays V} {o p : Nat} {l m : List V} (h : Is env p l) (hp : p ≠ o) : Is (env.set o (some m)) p l := by
  rw [Is, List.getElem?_set_ne (Ne.symm hp)]; exact h

theorem is_unique {env : Spec.Elems.Arrays V} {o : Nat} {l m : List V} (h : Is env o l) (h' : Is env o m) : l = m := by
  rw [Is] at h h'
  rw [h] at h'
  simpa using h'

/-- A copy of the shared elements. -/
theorem cow_ok {w : W V} {o n r off : Nat} {l xs : List V} (scale : Nat → Nat) (hi : Inv w k) (h : Is (shown w) o l) (hn : l.length ≤ n)
    (ho : w.objs[o]? = some (some ⟨some r, off, l.length⟩)) (hb : w.blks[r]? = some (some ⟨xs.map some, users w r⟩)) (hu : 2 ≤ users w r) :
    OK (cow F E scale o n) w
      (fun _ w' => Inv w' k ∧ shown w' = shown w ∧ ∃ r off xs, At w' o r off l.length xs ∧ off + n ≤ xs.length)
      (fun e w' => e = .fault ∧ Inv w' (k + 1) ∧ ∃ l' : List V, shown w' = (shown w).set o (some l') ∧ (l'.length = l.length ∨ l' = [])) := by
  refine OK.bind (Y := fun _ _ => False) (elems_ok hi h) ?_ (fun _ _ hf => hf.elim)
  rintro _ _ ⟨rfl, rfl⟩
  refine OK.bind (Y := fun _ _ => False) (doDetach_ok hi ho hb hu) ?_ (fun _ _ hf => hf.elim)
  rintro _ w1 ⟨hi1, hs1, ho1⟩
  have h1 : Is (shown w1) o [] := by rw [hs1]; exact is_set h
  have ha1 : Alone w1 o := by
    intro p ob ob' _ h4 _ h5
    rw [ho1] at h4; cases h4
    exact absurd rfl h5
  refine OK.bind (reserve_ok F E scale hi1 h1 ha1 (Nat.zero_le n)) ?_ ?_
  rotate_left
  · rintro _ _ ⟨he, hi2, l', hl', -, hs2⟩
    refine ⟨he, hi2, l', ?_, .inr (List.length_eq_zero_iff.mp hl')⟩
    rw [hs2, hs1, List.set_set]
  rintro _ w2 ⟨hi2, hs2, r2, off2, xs2, hat2, hn2⟩
  rw [Nat.min_eq_left hn, List.take_length]
  refine OK.bind (Y := fun _ _ => False) (setLength_ok hi2 hat2 (n := _) (by omega)) ?_ (fun _ _ hf => hf.elim)
  rintro _ w3 ⟨hi3, hs3, hat3⟩
  refine (assignFrom_ok F E (pos := 0) hi3 hat3 (by omega)).mono ?_ ?_
  · rintro _ w4 ⟨hi4, hs4, hat4⟩
    refine ⟨hi4, ?_, r2, off2, _, hat4, by rw [over_length]; omega⟩
    rw [hs4, hs3, hs2, hs1, List.set_set, List.set_set, Nat.add_zero, over_self _ _ _ (by omega)]
    exact set_same h
  · rintro _ w4 ⟨he, hi4, ys, hy, -, hs4⟩
    refine ⟨he, hi4.more, (ys.drop off2).take l.length, ?_, .inl ?_⟩
    · rw [hs4, hs3, hs2, hs1, List.set_set, List.set_set]
    · simp; omega

/-- Room for `n` elements in a buffer of its own. -/
theorem aboutToModify_ok {w : W V} {o n : Nat} {l : List V} (scale : Nat → Nat) (hi : Inv w k) (h : Is (shown w) o l) (hn : l.length ≤ n) :
    OK (aboutToModify F E scale o n) w
      (fun _ w' => Inv w' k ∧ shown w' = shown w ∧ ∃ (r off : Nat) (xs : List V), At w' o r off l.length xs ∧ off + n ≤ xs.length ∧ (xs.drop off).take l.length = l)
      (fun e w' => e = .fault ∧ Inv w' (k + 1) ∧ ∃ l' : List V, shown w' = (shown w).set o (some l') ∧ (l'.length = l.length ∨ l' = []) ∧
        (NoMove F → Alone w o → l' = l)) := by
  have fin : ∀ (w' : W V) (r off : Nat) (xs : List V), shown w' = shown w → At w' o r off l.length xs → (xs.drop off).take l.length = l := by
    intro w' r off xs hs hat
    have := hat.shown
    rw [hs] at this
    exact is_unique this h
  refine OK.bind (Y := fun _ _ => False) (isShared_ok hi h) ?_ (fun _ _ hf => hf.elim)
  rintro b _ ⟨rfl, hal, hsh, hna⟩
  cases b with
  | true =>
    obtain ⟨r, off, xs, ho, hb, hl, hv, hu⟩ := hsh rfl
    refine (cow_ok F E scale hi h hn ho hb hu).mono ?_ ?_
    · rintro _ w' ⟨h1, h2, r, off, xs, h3, h4⟩
      exact ⟨h1, h2, r, off, xs, h3, h4, fin w' r off xs h2 h3⟩
    · rintro _ w' ⟨he, h1, l', h2, h3⟩
      exact ⟨he, h1, l', h2, h3, fun _ ha => by cases hna ha⟩
  | false =>
    refine (reserve_ok F E scale hi h (hal rfl) hn).mono ?_ ?_
    · rintro _ w' ⟨h1, h2, r, off, xs, h3, h4⟩
      exact ⟨h1, h2, r, off, xs, h3, h4, fin w' r off xs h2 h3⟩
    · rintro _ w' ⟨he, h1, l', h2, h3, h4⟩
      exact ⟨he, h1, l', h4, .inl h2, fun hm _ => h3 hm⟩

/-- What was not written to before `pos` is as it was. -/
theorem kept {xs ys l : List V} {off pos : Nat} (ht : ys.take (off + pos) = xs.take (off + pos)) (hv : (xs.drop off).take l.length = l) (hp : pos ≤ l.length) :
    ((ys.drop off).take l.length).take pos = l.take pos := by
  have hd : ∀ (q : List V), ((q.drop off).take l.length).take pos = (q.take (off + pos)).drop off := by
    intro q; rw [List.take_take, Nat.min_eq_left hp, List.drop_take]; congr 1; omega
  rw [hd, ht, ← hd, hv]

theorem write_ok {w : W V} {o i : Nat} {l : List V} (scale : Nat → Nat) (hi : Inv w k) (h : Is (shown w) o l) (hl : i < l.length) (v : V) :
    OK (write F E scale o i v) w (fun _ w' => Inv w' k ∧ shown w' = (shown w).set o (some (l.set i v)))
      (fun e w' => e = .fault ∧ Inv w' (k + 1) ∧ ∃ l' : List V, shown w' = (shown w).set o (some l') ∧ (l'.length = l.length ∨ l' = []) ∧
        (NoMove F → Alone w o → l'.length = l.length ∧ l'.take i = l.take i)) := by
  have hob : ∃ ob : Ob, w.objs[o]? = some (some ob) ∧ ob.sublen = l.length := by
    rcases hi.cases h with ⟨ho, rfl⟩ | ⟨r, off, xs, ho, -⟩
    · exact ⟨_, ho, rfl⟩
    · exact ⟨_, ho, rfl⟩
  obtain ⟨ob, ho, hsub⟩ := hob
  refine OK.bind (Y := fun _ _ => False) (obj_ok ho) ?_ (fun _ _ hf => hf.elim)
  rintro _ _ ⟨rfl, rfl⟩
  rw [hsub]
  refine OK.bind (aboutToModify_ok F E scale hi h (Nat.le_refl _)) ?_ ?_
  rotate_left
  · rintro _ w' ⟨he, h1, l', h2, h3, h4⟩
    exact ⟨he, h1, l', h2, h3, fun hm ha => by rw [h4 hm ha]; exact ⟨rfl, rfl⟩⟩
  rintro _ w1 ⟨hi1, hs1, r, off, xs, hat, hr, hv⟩
  refine (assignFrom_ok F E (pos := i) (us := [v]) hi1 hat (by simp; omega)).mono ?_ ?_
  · rintro _ w2 ⟨hi2, hs2, -⟩
    refine ⟨hi2, ?_⟩
    rw [hs2, hs1]
    congr 2
    simp only [over]
    rw [List.drop_set, if_neg (by omega), Nat.add_sub_cancel_left, List.take_set, hv]
  · rintro _ w2 ⟨he, hi2, ys, hy, ht, hs2⟩
    have hlen : ((ys.drop off).take l.length).length = l.length := by
      have := hat.len
      simp; omega
    exact ⟨he, hi2.more, _, by rw [hs2, hs1], .inl hlen, fun _ _ => ⟨hlen, kept ht hv (Nat.le_of_lt hl)⟩⟩

theorem ins_window {xs ys us l : List V} {off pos : Nat} (hp : pos ≤ l.length) (hl : off + l.length + us.length ≤ ys.length)
    (h1 : (ys.drop off).take pos = (xs.drop off).take pos)
    (h2 : (ys.drop (off + pos + us.length)).take (l.length - pos) = (xs.drop (off + pos)).take (l.length - pos)) (hv : (xs.drop off).take l.length = l) :
    ((over ys (off + pos) us).drop off).take (l.length + us.length) = l.take pos ++ us ++ l.drop pos := by
  have ha : l.take pos = (ys.drop off).take pos := by
    rw [h1]; conv => lhs; rw [← hv]
    rw [List.take_take, Nat.min_eq_left hp]
  have hb : l.drop pos = (ys.drop (off + pos + us.length)).take (l.length - pos) := by
    rw [h2]; conv => lhs; rw [← hv]
    rw [List.drop_take, List.drop_drop]
  rw [over_eq _ _ _ (by omega), ha, hb]
  have hd : (ys.take (off + pos)).drop off = (ys.drop off).take pos := by
    rw [List.drop_take]; congr 1; omega
  have hpl : ((ys.drop off).take pos).length = pos := by simp; omega
  rw [List.append_assoc, List.drop_append_of_le_length (by simp; omega), hd]
  rw [List.take_append, List.take_append, hpl, List.append_assoc]
  congr 1
  · rw [List.take_of_length_le (by omega)]
  · congr 1
    · rw [List.take_of_length_le (by omega)]
    · congr 1
      omega

/-- The part of `insert` after the check: `us` into cells made free at `pos`. -/
theorem insert_core {G : Faults} {w : W V} {o pos : Nat} {l us : List V} (scale : Nat → Nat) (src : M V (List V)) (hi : Inv w k) (h : Is (shown w) o l) (hp : pos ≤ l.length)
    (hsrc : ∀ w' m, Inv w' k → shown w' = (shown w).set o (some m) → OK src w' (fun vs w'' => us = vs ∧ w' = w'') (fun _ _ => False)) :
    OK (do
        aboutToModify F E scale o (l.length + us.length)
        shiftUp F E o pos us.length
        let vs ← src
        assignFrom G E o pos vs
        setLength o (l.length + us.length)) w
      (fun _ w' => Inv w' k ∧ shown w' = (shown w).set o (some (l.take pos ++ us ++ l.drop pos)) ∧ Alone w' o)
      (fun e w' => e = .fault ∧ Inv w' (k + 1) ∧ ∃ l' : List V, shown w' = (shown w).set o (some l') ∧ (l'.length = l.length ∨ l' = []) ∧
        (NoMove F → Alone w o → l'.length = l.length ∧ l'.take pos = l.take pos)) := by
  refine OK.bind (aboutToModify_ok F E scale hi h (Nat.le_add_right _ _)) ?_ ?_
  rotate_left
  · rintro _ w' ⟨he, h1, l', h2, h3, h4⟩
    exact ⟨he, h1, l', h2, h3, fun hm ha => by rw [h4 hm ha]; exact ⟨rfl, rfl⟩⟩
  rintro _ w1 ⟨hi1, hs1, r, off, xs, hat, hr, hv⟩
  have hwin : ∀ ys : List V, ys.length = xs.length → ((ys.drop off).take l.length).length = l.length := by
    intro ys hy
    have := hat.len
    simp; omega
  refine OK.bind (shiftUp_ok F E hi1 hat hp (by omega)) ?_ ?_
  rotate_left
  · rintro _ w' ⟨he, -, h1, ys, hy, ht, h2⟩
    exact ⟨he, h1.more, _, by rw [h2, hs1], .inl (hwin ys hy), fun _ _ => ⟨hwin ys hy, kept ht hv hp⟩⟩
  rintro _ w2 ⟨hi2, ys, hy, g1, g2, g3, hs2, hat2⟩
  refine OK.bind (hsrc w2 _ hi2 (by rw [hs2, hs1])) ?_ (fun _ _ hf => hf.elim)
  rintro _ _ ⟨rfl, rfl⟩
  refine OK.bind (assignFrom_ok G E hi2 hat2 (by omega)) ?_ ?_
  rotate_left
  · rintro _ w' ⟨he, h1, zs, hz, hzt, h2⟩
    refine ⟨he, h1.more, _, by rw [h2, hs2, hs1, List.set_set], .inl (hwin zs (by omega)), fun _ _ => ⟨hwin zs (by omega), ?_⟩⟩
    have hd : ∀ (q : List V), ((q.drop off).take l.length).take pos = (q.take (off + pos)).drop off := by
      intro q; rw [List.take_take, Nat.min_eq_left hp, List.drop_take]; congr 1; omega
    have hd' : ∀ (q : List V), (q.drop off).take pos = (q.take (off + pos)).drop off := by
      intro q; rw [List.drop_take]; congr 1; omega
    rw [hd, hzt, ← hd', g1, hd', ← hd, hv]
  rintro _ w3 ⟨hi3, hs3, hat3⟩
  refine (setLength_ok hi3 hat3 (by rw [over_length]; omega) (X := fun _ _ => False)).mono ?_ (fun _ _ hf => hf.elim)
  rintro _ w4 ⟨hi4, hs4, hat4⟩
  refine ⟨hi4, ?_, alone_of hi4 hat4⟩
  rw [hs4, hs3, hs2, hs1, List.set_set, List.set_set, ins_window hp (by omega) g1 g2 hv]

theorem rep_window {xs us l : List V} {off pos n : Nat} (hp : pos ≤ l.length) (hn : n = max l.length (pos + us.length)) (hl : off + n ≤ xs.length)
    (hv : (xs.drop off).take l.length = l) :
    ((over xs (off + pos) us).drop off).take n = l.take pos ++ us ++ l.drop (pos + us.length) := by
  have hlen : (l.take pos).length = pos := by simp; omega
  apply List.ext_getElem?
  intro j
  have hxs : ∀ i, i < l.length → xs[off + i]? = l[i]? := by
    intro i hi
    conv => rhs; rw [← hv]
    rw [List.getElem?_take_of_lt hi, List.getElem?_drop]
  by_cases hj : j < n
  · rw [List.getElem?_take_of_lt hj, List.getElem?_drop, over_eq _ _ _ (by omega)]
    by_cases h1 : j < pos
    · rw [List.append_assoc, List.getElem?_append_left (by simp; omega), List.getElem?_take_of_lt (by omega), hxs j (by omega),
        List.append_assoc, List.getElem?_append_left (by omega), List.getElem?_take_of_lt h1]
    · by_cases h2 : j < pos + us.length
      · rw [List.append_assoc, List.getElem?_append_right (by simp; omega), List.getElem?_append_left (by simp; omega),
          List.append_assoc, List.getElem?_append_right (by omega), List.getElem?_append_left (by omega), hlen]
        congr 1
        simp; omega
      · have hj' : j < l.length := by omega
        rw [List.getElem?_append_right (by simp; omega), List.getElem?_drop, List.getElem?_append_right (by simp; omega), List.getElem?_drop]
        rw [← hxs _ (by simp [hlen]; omega)]
        congr 1
        simp; omega
  · rw [List.getElem?_eq_none (by simp; omega), List.getElem?_eq_none (by simp; omega)]

/-- The part of `replace` after the check: `us` over the elements from `pos` on. -/
theorem replace_core {w : W V} {o pos n : Nat} {l us : List V} (scale : Nat → Nat) (src : M V (List V)) (hi : Inv w k) (h : Is (shown w) o l) (hp : pos ≤ l.length)
    (hn : n = max l.length (pos + us.length))
    (hsrc : ∀ w' m, Inv w' k → shown w' = (shown w).set o (some m) → OK src w' (fun vs w'' => us = vs ∧ w' = w'') (fun _ _ => False)) :
    OK (do
        aboutToModify F E scale o n
        let vs ← src
        assignFrom F E o pos vs
        setLength o n) w
      (fun _ w' => Inv w' k ∧ shown w' = (shown w).set o (some (l.take pos ++ us ++ l.drop (pos + us.length))))
      (fun e w' => e = .fault ∧ Inv w' (k + 1) ∧ ∃ l' : List V, shown w' = (shown w).set o (some l') ∧ (l'.length = l.length ∨ l' = []) ∧
        (NoMove F → Alone w o → l'.length = l.length ∧ l'.take pos = l.take pos)) := by
  refine OK.bind (aboutToModify_ok F E scale hi h (show l.length ≤ n by omega)) ?_ ?_
  rotate_left
  · rintro _ w' ⟨he, h1, l', h2, h3, h4⟩
    exact ⟨he, h1, l', h2, h3, fun hm ha => by rw [h4 hm ha]; exact ⟨rfl, rfl⟩⟩
  rintro _ w1 ⟨hi1, hs1, r, off, xs, hat, hr, hv⟩
  refine OK.bind (hsrc w1 l hi1 (by rw [hs1, set_same h])) ?_ (fun _ _ hf => hf.elim)
  rintro _ _ ⟨rfl, rfl⟩
  refine OK.bind (assignFrom_ok F E hi1 hat (by omega)) ?_ ?_
  rotate_left
  · rintro _ w' ⟨he, h1, zs, hz, hzt, h2⟩
    have hlen : ((zs.drop off).take l.length).length = l.length := by
      have := hat.len
      simp; omega
    exact ⟨he, h1.more, _, by rw [h2, hs1], .inl hlen, fun _ _ => ⟨hlen, kept hzt hv hp⟩⟩
  rintro _ w3 ⟨hi3, hs3, hat3⟩
  refine (setLength_ok hi3 hat3 (by rw [over_length]; omega) (X := fun _ _ => False)).mono ?_ (fun _ _ hf => hf.elim)
  rintro _ w4 ⟨hi4, hs4, -⟩
  refine ⟨hi4, ?_⟩
  rw [hs4, hs3, hs1, List.set_set, rep_window hp hn hr hv]

end Bdlib.Elems
