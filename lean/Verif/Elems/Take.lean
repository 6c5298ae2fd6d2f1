import Verif.Elems.Calls

/-! Taking elements out, swapping, and assigning arrays that go. -/

namespace Bdlib.Elems

open Spec.Elems (Is)

variable {V : Type} {k : Nat}

theorem Inv.clock {w : W V} (hi : Inv w k) (c : Nat) : Inv { w with clock := c } k := ⟨hi.obs, hi.blk, hi.out⟩

/-- An element taken out: where the array has its elements then. -/
theorem takeOut_ok (F : Faults) (E : Ty V) {w : W V} {o i : Nat} {l : List V} (hi : Inv w k) (h : Is (shown w) o l) (hlt : i < l.length) :
    OK (takeOut F E o i) w
      (fun v w' => l[i]? = some v ∧ Inv w' k ∧ ∃ (r off n : Nat) (xs : List V), w'.objs[o]? = some (some ⟨some r, off, l.length⟩) ∧
        w'.blks[r]? = some (some ⟨xs.map some, n⟩) ∧ off + l.length ≤ xs.length ∧ (∀ j, j ≠ i → j < l.length → xs[off + j]? = l[j]?) ∧
        ∃ l', shown w' = (shown w).set o (some l'))
      (fun e w' => e = .fault ∧ Inv w' (k + 1) ∧ ∃ l' : List V, shown w' = (shown w).set o (some l') ∧ l'.length = l.length ∧
        (NoMove F → l' = l ∧ ¬ Alone w o)) := by
  rcases hi.cases h with ⟨ho, rfl⟩ | ⟨r, off, xs, ho, hb, hl, hv, hu⟩
  · simp at hlt
  have hget : ∀ j, j < l.length → xs[off + j]? = l[j]? := by
    intro j hj
    conv => rhs; rw [← hv]
    rw [List.getElem?_take_of_lt hj, List.getElem?_drop]
  have hix : off + i < xs.length := by omega
  refine OK.bind (Y := fun _ _ => False) (obj_ok ho) ?_ (fun _ _ hf => hf.elim)
  rintro _ _ ⟨rfl, rfl⟩
  simp only
  refine OK.bind (Y := fun _ _ => False) (isShared_ok hi h) ?_ (fun _ _ hf => hf.elim)
  rintro b _ ⟨rfl, hal, hsh, hal'⟩
  cases b with
  | true =>
    simp only [if_true]
    refine OK.bind (Y := fun _ _ => False) (blk_ok hb) ?_ (fun _ _ hf => hf.elim)
    rintro _ _ ⟨rfl, rfl⟩
    simp only [cell_get xs _ hix]
    refine OK.bind (act_ok F .copy w) ?_ ?_
    · rintro _ _ ⟨c, rfl⟩
      refine OK.pure _ _ ⟨?_, hi.clock c, r, off, _, xs, ho, hb, hl, fun j _ hj => hget j hj, l, ?_⟩
      · rw [← hget i hlt, List.getElem?_eq_getElem hix]
      · rw [set_same h]; rfl
    · rintro _ _ ⟨he, c, rfl⟩
      refine ⟨he, (hi.clock c).more, l, ?_, rfl, fun _ => ⟨rfl, fun ha => ?_⟩⟩
      · rw [set_same h]; rfl
      · have := hal' ha; cases this
  | false =>
    simp only [Bool.false_eq_true, if_false]
    have hu1 : users w r = 1 := by
      obtain ⟨-, -, h3⟩ := hi.blk r _ hb
      have ha := hal rfl
      apply Nat.le_antisymm ?_ hu
      apply Nat.le_of_not_lt
      intro hgt
      have h2 : 1 ≤ ((w.objs.set o none).countP fun x => refOf x == some r) := by
        have := countP_upd (p := fun x => refOf x == some r) (b := none) ho
        rw [if_pos (by simp [refOf]), if_neg (by simp [refOf])] at this
        unfold users at hgt
        omega
      obtain ⟨x, hx, hp⟩ := List.countP_pos_iff.mp h2
      obtain ⟨p, hp'⟩ := List.mem_iff_getElem?.mp hx
      have hpo : p ≠ o := by
        intro he; subst he
        rw [List.getElem?_set_self (List.getElem?_eq_some_iff.mp ho).1] at hp'
        cases hp'; simp [refOf] at hp
      rw [List.getElem?_set_ne (Ne.symm hpo)] at hp'
      cases x with
      | none => simp [refOf] at hp
      | some ob => exact ha p _ ob hpo ho hp' (by simp) (by simpa [refOf] using hp)
    rw [hu1] at hb
    have hat : At w o r off l.length xs := ⟨ho, hb, hl⟩
    refine (takeCell_ok F E hb hix).mono ?_ ?_
    · rintro v _ ⟨rfl, c, rfl⟩
      obtain ⟨h1, h2, h3⟩ := hi.upd hat (ys := xs.set (off + i) (E.moved xs[off + i])) (by simp) c
      refine ⟨?_, h1, r, off, 1, _, h3.obj, h3.blk, by simpa using hl, ?_, _, h2⟩
      · rw [← hget i hlt, List.getElem?_eq_getElem hix]
      · intro j hj hjl
        rw [List.getElem?_set_ne (by omega)]
        exact hget j hjl
    · rintro _ _ ⟨he, ⟨t, ht⟩, c, ys, hy, rfl⟩
      obtain ⟨h1, h2, -⟩ := hi.upd hat hy c
      refine ⟨he, h1.more, _, h2, by simp; omega, fun hm => ?_⟩
      rw [hm t] at ht; cases ht

theorem shift_ok (F : Faults) (E : Ty V) {w : W V} {o : Nat} {l : List V} (hi : Inv w k) (h : Is (shown w) o l) (hne : l ≠ []) :
    OK (shift F E o) w (fun v w' => l.head? = some v ∧ Inv w' k ∧ shown w' = (shown w).set o (some l.tail))
      (fun e w' => e = .fault ∧ Inv w' (k + 1) ∧ ∃ l' : List V, shown w' = (shown w).set o (some l') ∧ l'.length = l.length ∧
        (NoMove F → l' = l ∧ ¬ Alone w o)) := by
  have hpos : 0 < l.length := List.length_pos_iff.mpr hne
  refine OK.bind (takeOut_ok F E hi h hpos) ?_ (fun _ _ hx => hx)
  rintro v w1 ⟨hv, hi1, r, off, n, xs, ho, hb, hl, hx, l', hs⟩
  refine OK.bind (Y := fun _ _ => False) (obj_ok ho) ?_ (fun _ _ hf => hf.elim)
  rintro _ _ ⟨rfl, rfl⟩
  have := hi1.window (off' := off + 1) (sub' := l.length - 1) ho hb (by omega)
  refine ⟨by rw [List.head?_eq_getElem?]; exact hv, this.1, ?_⟩
  refine this.2.trans ?_
  rw [hs, List.set_set]
  congr 2
  apply List.ext_getElem?
  intro j
  by_cases hj : j < l.length - 1
  · rw [List.getElem?_take_of_lt hj, List.getElem?_drop, List.getElem?_tail, ← hx (j + 1) (by omega) (by omega)]
    congr 1; omega
  · rw [List.getElem?_eq_none (by simp; omega), List.getElem?_eq_none (by simp; omega)]

theorem pop_ok (F : Faults) (E : Ty V) {w : W V} {o : Nat} {l : List V} (hi : Inv w k) (h : Is (shown w) o l) (hne : l ≠ []) :
    OK (pop F E o) w (fun v w' => l.getLast? = some v ∧ Inv w' k ∧ shown w' = (shown w).set o (some l.dropLast))
      (fun e w' => e = .fault ∧ Inv w' (k + 1) ∧ ∃ l' : List V, shown w' = (shown w).set o (some l') ∧ l'.length = l.length ∧
        (NoMove F → l' = l ∧ ¬ Alone w o)) := by
  have hpos : 0 < l.length := List.length_pos_iff.mpr hne
  have hob : ∃ ob : Ob, w.objs[o]? = some (some ob) ∧ ob.sublen = l.length := by
    rcases hi.cases h with ⟨ho, rfl⟩ | ⟨r, off, xs, ho, -⟩
    · exact ⟨_, ho, rfl⟩
    · exact ⟨_, ho, rfl⟩
  obtain ⟨ob, ho0, hsub⟩ := hob
  refine OK.bind (Y := fun _ _ => False) (obj_ok ho0) ?_ (fun _ _ hf => hf.elim)
  rintro _ _ ⟨rfl, rfl⟩
  rw [hsub]
  refine OK.bind (takeOut_ok F E hi h (show l.length - 1 < l.length by omega)) ?_ (fun _ _ hx => hx)
  rintro v w1 ⟨hv, hi1, r, off, n, xs, ho, hb, hl, hx, l', hs⟩
  refine OK.bind (P := fun _ w' => w' = { w1 with objs := w1.objs.set o (some ⟨some r, off, l.length - 1⟩) }) (Y := fun _ _ => False) ?_ ?_ (fun _ _ hf => hf.elim)
  · refine OK.bind (Y := fun _ _ => False) (obj_ok ho) ?_ (fun _ _ hf => hf.elim)
    rintro _ _ ⟨rfl, rfl⟩
    exact rfl
  rintro _ _ rfl
  have := hi1.window (off' := off) (sub' := l.length - 1) ho hb (by omega)
  refine OK.pure _ _ ⟨by rw [List.getLast?_eq_getElem?]; exact hv, this.1, ?_⟩
  refine this.2.trans ?_
  rw [hs, List.set_set]
  congr 2
  apply List.ext_getElem?
  intro j
  by_cases hj : j < l.length - 1
  · rw [List.getElem?_take_of_lt hj, List.getElem?_drop, List.getElem?_dropLast, if_pos hj, ← hx j (by omega) (by omega)]
  · rw [List.getElem?_eq_none (by simp; omega), List.getElem?_eq_none (by simp; omega)]

/-- Two arrays, or an array and none, change places. -/
theorem Inv.exchange {w : W V} {o p : Nat} {x y : Option Ob} (hi : Inv w k) (ho : w.objs[o]? = some x) (hp : w.objs[p]? = some y) :
    let w' : W V := { w with objs := (w.objs.set o y).set p x }
    Inv w' k ∧ shown w' = ((shown w).set o (y.bind (valueOf w))).set p (x.bind (valueOf w)) := by
  intro w'
  have hol : o < w.objs.length := (List.getElem?_eq_some_iff.mp ho).1
  have hpl : p < w.objs.length := (List.getElem?_eq_some_iff.mp hp).1
  have hu : ∀ q, users w' q = users w q := by
    intro q
    unfold users
    by_cases hop : p = o
    · subst hop
      rw [ho] at hp; cases hp
      show ((w.objs.set p x).set p x).countP _ = _
      rw [List.set_set, set_same ho]
    · have h1 := countP_upd (p := fun x => refOf x == some q) (b := y) ho
      have hp' : (w.objs.set o y)[p]? = some y := by rw [List.getElem?_set_ne (Ne.symm hop)]; exact hp
      have h2 := countP_upd (p := fun x => refOf x == some q) (b := x) hp'
      show ((w.objs.set o y).set p x).countP _ = _
      omega
  have hfrom : ∀ (q : Nat) (ob : Ob), w'.objs[q]? = some (some ob) → ∃ q' : Nat, w.objs[q']? = some (some ob) := by
    intro q ob hq
    by_cases hqp : q = p
    · subst hqp
      have : w'.objs[q]? = some x := by simp [w', hpl]
      rw [this] at hq; cases hq
      exact ⟨o, ho⟩
    · by_cases hqo : q = o
      · subst hqo
        have : w'.objs[q]? = some y := by
          show ((w.objs.set q y).set p x)[q]? = _
          rw [List.getElem?_set_ne (Ne.symm hqp), List.getElem?_set_self hol]
        rw [this] at hq; cases hq
        exact ⟨p, hp⟩
      · exact ⟨q, by simpa [w', List.getElem?_set_ne (Ne.symm hqp), List.getElem?_set_ne (Ne.symm hqo)] using hq⟩
  refine ⟨⟨?_, ?_, hi.out⟩, ?_⟩
  · intro q ob hq
    obtain ⟨q', hq'⟩ := hfrom q ob hq
    exact hi.obs q' ob hq'
  · intro r b hb
    rw [hu]; exact hi.blk r b hb
  · show ((w.objs.set o y).set p x).map _ = _
    rw [List.map_set, List.map_set]
    cases x <;> cases y <;> rfl

theorem swap_ok {w : W V} {o p : Nat} {l m : List V} (hi : Inv w k) (h : Is (shown w) o l) (hp : Is (shown w) p m) {X : Exc → W V → Prop} :
    OK (swap o p) w (fun _ w' => Inv w' k ∧ shown w' = ((shown w).set o (some m)).set p (some l)) X := by
  obtain ⟨a, ha, hva⟩ := shown_is h
  obtain ⟨b, hb, hvb⟩ := shown_is hp
  refine OK.bind (Y := fun _ _ => False) (obj_ok ha) ?_ (fun _ _ hf => hf.elim)
  rintro _ _ ⟨rfl, rfl⟩
  refine OK.bind (Y := fun _ _ => False) (obj_ok hb) ?_ (fun _ _ hf => hf.elim)
  rintro _ _ ⟨rfl, rfl⟩
  have := hi.exchange ha hb
  simp only [Option.bind_some, hva, hvb] at this
  exact this

/-- What move assignment leaves, but for the array moved from. -/
def Moved (w : W V) (k o p : Nat) (m : List V) (w2 : W V) : Prop :=
  ∃ (b : Ob) (w1 : W V), p < w.objs.length ∧ w2 = { w1 with objs := (w.objs.set o (some b)).set p (some { b with ref := none }) } ∧
    Inv { w1 with objs := (w.objs.set o (some b)).set p none } k ∧
    shown { w1 with objs := (w.objs.set o (some b)).set p none } = ((shown w).set o (some m)).set p none

theorem moveAssign_ok {w : W V} {o p : Nat} {l m : List V} (hi : Inv w k) (hop : o ≠ p) (h : Is (shown w) o l) (hp : Is (shown w) p m)
    {X : Exc → W V → Prop} :
    OK (moveAssign o p) w (fun _ w' => Moved w k o p m w') X := by
  obtain ⟨b, hb, hvb⟩ := shown_is hp
  have hol : o < w.objs.length := by
    have := (List.getElem?_eq_some_iff.mp h).1
    simpa [shown] using this
  have hpl : p < w.objs.length := (List.getElem?_eq_some_iff.mp hb).1
  -- the state without the old elements of `o`
  have key : ∀ w1 : W V, w1.objs = w.objs → Inv { w1 with objs := w.objs.set o none } k →
      shown { w1 with objs := w.objs.set o none } = (shown w).set o none →
      Inv { w1 with objs := (w.objs.set o (some b)).set p none } k ∧
        shown { w1 with objs := (w.objs.set o (some b)).set p none } = ((shown w).set o (some m)).set p none := by
    intro w1 he g1 g2
    have ho1 : ({ w1 with objs := w.objs.set o none } : W V).objs[o]? = some none := by simp [hol]
    have hp1 : ({ w1 with objs := w.objs.set o none } : W V).objs[p]? = some (some b) := by
      simp only [List.getElem?_set_ne hop]; exact hb
    have hval : valueOf { w1 with objs := w.objs.set o none } b = some m := by
      have h1 := shown_get hp1
      rw [g2, List.getElem?_set_ne hop, show (shown w)[p]? = some (some m) from hp] at h1
      exact (Option.some.inj h1).symm
    have := g1.exchange ho1 hp1
    simp only [List.set_set, g2, hval, Option.bind_some, Option.bind_none] at this
    exact this
  have hde : OK (checkDealloc o) w (fun _ w1 => w1.objs = w.objs ∧ Inv { w1 with objs := w.objs.set o none } k ∧
      shown { w1 with objs := w.objs.set o none } = (shown w).set o none) (fun _ _ => False) := by
    rcases hi.cases h with ⟨ho, rfl⟩ | ⟨r, off, xs, ho, hb, hl, hv, hu⟩
    · refine OK.bind (Y := fun _ _ => False) (obj_ok ho) ?_ (fun _ _ hf => hf.elim)
      rintro _ _ ⟨rfl, rfl⟩
      refine OK.pure _ _ ⟨rfl, ?_⟩
      have hu : ∀ q, users { w with objs := w.objs.set o none } q = users w q := fun q => users_set (y := none) ho rfl q
      refine hi.gen (y := none) ho rfl (fun ob h => by cases h) (fun _ _ q _ _ _ b hq => ⟨b.refs, hq⟩) ?_ hi.out
      intro q b hq
      rw [hu]; exact hi.blk q b hq
    · refine (checkDealloc_left ho hb (X := fun _ _ => False)).mono ?_ (fun _ _ hf => hf.elim)
      rintro _ w' ⟨h1, h2⟩
      have := hi.left (y := none) ho hb (.inl rfl) w.clock
      rw [← h2 none] at this
      exact ⟨h1, this⟩
  unfold moveAssign
  rw [if_neg hop]
  refine OK.bind hde ?_ (fun _ _ hf => hf.elim)
  rintro _ w1 ⟨he, g1, g2⟩
  refine OK.bind (Y := fun _ _ => False) (obj_ok (show w1.objs[p]? = some (some b) by rw [he]; exact hb)) ?_ (fun _ _ hf => hf.elim)
  rintro b _ ⟨rfl, rfl⟩
  refine ⟨b, w1, hpl, ?_, key w1 he g1 g2⟩
  rw [← he]

theorem destroyMoved_ok {w w2 : W V} {o p : Nat} {m : List V} (hm : Moved w k o p m w2) {X : Exc → W V → Prop} :
    OK (destroy p) w2 (fun _ w' => Inv w' k ∧ shown w' = ((shown w).set o (some m)).set p none) X := by
  obtain ⟨b, w1, hpl, rfl, g⟩ := hm
  have hq : ({ w1 with objs := (w.objs.set o (some b)).set p (some { b with ref := none }) } : W V).objs[p]? = some (some { b with ref := none }) := by
    simp [hpl]
  refine OK.bind (P := fun _ w' => { w1 with objs := (w.objs.set o (some b)).set p (some { b with ref := none }) } = w') (Y := fun _ _ => False) ?_ ?_ (fun _ _ hf => hf.elim)
  · refine OK.bind (Y := fun _ _ => False) (obj_ok hq) ?_ (fun _ _ hf => hf.elim)
    rintro _ _ ⟨rfl, rfl⟩
    exact rfl
  · rintro _ _ rfl
    have e : ((w.objs.set o (some b)).set p (some { b with ref := none })).set p none = (w.objs.set o (some b)).set p none := List.set_set ..
    show Inv { w1 with objs := ((w.objs.set o (some b)).set p (some { b with ref := none })).set p none } k ∧
      shown { w1 with objs := ((w.objs.set o (some b)).set p (some { b with ref := none })).set p none } = _
    rw [e]
    exact g

theorem assignTemp_ok {w : W V} {o p : Nat} {l m : List V} (hi : Inv w k) (hop : o ≠ p) (h : Is (shown w) o l) (hp : Is (shown w) p m)
    {X : Exc → W V → Prop} :
    OK (assignTemp o p) w (fun _ w' => Inv w' k ∧ shown w' = ((shown w).set o (some m)).set p none) X := by
  refine OK.bind (Y := fun _ _ => False) (moveAssign_ok hi hop h hp) ?_ (fun _ _ hf => hf.elim)
  intro _ w1 hm
  exact destroyMoved_ok hm

end Bdlib.Elems
