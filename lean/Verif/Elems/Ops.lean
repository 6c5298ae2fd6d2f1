import Verif.Elems.Inv

/-! What the calls do to arrays whose elements may throw. -/

namespace Bdlib.Elems

open Spec.Elems (Is)

variable {V α β : Type}

theorem OK.onThrow {m : M V α} {h : M V Unit} {w : W V} {Q : α → W V → Prop} {X Y : Exc → W V → Prop} (hm : OK m w Q Y)
    (hh : ∀ e w', Y e w' → OK h w' (fun _ w'' => X e w'') (fun _ _ => False)) : OK (onThrow m h) w Q X := by
  unfold OK Elems.onThrow at *
  cases hr : m w with
  | ret a w' => rw [hr] at hm; exact hm
  | ub => rw [hr] at hm; exact hm
  | exc e w' =>
    rw [hr] at hm
    have := hh e w' hm
    unfold OK at this
    simp only
    cases hr' : h w' with
    | ret a w'' => rw [hr'] at this; exact this
    | exc e w'' => rw [hr'] at this; exact this.elim
    | ub => rw [hr'] at this; exact this.elim

def showOf (w : W V) : Option Ob → Option (List V)
  | none => none
  | some ob => valueOf w ob

/-- One array changes, and nothing the others have. -/
theorem Inv.gen {w w' : W V} {k k' o : Nat} {x y : Option Ob} (hi : Inv w k) (ho : w.objs[o]? = some x) (hobjs : w'.objs = w.objs.set o y)
    (hy : ∀ ob, y = some ob → (ob.ref = none ∧ ob.offset = 0 ∧ ob.sublen = 0) ∨
      ∃ (r : Nat) (xs : List V) (n : Nat), ob.ref = some r ∧ w'.blks[r]? = some (some ⟨xs.map some, n⟩) ∧ ob.offset + ob.sublen ≤ xs.length)
    (hk : ∀ (p : Nat) (ob : Ob) (q : Nat), p ≠ o → w.objs[p]? = some (some ob) → ob.ref = some q → ∀ b, w.blks[q]? = some (some b) →
      ∃ m, w'.blks[q]? = some (some ⟨b.cells, m⟩))
    (hb : ∀ (r : Nat) (b : Blk V), w'.blks[r]? = some (some b) → (∃ xs : List V, b.cells = xs.map some) ∧ b.refs = users w' r ∧ 1 ≤ users w' r)
    (hout : w'.out ≤ cap w' + k') : Inv w' k' ∧ shown w' = (shown w).set o (showOf w' y) := by
  have hol : o < w.objs.length := (List.getElem?_eq_some_iff.mp ho).1
  refine ⟨⟨?_, hb, hout⟩, ?_⟩
  · intro p ob hp
    rw [hobjs] at hp
    by_cases hpo : p = o
    · subst hpo
      rw [List.getElem?_set_self hol] at hp
      exact hy ob (by cases hp; rfl)
    · rw [List.getElem?_set_ne (Ne.symm hpo)] at hp
      rcases hi.obs p ob hp with hh | ⟨q, zs, n, h1, h2, h3⟩
      · exact .inl hh
      · obtain ⟨m, hm⟩ := hk p ob q hpo hp h1 _ h2
        exact .inr ⟨q, zs, m, h1, hm, h3⟩
  · apply List.ext_getElem?
    intro p
    by_cases hpo : p = o
    · subst hpo
      rw [List.getElem?_set_self (by simp [shown, hol])]
      simp only [shown, List.getElem?_map, hobjs, List.getElem?_set_self hol, Option.map_some]
      cases y <;> rfl
    · rw [List.getElem?_set_ne (Ne.symm hpo)]
      simp only [shown, List.getElem?_map, hobjs, List.getElem?_set_ne (Ne.symm hpo)]
      cases hx : w.objs[p]? with
      | none => rfl
      | some z =>
        cases z with
        | none => rfl
        | some ob =>
          simp only [Option.map_some]
          congr 1
          unfold valueOf
          rcases hi.obs p ob hx with ⟨h1, -⟩ | ⟨q, zs, n, h1, h2, -⟩
          · rw [h1]
          · rw [h1]
            obtain ⟨m, hm⟩ := hk p ob q hpo hx h1 _ h2
            simp only [h2, hm]

/-- The state in which array `o` gave up its reference to block `r`. -/
def left (w : W V) (o r : Nat) (y : Option Ob) (xs : List V) (c : Nat) : W V :=
  if users w r ≤ 1 then ⟨w.blks.set r none, w.objs.set o y, c, w.out - some1 xs⟩
  else ⟨w.blks.set r (some ⟨xs.map some, users w r - 1⟩), w.objs.set o y, c, w.out⟩

theorem Inv.left {w : W V} {k o r off sub : Nat} {xs : List V} {y : Option Ob} (hi : Inv w k) (ho : w.objs[o]? = some (some ⟨some r, off, sub⟩))
    (hb : w.blks[r]? = some (some ⟨xs.map some, users w r⟩)) (hy : y = none ∨ y = some ⟨none, 0, 0⟩) (c : Nat) :
    Inv (left w o r y xs c) k ∧ shown (Elems.left w o r y xs c) = (shown w).set o (y.map fun _ => []) := by
  have hol : o < w.objs.length := (List.getElem?_eq_some_iff.mp ho).1
  have hrl : r < w.blks.length := (List.getElem?_eq_some_iff.mp hb).1
  have hu1 : 1 ≤ users w r := (hi.blk r _ hb).2.2
  have hyr : refOf y = none := by rcases hy with h | h <;> subst h <;> rfl
  have husers : ∀ q, ((w.objs.set o y).countP fun x => refOf x == some q) + (if r = q then 1 else 0) = users w q := by
    intro q
    have := countP_upd (p := fun x => refOf x == some q) (b := y) ho
    simp only [hyr] at this
    simpa [refOf, users] using this
  have hobs : ∀ ob, y = some ob → (ob.ref = none ∧ ob.offset = 0 ∧ ob.sublen = 0) := by
    intro ob h
    rcases hy with h' | h' <;> rw [h'] at h <;> cases h
    exact ⟨rfl, rfl, rfl⟩
  have hfin : showOf (Elems.left w o r y xs c) y = y.map fun _ => [] := by
    rcases hy with h | h <;> subst h
    · rfl
    · simp [showOf, valueOf]
  rw [← hfin]
  unfold Elems.left
  by_cases hle : users w r ≤ 1
  · rw [if_pos hle]
    refine hi.gen ho rfl (fun ob h => .inl (hobs ob h)) ?_ ?_ ?_
    · intro p ob q hpo hp hq b hqb
      have hqr : q ≠ r := by
        intro he; subst he
        exact hpo (countP_two (p := fun x => refOf x == some q) hp ho (by simp [refOf, hq]) (by simp [refOf]) (by unfold users at hle; exact hle))
      exact ⟨b.refs, by simpa [List.getElem?_set_ne (Ne.symm hqr)] using hqb⟩
    · intro q b hq
      have hqr : r ≠ q := by
        intro he; subst he
        simp [hrl] at hq
      have := husers q
      rw [if_neg hqr] at this
      simp only [List.getElem?_set_ne hqr] at hq
      obtain ⟨h1, h2, h3⟩ := hi.blk q b hq
      refine ⟨h1, ?_, ?_⟩ <;> simp only [users] at * <;> omega
    · have hc := countP_upd (p := held) (b := none) hb
      rw [held_some1] at hc
      have := hi.out
      simp only [held, cap] at *
      simp at hc
      have : some1 xs ≤ 1 := by unfold some1; split <;> omega
      omega
  · rw [if_neg hle]
    refine hi.gen ho rfl (fun ob h => .inl (hobs ob h)) ?_ ?_ ?_
    · intro p ob q hpo hp hq b hqb
      by_cases hqr : q = r
      · subst hqr
        rw [hb] at hqb; cases hqb
        exact ⟨users w q - 1, by simp [hrl]⟩
      · exact ⟨b.refs, by simpa [List.getElem?_set_ne (Ne.symm hqr)] using hqb⟩
    · intro q b hq
      have := husers q
      by_cases hqr : r = q
      · subst hqr
        simp only [List.getElem?_set_self hrl] at hq
        cases hq
        rw [if_pos rfl] at this
        refine ⟨⟨xs, rfl⟩, ?_, ?_⟩ <;> simp only [users] at * <;> omega
      · rw [if_neg hqr] at this
        simp only [List.getElem?_set_ne hqr] at hq
        obtain ⟨h1, h2, h3⟩ := hi.blk q b hq
        refine ⟨h1, ?_, ?_⟩ <;> simp only [users] at * <;> omega
    · have hc := cap_set (ys := xs) (m := users w r - 1) hb
      have := hi.out
      simp only [cap] at *
      omega

/-- The state in which array `o` shares the elements of `p`. -/
def joined (w : W V) (o r off sub : Nat) (xs : List V) : W V :=
  ⟨w.blks.set r (some ⟨xs.map some, users w r + 1⟩), w.objs.set o (some ⟨some r, off, sub⟩), w.clock, w.out⟩

theorem Inv.joined {w : W V} {k o r off sub : Nat} {xs : List V} (hi : Inv w k) (ho : w.objs[o]? = some (some ⟨none, 0, 0⟩))
    (hb : w.blks[r]? = some (some ⟨xs.map some, users w r⟩)) (hl : off + sub ≤ xs.length) :
    Inv (joined w o r off sub xs) k ∧ shown (Elems.joined w o r off sub xs) = (shown w).set o (some ((xs.drop off).take sub)) := by
  have hrl : r < w.blks.length := (List.getElem?_eq_some_iff.mp hb).1
  have husers : ∀ q, ((w.objs.set o (some ⟨some r, off, sub⟩)).countP fun x => refOf x == some q) = users w q + (if r = q then 1 else 0) := by
    intro q
    have := countP_upd (p := fun x => refOf x == some q) (b := some ⟨some r, off, sub⟩) ho
    simpa [refOf, users] using this
  have hself : (Elems.joined w o r off sub xs).blks[r]? = some (some ⟨xs.map some, users w r + 1⟩) := by simp [Elems.joined, hrl]
  have hfin : showOf (Elems.joined w o r off sub xs) (some ⟨some r, off, sub⟩) = some ((xs.drop off).take sub) := valueOf_own hself hl
  rw [← hfin]
  refine hi.gen ho rfl ?_ ?_ ?_ ?_
  · intro ob h
    cases h
    exact .inr ⟨r, xs, _, rfl, hself, hl⟩
  · intro p ob q _ hp hq b hqb
    by_cases hqr : q = r
    · subst hqr
      rw [hb] at hqb; cases hqb
      exact ⟨_, hself⟩
    · exact ⟨b.refs, by simpa [Elems.joined, List.getElem?_set_ne (Ne.symm hqr)] using hqb⟩
  · intro q b hq
    have := husers q
    by_cases hqr : r = q
    · subst hqr
      rw [hself] at hq; cases hq
      rw [if_pos rfl] at this
      refine ⟨⟨xs, rfl⟩, ?_, ?_⟩ <;> simp only [users, Elems.joined] at * <;> omega
    · rw [if_neg hqr] at this
      have hq' : w.blks[q]? = some (some b) := by simpa [Elems.joined, List.getElem?_set_ne hqr] using hq
      obtain ⟨h1, h2, h3⟩ := hi.blk q b hq'
      refine ⟨h1, ?_, ?_⟩ <;> simp only [users, Elems.joined] at * <;> omega
  · have hc := cap_set (ys := xs) (m := users w r + 1) hb
    have := hi.out
    simp only [cap, Elems.joined] at *
    omega

/-- A new empty array. -/
theorem Inv.newObj {w : W V} {k : Nat} (hi : Inv w k) :
    let w' : W V := { w with objs := w.objs ++ [some ⟨none, 0, 0⟩] }
    Inv w' k ∧ shown w' = shown w ++ [some []] := by
  intro w'
  have hu : ∀ q, users w' q = users w q := fun q => by simp [users, w', refOf]
  refine ⟨⟨?_, ?_, hi.out⟩, ?_⟩
  · intro p ob hp
    by_cases hpl : p < w.objs.length
    · rw [show w'.objs[p]? = w.objs[p]? from List.getElem?_append_left hpl] at hp
      exact hi.obs p ob hp
    · have : p = w.objs.length := by
        have := (List.getElem?_eq_some_iff.mp hp).1
        simp [w'] at this; omega
      subst this
      simp [w'] at hp
      subst hp
      exact .inl ⟨rfl, rfl, rfl⟩
  · intro r b hr
    rw [hu]
    exact hi.blk r b hr
  · simp [shown, w', valueOf]

/-! ## Calls that throw nothing -/

variable {k : Nat}

theorem isShared_ok {w : W V} {o : Nat} {l : List V} (hi : Inv w k) (h : Is (shown w) o l) {X : Exc → W V → Prop} :
    OK (isShared o) w (fun b w' => w = w' ∧ (b = false → Alone w o) ∧
      (b = true → ∃ (r off : Nat) (xs : List V), w.objs[o]? = some (some ⟨some r, off, l.length⟩) ∧ w.blks[r]? = some (some ⟨xs.map some, users w r⟩) ∧
        off + l.length ≤ xs.length ∧ (xs.drop off).take l.length = l ∧ 2 ≤ users w r) ∧ (Alone w o → b = false)) X := by
  rcases hi.cases h with ⟨ho, rfl⟩ | ⟨r, off, xs, ho, hb, hl, hv, hu⟩
  · refine OK.bind (Y := fun _ _ => False) (obj_ok ho) ?_ (fun _ _ hf => hf.elim)
    rintro _ _ ⟨rfl, rfl⟩
    refine OK.pure _ _ ⟨rfl, fun _ => ?_, fun hf => absurd hf (by decide), fun _ => rfl⟩
    intro p ob ob' _ h1 _ h2
    rw [ho] at h1; cases h1
    exact absurd rfl h2
  · refine OK.bind (Y := fun _ _ => False) (obj_ok ho) ?_ (fun _ _ hf => hf.elim)
    rintro _ _ ⟨rfl, rfl⟩
    refine OK.bind (Y := fun _ _ => False) (blk_ok hb) ?_ (fun _ _ hf => hf.elim)
    rintro _ _ ⟨rfl, rfl⟩
    refine OK.pure _ _ ⟨rfl, fun hf => ?_, fun ht => ⟨r, off, xs, ho, hb, hl, hv, of_decide_eq_true ht⟩, fun ha => ?_⟩
    · have : users w r = 1 := by simp at hf; omega
      rw [this] at hb
      exact alone_of hi ⟨ho, hb, hl⟩
    · simp only [decide_eq_false_iff_not]
      intro hgt
      have h2 : 1 ≤ ((w.objs.set o none).countP fun x => refOf x == some r) := by
        have := countP_upd (p := fun x => refOf x == some r) (b := none) ho
        rw [if_pos (by simp [refOf]), if_neg (by simp [refOf])] at this
        unfold users at hgt
        omega
      obtain ⟨x, hx, hp⟩ := List.countP_pos_iff.mp h2
      obtain ⟨p, hp'⟩ := List.mem_iff_getElem?.mp hx
      have hpo : p ≠ o := by
        intro he; subst he
        rw [List.getElem?_set_self (List.getElem?_eq_some_iff.mp ho).1] at hp'
        cases hp'; simp [refOf] at hp
      rw [List.getElem?_set_ne (Ne.symm hpo)] at hp'
      cases x with
      | none => simp [refOf] at hp
      | some ob => exact ha p _ ob hpo ho hp' (by simp) (by simpa [refOf] using hp)

theorem elems_ok {w : W V} {o : Nat} {l : List V} (hi : Inv w k) (h : Is (shown w) o l) {X : Exc → W V → Prop} :
    OK (elems o) w (fun vs w' => l = vs ∧ w = w') X := by
  rcases hi.cases h with ⟨ho, rfl⟩ | ⟨r, off, xs, ho, hb, hl, hv, hu⟩
  · refine OK.bind (Y := fun _ _ => False) (obj_ok ho) ?_ (fun _ _ hf => hf.elim)
    rintro _ _ ⟨rfl, rfl⟩
    exact ⟨rfl, rfl⟩
  · refine OK.bind (Y := fun _ _ => False) (obj_ok ho) ?_ (fun _ _ hf => hf.elim)
    rintro _ _ ⟨rfl, rfl⟩
    refine OK.bind (Y := fun _ _ => False) (blk_ok hb) ?_ (fun _ _ hf => hf.elim)
    rintro _ _ ⟨rfl, rfl⟩
    simp only [readCells_eq _ _ _ hl]
    exact ⟨hv.symm, rfl⟩

/-- The own window may be narrowed. -/
theorem Inv.window {w : W V} {o r off sub off' sub' n : Nat} {xs : List V} (hi : Inv w k) (ho : w.objs[o]? = some (some ⟨some r, off, sub⟩))
    (hb : w.blks[r]? = some (some ⟨xs.map some, n⟩)) (hl : off' + sub' ≤ xs.length) :
    let w' : W V := { w with objs := w.objs.set o (some ⟨some r, off', sub'⟩) }
    Inv w' k ∧ shown w' = (shown w).set o (some ((xs.drop off').take sub')) := by
  intro w'
  have hu : ∀ q, users w' q = users w q := fun q => users_set (y := some ⟨some r, off', sub'⟩) ho rfl q
  rw [← valueOf_own (w := w') hb hl]
  refine hi.gen (y := some ⟨some r, off', sub'⟩) ho rfl ?_ (fun _ _ q _ _ _ b hq => ⟨b.refs, hq⟩) ?_ hi.out
  · intro ob h; cases h
    exact .inr ⟨r, xs, n, rfl, hb, hl⟩
  · intro q b hq
    rw [hu]; exact hi.blk q b hq

theorem slice_ok {w : W V} {o start len : Nat} {l : List V} (hi : Inv w k) (h : Is (shown w) o l) (h1 : start < l.length) (h2 : start + len ≤ l.length)
    {X : Exc → W V → Prop} : OK (slice o start len) w (fun _ w' => Inv w' k ∧ shown w' = (shown w).set o (some ((l.drop start).take len))) X := by
  rcases hi.cases h with ⟨ho, rfl⟩ | ⟨r, off, xs, ho, hb, hl, hv, hu⟩
  · simp at h1
  · refine OK.bind (Y := fun _ _ => False) (obj_ok ho) ?_ (fun _ _ hf => hf.elim)
    rintro _ _ ⟨rfl, rfl⟩
    have := hi.window (off' := off + start) (sub' := len) ho hb (by omega)
    refine ⟨this.1, ?_⟩
    have he : (l.drop start).take len = (xs.drop (off + start)).take len := by
      rw [← hv, List.drop_take, List.take_take, List.drop_drop, Nat.min_eq_left (by omega)]
    rw [he]; exact this.2

theorem popBack_ok {w : W V} {o : Nat} {l : List V} (hi : Inv w k) (h : Is (shown w) o l) (h1 : l ≠ [])
    {X : Exc → W V → Prop} : OK (popBack o) w (fun _ w' => Inv w' k ∧ shown w' = (shown w).set o (some l.dropLast)) X := by
  rcases hi.cases h with ⟨ho, rfl⟩ | ⟨r, off, xs, ho, hb, hl, hv, hu⟩
  · exact absurd rfl h1
  · refine OK.bind (Y := fun _ _ => False) (obj_ok ho) ?_ (fun _ _ hf => hf.elim)
    rintro _ _ ⟨rfl, rfl⟩
    have := hi.window (off' := off) (sub' := l.length - 1) ho hb (by omega)
    refine ⟨this.1, ?_⟩
    have he : l.dropLast = (xs.drop off).take (l.length - 1) := by
      rw [List.dropLast_eq_take]
      conv => lhs; rw [← hv]
      rw [List.take_take]
      congr 1
      have : ((xs.drop off).take l.length).length = l.length := by rw [hv]
      omega
    rw [he]; exact this.2

theorem doDetach_ok {w : W V} {o r off sub : Nat} {xs : List V} (hi : Inv w k) (ho : w.objs[o]? = some (some ⟨some r, off, sub⟩))
    (hb : w.blks[r]? = some (some ⟨xs.map some, users w r⟩)) (hu : 2 ≤ users w r) {X : Exc → W V → Prop} :
    OK (doDetach o) w (fun _ w' => Inv w' k ∧ shown w' = (shown w).set o (some []) ∧ w'.objs[o]? = some (some ⟨none, 0, 0⟩)) X := by
  have hol : o < w.objs.length := (List.getElem?_eq_some_iff.mp ho).1
  refine OK.bind (Y := fun _ _ => False) (obj_ok ho) ?_ (fun _ _ hf => hf.elim)
  rintro _ _ ⟨rfl, rfl⟩
  refine OK.bind (Y := fun _ _ => False) (blk_ok hb) ?_ (fun _ _ hf => hf.elim)
  rintro _ _ ⟨rfl, rfl⟩
  have := hi.left (y := some ⟨none, 0, 0⟩) ho hb (.inr rfl) w.clock
  unfold left at this
  rw [if_neg (by omega)] at this
  exact ⟨this.1, this.2, by simp [hol]⟩

theorem clear_ok {w : W V} {o : Nat} {l : List V} (hi : Inv w k) (h : Is (shown w) o l) {X : Exc → W V → Prop} :
    OK (clear o) w (fun _ w' => Inv w' k ∧ shown w' = (shown w).set o (some []) ∧ Alone w' o) X := by
  refine OK.bind (Y := fun _ _ => False) (isShared_ok hi h) ?_ (fun _ _ hf => hf.elim)
  rintro b _ ⟨rfl, hal, hsh, -⟩
  cases b with
  | true =>
    obtain ⟨r, off, xs, ho, hb, hl, hv, hu⟩ := hsh rfl
    refine (doDetach_ok hi ho hb hu (X := X)).mono ?_ (fun _ _ hx => hx)
    rintro _ w' ⟨h1, h2, h3⟩
    refine ⟨h1, h2, ?_⟩
    intro p ob ob' _ h4 _ h5
    rw [h3] at h4; cases h4
    exact absurd rfl h5
  | false =>
    have ha := hal rfl
    rcases hi.cases h with ⟨ho, rfl⟩ | ⟨r, off, xs, ho, hb, hl, hv, hu⟩
    · refine OK.bind (Y := fun _ _ => False) (obj_ok ho) ?_ (fun _ _ hf => hf.elim)
      rintro _ _ ⟨rfl, rfl⟩
      show Inv { w with objs := _ } k ∧ _
      rw [set_same ho]
      exact ⟨hi, by rw [set_same h], ha⟩
    · refine OK.bind (Y := fun _ _ => False) (obj_ok ho) ?_ (fun _ _ hf => hf.elim)
      rintro _ _ ⟨rfl, rfl⟩
      obtain ⟨h1, h2⟩ := hi.window (off' := 0) (sub' := 0) ho hb (by omega)
      refine ⟨h1, by simpa using h2, ?_⟩
      intro p ob ob' hp h4 h5 h6
      have hol : o < w.objs.length := (List.getElem?_eq_some_iff.mp ho).1
      simp only [List.getElem?_set_self hol] at h4
      cases h4
      simp only [List.getElem?_set_ne (Ne.symm hp)] at h5
      exact ha p ⟨some r, off, l.length⟩ ob' hp ho h5 (by simp)

theorem checkDealloc_left {w : W V} {o r off sub : Nat} {xs : List V} (ho : w.objs[o]? = some (some ⟨some r, off, sub⟩))
    (hb : w.blks[r]? = some (some ⟨xs.map some, users w r⟩)) {X : Exc → W V → Prop} :
    OK (checkDealloc o) w (fun _ w' => w'.objs = w.objs ∧ ∀ y, { w' with objs := w.objs.set o y } = left w o r y xs w.clock) X := by
  refine OK.bind (Y := fun _ _ => False) (obj_ok ho) ?_ (fun _ _ hf => hf.elim)
  rintro _ _ ⟨rfl, rfl⟩
  refine OK.bind (Y := fun _ _ => False) (blk_ok hb) ?_ (fun _ _ hf => hf.elim)
  rintro _ _ ⟨rfl, rfl⟩
  simp only
  by_cases hle : users w r ≤ 1
  · rw [if_pos hle]
    refine OK.bind (Y := fun _ _ => False) (freeBuf_ok hb) ?_ (fun _ _ hf => hf.elim)
    rintro _ _ rfl
    exact ⟨rfl, fun y => by simp [left, hle]⟩
  · rw [if_neg hle]
    exact ⟨rfl, fun y => by simp [left, hle]⟩

theorem destroy_ok {w : W V} {o : Nat} {l : List V} (hi : Inv w k) (h : Is (shown w) o l) {X : Exc → W V → Prop} :
    OK (destroy o) w (fun _ w' => Inv w' k ∧ shown w' = (shown w).set o none) X := by
  rcases hi.cases h with ⟨ho, rfl⟩ | ⟨r, off, xs, ho, hb, hl, hv, hu⟩
  · refine OK.bind (P := fun _ w' => w = w') (Y := fun _ _ => False) ?_ ?_ (fun _ _ hf => hf.elim)
    · refine OK.bind (Y := fun _ _ => False) (obj_ok ho) ?_ (fun _ _ hf => hf.elim)
      rintro _ _ ⟨rfl, rfl⟩
      exact rfl
    · rintro _ _ rfl
      have hu : ∀ q, users { w with objs := w.objs.set o none } q = users w q := fun q => users_set (y := none) ho rfl q
      refine hi.gen (y := none) ho rfl (fun ob h => by cases h) (fun _ _ q _ _ _ b hq => ⟨b.refs, hq⟩) ?_ hi.out
      intro q b hq
      rw [hu]; exact hi.blk q b hq
  · refine OK.bind (Y := fun _ _ => False) (checkDealloc_left ho hb) ?_ (fun _ _ hf => hf.elim)
    rintro _ w' ⟨h1, h2⟩
    have := hi.left (y := none) ho hb (.inl rfl) w.clock
    rw [← h2 none] at this
    show Inv { w' with objs := w'.objs.set o none } k ∧ shown { w' with objs := w'.objs.set o none } = _
    rw [h1]
    exact this

theorem ctor_ok {w : W V} (hi : Inv w k) {X : Exc → W V → Prop} :
    OK (ctor (V := V)) w (fun o w' => o = w.objs.length ∧ Inv w' k ∧ shown w' = shown w ++ [some []] ∧ Alone w' o) X := by
  refine ⟨rfl, hi.newObj.1, hi.newObj.2, ?_⟩
  intro p ob ob' _ h4 _ h5
  simp at h4
  subst h4
  exact absurd rfl h5

theorem users_app (w : W V) (q : Nat) : users { w with objs := w.objs ++ [some ⟨none, 0, 0⟩] } q = users w q := by
  simp [users, refOf]

theorem copyCtor_ok {w : W V} {p : Nat} {l : List V} (hi : Inv w k) (h : Is (shown w) p l) {X : Exc → W V → Prop} :
    OK (copyCtor (V := V) p) w (fun o w' => o = w.objs.length ∧ Inv w' k ∧ shown w' = shown w ++ [some l]) X := by
  rcases hi.cases h with ⟨ho, rfl⟩ | ⟨r, off, xs, ho, hb, hl, hv, hu⟩
  · refine OK.bind (P := fun ob w' => ob = ⟨none, 0, 0⟩ ∧ w = w') (Y := fun _ _ => False) ?_ ?_ (fun _ _ hf => hf.elim)
    · refine OK.bind (Y := fun _ _ => False) (obj_ok ho) ?_ (fun _ _ hf => hf.elim)
      rintro _ _ ⟨rfl, rfl⟩
      exact ⟨rfl, rfl⟩
    · rintro _ _ ⟨rfl, rfl⟩
      exact ⟨rfl, hi.newObj⟩
  · refine OK.bind (P := fun ob w' => ob = ⟨some r, off, l.length⟩ ∧ w' = { w with blks := w.blks.set r (some ⟨xs.map some, users w r + 1⟩) })
      (Y := fun _ _ => False) ?_ ?_ (fun _ _ hf => hf.elim)
    · refine OK.bind (Y := fun _ _ => False) (obj_ok ho) ?_ (fun _ _ hf => hf.elim)
      rintro _ _ ⟨rfl, rfl⟩
      refine OK.bind (Y := fun _ _ => False) (blk_ok hb) ?_ (fun _ _ hf => hf.elim)
      rintro _ _ ⟨rfl, rfl⟩
      exact ⟨rfl, rfl⟩
    · rintro _ _ ⟨rfl, rfl⟩
      obtain ⟨h1, h2⟩ := hi.newObj
      have hb' : ({ w with objs := w.objs ++ [some ⟨none, 0, 0⟩] } : W V).blks[r]? = some (some ⟨xs.map some, users { w with objs := w.objs ++ [some ⟨none, 0, 0⟩] } r⟩) := by
        rw [users_app]; exact hb
      obtain ⟨h3, h4⟩ := h1.joined (o := w.objs.length) (by simp) hb' hl
      rw [h2, hv] at h4
      have hlen : (shown w).length = w.objs.length := by simp [shown]
      unfold joined at h3 h4
      rw [users_app] at h3 h4
      simp only [List.set_append_right _ _ (Nat.le_refl _), Nat.sub_self, List.set_cons_zero] at h3 h4
      rw [← hlen, List.set_append_right _ _ (Nat.le_refl _), Nat.sub_self, List.set_cons_zero] at h4
      exact ⟨rfl, h3, h4⟩

end Bdlib.Elems
