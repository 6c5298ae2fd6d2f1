import Verif.Elems.Logic
import Verif.Spec.Elems

/-! The invariant of arrays whose elements may throw, and what making room for a change does. -/

namespace Bdlib.Elems

open Spec.Elems (Is)

variable {V α β : Type}

/-- The elements of an array, as `constBuf()` and `length()` show them. -/
def valueOf (w : W V) (ob : Ob) : Option (List V) :=
  match ob.ref with
  | none => if ob.sublen = 0 then some [] else none
  | some r => match w.blks[r]? with
    | some (some b) => readCells b.cells ob.offset ob.sublen
    | _ => none

/-- All arrays. -/
def shown (w : W V) : Spec.Elems.Arrays V := w.objs.map fun x => match x with
  | none => none
  | some ob => valueOf w ob

def refOf : Option Ob → Option Nat
  | none => none
  | some ob => ob.ref

def users (w : W V) (r : Nat) : Nat := w.objs.countP fun x => refOf x == some r

def held : Option (Blk V) → Bool
  | none => false
  | some b => !b.cells.isEmpty

/-- The number of buffers that arrays have. -/
def cap (w : W V) : Nat := w.blks.countP held

structure Inv (w : W V) (k : Nat) : Prop where
  obs : ∀ (o : Nat) (ob : Ob), w.objs[o]? = some (some ob) → (ob.ref = none ∧ ob.offset = 0 ∧ ob.sublen = 0) ∨
    ∃ (r : Nat) (xs : List V) (n : Nat), ob.ref = some r ∧ w.blks[r]? = some (some ⟨xs.map some, n⟩) ∧ ob.offset + ob.sublen ≤ xs.length
  blk : ∀ (r : Nat) (b : Blk V), w.blks[r]? = some (some b) → (∃ xs : List V, b.cells = xs.map some) ∧ b.refs = users w r ∧ 1 ≤ users w r
  out : w.out ≤ cap w + k

/-! ## Counting -/

theorem countP_two {p : α → Bool} : ∀ {l : List α} {i j : Nat} {a b : α}, l[i]? = some a → l[j]? = some b → p a = true → p b = true →
    l.countP p ≤ 1 → i = j
  | [], _, _, _, _, hi, _, _, _, _ => by simp at hi
  | x :: t, 0, 0, _, _, _, _, _, _, _ => rfl
  | x :: t, 0, j + 1, a, b, hi, hj, pa, pb, hc => by
    simp at hi hj
    subst hi
    have : 0 < t.countP p := List.countP_pos_iff.mpr ⟨b, List.mem_of_getElem? hj, pb⟩
    rw [List.countP_cons_of_pos pa] at hc
    omega
  | x :: t, i + 1, 0, a, b, hi, hj, pa, pb, hc => by
    simp at hi hj
    subst hj
    have : 0 < t.countP p := List.countP_pos_iff.mpr ⟨a, List.mem_of_getElem? hi, pa⟩
    rw [List.countP_cons_of_pos pb] at hc
    omega
  | x :: t, i + 1, j + 1, a, b, hi, hj, pa, pb, hc => by
    simp at hi hj
    have hc' : t.countP p ≤ 1 := Nat.le_trans (by rw [List.countP_cons]; omega) hc
    rw [countP_two hi hj pa pb hc']

theorem countP_upd {p : α → Bool} {l : List α} {i : Nat} {a b : α} (h : l[i]? = some a) :
    (l.set i b).countP p + (if p a = true then 1 else 0) = l.countP p + (if p b = true then 1 else 0) := by
  obtain ⟨hl, ha⟩ := List.getElem?_eq_some_iff.mp h
  rw [List.countP_set hl, ha]
  have : p a = true → 1 ≤ l.countP p := fun hp => List.countP_pos_iff.mpr ⟨a, List.mem_of_getElem? h, hp⟩
  split <;> rename_i hp
  · have := this hp; omega
  · omega

theorem users_set {w : W V} {o : Nat} {x y : Option Ob} (h : w.objs[o]? = some x) (he : refOf y = refOf x) (r : Nat) :
    (w.objs.set o y).countP (fun x => refOf x == some r) = users w r := by
  have := countP_upd (p := fun x => refOf x == some r) (b := y) h
  simp only [he] at this
  unfold users
  omega

theorem held_some1 (xs : List V) (n : Nat) : (if held (some ⟨xs.map some, n⟩) = true then 1 else 0) = some1 xs := by
  cases xs <;> simp [held, some1]

theorem cap_set {w : W V} {r n m : Nat} {xs ys : List V} (h : w.blks[r]? = some (some ⟨xs.map some, n⟩)) :
    (w.blks.set r (some ⟨ys.map some, m⟩)).countP held + some1 xs = cap w + some1 ys := by
  have := countP_upd (p := held) (b := some ⟨ys.map some, m⟩) h
  rw [held_some1, held_some1] at this
  exact this

/-! ## Objects and what they show -/

theorem shown_get {w : W V} {o : Nat} {ob : Ob} (h : w.objs[o]? = some (some ob)) : (shown w)[o]? = some (valueOf w ob) := by
  simp [shown, h]

theorem shown_is {w : W V} {o : Nat} {l : List V} (h : Is (shown w) o l) : ∃ ob, w.objs[o]? = some (some ob) ∧ valueOf w ob = some l := by
  simp only [Is, shown, List.getElem?_map, Option.map_eq_some_iff] at h
  obtain ⟨x, hx, hv⟩ := h
  cases x with
  | none => simp at hv
  | some ob => exact ⟨ob, hx, hv⟩

theorem valueOf_own {w : W V} {r n off sub : Nat} {xs : List V} (h : w.blks[r]? = some (some ⟨xs.map some, n⟩)) (hl : off + sub ≤ xs.length) :
    valueOf w ⟨some r, off, sub⟩ = some ((xs.drop off).take sub) := by
  simp only [valueOf, h]
  exact readCells_eq _ _ _ hl

/-- An array that is there is empty without a buffer, or has its elements in one. -/
theorem Inv.cases {w : W V} {k o : Nat} {l : List V} (hi : Inv w k) (h : Is (shown w) o l) :
    (w.objs[o]? = some (some ⟨none, 0, 0⟩) ∧ l = []) ∨
      ∃ (r off : Nat) (xs : List V), w.objs[o]? = some (some ⟨some r, off, l.length⟩) ∧ w.blks[r]? = some (some ⟨xs.map some, users w r⟩) ∧
        off + l.length ≤ xs.length ∧ (xs.drop off).take l.length = l ∧ 1 ≤ users w r := by
  obtain ⟨ob, ho, hv⟩ := shown_is h
  rcases hi.obs o ob ho with ⟨h1, h2, h3⟩ | ⟨r, xs, n, h1, h2, h3⟩
  · left
    obtain ⟨rf, off, sub⟩ := ob
    simp only at h1 h2 h3; subst h1; subst h2; subst h3
    refine ⟨ho, ?_⟩
    simpa [valueOf] using hv.symm
  · right
    obtain ⟨rf, off, sub⟩ := ob
    simp only at h1 h3; subst h1
    rw [valueOf_own h2 h3] at hv
    cases hv
    obtain ⟨-, hn, hu⟩ := hi.blk r _ h2
    simp only at hn; subst hn
    have hs : ((xs.drop off).take sub).length = sub := by simp; omega
    rw [hs]
    exact ⟨r, off, xs, ho, h2, h3, rfl, hu⟩

/-- Array `o` has its elements in a buffer that no other has. -/
structure At (w : W V) (o r off sub : Nat) (xs : List V) : Prop where
  obj : w.objs[o]? = some (some ⟨some r, off, sub⟩)
  blk : w.blks[r]? = some (some ⟨xs.map some, 1⟩)
  len : off + sub ≤ xs.length

theorem At.shown {w : W V} {o r off sub : Nat} {xs : List V} (h : At w o r off sub xs) : Is (shown w) o ((xs.drop off).take sub) := by
  rw [Is, shown_get h.obj, valueOf_own h.blk h.len]

theorem At.other {w : W V} {k o r off sub : Nat} {xs : List V} (hi : Inv w k) (h : At w o r off sub xs) {p : Nat} {x : Option Ob} (hp : w.objs[p]? = some x)
    (hr : refOf x = some r) : p = o := by
  have hu : users w r = 1 := (hi.blk r _ h.blk).2.1.symm
  exact countP_two (p := fun x => refOf x == some r) hp h.obj (by simp [hr]) (by simp [refOf]) (by unfold users at hu; omega)

/-- The own buffer, its cells and the window may change. -/
theorem Inv.change {w : W V} {k o r off sub : Nat} {xs : List V} (hi : Inv w k) (h : At w o r off sub xs) (ys : List V) (off' sub' c out' k' : Nat)
    (hl : off' + sub' ≤ ys.length) (hout : out' + some1 xs + k ≤ w.out + some1 ys + k') :
    let w' : W V := ⟨w.blks.set r (some ⟨ys.map some, 1⟩), w.objs.set o (some ⟨some r, off', sub'⟩), c, out'⟩
    Inv w' k' ∧ shown w' = (shown w).set o (some ((ys.drop off').take sub')) ∧ At w' o r off' sub' ys := by
  intro w'
  have hol : o < w.objs.length := (List.getElem?_eq_some_iff.mp h.obj).1
  have hrl : r < w.blks.length := (List.getElem?_eq_some_iff.mp h.blk).1
  have hu : users w r = 1 := (hi.blk r _ h.blk).2.1.symm
  have husers : ∀ q, users w' q = users w q := fun q => users_set (y := some ⟨some r, off', sub'⟩) h.obj rfl q
  have hat : At w' o r off' sub' ys := ⟨by simp [w', hol], by simp [w', hrl], hl⟩
  have hoth : ∀ p x, p ≠ o → w.objs[p]? = some x → refOf x ≠ some r := fun p x hp hx he => hp (At.other hi h hx he)
  refine ⟨⟨?_, ?_, ?_⟩, ?_, hat⟩
  · intro p ob hp
    by_cases hpo : p = o
    · subst hpo
      rw [hat.obj] at hp; cases hp
      exact .inr ⟨r, ys, 1, rfl, hat.blk, hl⟩
    · have hp' : w.objs[p]? = some (some ob) := by simpa [w', List.getElem?_set_ne (Ne.symm hpo)] using hp
      rcases hi.obs p ob hp' with hh | ⟨q, zs, n, h1, h2, h3⟩
      · exact .inl hh
      · have hqr : q ≠ r := fun he => hoth p _ hpo hp' (by rw [refOf, h1, he])
        exact .inr ⟨q, zs, n, h1, by simpa [w', List.getElem?_set_ne (Ne.symm hqr)] using h2, h3⟩
  · intro q b hq
    rw [husers]
    by_cases hqr : q = r
    · subst hqr
      rw [hat.blk] at hq; cases hq
      exact ⟨⟨ys, rfl⟩, hu.symm, by omega⟩
    · exact hi.blk q b (by simpa [w', List.getElem?_set_ne (Ne.symm hqr)] using hq)
  · have hc : cap w' + some1 xs = cap w + some1 ys := cap_set h.blk
    have := hi.out
    show out' ≤ cap w' + k'
    omega
  · apply List.ext_getElem?
    intro p
    by_cases hpo : p = o
    · subst hpo
      rw [hat.shown, List.getElem?_set_self (by simp [Elems.shown, hol])]
    · rw [List.getElem?_set_ne (Ne.symm hpo)]
      simp only [Elems.shown, List.getElem?_map]
      rw [show w'.objs[p]? = w.objs[p]? by simp [w', List.getElem?_set_ne (Ne.symm hpo)]]
      cases hx : w.objs[p]? with
      | none => rfl
      | some x =>
        cases x with
        | none => rfl
        | some ob =>
          simp only [Option.map_some]
          congr 1
          unfold valueOf
          cases hrf : ob.ref with
          | none => rfl
          | some q =>
            have hqr : q ≠ r := fun he => hoth p _ hpo hx (by rw [refOf, hrf, he])
            simp only
            rw [show w'.blks[q]? = w.blks[q]? by simp [w', List.getElem?_set_ne (Ne.symm hqr)]]

theorem set_same {l : List α} {i : Nat} {a : α} (h : l[i]? = some a) : l.set i a = l := by
  obtain ⟨hl, he⟩ := List.getElem?_eq_some_iff.mp h
  rw [← he]; exact List.set_getElem_self hl

/-- The cells change, not their number. -/
theorem Inv.upd {w : W V} {k o r off sub : Nat} {xs : List V} (hi : Inv w k) (h : At w o r off sub xs) {ys : List V} (hy : ys.length = xs.length) (c : Nat) :
    Inv (upd w r ys 1 c w.out) k ∧ shown (Elems.upd w r ys 1 c w.out) = (shown w).set o (some ((ys.drop off).take sub)) ∧
      At (Elems.upd w r ys 1 c w.out) o r off sub ys := by
  have h1 : some1 ys = some1 xs := by cases ys <;> cases xs <;> simp_all [some1]
  have := hi.change h ys off sub c w.out k (by rw [hy]; exact h.len) (by omega)
  simp only [set_same h.obj] at this
  exact this

theorem setLength_ok {w : W V} {k o r off sub : Nat} {xs : List V} (hi : Inv w k) (h : At w o r off sub xs) {n : Nat} (hn : off + n ≤ xs.length)
    {X : Exc → W V → Prop} :
    OK (setLength o n) w (fun _ w' => Inv w' k ∧ shown w' = (shown w).set o (some ((xs.drop off).take n)) ∧ At w' o r off n xs) X := by
  refine OK.bind (Y := fun _ _ => False) (obj_ok h.obj) ?_ (fun _ _ hf => hf.elim)
  rintro _ _ ⟨rfl, rfl⟩
  have := hi.change h xs off n w.clock w.out k hn (by omega)
  simp only [set_same h.blk] at this
  exact this

variable (F : Faults) (E : Ty V)

/-- Copying elements over cells of the own buffer. -/
theorem assignFrom_ok {w : W V} {k o r off sub pos : Nat} {xs us : List V} (hi : Inv w k) (h : At w o r off sub xs) (hl : off + pos + us.length ≤ xs.length) :
    OK (assignFrom F E o pos us) w
      (fun _ w' => Inv w' k ∧ shown w' = (shown w).set o (some (((over xs (off + pos) us).drop off).take sub)) ∧ At w' o r off sub (over xs (off + pos) us))
      (fun e w' => e = .fault ∧ Inv w' k ∧ ∃ ys : List V, ys.length = xs.length ∧ ys.take (off + pos) = xs.take (off + pos) ∧
        shown w' = (shown w).set o (some ((ys.drop off).take sub))) := by
  refine OK.bind (Y := fun _ _ => False) (obj_ok h.obj) ?_ (fun _ _ hf => hf.elim)
  rintro _ _ ⟨rfl, rfl⟩
  refine (assignCells_ok F E us h.blk hl).mono ?_ ?_
  · rintro _ _ ⟨c, rfl⟩
    exact hi.upd h (over_length _ _ _) c
  · rintro _ _ ⟨he, c, ys, hy, ht, rfl⟩
    obtain ⟨h1, h2, -⟩ := hi.upd h hy c
    exact ⟨he, h1, ys, hy, ht, h2⟩

/-- Moving the elements behind `pos` up. -/
theorem shiftUp_ok {w : W V} {k o r off sub pos m : Nat} {xs : List V} (hi : Inv w k) (h : At w o r off sub xs) (hp : pos ≤ sub)
    (hl : off + sub + m ≤ xs.length) :
    OK (shiftUp F E o pos m) w
      (fun _ w' => Inv w' k ∧ ∃ ys : List V, ys.length = xs.length ∧ (ys.drop off).take pos = (xs.drop off).take pos ∧
        (ys.drop (off + pos + m)).take (sub - pos) = (xs.drop (off + pos)).take (sub - pos) ∧ (pos = sub → ys = xs) ∧
        shown w' = (shown w).set o (some ((ys.drop off).take sub)) ∧ At w' o r off sub ys)
      (fun e w' => e = .fault ∧ pos ≠ sub ∧ Inv w' k ∧ ∃ ys : List V, ys.length = xs.length ∧ ys.take (off + pos) = xs.take (off + pos) ∧
        shown w' = (shown w).set o (some ((ys.drop off).take sub))) := by
  refine OK.bind (Y := fun _ _ => False) (obj_ok h.obj) ?_ (fun _ _ hf => hf.elim)
  rintro _ _ ⟨rfl, rfl⟩
  by_cases hps : pos = sub
  · subst hps
    simp only [Nat.sub_self]
    refine OK.pure () w ⟨hi, xs, rfl, rfl, by simp, fun _ => rfl, ?_, h⟩
    rw [set_same]; exact h.shown
  · have hsub : sub - pos + (off + pos) + m ≤ xs.length := by omega
    refine (copyUp_ok F E (off + pos) m (sub - pos) h.blk (by omega)).mono ?_ ?_
    · rintro _ _ ⟨c, rfl⟩
      obtain ⟨h1, h2, h3⟩ := hi.upd h (slidUp_length (off + pos) m (sub - pos) xs) c
      obtain ⟨g1, g2, -⟩ := slidUp_get (off + pos) m (sub - pos) xs (by omega)
      refine ⟨h1, _, slidUp_length _ _ _ _, ?_, ?_, fun hh => absurd hh hps, h2, h3⟩
      · apply List.ext_getElem?
        intro j
        by_cases hj : j < pos
        · simp only [List.getElem?_take, hj, if_true, List.getElem?_drop]
          exact g2 _ (by omega)
        · simp only [List.getElem?_take, hj, if_false]
      · apply List.ext_getElem?
        intro j
        by_cases hj : j < sub - pos
        · simp only [List.getElem?_take, hj, if_true, List.getElem?_drop]
          exact g1 _ hj
        · simp only [List.getElem?_take, hj, if_false]
    · rintro _ _ ⟨he, -, c, ys, hy, ht, rfl⟩
      obtain ⟨h1, h2, -⟩ := hi.upd h hy c
      refine ⟨he, hps, h1, ys, hy, ?_, h2⟩
      have := congrArg (List.take (off + pos)) ht
      simpa [List.take_take, Nat.min_eq_left (show off + pos ≤ off + pos + m by omega)] using this

/-! ## Room -/

/-- No other array has the buffer of `o`. -/
def Alone (w : W V) (o : Nat) : Prop :=
  ∀ p ob ob', p ≠ o → w.objs[o]? = some (some ob) → w.objs[p]? = some (some ob') → ob.ref ≠ none → ob'.ref ≠ ob.ref

theorem alone_of {w : W V} {k o r off sub : Nat} {xs : List V} (hi : Inv w k) (h : At w o r off sub xs) : Alone w o := by
  intro p ob ob' hp ho hpo _ he
  rw [h.obj] at ho; cases ho
  exact hp (At.other hi h hpo (by simpa [refOf] using he))

/-- Giving an array without a buffer an `ArrayRef`. -/
theorem Inv.newRef {w : W V} {k o : Nat} (hi : Inv w k) (h : w.objs[o]? = some (some ⟨none, 0, 0⟩)) (c : Nat) :
    let w' : W V := ⟨w.blks ++ [some ⟨[], 1⟩], w.objs.set o (some ⟨some w.blks.length, 0, 0⟩), c, w.out⟩
    Inv w' k ∧ shown w' = shown w ∧ At w' o w.blks.length 0 0 [] := by
  intro w'
  have hol : o < w.objs.length := (List.getElem?_eq_some_iff.mp h).1
  have hfresh : ∀ (p : Nat) (x : Option Ob), w.objs[p]? = some x → refOf x ≠ some w.blks.length := by
    intro p x hx he
    cases x with
    | none => simp [refOf] at he
    | some ob =>
      rcases hi.obs p ob hx with ⟨h1, -⟩ | ⟨r, xs, n, h1, h2, -⟩
      · simp [refOf, h1] at he
      · simp [refOf, h1] at he
        have := (List.getElem?_eq_some_iff.mp h2).1
        omega
  have hu0 : users w w.blks.length = 0 := by
    unfold users
    rw [List.countP_eq_zero]
    intro x hx
    obtain ⟨p, hp⟩ := List.mem_iff_getElem?.mp hx
    simpa using hfresh p x hp
  have hset : ∀ q, users w' q + 0 = users w q + (if (some w.blks.length == some q) = true then 1 else 0) := by
    intro q
    have := countP_upd (p := fun x => refOf x == some q) (b := some ⟨some w.blks.length, 0, 0⟩) h
    simpa [refOf, users, w'] using this
  have hat : At w' o w.blks.length 0 0 [] := ⟨by simp [w', hol], by simp [w'], by simp⟩
  have hbl : ∀ q, q < w.blks.length → w'.blks[q]? = w.blks[q]? := fun q hq => by simp [w', List.getElem?_append_left hq]
  refine ⟨⟨?_, ?_, ?_⟩, ?_, hat⟩
  · intro p ob hp
    by_cases hpo : p = o
    · subst hpo
      rw [hat.obj] at hp; cases hp
      exact .inr ⟨_, [], 1, rfl, hat.blk, by simp⟩
    · have hp' : w.objs[p]? = some (some ob) := by simpa [w', List.getElem?_set_ne (Ne.symm hpo)] using hp
      rcases hi.obs p ob hp' with hh | ⟨q, zs, n, h1, h2, h3⟩
      · exact .inl hh
      · exact .inr ⟨q, zs, n, h1, by rw [hbl q (List.getElem?_eq_some_iff.mp h2).1]; exact h2, h3⟩
  · intro q b hq
    have hs := hset q
    by_cases hql : q = w.blks.length
    · subst hql
      rw [hat.blk] at hq; cases hq
      simp at hs
      exact ⟨⟨[], rfl⟩, by simp [hs, hu0], by omega⟩
    · have hlt : q < w.blks.length := by
        have := (List.getElem?_eq_some_iff.mp hq).1
        simp [w'] at this; omega
      rw [hbl q hlt] at hq
      obtain ⟨h1, h2, h3⟩ := hi.blk q b hq
      rw [if_neg (by simpa using fun h => hql h.symm)] at hs
      exact ⟨h1, by rw [h2]; omega, by omega⟩
  · have : cap w' = cap w := by simp [cap, w', held]
    have := hi.out
    show w.out ≤ cap w' + k
    omega
  · apply List.ext_getElem?
    intro p
    simp only [Elems.shown, List.getElem?_map]
    by_cases hpo : p = o
    · subst hpo
      rw [hat.obj, h]
      simp only [Option.map_some]
      rw [valueOf_own hat.blk hat.len]
      simp [valueOf]
    · rw [show w'.objs[p]? = w.objs[p]? by simp [w', List.getElem?_set_ne (Ne.symm hpo)]]
      cases hx : w.objs[p]? with
      | none => rfl
      | some x =>
        cases x with
        | none => rfl
        | some ob =>
          simp only [Option.map_some]
          congr 1
          unfold valueOf
          rcases hi.obs p ob hx with ⟨h1, -⟩ | ⟨q, zs, n, h1, h2, -⟩
          · rw [h1]
          · rw [h1]; simp only; rw [hbl q (List.getElem?_eq_some_iff.mp h2).1]

/-- Room for `n` elements in a buffer that no other array has (`l` are the elements). -/
theorem reserve_ok {w : W V} {k o n : Nat} {l : List V} (scale : Nat → Nat) (hi : Inv w k) (h : Is (shown w) o l) (ha : Alone w o) (hn : l.length ≤ n) :
    OK (reserve F E o n scale) w
      (fun _ w' => Inv w' k ∧ shown w' = shown w ∧ ∃ r off xs, At w' o r off l.length xs ∧ off + n ≤ xs.length)
      (fun e w' => e = .fault ∧ Inv w' (k + 1) ∧ ∃ l', l'.length = l.length ∧ (NoMove F → l' = l) ∧ shown w' = (shown w).set o (some l')) := by
  -- with an `ArrayRef` of its own
  have key : ∀ (w1 : W V) (r off : Nat) (xs : List V), Inv w1 k → shown w1 = shown w → At w1 o r off l.length xs → (xs.drop off).take l.length = l →
      OK (do let off ← arefReserve F E r n scale off l.length; setObj o ⟨some r, off, l.length⟩) w1
      (fun _ w' => Inv w' k ∧ shown w' = shown w ∧ ∃ r off xs, At w' o r off l.length xs ∧ off + n ≤ xs.length)
      (fun e w' => e = .fault ∧ Inv w' (k + 1) ∧ ∃ l', l'.length = l.length ∧ (NoMove F → l' = l) ∧ shown w' = (shown w).set o (some l')) := by
    intro w1 r off xs hi1 hs1 hat hl
    refine OK.bind (arefReserve_ok F E scale hat.blk hat.len hn) ?_ ?_
    · rintro off' _ ⟨c, ys, out', rfl, hr, hv, hout⟩
      obtain ⟨h1, h2, h3⟩ := hi1.change hat ys off' l.length c out' k (by omega) (by omega)
      refine ⟨h1, ?_, r, off', ys, h3, hr⟩
      rw [hv, hl, hs1, set_same h] at h2
      exact h2
    · rintro _ _ ⟨he, c, ys, out', rfl, hy, hout, hnm⟩
      have hsame : some1 ys = some1 xs := by cases ys <;> cases xs <;> simp_all [some1]
      obtain ⟨h1, h2, -⟩ := hi1.change hat ys off l.length c out' (k + 1) (by rw [hy]; exact hat.len) (by omega)
      rw [set_same hat.obj, hs1] at h2
      rw [set_same hat.obj] at h1
      refine ⟨he, h1, _, ?_, ?_, h2⟩
      · have := hat.len
        simp; omega
      · intro hm
        rw [hnm hm]; exact hl
  rcases hi.cases h with ⟨ho, rfl⟩ | ⟨r, off, xs, ho, hb, hl, hv, hu⟩
  · refine OK.bind (Y := fun _ _ => False) (obj_ok ho) ?_ (fun _ _ hf => hf.elim)
    rintro _ _ ⟨rfl, rfl⟩
    obtain ⟨h1, h2, h3⟩ := hi.newRef ho (w.clock + 1)
    refine OK.bind (P := fun r w' => r = w.blks.length ∧ w' = ⟨w.blks ++ [some ⟨[], 1⟩], w.objs.set o (some ⟨some w.blks.length, 0, 0⟩), w.clock + 1, w.out⟩)
      (Y := fun e w' => e = .fault ∧ w' = { w with clock := w.clock + 1 }) ?_ ?_ ?_
    · unfold OK
      simp only [newRef]
      by_cases hf : F w.clock .alloc = true
      · rw [if_pos hf]; exact ⟨rfl, rfl⟩
      · rw [if_neg hf]; exact ⟨rfl, rfl⟩
    · rintro _ _ ⟨rfl, rfl⟩
      exact key _ _ 0 [] h1 h2 h3 rfl
    · rintro _ _ ⟨he, rfl⟩
      refine ⟨he, ⟨hi.obs, hi.blk, Nat.le_succ_of_le hi.out⟩, [], rfl, fun _ => rfl, ?_⟩
      rw [set_same h]; rfl
  · have hu1 : users w r = 1 := by
      have : users w r ≤ 1 := by
        apply Nat.le_of_not_lt
        intro hgt
        -- another user
        have h2 : 1 ≤ ((w.objs.set o none).countP fun x => refOf x == some r) := by
          have := countP_upd (p := fun x => refOf x == some r) (b := none) ho
          rw [if_pos (by simp [refOf]), if_neg (by simp [refOf])] at this
          unfold users at hgt
          omega
        obtain ⟨x, hx, hp⟩ := List.countP_pos_iff.mp h2
        obtain ⟨p, hp'⟩ := List.mem_iff_getElem?.mp hx
        have hpo : p ≠ o := by
          intro he; subst he
          rw [List.getElem?_set_self (List.getElem?_eq_some_iff.mp ho).1] at hp'
          cases hp'; simp [refOf] at hp
        rw [List.getElem?_set_ne (Ne.symm hpo)] at hp'
        cases x with
        | none => simp [refOf] at hp
        | some ob => exact ha p _ ob hpo ho hp' (by simp) (by simpa [refOf] using hp)
      omega
    rw [hu1] at hb
    refine OK.bind (Y := fun _ _ => False) (obj_ok ho) ?_ (fun _ _ hf => hf.elim)
    rintro _ _ ⟨rfl, rfl⟩
    exact key w r off xs hi rfl ⟨ho, hb, hl⟩ hv

end Bdlib.Elems
