import Verif.Tcl.Objs

/-!
# C94: the values the library exchanges with scripts are neither leaked nor used after their release

`Reaches w x`: scripts can still get at the value `x`: it is the interpreter's result, in a variable, a word of a running command, or an element of
such a value.  After every history the values alive are exactly these, with the right counts, and nothing released is used.
-/

namespace Bdlib.Tcl.Objs
open Bdlib

/-- Everything the interpreter holds directly. -/
def World.roots (w : World) : List Nat := w.result :: (w.vars.map Prod.snd ++ w.frames.flatten)

/-- The value can be reached by scripts. -/
inductive Reaches (w : World) : Nat → Prop
  | root {x} (h : x ∈ w.roots) : Reaches w x
  | elem {x k n} (h : Reaches w x) (hn : get w.heap x = some n) (hk : k ∈ n.body.kids) : Reaches w k

/-- Everything values hold. -/
def held (h : Heap) : List Nat := h.flatMap fun o => match o with | some n => n.body.kids | none => []

/-- The values alive are those scripts can reach, and their counts are the numbers of holders. -/
structure Exact (w : World) : Prop where
  live : ∀ x, (get w.heap x).isSome ↔ Reaches w x
  counts : ∀ x n, get w.heap x = some n → n.refs = (w.roots ++ held w.heap).count x

/-- Two lists of the same length, pairwise related. -/
inductive Each {A B : Type} (P : A → B → Prop) : List A → List B → Prop
  | nil : Each P [] []
  | cons {a b as bs} (h : P a b) (t : Each P as bs) : Each P (a :: as) (b :: bs)

/-- The value at `x` is this text. -/
def IsText (h : Heap) (x : Nat) (b : List UInt8) : Prop := ∃ r, get h x = some ⟨r, .text b⟩

/-- The value at `x` is a list of these texts. -/
def IsArr (h : Heap) (x : Nat) (a : List (List UInt8)) : Prop := ∃ r ks, get h x = some ⟨r, .list ks⟩ ∧ Each (IsText h) ks a

/-- The value at `x` is what the C++ value is in Tcl. -/
def Shows (h : Heap) (x : Nat) : Value → Prop
  | .one b => IsText h x b
  | .arr a => IsArr h x a
  | .arr2 a => ∃ r ks, get h x = some ⟨r, .list ks⟩ ∧ Each (IsArr h) ks a

/-- All texts in it are short enough for Tcl. -/
def Value.short : Value → Prop
  | .one b => b.length < 2 ^ 31 - 1
  | .arr a => ∀ b ∈ a, b.length < 2 ^ 31 - 1
  | .arr2 a => ∀ r ∈ a, ∀ b ∈ r, b.length < 2 ^ 31 - 1

/-- The conversions in this step have no texts too long for Tcl; a linked text may be. -/
def Op.short : Op → Prop
  | .reply v => v.short
  | .read _ (.one _) => True
  | .read _ c => c.short
  | .write v => v.length < 2 ^ 31 - 1
  | _ => True

/-! ## The heap -/

theorem get_set {h : Heap} {x : Nat} {n : Node} (hx : get h x = some n) (o : Option Node) (y : Nat) :
    get (h.set x o) y = if y = x then o else get h y := by
  have hl : x < h.length := by
    rcases Nat.lt_or_ge x h.length with hl | hl
    · exact hl
    · simp [get, List.getElem?_eq_none hl] at hx
  unfold get
  rw [List.getElem?_set]
  by_cases e : x = y
  · subst e; simp [hl]
  · rw [if_neg e, if_neg (fun e' => e e'.symm)]

theorem held_set {h : Heap} {x : Nat} {n : Node} (hx : get h x = some n) (o : Option Node) (k : Nat) :
    (held (h.set x o)).count k + n.body.kids.count k = (held h).count k + (match o with | some m => m.body.kids | none => []).count k := by
  induction h generalizing x with
  | nil => simp [get] at hx
  | cons p h ih =>
    cases x with
    | zero =>
      simp [get] at hx
      subst hx
      simp only [held, List.set_cons_zero, List.flatMap_cons, List.count_append]
      omega
    | succ x =>
      have := ih (x := x) (by simpa [get] using hx)
      simp only [held, List.set_cons_succ, List.flatMap_cons, List.count_append] at this ⊢
      omega

theorem get_new {h : Heap} (b : Body) (y : Nat) :
    get (new b h).2 y = if y = h.length then some ⟨0, b⟩ else get h y := by
  unfold get new
  rcases Nat.lt_trichotomy y h.length with hy | rfl | hy
  · rw [List.getElem?_append_left hy, if_neg (by omega)]
  · simp
  · rw [List.getElem?_eq_none (by simp; omega), if_neg (by omega), List.getElem?_eq_none (by omega)]

theorem held_new {h : Heap} (b : Body) (k : Nat) : (held (new b h).2).count k = (held h).count k + b.kids.count k := by
  simp [held, new]

theorem get_new_none {h : Heap} : get h h.length = none := by simp [get]

/-- Some order in which every value comes after its elements. -/
def Ranked (h : Heap) : Prop := ∃ r : Nat → Nat, ∀ x n, get h x = some n → ∀ k ∈ n.body.kids, r k < r x

/-- `hs`: who holds what from outside; `fl`: values just made, held by nobody. -/
structure Inv (h : Heap) (hs fl : List Nat) : Prop where
  alive : ∀ x ∈ hs ++ held h, (get h x).isSome
  counts : ∀ x n, get h x = some n → n.refs = (hs ++ held h).count x
  float : ∀ x n, get h x = some n → n.refs = 0 → x ∈ fl
  ranked : Ranked h

theorem Inv.perm {h : Heap} {hs hs' fl : List Nat} (i : Inv h hs fl) (p : hs.Perm hs') : Inv h hs' fl := by
  have p' := p.append_right (held h)
  exact ⟨fun x hx => i.alive x (p'.mem_iff.2 hx), fun x n hn => (i.counts x n hn).trans (p'.count_eq x), i.float, i.ranked⟩

theorem mem_held {h : Heap} {x k : Nat} {n : Node} (hx : get h x = some n) (hk : k ∈ n.body.kids) : k ∈ held h := by
  unfold held
  rw [List.mem_flatMap]
  refine ⟨some n, ?_, hk⟩
  unfold get at hx
  rw [Option.join_eq_some_iff] at hx
  exact List.mem_of_getElem? hx

theorem held_mem {h : Heap} {k : Nat} (hk : k ∈ held h) : ∃ x n, get h x = some n ∧ k ∈ n.body.kids := by
  unfold held at hk
  obtain ⟨o, ho, hk⟩ := List.mem_flatMap.1 hk
  cases o with
  | none => simp at hk
  | some n =>
    obtain ⟨x, hx⟩ := List.mem_iff_getElem?.1 ho
    exact ⟨x, n, by simp [get, hx], hk⟩

/-- Taking a value out whose count has fallen to nothing: what it held is to be released. -/
theorem Inv.remove {h : Heap} {x : Nat} {n : Node} {hs fl : List Nat} (hx : get h x = some n)
    (alive : ∀ y ∈ hs ++ held h, (get h y).isSome) (counts : ∀ y m, get h y = some m → y ≠ x → m.refs = (hs ++ held h).count y)
    (float : ∀ y m, get h y = some m → y ≠ x → m.refs = 0 → y ∈ fl) (ranked : Ranked h) (h0 : (hs ++ held h).count x = 0) :
    Inv (h.set x none) (n.body.kids ++ hs) fl := by
  have hc : ∀ y, (n.body.kids ++ hs ++ held (h.set x none)).count y = (hs ++ held h).count y := by
    intro y
    have := held_set hx none y
    simp only [List.count_append, List.count_nil] at this ⊢
    omega
  have hm : ∀ y, y ∈ n.body.kids ++ hs ++ held (h.set x none) → y ∈ hs ++ held h := by
    intro y hy
    have := List.count_pos_iff.2 hy
    rw [hc] at this
    exact List.count_pos_iff.1 this
  have hne : ∀ y, y ∈ hs ++ held h → y ≠ x := by
    rintro y hy rfl
    have := List.count_pos_iff.2 hy
    omega
  obtain ⟨r, hr⟩ := ranked
  refine ⟨fun y hy => ?_, fun y m hm' => ?_, fun y m hm' h0' => ?_, ⟨r, fun y m hm' => ?_⟩⟩
  · rw [get_set hx, if_neg (hne y (hm y hy))]
    exact alive y (hm y hy)
  all_goals
    rw [get_set hx] at hm'
    split at hm'
    · exact absurd hm' (by nofun)
    · rename_i hne'
      first
        | rw [hc]; exact counts y m hm' hne'
        | exact float y m hm' hne' h0'
        | exact hr y m hm'

theorem release_nil (h : Heap) : Objs.release [] h = some h := by unfold Objs.release; rfl

theorem release_cons {h : Heap} {x : Nat} {n : Node} {xs : List Nat} (hx : get h x = some n) : Objs.release (x :: xs) h =
    if n.refs > 1 then Objs.release xs (h.set x (some { n with refs := n.refs - 1 })) else Objs.release (n.body.kids ++ xs) (h.set x none) := by
  rw [Objs.release]
  split
  · rename_i e'; rw [hx] at e'; exact absurd e' (by nofun)
  · rename_i n' e'
    rw [hx] at e'
    cases e'
    rfl

/-- Releasing what is held from outside. -/
theorem Inv.release {hs fl : List Nat} : ∀ (xs : List Nat) (h : Heap), Inv h (xs ++ hs) fl → ∃ h', Objs.release xs h = some h' ∧ Inv h' hs fl ∧
    (∀ x n, get h' x = some n → ∃ m, get h x = some m ∧ m.body = n.body) ∧ ∀ x n, get h x = some n → n.refs = 0 → get h' x = some n := by
  intro xs h
  induction xs, h using Objs.release.induct with
  | case1 h =>
    intro i
    exact ⟨h, by unfold Objs.release; rfl, i, fun x n hn => ⟨n, hn, rfl⟩, fun x n hx _ => hx⟩
  | case2 h x xs hx =>
    intro i
    have := i.alive x (by simp)
    rw [hx] at this
    exact absurd this (by simp)
  | case3 h x xs n hx hr ih =>
    intro i
    have hk : ∀ k, (held (h.set x (some { n with refs := n.refs - 1 }))).count k = (held h).count k := by
      intro k
      have := held_set hx (some { n with refs := n.refs - 1 }) k
      dsimp only at this
      omega
    have hmem : ∀ y, y ∈ held (h.set x (some { n with refs := n.refs - 1 })) → y ∈ held h := by
      intro y hy
      have := List.count_pos_iff.2 hy
      rw [hk] at this
      exact List.count_pos_iff.1 this
    have hsame : ∀ y m, get (h.set x (some { n with refs := n.refs - 1 })) y = some m → ∃ m', get h y = some m' ∧ m'.body = m.body := by
      intro y m hm
      rw [get_set hx] at hm
      split at hm
      · rename_i e; subst e; cases hm; exact ⟨n, hx, rfl⟩
      · exact ⟨m, hm, rfl⟩
    have hsome : ∀ y, (get h y).isSome → (get (h.set x (some { n with refs := n.refs - 1 })) y).isSome := by
      intro y hy
      rw [get_set hx]
      split
      · rfl
      · exact hy
    obtain ⟨r, hr'⟩ := i.ranked
    obtain ⟨h', e, i', s1, s2⟩ := ih ⟨fun y hy => hsome y (i.alive y (by
        rcases List.mem_append.1 hy with hy | hy
        · exact List.mem_append.2 (.inl (by simpa using .inr (List.mem_append.1 hy)))
        · exact List.mem_append.2 (.inr (hmem y hy)))),
      fun y m hm => by
        rw [get_set hx] at hm
        rw [List.count_append, hk]
        split at hm
        · rename_i e
          subst e
          cases hm
          have := i.counts y n hx
          simp only [List.cons_append, List.count_cons_self, List.count_append] at this ⊢
          omega
        · rename_i hne
          have := i.counts y m hm
          rw [List.cons_append, List.cons_append, List.count_cons_of_ne (fun e => hne e.symm), List.count_append] at this
          exact this,
      fun y m hm h0 => by
        rw [get_set hx] at hm
        split at hm
        · cases hm
          dsimp only at h0
          omega
        · exact i.float y m hm h0,
      ⟨r, fun y m hm k hk' => by
        obtain ⟨m', e1, e2⟩ := hsame y m hm
        exact hr' y m' e1 k (by rw [e2]; exact hk')⟩⟩
    refine ⟨h', ?_, i', fun y m hm => ?_, fun y m hm h0 => ?_⟩
    · rw [Objs.release]
      split
      · rename_i e'; rw [hx] at e'; exact absurd e' (by nofun)
      · rename_i n' e'
        rw [hx] at e'
        cases e'
        rw [if_pos hr]
        exact e
    · obtain ⟨m1, a1, a2⟩ := s1 y m hm
      obtain ⟨m2, b1, b2⟩ := hsame y m1 a1
      exact ⟨m2, b1, b2.trans a2⟩
    · refine s2 y m ?_ h0
      rw [get_set hx, if_neg]
      · exact hm
      · rintro rfl; rw [hx] at hm; cases hm; omega
  | case4 h x xs n hx hr ih =>
    intro i
    have hcx := i.counts x n hx
    simp only [List.cons_append, List.count_cons_self] at hcx
    have i1 : Inv (h.set x none) (n.body.kids ++ (xs ++ hs)) fl := by
      refine Inv.remove hx (fun y hy => i.alive y (by rw [List.cons_append]; exact List.mem_cons_of_mem _ hy)) (fun y m hm hne => ?_)
        (fun y m hm _ h0 => i.float y m hm h0) i.ranked (by omega)
      have := i.counts y m hm
      rw [List.cons_append, List.cons_append, List.count_cons_of_ne (fun e => hne e.symm)] at this
      exact this
    rw [← List.append_assoc] at i1
    obtain ⟨h', e, i', s1, s2⟩ := ih i1
    refine ⟨h', ?_, i', fun y m hm => ?_, fun y m hm h0 => ?_⟩
    · rw [Objs.release]
      split
      · rename_i e'; rw [hx] at e'; exact absurd e' (by nofun)
      · rename_i n' e'
        rw [hx] at e'
        cases e'
        rw [if_neg hr]
        exact e
    · obtain ⟨m1, a1, a2⟩ := s1 y m hm
      rw [get_set hx] at a1
      split at a1
      · exact absurd a1 (by nofun)
      · exact ⟨m1, a1, a2⟩
    · refine s2 y m ?_ h0
      rw [get_set hx, if_neg]
      · exact hm
      · rintro rfl; rw [hx] at hm; cases hm; omega

theorem Inv.more {h : Heap} {hs fl fl' : List Nat} (i : Inv h hs fl) (hf : ∀ x ∈ fl, x ∈ fl') : Inv h hs fl' :=
  ⟨i.alive, i.counts, fun x n hn h0 => hf x (i.float x n hn h0), i.ranked⟩

/-- Releasing a value nobody holds. -/
theorem Inv.drop {h : Heap} {x : Nat} {n : Node} {hs fl : List Nat} (i : Inv h hs (x :: fl)) (hx : get h x = some n) (h0 : n.refs = 0) :
    ∃ h', Objs.release [x] h = some h' ∧ Inv h' hs fl ∧ ∀ x n, get h' x = some n → ∃ m, get h x = some m ∧ m.body = n.body := by
  have i1 : Inv (h.set x none) (n.body.kids ++ hs) fl := by
    refine Inv.remove hx i.alive (fun y m hm _ => i.counts y m hm) (fun y m hm hne h0 => ?_) i.ranked (by rw [← i.counts x n hx]; exact h0)
    rcases List.mem_cons.1 (i.float y m hm h0) with e | e
    · exact absurd e hne
    · exact e
  obtain ⟨h', e, i', s1, _⟩ := Inv.release n.body.kids _ i1
  refine ⟨h', ?_, i', fun y m hm => ?_⟩
  · rw [Objs.release]
    split
    · rename_i e'; rw [hx] at e'; exact absurd e' (by nofun)
    · rename_i n' e'
      rw [hx] at e'
      cases e'
      rw [if_neg (by omega), List.append_nil]
      exact e
  · obtain ⟨m1, a1, a2⟩ := s1 y m hm
    rw [get_set hx] at a1
    split at a1
    · exact absurd a1 (by nofun)
    · exact ⟨m1, a1, a2⟩

/-- Making a value that takes over what is held. -/
theorem Inv.new {h : Heap} {hs fl : List Nat} (b : Body) (i : Inv h (b.kids ++ hs) fl) : Inv (Objs.new b h).2 hs (h.length :: fl) := by
  have hne : ∀ y ∈ b.kids ++ hs ++ held h, y ≠ h.length := by
    rintro y hy rfl
    have := i.alive _ hy
    rw [get_new_none] at this
    exact absurd this (by simp)
  have hc : ∀ y, (hs ++ held (Objs.new b h).2).count y = (b.kids ++ hs ++ held h).count y := by
    intro y
    have := held_new (h := h) b y
    simp only [List.count_append] at this ⊢
    omega
  have hm : ∀ y, y ∈ hs ++ held (Objs.new b h).2 → y ∈ b.kids ++ hs ++ held h := by
    intro y hy
    have := List.count_pos_iff.2 hy
    rw [hc] at this
    exact List.count_pos_iff.1 this
  obtain ⟨r, hr⟩ := i.ranked
  refine ⟨fun y hy => ?_, fun y m hm' => ?_, fun y m hm' h0 => ?_, ⟨fun y => if y = h.length then b.kids.foldr (fun k s => r k + s) 1 else r y, ?_⟩⟩
  · rw [get_new, if_neg (hne y (hm y hy))]
    exact i.alive y (hm y hy)
  · rw [get_new] at hm'
    rw [hc]
    split at hm'
    · rename_i e
      subst e
      cases hm'
      exact (List.count_eq_zero.2 fun hc => hne _ hc rfl).symm
    · exact i.counts y m hm'
  · rw [get_new] at hm'
    split at hm'
    · rename_i e; rw [e]; exact List.mem_cons_self
    · exact List.mem_cons_of_mem _ (i.float y m hm' h0)
  · intro y m hm' k hk
    rw [get_new] at hm'
    split at hm'
    · rename_i e
      cases hm'
      dsimp only at hk ⊢
      rw [if_pos e, if_neg (hne k (by simp [hk]))]
      clear hm hc hne i e
      generalize b.kids = ks at hk
      induction ks with
      | nil => simp at hk
      | cons c ks ih =>
        have hpos : ∀ ks : List Nat, 0 < ks.foldr (fun k s => r k + s) 1 := by
          intro ks
          induction ks with
          | nil => simp
          | cons c ks ih => simp only [List.foldr_cons]; omega
        rw [List.foldr_cons]
        rcases List.mem_cons.1 hk with rfl | hk
        · have := hpos ks; omega
        · have := ih hk; omega
    · rename_i hne'
      dsimp only
      rw [if_neg hne', if_neg (hne k (List.mem_append.2 (.inr (mem_held hm' hk))))]
      exact hr y m hm' k hk

/-- Holding a value. -/
theorem Inv.incr {h : Heap} {x : Nat} {n : Node} {hs fl : List Nat} (i : Inv h hs fl) (hx : get h x = some n) :
    Objs.incr x h = some (h.set x (some { n with refs := n.refs + 1 })) ∧
      Inv (h.set x (some { n with refs := n.refs + 1 })) (x :: hs) (fl.filter (· ≠ x)) := by
  refine ⟨by rw [Objs.incr, hx], ?_⟩
  have hk : ∀ k, (held (h.set x (some { n with refs := n.refs + 1 }))).count k = (held h).count k := by
    intro k
    have := held_set hx (some { n with refs := n.refs + 1 }) k
    dsimp only at this
    omega
  have hmem : ∀ y, y ∈ held (h.set x (some { n with refs := n.refs + 1 })) → y ∈ held h := by
    intro y hy
    have := List.count_pos_iff.2 hy
    rw [hk] at this
    exact List.count_pos_iff.1 this
  obtain ⟨r, hr⟩ := i.ranked
  refine ⟨fun y hy => ?_, fun y m hm => ?_, fun y m hm h0 => ?_, ⟨r, fun y m hm => ?_⟩⟩
  · rw [get_set hx]
    split
    · rfl
    · rename_i hne
      refine i.alive y ?_
      rcases List.mem_append.1 hy with hy | hy
      · rcases List.mem_cons.1 hy with e | hy
        · exact absurd e hne
        · exact List.mem_append.2 (.inl hy)
      · exact List.mem_append.2 (.inr (hmem y hy))
  · rw [get_set hx] at hm
    rw [List.count_append, hk]
    split at hm
    · rename_i e
      subst e
      cases hm
      have := i.counts y n hx
      simp only [List.count_cons_self, List.count_append] at this ⊢
      omega
    · rename_i hne
      rw [List.count_cons_of_ne (fun e => hne e.symm), ← List.count_append]
      exact i.counts y m hm
  · rw [get_set hx] at hm
    split at hm
    · cases hm; exact absurd h0 (by simp)
    · rename_i hne
      exact List.mem_filter.2 ⟨i.float y m hm h0, by simpa using hne⟩
  · rw [get_set hx] at hm
    split at hm
    · rename_i e; subst e; cases hm; exact hr y n hx
    · exact hr y m hm

theorem Inv.not_held {h : Heap} {hs fl : List Nat} {x : Nat} {b : Body} (i : Inv h hs fl) (hx : get h x = some ⟨0, b⟩) : x ∉ held h := by
  have := List.count_eq_zero.1 (i.counts x _ hx).symm
  exact fun hc => this (List.mem_append.2 (.inr hc))

/-- Putting a value at the end of a list that is no element itself. -/
theorem Inv.append {h : Heap} {l x c : Nat} {n : Node} {ks hs fl : List Nat} (i : Inv h hs fl) (hl : get h l = some ⟨c, .list ks⟩) (hc1 : c ≤ 1)
    (hno : l ∉ held h) (hx : get h x = some n) (hne : x ≠ l) : ∃ h', Objs.append l x h = some h' ∧ Inv h' hs (fl.filter (· ≠ x)) ∧
      get h' l = some ⟨c, .list (ks ++ [x])⟩ ∧ get h' x = some { n with refs := n.refs + 1 } ∧ (∀ y, y ≠ l → y ≠ x → get h' y = get h y) ∧
      h'.length = h.length := by
  obtain ⟨e1, i1⟩ := i.incr hx
  have hl1 : get (h.set x (some { n with refs := n.refs + 1 })) l = some ⟨c, .list ks⟩ := by rw [get_set hx, if_neg (fun e => hne e.symm)]; exact hl
  have hx1 : get (h.set x (some { n with refs := n.refs + 1 })) x = some { n with refs := n.refs + 1 } := by rw [get_set hx, if_pos rfl]
  have ho : ∀ y, y ≠ x → get (h.set x (some { n with refs := n.refs + 1 })) y = get h y := fun y hy => by rw [get_set hx, if_neg hy]
  have hheld : l ∉ held (h.set x (some { n with refs := n.refs + 1 })) := by
    intro hc
    obtain ⟨y, m, hy, hk⟩ := held_mem hc
    rw [get_set hx] at hy
    split at hy
    · rename_i e; subst e; cases hy; exact hno (mem_held hx hk)
    · exact hno (mem_held hy hk)
  generalize hh : h.set x (some { n with refs := n.refs + 1 }) = h1 at e1 i1 hl1 hx1 ho hheld
  have hlen : h1.length = h.length := by rw [← hh]; simp
  refine ⟨h1.set l (some ⟨c, .list (ks ++ [x])⟩), ?_, ?_, ?_, ?_, ?_, by rw [List.length_set, hlen]⟩
  · unfold Objs.append
    rw [e1]
    show (match get h1 l with | some ⟨r, .list ks⟩ => if r > 1 then none else some (h1.set l (some ⟨r, .list (ks ++ [x])⟩)) | _ => none) = _
    rw [hl1]
    exact if_neg (by omega)
  · have hc : ∀ y, (hs ++ held (h1.set l (some ⟨c, .list (ks ++ [x])⟩))).count y = (x :: hs ++ held h1).count y := by
      intro y
      have := held_set hl1 (some ⟨c, .list (ks ++ [x])⟩) y
      simp only [Body.kids, List.count_append, List.count_cons, List.count_nil] at this ⊢
      omega
    have hm : ∀ y, y ∈ hs ++ held (h1.set l (some ⟨c, .list (ks ++ [x])⟩)) → y ∈ x :: hs ++ held h1 := by
      intro y hy
      have := List.count_pos_iff.2 hy
      rw [hc] at this
      exact List.count_pos_iff.1 this
    obtain ⟨r, hr⟩ := i1.ranked
    refine ⟨fun y hy => ?_, fun y m hm' => ?_, fun y m hm' h0 => ?_, ⟨fun y => if y = l then r l + r x + 1 else r y, fun y m hm' k hk => ?_⟩⟩
    · rw [get_set hl1]
      split
      · rfl
      · exact i1.alive y (hm y hy)
    · rw [get_set hl1] at hm'
      rw [hc]
      split at hm'
      · rename_i e; subst e; cases hm'; have := i1.counts y _ hl1; exact this
      · exact i1.counts y m hm'
    · rw [get_set hl1] at hm'
      split at hm'
      · rename_i e; subst e; cases hm'; exact i1.float y _ hl1 h0
      · exact i1.float y m hm' h0
    · rw [get_set hl1] at hm'
      have hkl : k ≠ l := by
        rintro rfl
        split at hm'
        · cases hm'
          rcases List.mem_append.1 hk with hk | hk
          · exact hheld (mem_held hl1 hk)
          · rw [List.mem_singleton] at hk; exact hne hk.symm
        · exact hheld (mem_held hm' hk)
      dsimp only
      rw [if_neg hkl]
      split at hm'
      · rename_i e
        rw [if_pos e]
        cases hm'
        rcases List.mem_append.1 hk with hk | hk
        · have := hr l _ hl1 k hk; omega
        · rw [List.mem_singleton] at hk; subst hk; omega
      · rename_i e
        rw [if_neg e]
        exact hr y m hm' k hk
  · rw [get_set hl1, if_pos rfl]
  · rw [get_set hl1, if_neg hne, hx1]
  · intro y hy1 hy2
    rw [get_set hl1, if_neg hy1, ho y hy2]

/-! ## The conversions -/

theorem Each.snoc {A B : Type} {P : A → B → Prop} {as : List A} {bs : List B} {a : A} {b : B} (h : Each P as bs) (t : P a b) :
    Each P (as ++ [a]) (bs ++ [b]) := by
  induction h with
  | nil => exact .cons t .nil
  | cons h _ ih => exact .cons h ih

theorem Each.imp {A B : Type} {P Q : A → B → Prop} {as : List A} {bs : List B} (h : Each P as bs) (f : ∀ a b, P a b → Q a b) :
    Each Q as bs := by
  induction h with
  | nil => exact .nil
  | cons h _ ih => exact .cons (f _ _ h) ih

theorem lt_of_get {h : Heap} {x : Nat} {n : Node} (hx : get h x = some n) : x < h.length := by
  rcases Nat.lt_or_ge x h.length with hl | hl
  · exact hl
  · simp [get, List.getElem?_eq_none hl] at hx

theorem castText_short {b : List UInt8} (hb : b.length < 2 ^ 31 - 1) (h : Heap) : castText b h = (some h.length, (Objs.new (.text b) h).2) :=
  if_pos (by simpa using hb)

/-- The loop over an `Array<String>`. -/
theorem fillArr_ok {hs fl : List Nat} (l : Nat) : ∀ (es done : List (List UInt8)) (ks : List Nat) (h : Heap), (∀ b ∈ es, b.length < 2 ^ 31 - 1) → Inv h hs fl →
    get h l = some ⟨0, .list ks⟩ → Each (IsText h) ks done →
    ∃ h' ks', fillArr l es h = some h' ∧ Inv h' hs fl ∧ get h' l = some ⟨0, .list ks'⟩ ∧ Each (IsText h') ks' (done ++ es) ∧
      h.length ≤ h'.length ∧ ∀ y, y < h.length → y ≠ l → get h' y = get h y
  | [], done, ks, h, _, i, hl, hd => ⟨h, ks, rfl, i, hl, by rw [List.append_nil]; exact hd, Nat.le_refl _, fun _ _ _ => rfl⟩
  | e :: es, done, ks, h, hs', i, hl, hd => by
    have hll := lt_of_get hl
    have i1 := Inv.new (.text e) (hs := hs) (fl := fl) i
    have hl1 : get (Objs.new (.text e) h).2 l = some ⟨0, .list ks⟩ := by rw [get_new, if_neg (by omega)]; exact hl
    have hx1 : get (Objs.new (.text e) h).2 h.length = some ⟨0, .text e⟩ := by rw [get_new, if_pos rfl]
    obtain ⟨h2, e2, i2, g1, g2, g3, g4⟩ := i1.append hl1 (by omega) (i1.not_held hl1) hx1 (by omega)
    have hlen : (Objs.new (.text e) h).2.length = h.length + 1 := by simp [Objs.new]
    have keep : ∀ y, y < h.length → y ≠ l → get h2 y = get h y := by
      intro y hy hne
      rw [g3 y hne (by omega), get_new, if_neg (by omega)]
    have hd2 : Each (IsText h2) (ks ++ [h.length]) (done ++ [e]) := by
      refine Each.snoc (hd.imp fun k b hk => ?_) ⟨1, g2⟩
      obtain ⟨r, hk⟩ := hk
      refine ⟨r, ?_⟩
      rw [keep k (lt_of_get hk) ?_]
      · exact hk
      · rintro rfl; rw [hl] at hk; exact absurd hk (by simp)
    obtain ⟨h', ks', a1, a2, a3, a4, a5, a6⟩ := fillArr_ok l es (done ++ [e]) _ h2 (fun b hb => hs' b (List.mem_cons_of_mem _ hb)) (i2.more (by
      intro x hx
      obtain ⟨hx, hne⟩ := List.mem_filter.1 hx
      rcases List.mem_cons.1 hx with rfl | hx
      · simp at hne
      · exact hx)) g1 hd2
    refine ⟨h', ks', ?_, a2, a3, by rw [List.append_assoc] at a4; exact a4, by omega, fun y hy hne => ?_⟩
    · unfold fillArr
      rw [castText_short (hs' e (by simp))]
      show (Objs.append l h.length (Objs.new (.text e) h).2).bind (fun h => fillArr l es h) = _
      rw [e2]
      exact a1
    · rw [a6 y (by omega) hne, keep y hy hne]

/-- Converting an `Array<String>`. -/
theorem castArr_ok {hs fl : List Nat} (a : List (List UInt8)) (h : Heap) (ha : ∀ b ∈ a, b.length < 2 ^ 31 - 1) (i : Inv h hs fl) :
    ∃ h', castArr a h = some (h.length, h') ∧ Inv h' hs (h.length :: fl) ∧ (∃ ks, get h' h.length = some ⟨0, .list ks⟩ ∧ Each (IsText h') ks a) ∧
      h.length < h'.length ∧ ∀ y, y < h.length → get h' y = get h y := by
  have i1 := Inv.new (.list []) (hs := hs) (fl := fl) i
  have hlen : (Objs.new (.list []) h).2.length = h.length + 1 := by simp [Objs.new]
  obtain ⟨h', ks, a1, a2, a3, a4, a5, a6⟩ := fillArr_ok h.length a [] [] _ ha i1 (by rw [get_new, if_pos rfl]) .nil
  refine ⟨h', ?_, a2, ⟨ks, a3, a4⟩, by omega, fun y hy => ?_⟩
  · unfold castArr
    show (fillArr h.length a (Objs.new (.list []) h).2).bind (fun h' => some (h.length, h')) = _
    rw [a1]
    rfl
  · rw [a6 y (by omega) (by omega), get_new, if_neg (by omega)]

theorem IsText.keep {h h' : Heap} {x : Nat} {b : List UInt8} (hx : IsText h x b)
    (k : ∀ y n, get h y = some n → ∃ m, get h' y = some m ∧ m.body = n.body) : IsText h' x b := by
  obtain ⟨r, hx⟩ := hx
  obtain ⟨⟨r', b'⟩, e1, e2⟩ := k x _ hx
  exact ⟨r', by rw [e1]; simp at e2; rw [e2]⟩

/-- The loop over an `Array<Array<String>>`. -/
theorem fillArr2_ok {hs fl : List Nat} (l : Nat) : ∀ (es done : List (List (List UInt8))) (ks : List Nat) (h : Heap), (∀ r ∈ es, ∀ b ∈ r, b.length < 2 ^ 31 - 1) → Inv h hs fl →
    get h l = some ⟨0, .list ks⟩ → Each (fun k e => k ≠ l ∧ ∃ r js, get h k = some ⟨r, .list js⟩ ∧ Each (fun j b => j ≠ l ∧ IsText h j b) js e) ks done →
    ∃ h' ks', fillArr2 l es h = some h' ∧ Inv h' hs fl ∧ get h' l = some ⟨0, .list ks'⟩ ∧ Each (IsArr h') ks' (done ++ es) ∧
      h.length ≤ h'.length ∧ ∀ y, y < h.length → y ≠ l → get h' y = get h y
  | [], done, ks, h, _, i, hl, hd => ⟨h, ks, rfl, i, hl, by
      rw [List.append_nil]
      refine hd.imp ?_
      rintro k e ⟨_, r, js, hk, hj⟩
      exact ⟨r, js, hk, hj.imp fun _ _ h => h.2⟩, Nat.le_refl _, fun _ _ _ => rfl⟩
  | e :: es, done, ks, h, hs', i, hl, hd => by
    have hll := lt_of_get hl
    obtain ⟨h1, e1, i1, ⟨js, b1, b2⟩, b3, b4⟩ := castArr_ok e h (hs' e (by simp)) i
    have hl1 : get h1 l = some ⟨0, .list ks⟩ := by rw [b4 l hll]; exact hl
    obtain ⟨h2, e2, i2, g1, g2, g3, g4⟩ := i1.append hl1 (by omega) (i1.not_held hl1) b1 (by omega)
    have hjs : ∀ j b, IsText h1 j b → j ≠ l ∧ IsText h2 j b := by
      rintro j b ⟨r, hj⟩
      have h1' : j ≠ l := by rintro rfl; rw [hl1] at hj; exact absurd hj (by simp)
      have h2' : j ≠ h.length := by rintro rfl; rw [b1] at hj; exact absurd hj (by simp)
      exact ⟨h1', r, by rw [g3 j h1' h2']; exact hj⟩
    have keep : ∀ y, y < h.length → y ≠ l → get h2 y = get h y := by
      intro y hy hne
      rw [g3 y hne (by omega), b4 y hy]
    have hd2 : Each (fun k e => k ≠ l ∧ ∃ r js, get h2 k = some ⟨r, .list js⟩ ∧ Each (fun j b => j ≠ l ∧ IsText h2 j b) js e)
        (ks ++ [h.length]) (done ++ [e]) := by
      refine Each.snoc (hd.imp ?_) ⟨by omega, 1, js, g2, b2.imp hjs⟩
      rintro k e ⟨hk, r, js, hg, hj⟩
      refine ⟨hk, r, js, by rw [keep k (lt_of_get hg) hk]; exact hg, hj.imp ?_⟩
      rintro j b ⟨hjl, r, hj⟩
      exact ⟨hjl, r, by rw [keep j (lt_of_get hj) hjl]; exact hj⟩
    obtain ⟨h', ks', a1, a2, a3, a4, a5, a6⟩ := fillArr2_ok l es (done ++ [e]) _ h2 (fun b hb => hs' b (List.mem_cons_of_mem _ hb)) (i2.more (by
      intro x hx
      obtain ⟨hx, hne⟩ := List.mem_filter.1 hx
      rcases List.mem_cons.1 hx with rfl | hx
      · simp at hne
      · exact hx)) g1 hd2
    refine ⟨h', ks', ?_, a2, a3, by rw [List.append_assoc] at a4; exact a4, by omega, fun y hy hne => ?_⟩
    · unfold fillArr2
      rw [e1]
      show (Objs.append l h.length h1).bind (fun h => fillArr2 l es h) = _
      rw [e2]
      exact a1
    · rw [a6 y (by omega) hne, keep y hy hne]

/-- Every conversion gives a new value nobody holds yet, and changes nothing else. -/
theorem cast_ok {hs fl : List Nat} (v : Value) (h : Heap) (hv : v.short) (i : Inv h hs fl) :
    ∃ h' n, cast v h = some (some h.length, h') ∧ Inv h' hs (h.length :: fl) ∧ get h' h.length = some n ∧ n.refs = 0 ∧ Shows h' h.length v ∧
      ∀ y, y < h.length → get h' y = get h y := by
  cases v with
  | one b =>
    have hx : get (Objs.new (.text b) h).2 h.length = some ⟨0, .text b⟩ := by rw [get_new, if_pos rfl]
    exact ⟨_, _, congrArg some (castText_short hv h), Inv.new (.text b) (hs := hs) (fl := fl) i, hx, rfl, ⟨0, hx⟩, fun y hy => (get_new (.text b) y).trans (if_neg (by omega))⟩
  | arr a =>
    obtain ⟨h', e, i', ⟨ks, g, d⟩, _, k⟩ := castArr_ok a h hv i
    exact ⟨h', _, by show (castArr a h).bind _ = _; rw [e]; rfl, i', g, rfl, ⟨0, ks, g, d⟩, k⟩
  | arr2 a =>
    have i1 := Inv.new (.list []) (hs := hs) (fl := fl) i
    have hlen : (Objs.new (.list []) h).2.length = h.length + 1 := by simp [Objs.new]
    obtain ⟨h', ks, a1, a2, a3, a4, a5, a6⟩ := fillArr2_ok h.length a [] [] _ hv i1 (by rw [get_new, if_pos rfl]) .nil
    refine ⟨h', _, ?_, a2, a3, rfl, ⟨0, ks, a3, a4⟩, fun y hy => ?_⟩
    · show (fillArr2 h.length a (Objs.new (.list []) h).2).bind (fun h' => some (some h.length, h')) = _
      rw [a1]
      rfl
    · rw [a6 y (by omega) (by omega), get_new, if_neg (by omega)]

/-! ## The interpreter -/

theorem release_length : ∀ (xs : List Nat) (h h' : Heap), Objs.release xs h = some h' → h'.length = h.length := by
  intro xs h
  induction xs, h using Objs.release.induct with
  | case1 h => intro h' e; unfold Objs.release at e; cases e; rfl
  | case2 h x xs hx =>
    intro h' e
    rw [Objs.release] at e
    split at e
    · exact absurd e (by nofun)
    · rename_i e'; rw [hx] at e'; exact absurd e' (by nofun)
  | case3 h x xs n hx hr ih =>
    intro h' e
    rw [Objs.release] at e
    split at e
    · exact absurd e (by nofun)
    · rename_i e'
      rw [hx] at e'
      cases e'
      rw [if_pos hr] at e
      rw [ih h' e, List.length_set]
  | case4 h x xs n hx hr ih =>
    intro h' e
    rw [Objs.release] at e
    split at e
    · exact absurd e (by nofun)
    · rename_i e'
      rw [hx] at e'
      cases e'
      rw [if_neg hr] at e
      rw [ih h' e, List.length_set]

/-- Holding several values. -/
theorem Inv.incrAll {hs fl : List Nat} : ∀ (xs : List Nat) (h : Heap), Inv h hs fl → (∀ x ∈ xs, (get h x).isSome) →
    ∃ h', Objs.incrAll xs h = some h' ∧ Inv h' (xs ++ hs) fl ∧ (∀ x, (get h' x).map Node.body = (get h x).map Node.body) ∧ h'.length = h.length
  | [], h, i, _ => ⟨h, rfl, i, fun _ => rfl, rfl⟩
  | x :: xs, h, i, ha => by
    obtain ⟨n, hx⟩ := Option.isSome_iff_exists.1 (ha x (by simp))
    have hb : ∀ y, (get (h.set x (some { n with refs := n.refs + 1 })) y).map Node.body = (get h y).map Node.body := by
      intro y
      rw [get_set hx]
      split
      · rename_i e; subst e; rw [hx]; rfl
      · rfl
    obtain ⟨e1, i1⟩ := i.incr hx
    obtain ⟨h', e, i', b, l⟩ := Inv.incrAll (hs := x :: hs) xs _ (i1.more (fl' := fl) fun y hy => (List.mem_filter.1 hy).1) fun y hy => by
      have := hb y
      have h2 := ha y (List.mem_cons_of_mem _ hy)
      cases hg : get (h.set x (some { n with refs := n.refs + 1 })) y with
      | none => rw [hg] at this; cases hg' : get h y with
        | none => rw [hg'] at h2; exact h2
        | some m => rw [hg'] at this; exact absurd this (by simp)
      | some m => rfl
    refine ⟨h', ?_, i'.perm List.perm_middle, fun y => (b y).trans (hb y), by rw [l, List.length_set]⟩
    unfold Objs.incrAll
    rw [e1]
    exact e

/-- The invariant of the interpreter. -/
structure WInv (w : World) (fl : List Nat) : Prop where
  inv : Inv w.heap w.roots fl
  names : (w.vars.map Prod.fst).Nodup

theorem WInv.root {w : World} {fl : List Nat} (i : WInv w fl) {x : Nat} (hx : x ∈ w.roots) : ∃ n, get w.heap x = some n :=
  Option.isSome_iff_exists.1 (i.inv.alive x (List.mem_append.2 (.inl hx)))

theorem WInv.var_mem {w : World} {v : List UInt8} {x : Nat} (h : w.var v = some x) : (v, x) ∈ w.vars := by
  unfold World.var at h
  obtain ⟨⟨v', x'⟩, h1, h2⟩ := Option.map_eq_some_iff.1 h
  have h3 := List.find?_some h1
  simp at h3 h2
  subst h3; subst h2
  exact List.mem_of_find?_eq_some h1

theorem WInv.var_root {w : World} {v : List UInt8} {x : Nat} (h : w.var v = some x) : x ∈ w.roots := by
  refine List.mem_cons_of_mem _ (List.mem_append.2 (.inl ?_))
  exact List.mem_map.2 ⟨(v, x), WInv.var_mem h, rfl⟩

theorem vars_split {vs : List (List UInt8 × Nat)} {v : List UInt8} {x : Nat} (hn : (vs.map Prod.fst).Nodup) (h : (v, x) ∈ vs) :
    vs.Perm ((v, x) :: vs.filter (·.1 ≠ v)) := by
  induction vs with
  | nil => simp at h
  | cons p vs ih =>
    rw [List.map_cons, List.nodup_cons] at hn
    rcases List.mem_cons.1 h with rfl | h
    · have : vs.filter (·.1 ≠ v) = vs := by
        rw [List.filter_eq_self]
        rintro ⟨a, b⟩ hab
        have : a ≠ v := by rintro rfl; exact hn.1 (List.mem_map.2 ⟨(a, b), hab, rfl⟩)
        simpa using this
      rw [List.filter_cons, if_neg (by simp), this]
    · have hp : p.1 ≠ v := by
        intro e
        exact hn.1 (List.mem_map.2 ⟨(v, x), h, e.symm⟩)
      rw [List.filter_cons, if_pos (by simpa using hp)]
      exact (List.Perm.cons p (ih hn.2 h)).trans (List.Perm.swap _ _ _)

theorem filter_names {vs : List (List UInt8 × Nat)} {v : List UInt8} (hn : (vs.map Prod.fst).Nodup) :
    v ∉ (vs.filter (·.1 ≠ v)).map Prod.fst ∧ ((vs.filter (·.1 ≠ v)).map Prod.fst).Nodup := by
  constructor
  · rintro hc
    obtain ⟨⟨a, b⟩, h1, h2⟩ := List.mem_map.1 hc
    have := (List.mem_filter.1 h1).2
    simp at this h2
    exact this h2
  · exact hn.sublist ((List.filter_sublist).map _)

/-- A new result. -/
theorem WInv.setResult {w : World} {fl : List Nat} (i : WInv w fl) {x : Nat} {n : Node} (hx : get w.heap x = some n) :
    ∃ w', Objs.setResult x w = some w' ∧ WInv w' (fl.filter (· ≠ x)) ∧ w'.result = x ∧ w'.vars = w.vars ∧ w'.frames = w.frames ∧
      w'.heap.length = w.heap.length ∧ ∀ y m, get w'.heap y = some m → ∃ m', get w.heap y = some m' ∧ m'.body = m.body := by
  obtain ⟨e1, i1⟩ := i.inv.incr hx
  have hp : (x :: w.roots).Perm ([w.result] ++ x :: (w.vars.map Prod.snd ++ w.frames.flatten)) := List.Perm.swap _ _ _
  obtain ⟨h', e2, i2, b, _⟩ := Inv.release [w.result] _ (i1.perm hp)
  refine ⟨{ w with heap := h', result := x }, ?_, ⟨i2, i.names⟩, rfl, rfl, rfl, ?_, fun y m hm => ?_⟩
  · unfold Objs.setResult
    rw [e1]
    show (Objs.release [w.result] _).bind _ = _
    rw [e2]
    rfl
  · dsimp only
    rw [release_length _ _ _ e2, List.length_set]
  · obtain ⟨m1, a1, a2⟩ := b y m hm
    rw [get_set hx] at a1
    split at a1
    · rename_i e; subst e; cases a1; exact ⟨n, hx, a2⟩
    · exact ⟨m1, a1, a2⟩

/-- A new value for a variable. -/
theorem WInv.setVarObj {w : World} {fl : List Nat} (i : WInv w fl) (v : List UInt8) {x : Nat} {n : Node} (hx : get w.heap x = some n) :
    ∃ w', Objs.setVarObj v x w = some w' ∧ WInv w' (fl.filter (· ≠ x)) ∧ w'.result = w.result ∧ w'.var v = some x ∧
      (∀ u, u ≠ v → w'.var u = w.var u) ∧ w'.frames = w.frames ∧
      w'.heap.length = w.heap.length ∧ (∀ y m, get w'.heap y = some m → ∃ m', get w.heap y = some m' ∧ m'.body = m.body) ∧
      ∀ y m, y ≠ x → get w.heap y = some m → m.refs = 0 → get w'.heap y = some m := by
  obtain ⟨e1, i1⟩ := i.inv.incr hx
  have hback : ∀ y m, get (w.heap.set x (some { n with refs := n.refs + 1 })) y = some m → ∃ m', get w.heap y = some m' ∧ m'.body = m.body := by
    intro y m hm
    rw [get_set hx] at hm
    split at hm
    · rename_i e; subst e; cases hm; exact ⟨n, hx, rfl⟩
    · exact ⟨m, hm, rfl⟩
  cases hv : w.var v with
  | none =>
    refine ⟨{ w with heap := w.heap.set x (some { n with refs := n.refs + 1 }), vars := (v, x) :: w.vars }, ?_, ⟨?_, ?_⟩, rfl, ?_, ?_, rfl, ?_, hback, ?_⟩
    · unfold Objs.setVarObj
      rw [e1]
      show (match w.var v with | none => _ | some old => _) = _
      rw [hv]
      rfl
    · exact i1.perm (List.Perm.swap _ _ _)
    · show (v :: w.vars.map Prod.fst).Nodup
      rw [List.nodup_cons]
      refine ⟨fun hc => ?_, i.names⟩
      obtain ⟨⟨a, b⟩, h1, h2⟩ := List.mem_map.1 hc
      unfold World.var at hv
      rw [Option.map_eq_none_iff, List.find?_eq_none] at hv
      have := hv _ h1
      simp at this h2
      exact this h2
    · simp [World.var]
    · intro u hu
      unfold World.var
      rw [List.find?_cons_of_neg (by simpa using fun e => hu e.symm)]
    · simp
    · intro y m hne hm _
      show get (w.heap.set x _) y = some m
      rw [get_set hx, if_neg hne]
      exact hm
  | some old =>
    have hs := vars_split i.names (WInv.var_mem hv)
    have hp : (x :: w.roots).Perm ([old] ++ w.result :: (((v, x) :: w.vars.filter (·.1 ≠ v)).map Prod.snd ++ w.frames.flatten)) := by
      have h1 : w.roots.Perm (w.result :: (((v, old) :: w.vars.filter (·.1 ≠ v)).map Prod.snd ++ w.frames.flatten)) :=
        List.Perm.cons _ ((hs.map Prod.snd).append_right _)
      refine (List.Perm.cons x h1).trans ?_
      simp only [List.map_cons, List.cons_append, List.nil_append]
      exact ((List.Perm.swap _ _ _).trans (List.Perm.cons _ (List.Perm.swap _ _ _))).trans (List.Perm.swap _ _ _)
    obtain ⟨h', e2, i2, b, z⟩ := Inv.release [old] _ (i1.perm hp)
    have hf := filter_names (v := v) i.names
    refine ⟨{ w with heap := h', vars := (v, x) :: w.vars.filter (·.1 ≠ v) }, ?_, ⟨i2, ?_⟩, rfl, ?_, ?_, rfl, ?_, ?_, ?_⟩
    · unfold Objs.setVarObj
      rw [e1]
      show (match w.var v with | none => _ | some old => _) = _
      rw [hv]
      show (Objs.release [old] _).bind _ = _
      rw [e2]
      rfl
    · exact List.nodup_cons.2 hf
    · simp [World.var]
    · intro u hu
      unfold World.var
      dsimp only
      rw [List.find?_cons_of_neg (by simpa using fun e => hu e.symm), List.find?_filter]
      congr 1
      congr 1
      funext p
      by_cases e : p.1 = u
      · simp [e, hu]
      · simp [e]
    · dsimp only
      rw [release_length _ _ _ e2, List.length_set]
    · intro y m hm
      obtain ⟨m1, a1, a2⟩ := b y m hm
      obtain ⟨m2, b1, b2⟩ := hback y m1 a1
      exact ⟨m2, b1, b2.trans a2⟩
    · intro y m hne hm h0
      refine z y m ?_ h0
      rw [get_set hx, if_neg hne]
      exact hm

/-- A variable goes. -/
theorem WInv.unsetVar {w : World} {fl : List Nat} (i : WInv w fl) (v : List UInt8) :
    ∃ w', Objs.unsetVar v w = some w' ∧ WInv w' fl ∧ w'.frames = w.frames ∧
      w'.heap.length = w.heap.length ∧ ∀ y m, get w'.heap y = some m → ∃ m', get w.heap y = some m' ∧ m'.body = m.body := by
  unfold Objs.unsetVar
  cases hv : w.var v with
  | none => exact ⟨w, rfl, i, rfl, rfl, fun y m hm => ⟨m, hm, rfl⟩⟩
  | some old =>
    have hs := vars_split i.names (WInv.var_mem hv)
    have hp : w.roots.Perm ([old] ++ w.result :: ((w.vars.filter (·.1 ≠ v)).map Prod.snd ++ w.frames.flatten)) := by
      refine (List.Perm.cons _ ((hs.map Prod.snd).append_right _)).trans ?_
      simp only [List.map_cons, List.cons_append, List.nil_append]
      exact List.Perm.swap _ _ _
    obtain ⟨h', e2, i2, b, _⟩ := Inv.release [old] _ (i.inv.perm hp)
    refine ⟨{ w with heap := h', vars := w.vars.filter (·.1 ≠ v) }, ?_, ⟨i2, (filter_names i.names).2⟩, rfl, release_length _ _ _ e2, b⟩
    show (Objs.release [old] _).bind _ = _
    rw [e2]
    rfl

theorem forM_ok {f : Nat → Option Unit} : ∀ {ks : List Nat}, (∀ k ∈ ks, f k = some ()) → ks.forM f = some ()
  | [], _ => rfl
  | k :: ks, h => by
    show (f k).bind (fun _ => ks.forM f) = _
    rw [h k (by simp)]
    exact forM_ok fun j hj => h j (List.mem_cons_of_mem _ hj)

/-- A value that is alive can be read, with its elements and their elements. -/
theorem Inv.readObj {h : Heap} {hs fl : List Nat} (i : Inv h hs fl) {x : Nat} {n : Node} (hx : get h x = some n) : Objs.readObj x h = some () := by
  have hk : ∀ {y : Nat} {m : Node}, get h y = some m → ∀ k ∈ m.body.kids, ∃ n, get h k = some n := fun hy k hk =>
    Option.isSome_iff_exists.1 (i.alive k (List.mem_append.2 (.inr (mem_held hy hk))))
  unfold Objs.readObj
  rw [hx]
  refine forM_ok fun k hk1 => ?_
  obtain ⟨m, hm⟩ := hk hx k hk1
  rw [hm]
  refine forM_ok fun j hj => ?_
  obtain ⟨m', hm'⟩ := hk hm j hj
  rw [hm']
  rfl

/-- What a step may do to what was there: nothing, except to a list that one variable holds and nobody else. -/
def Kept (w w' : World) : Prop := ∀ y n m, get w.heap y = some n → get w'.heap y = some m →
  m.body = n.body ∨ (n.refs = 1 ∧ y ∈ w.vars.map Prod.snd)

theorem Kept.of_back {w w' : World} (hb : ∀ y m, y < w.heap.length → get w'.heap y = some m → ∃ m', get w.heap y = some m' ∧ m'.body = m.body) :
    Kept w w' := by
  intro y n m hn hm
  obtain ⟨m', e, b⟩ := hb y m (lt_of_get hn) hm
  rw [hn] at e
  cases e
  exact .inl b.symm

theorem filter_self (x : Nat) : [x].filter (· ≠ x) = [] := by simp

/-- A new text in a variable. -/
theorem WInv.setVar {w : World} {fl : List Nat} (i : WInv w fl) (v b : List UInt8) :
    ∃ w', Objs.setVar v b w = some w' ∧ WInv w' fl ∧ w'.result = w.result ∧ (∃ x, w'.var v = some x ∧ IsText w'.heap x b) ∧
      (∀ u, u ≠ v → w'.var u = w.var u) ∧ w'.frames = w.frames ∧
      (∀ y m, y < w.heap.length → get w'.heap y = some m → ∃ m', get w.heap y = some m' ∧ m'.body = m.body) ∧
      ∀ y m, get w.heap y = some m → m.refs = 0 → get w'.heap y = some m := by
  have i1 : WInv { w with heap := (new (.text b) w.heap).2 } (w.heap.length :: fl) := ⟨Inv.new (.text b) (hs := w.roots) (fl := fl) i.inv, i.names⟩
  have hx : get (new (.text b) w.heap).2 w.heap.length = some ⟨0, .text b⟩ := by rw [get_new, if_pos rfl]
  obtain ⟨w', e, i', r1, r2, r3, r4, r5, r6, r7⟩ := i1.setVarObj v hx
  refine ⟨w', e, ⟨i'.inv.more ?_, i'.names⟩, r1, ⟨_, r2, ?_⟩, r3, r4, fun y m hy hm => ?_, fun y m hm h0 => ?_⟩
  · intro x hx
    obtain ⟨h1, h2⟩ := List.mem_filter.1 hx
    rcases List.mem_cons.1 h1 with rfl | h1
    · simp at h2
    · exact h1
  · obtain ⟨⟨r, b'⟩, hn⟩ := i'.root (WInv.var_root r2)
    obtain ⟨m', a1, a2⟩ := r6 _ _ hn
    have a1' : get (new (.text b) w.heap).2 w.heap.length = some m' := a1
    rw [hx] at a1'
    cases a1'
    simp at a2
    exact ⟨r, by rw [hn, ← a2]⟩
  · obtain ⟨m', a1, a2⟩ := r6 y m hm
    refine ⟨m', ?_, a2⟩
    have a1' : get (new (.text b) w.heap).2 y = some m' := a1
    rw [get_new, if_neg (by omega)] at a1'
    exact a1'
  · have := lt_of_get hm
    refine r7 y m (by omega) ?_ h0
    show get (new (.text b) w.heap).2 y = some m
    rw [get_new, if_neg (by omega)]
    exact hm

/-- Still the same value. -/
theorem Shows.keep {h h' : Heap} {hs fl : List Nat} {x : Nat} {v : Value} (hv : Shows h x v) (i : Inv h' hs fl) (hx : (get h' x).isSome)
    (hb : ∀ y m, get h' y = some m → ∃ m', get h y = some m' ∧ m'.body = m.body) : Shows h' x v := by
  have fwd : ∀ {y : Nat} {r : Nat} {b : Body}, get h y = some ⟨r, b⟩ → (get h' y).isSome → ∃ r', get h' y = some ⟨r', b⟩ := by
    intro y r b hy hs
    obtain ⟨⟨r', b'⟩, hn⟩ := Option.isSome_iff_exists.1 hs
    obtain ⟨m', a1, a2⟩ := hb y _ hn
    rw [hy] at a1
    cases a1
    simp at a2
    exact ⟨r', by rw [hn, ← a2]⟩
  have kid : ∀ {y r : Nat} {ks : List Nat}, get h' y = some ⟨r, .list ks⟩ → ∀ k ∈ ks, (get h' k).isSome := fun hy k hk =>
    i.alive k (List.mem_append.2 (.inr (mem_held hy hk)))
  have each : ∀ {B : Type} {P Q : Nat → B → Prop} {ks : List Nat} {bs : List B}, Each P ks bs → (∀ k ∈ ks, ∀ b, P k b → Q k b) → Each Q ks bs := by
    intro B P Q ks bs he
    induction he with
    | nil => intro _; exact .nil
    | cons h _ ih => intro hf; exact .cons (hf _ (by simp) _ h) (ih fun k hk => hf k (List.mem_cons_of_mem _ hk))
  have text : ∀ k, (get h' k).isSome → ∀ b, IsText h k b → IsText h' k b := fun k hk b ⟨r, hy⟩ => fwd hy hk
  have arr : ∀ k, (get h' k).isSome → ∀ a, IsArr h k a → IsArr h' k a := by
    rintro k hk a ⟨r, ks, hy, he⟩
    obtain ⟨r', hy'⟩ := fwd hy hk
    exact ⟨r', ks, hy', each he fun j hj => text j (kid hy' j hj)⟩
  cases v with
  | one b => exact text x hx b hv
  | arr a => exact arr x hx a hv
  | arr2 a =>
    obtain ⟨r, ks, hy, he⟩ := hv
    obtain ⟨r', hy'⟩ := fwd hy hx
    exact ⟨r', ks, hy', each he fun j hj => arr j (kid hy' j hj)⟩

/-- A result or an error text. -/
theorem WInv.reply {w : World} (i : WInv w []) (v : Value) (hv : v.short) :
    ∃ w', Objs.reply v w = some w' ∧ WInv w' [] ∧ Shows w'.heap w'.result v ∧ w'.vars = w.vars ∧ w'.frames = w.frames ∧
      ∀ y m, y < w.heap.length → get w'.heap y = some m → ∃ m', get w.heap y = some m' ∧ m'.body = m.body := by
  obtain ⟨h1, n, e1, i1, g, h0, sh, k⟩ := cast_ok v w.heap hv i.inv
  have iw : WInv { w with heap := h1 } [w.heap.length] := ⟨i1, i.names⟩
  obtain ⟨w', e, i', r1, r2, r3, r4, r5⟩ := iw.setResult g
  refine ⟨w', ?_, by rw [filter_self] at i'; exact i', ?_, r2, r3, fun y m hy hm => ?_⟩
  · unfold Objs.reply
    rw [e1]
    exact e
  · rw [r1]
    exact sh.keep i'.inv (i'.inv.alive _ (by simp [World.roots, r1])) r5
  · obtain ⟨m', a1, a2⟩ := r5 y m hm
    exact ⟨m', (k y hy).symm.trans a1, a2⟩

/-- A linked variable is read. -/
theorem WInv.traceGet {w : World} (i : WInv w []) (str : Heap → Nat → List UInt8) (v : List UInt8) (c : Value) (hc : c.short) :
    ∃ w', Objs.traceGet str v c w = some w' ∧ WInv w' [] ∧ w'.result = w.result ∧
      (∃ h x, Shows h x c ∧ ∃ y, w'.var v = some y ∧ IsText w'.heap y (str h x)) ∧ (∀ u, u ≠ v → w'.var u = w.var u) ∧ w'.frames = w.frames ∧
      ∀ y m, y < w.heap.length → get w'.heap y = some m → ∃ m', get w.heap y = some m' ∧ m'.body = m.body := by
  obtain ⟨h1, n, e1, i1, g, h0, sh, k⟩ := cast_ok c w.heap hc i.inv
  have iw : WInv { w with heap := h1 } [w.heap.length] := ⟨i1, i.names⟩
  obtain ⟨w2, e2, i2, r1, ⟨y, r2, r2'⟩, r3, r4, r5, r6⟩ := iw.setVar v (str h1 w.heap.length)
  obtain ⟨h3, e3, i3, b3⟩ := i2.inv.drop (r6 _ n g h0) h0
  have hlt := lt_of_get g
  refine ⟨{ w2 with heap := h3 }, ?_, ⟨i3, i2.names⟩, r1, ⟨h1, _, sh, y, r2, ?_⟩, r3, r4, fun y m hy hm => ?_⟩
  · unfold Objs.traceGet
    rw [e1]
    show (Objs.setVar v (str h1 w.heap.length) { w with heap := h1 }).bind _ = _
    rw [e2]
    show (Objs.release [w.heap.length] w2.heap).bind _ = _
    rw [e3]
    rfl
  · obtain ⟨⟨r, b⟩, hn⟩ : ∃ n, get h3 y = some n := Option.isSome_iff_exists.1 (i3.alive y (List.mem_append.2 (.inl (WInv.var_root r2))))
    obtain ⟨m, a1, a2⟩ := b3 y _ hn
    obtain ⟨r', a3⟩ := r2'
    rw [a3] at a1
    cases a1
    simp at a2
    exact ⟨r, by show get h3 y = _; rw [hn, ← a2]⟩
  · obtain ⟨m1, a1, a2⟩ := b3 y m hm
    obtain ⟨m2, b1, b2⟩ := r5 y m1 (show y < h1.length by omega) a1
    exact ⟨m2, (k y hy).symm.trans b1, b2.trans a2⟩

/-- A text too long for Tcl leaves the variable as it is. -/
theorem traceGet_long (str : Heap → Nat → List UInt8) (v : List UInt8) {b : List UInt8} (hb : ¬ b.length < 2 ^ 31 - 1) (w : World) :
    Objs.traceGet str v (.one b) w = some w := by
  have : cast (.one b) w.heap = some (none, w.heap) := congrArg some (if_neg (by simpa using hb))
  unfold Objs.traceGet
  rw [this]
  rfl

/-- A linked variable has been written. -/
theorem WInv.onWrite {w : World} (i : WInv w []) (v : List UInt8) (hv : v.length < 2 ^ 31 - 1) :
    ∃ w', Objs.onWrite v w = some w' ∧ WInv w' [] ∧ w'.result = w.result ∧ w'.vars = w.vars ∧ w'.frames = w.frames ∧
      ∀ y m, y < w.heap.length → get w'.heap y = some m → ∃ m', get w.heap y = some m' ∧ m'.body = m.body := by
  have i1 : Inv (new (.text v) w.heap).2 w.roots [w.heap.length] := Inv.new (.text v) (hs := w.roots) (fl := []) i.inv
  have hx : get (new (.text v) w.heap).2 w.heap.length = some ⟨0, .text v⟩ := by rw [get_new, if_pos rfl]
  obtain ⟨h', e, i', b⟩ := i1.drop hx rfl
  have iw : WInv { w with heap := h' } [] := ⟨i', i.names⟩
  refine ⟨{ w with heap := h' }, ?_, iw, rfl, rfl, rfl, fun y m hy hm => ?_⟩
  · unfold Objs.onWrite Objs.traceSet
    rw [castText_short hv]
    show ((Objs.release [w.heap.length] (new (.text v) w.heap).2).bind _).bind _ = _
    rw [e]
    show (match w.var v with | none => some { w with heap := h' } | some x => (Objs.readObj x h').bind fun _ => some { w with heap := h' }) = _
    cases hv : w.var v with
    | none => rfl
    | some x =>
      dsimp only
      obtain ⟨n, hn⟩ := iw.root (x := x) (WInv.var_root (w := { w with heap := h' }) (v := v) hv)
      rw [i'.readObj hn]
      rfl
  · obtain ⟨m', a1, a2⟩ := b y m hm
    rw [get_new, if_neg (by omega)] at a1
    exact ⟨m', a1, a2⟩

/-- Every step is defined, keeps the invariant, and changes no value others hold. -/
theorem WInv.step {w : World} (i : WInv w []) (str : Heap → Nat → List UInt8) (o : Op) (hs : o.short) :
    ∃ w', Objs.step str o w = some w' ∧ WInv w' [] ∧ Kept w w' ∧ w'.frames = match o with
      | .enter us => us.filterMap w.var :: w.frames
      | .leave => w.frames.tail
      | _ => w.frames := by
  have wordsAlive : ∀ us : List (List UInt8), ∀ x ∈ us.filterMap w.var, (get w.heap x).isSome := by
    intro us x hx
    obtain ⟨u, _, hu⟩ := List.mem_filterMap.1 hx
    exact i.inv.alive x (List.mem_append.2 (.inl (WInv.var_root hu)))
  have self : Kept w w := Kept.of_back fun y m _ hm => ⟨m, hm, rfl⟩
  -- making a list of these and putting it into a variable
  have mkList : ∀ (v : List UInt8) (xs : List Nat), (∀ x ∈ xs, (get w.heap x).isSome) → ∃ w', (do
      let h ← Objs.incrAll xs w.heap
      let (l, h) := Objs.new (.list xs) h
      Objs.setVarObj v l { w with heap := h }) = some w' ∧ WInv w' [] ∧ Kept w w' ∧ w'.frames = w.frames := by
    intro v xs hxs
    obtain ⟨h1, e1, i1, b1, l1⟩ := Inv.incrAll xs w.heap i.inv hxs
    have i2 := Inv.new (.list xs) (hs := w.roots) (fl := []) i1
    have hx : get (new (.list xs) h1).2 h1.length = some ⟨0, .list xs⟩ := by rw [get_new, if_pos rfl]
    have iw : WInv { w with heap := (new (.list xs) h1).2 } [h1.length] := ⟨i2, i.names⟩
    obtain ⟨w', e, i', _, _, _, r4, r5, r6, _⟩ := iw.setVarObj v hx
    refine ⟨w', ?_, by rw [filter_self] at i'; exact i', Kept.of_back fun y m hy hm => ?_, r4⟩
    · show (Objs.incrAll xs w.heap).bind _ = _
      rw [e1]
      exact e
    · obtain ⟨m1, a1, a2⟩ := r6 y m hm
      have a1' : get (new (.list xs) h1).2 y = some m1 := a1
      rw [get_new, if_neg (by omega)] at a1'
      have := b1 y
      rw [a1'] at this
      cases hg : get w.heap y with
      | none => rw [hg] at this; exact absurd this (by simp)
      | some m2 =>
        rw [hg] at this
        simp at this
        exact ⟨m2, rfl, this.symm.trans a2⟩
  cases o with
  | setText v b =>
    obtain ⟨w', e, i', _, _, _, r, k, _⟩ := i.setVar v b
    exact ⟨w', e, i', Kept.of_back k, r⟩
  | share v u =>
    unfold Objs.step
    dsimp only
    cases hu : w.var u with
    | none => exact ⟨w, rfl, i, self, rfl⟩
    | some x =>
      obtain ⟨n, hn⟩ := i.root (WInv.var_root hu)
      obtain ⟨w', e, i', _, _, _, r, _, k, _⟩ := i.setVarObj v hn
      exact ⟨w', e, i', Kept.of_back fun y m _ hm => k y m hm, r⟩
  | setList v us => exact mkList v _ (wordsAlive us)
  | lappend v u =>
    unfold Objs.step
    dsimp only
    cases hv : w.var v with
    | none => exact ⟨w, rfl, i, self, rfl⟩
    | some l =>
      cases hu : w.var u with
      | none => exact ⟨w, rfl, i, self, rfl⟩
      | some x =>
        dsimp only
        obtain ⟨⟨r, b⟩, hl⟩ := i.root (WInv.var_root hv)
        obtain ⟨n, hx⟩ := i.root (WInv.var_root hu)
        rw [hl]
        cases b with
        | text b => exact ⟨w, rfl, i, self, rfl⟩
        | list ks =>
          dsimp only
          split
          · rename_i hc
            have hroot : l ∈ w.roots := WInv.var_root hv
            have hno : l ∉ held w.heap := by
              intro hh
              have h1 := i.inv.counts l _ hl
              rw [List.count_append] at h1
              have h2 := List.count_pos_iff.2 hroot
              have h3 := List.count_pos_iff.2 hh
              have h4 : r ≤ 1 := hc.1
              dsimp only at h1
              omega
            have hr1 : r = 1 := by
              have h1 := i.inv.counts l _ hl
              rw [List.count_append] at h1
              have h2 := List.count_pos_iff.2 hroot
              have h4 : r ≤ 1 := hc.1
              dsimp only at h1
              omega
            obtain ⟨h', e, i', g1, g2, g3, _⟩ := i.inv.append hl hc.1 hno hx (fun e => hc.2 e.symm)
            refine ⟨{ w with heap := h' }, ?_, ⟨i'.more (by simp), i.names⟩, ?_, rfl⟩
            · show (Objs.append l x w.heap).bind _ = _
              rw [e]
              rfl
            · intro y n' m hn hm
              have hm' : get h' y = some m := hm
              by_cases e1 : y = l
              · subst e1
                rw [hl] at hn
                cases hn
                exact .inr ⟨hr1, List.mem_map.2 ⟨_, WInv.var_mem hv, rfl⟩⟩
              · by_cases e2 : y = x
                · subst e2
                  rw [hx] at hn
                  rw [g2] at hm'
                  cases hn
                  cases hm'
                  exact .inl rfl
                · rw [g3 y e1 e2, hn] at hm'
                  cases hm'
                  exact .inl rfl
          · refine mkList v (ks ++ [x]) fun y hy => ?_
            rcases List.mem_append.1 hy with hy | hy
            · exact i.inv.alive y (List.mem_append.2 (.inr (mem_held hl hy)))
            · rw [List.mem_singleton] at hy; rw [hy, hx]; rfl
  | keep v =>
    obtain ⟨n, hn⟩ := i.root (x := w.result) (by simp [World.roots])
    obtain ⟨w', e, i', _, _, _, r, _, k, _⟩ := i.setVarObj v hn
    exact ⟨w', e, i', Kept.of_back fun y m _ hm => k y m hm, r⟩
  | unset v =>
    obtain ⟨w', e, i', r, _, k⟩ := i.unsetVar v
    exact ⟨w', e, i', Kept.of_back fun y m _ hm => k y m hm, r⟩
  | enter us =>
    obtain ⟨h', e, i', b, _⟩ := Inv.incrAll (us.filterMap w.var) w.heap i.inv (wordsAlive us)
    refine ⟨{ w with heap := h', frames := us.filterMap w.var :: w.frames }, ?_, ⟨?_, i.names⟩, Kept.of_back fun y m _ hm => ?_, rfl⟩
    · show (Objs.incrAll (us.filterMap w.var) w.heap).bind _ = _
      rw [e]
      rfl
    · refine i'.perm ?_
      show ((us.filterMap w.var) ++ (w.result :: (w.vars.map Prod.snd ++ w.frames.flatten))).Perm
        (w.result :: (w.vars.map Prod.snd ++ (us.filterMap w.var :: w.frames).flatten))
      rw [List.flatten_cons]
      refine List.perm_middle.trans (List.Perm.cons _ ?_)
      rw [← List.append_assoc, ← List.append_assoc]
      exact List.perm_append_comm.append_right _
    · have hm' : get h' y = some m := hm
      have := b y
      rw [hm'] at this
      cases hg : get w.heap y with
      | none => rw [hg] at this; exact absurd this (by simp)
      | some m2 =>
        rw [hg] at this
        simp at this
        exact ⟨m2, rfl, this.symm⟩
  | leave =>
    unfold Objs.step
    dsimp only
    cases hf : w.frames with
    | nil => exact ⟨w, rfl, i, self, by rw [hf]; rfl⟩
    | cons f fs =>
      have hp : w.roots.Perm (f ++ w.result :: (w.vars.map Prod.snd ++ fs.flatten)) := by
        unfold World.roots
        rw [hf, List.flatten_cons]
        refine List.Perm.symm (List.perm_middle.trans (List.Perm.cons _ ?_))
        rw [← List.append_assoc, ← List.append_assoc]
        exact List.perm_append_comm.append_right _
      obtain ⟨h', e, i', b, _⟩ := Inv.release f _ (i.inv.perm hp)
      refine ⟨{ w with heap := h', frames := fs }, ?_, ⟨i', i.names⟩, Kept.of_back fun y m _ hm => b y m hm, rfl⟩
      show (Objs.release f w.heap).bind _ = _
      rw [e]
      rfl
  | resultVar v =>
    unfold Objs.step
    dsimp only
    cases hv : w.var v with
    | none => exact ⟨w, rfl, i, self, rfl⟩
    | some x =>
      obtain ⟨n, hn⟩ := i.root (WInv.var_root hv)
      obtain ⟨w', e, i', _, _, r, _, k⟩ := i.setResult hn
      exact ⟨w', e, i', Kept.of_back fun y m _ hm => k y m hm, r⟩
  | words =>
    unfold Objs.step Objs.readWords
    dsimp only
    cases hf : w.frames with
    | nil => exact ⟨w, rfl, i, self, hf⟩
    | cons f fs =>
      refine ⟨w, ?_, i, self, hf⟩
      dsimp only
      have : (f.forM fun x => Objs.readObj x w.heap) = some () := forM_ok fun x hx => by
        obtain ⟨n, hn⟩ := i.root (x := x) (by simp [World.roots, hf, hx])
        exact i.inv.readObj hn
      show (f.forM fun x => Objs.readObj x w.heap).bind _ = _
      rw [this]
      rfl
  | reply v =>
    obtain ⟨w', e, i', _, _, r, k⟩ := i.reply v hs
    exact ⟨w', e, i', Kept.of_back k, r⟩
  | read v c =>
    have main : c.short → ∃ w', Objs.step str (.read v c) w = some w' ∧ WInv w' [] ∧ Kept w w' ∧ w'.frames = w.frames := fun hc => by
      obtain ⟨w', e, i', _, _, _, r, k⟩ := i.traceGet str v c hc
      exact ⟨w', e, i', Kept.of_back k, r⟩
    cases c with
    | one b =>
      by_cases hb : b.length < 2 ^ 31 - 1
      · exact main hb
      · exact ⟨w, traceGet_long str v hb w, i, self, rfl⟩
    | arr a => exact main hs
    | arr2 a => exact main hs
  | write v =>
    obtain ⟨w', e, i', _, _, r, k⟩ := i.onWrite v hs
    exact ⟨w', e, i', Kept.of_back k, r⟩
  | result =>
    refine ⟨w, ?_, i, self, rfl⟩
    obtain ⟨n, hn⟩ := i.root (x := w.result) (by simp [World.roots])
    show (Objs.readObj w.result w.heap).bind _ = _
    rw [i.inv.readObj hn]
    rfl

theorem WInv.start : WInv start [] := by
  refine ⟨⟨?_, ?_, ?_, ⟨fun _ => 0, ?_⟩⟩, List.nodup_nil⟩
  · intro x hx
    simp [Objs.start, World.roots, held, Body.kids] at hx
    subst hx
    rfl
  all_goals
    intro x n hn
    cases x with
    | succ x => simp [get, Objs.start] at hn
    | zero =>
      simp [get, Objs.start] at hn
      subst hn
      first
        | rfl
        | exact fun h => absurd h (by simp)
        | (intro k hk; simp [Body.kids] at hk)

theorem WInv.run (str : Heap → Nat → List UInt8) : ∀ (ops : List Op) {w : World}, (∀ o ∈ ops, o.short) → WInv w [] →
    ∃ w', Objs.run str ops w = some w' ∧ WInv w' []
  | [], w, _, i => ⟨w, rfl, i⟩
  | o :: os, w, hs, i => by
    obtain ⟨w1, e1, i1, _⟩ := i.step str o (hs o (by simp))
    obtain ⟨w2, e2, i2⟩ := WInv.run str os (fun o ho => hs o (List.mem_cons_of_mem _ ho)) i1
    exact ⟨w2, by unfold Objs.run; rw [e1]; exact e2, i2⟩

/-! ## The property -/

theorem rank_le (r : Nat → Nat) : ∀ (n x : Nat), x < n → r x ≤ (List.range n).foldr (fun k s => r k + s) 0
  | 0, _, h => absurd h (by omega)
  | n + 1, x, h => by
    have hf : ∀ (l : List Nat) (c : Nat), l.foldr (fun k s => r k + s) c = l.foldr (fun k s => r k + s) 0 + c := by
      intro l c
      induction l with
      | nil => simp
      | cons a l ih => simp only [List.foldr_cons, ih]; omega
    rw [List.range_succ, List.foldr_append, hf]
    simp only [List.foldr_cons, List.foldr_nil]
    by_cases e : x = n
    · subst e; omega
    · have := rank_le r n x (by omega); omega

/-- Every value alive is held, in the end from outside. -/
theorem Inv.reach {h : Heap} {hs : List Nat} (i : Inv h hs []) {P : Nat → Prop} (hr : ∀ x ∈ hs, P x)
    (hk : ∀ x n, P x → get h x = some n → ∀ k ∈ n.body.kids, P k) : ∀ x, (get h x).isSome → P x := by
  obtain ⟨r, hrank⟩ := i.ranked
  have main : ∀ d x, (get h x).isSome → (List.range h.length).foldr (fun k s => r k + s) 0 - r x ≤ d → P x := by
    intro d
    induction d with
    | zero =>
      intro x hx hd
      obtain ⟨n, hn⟩ := Option.isSome_iff_exists.1 hx
      have hpos : n.refs ≠ 0 := fun h0 => absurd (i.float x n hn h0) (by simp)
      rw [i.counts x n hn] at hpos
      rcases List.mem_append.1 (List.count_pos_iff.1 (Nat.pos_of_ne_zero hpos)) with h1 | h1
      · exact hr x h1
      · obtain ⟨y, m, hm, hmem⟩ := held_mem h1
        have := hrank y m hm x hmem
        have := rank_le r _ y (lt_of_get hm)
        omega
    | succ d ih =>
      intro x hx hd
      obtain ⟨n, hn⟩ := Option.isSome_iff_exists.1 hx
      have hpos : n.refs ≠ 0 := fun h0 => absurd (i.float x n hn h0) (by simp)
      rw [i.counts x n hn] at hpos
      rcases List.mem_append.1 (List.count_pos_iff.1 (Nat.pos_of_ne_zero hpos)) with h1 | h1
      · exact hr x h1
      · obtain ⟨y, m, hm, hmem⟩ := held_mem h1
        have := hrank y m hm x hmem
        have := rank_le r _ y (lt_of_get hm)
        exact hk y m (ih y (by rw [hm]; rfl) (by omega)) hm x hmem
  exact fun x hx => main _ x hx (Nat.le_refl _)

theorem WInv.exact {w : World} (i : WInv w []) : Exact w := by
  refine ⟨fun x => ⟨fun hx => i.inv.reach (fun y hy => .root hy) (fun y n hy hn k hk => .elem hy hn hk) x hx, fun hx => ?_⟩, i.inv.counts⟩
  induction hx with
  | root h => exact i.inv.alive _ (List.mem_append.2 (.inl h))
  | elem _ hn hk _ => exact i.inv.alive _ (List.mem_append.2 (.inr (mem_held hn hk)))

/-- **C94** Whatever scripts and the library do, in any order: nothing released is used, no value others hold is changed in place or released, and
afterwards exactly the values scripts can still reach are alive. -/
theorem c94_owned_partial (str : Heap → Nat → List UInt8) (ops : List Op) (hs : ∀ o ∈ ops, o.short) : ∃ w, run str ops start = some w ∧ Exact w := by
  obtain ⟨w, e, i⟩ := WInv.run str ops hs WInv.start
  exact ⟨w, e, i.exact⟩

/-- **C94** When the interpreter lets go of everything, nothing is left: there are no leaks. -/
theorem c94_freed_partial (str : Heap → Nat → List UInt8) (ops : List Op) (hs : ∀ o ∈ ops, o.short) {w : World} (hw : run str ops start = some w) :
    ∃ h, release w.roots w.heap = some h ∧ alive h = 0 := by
  obtain ⟨w', e, i⟩ := WInv.run str ops hs WInv.start
  rw [hw] at e
  cases e
  obtain ⟨h, e, i', _⟩ := Inv.release (hs := []) w.roots w.heap (by rw [List.append_nil]; exact i.inv)
  refine ⟨h, e, ?_⟩
  unfold alive
  rw [List.countP_eq_zero]
  intro o ho hs
  obtain ⟨x, hx⟩ := List.mem_iff_getElem?.1 ho
  exact i'.reach (P := fun _ => False) (by simp) (fun _ _ h _ _ _ => h) x (by unfold get; rw [hx]; exact hs)

/-- **C94** The result of a command is the value the C++ function gave; variables and words of running commands stay. -/
theorem c94_reply_partial (str : Heap → Nat → List UInt8) (ops : List Op) (hs : ∀ o ∈ ops, o.short) {w : World} (hw : run str ops start = some w) (v : Value)
    (hv : v.short) :
    ∃ w', reply v w = some w' ∧ Shows w'.heap w'.result v ∧ w'.vars = w.vars ∧ w'.frames = w.frames ∧ Exact w' := by
  obtain ⟨w0, e, i⟩ := WInv.run str ops hs WInv.start
  rw [hw] at e
  cases e
  obtain ⟨w', e, i', s, r1, r2, _⟩ := i.reply v hv
  exact ⟨w', e, s, r1, r2, i'.exact⟩

/-- **C94** A read linked variable holds the text Tcl makes of the C++ value; the value made for this is gone, and nothing else changes. -/
theorem c94_read_partial (str : Heap → Nat → List UInt8) (ops : List Op) (hs : ∀ o ∈ ops, o.short) {w : World} (hw : run str ops start = some w) (v : List UInt8)
    (c : Value) (hc : c.short) :
    ∃ w', traceGet str v c w = some w' ∧ (∃ h x, Shows h x c ∧ ∃ y, w'.var v = some y ∧ IsText w'.heap y (str h x)) ∧
      (∀ u, u ≠ v → w'.var u = w.var u) ∧ w'.result = w.result ∧ w'.frames = w.frames ∧ Exact w' := by
  obtain ⟨w0, e, i⟩ := WInv.run str ops hs WInv.start
  rw [hw] at e
  cases e
  obtain ⟨w', e, i', r1, r2, r3, r4, _⟩ := i.traceGet str v c hc
  exact ⟨w', e, r2, r3, r1, r4, i'.exact⟩

/-- What happens until the innermost command returns: commands called in between return first. -/
def inner : Nat → List Op → Prop
  | _, [] => True
  | d, .enter _ :: os => inner (d + 1) os
  | 0, .leave :: _ => False
  | d + 1, .leave :: os => inner d os
  | d, _ :: os => inner d os

theorem words_step {str : Heap → Nat → List UInt8} {w w' : World} {o : Op} (hs : o.short) (i : WInv w []) (e : step str o w = some w') {x : Nat}
    (hx : x ∈ w.frames.flatten) (hx' : x ∈ w'.frames.flatten) :
    ∃ n m, get w.heap x = some n ∧ get w'.heap x = some m ∧ m.body = n.body := by
  obtain ⟨w1, e1, i1, k, _⟩ := i.step str o hs
  rw [e] at e1
  cases e1
  obtain ⟨n, hn⟩ := i.root (x := x) (List.mem_cons_of_mem _ (List.mem_append.2 (.inr hx)))
  obtain ⟨m, hm⟩ := i1.root (x := x) (List.mem_cons_of_mem _ (List.mem_append.2 (.inr hx')))
  refine ⟨n, m, hn, hm, ?_⟩
  rcases k x n m hn hm with h | ⟨h1, h2⟩
  · exact h
  · have h3 := i.inv.counts x n hn
    have h4 := List.count_pos_iff.2 h2
    have h5 := List.count_pos_iff.2 hx
    unfold World.roots at h3
    rw [List.cons_append, List.count_cons, List.count_append, List.count_append] at h3
    omega

theorem words_run {str : Heap → Nat → List UInt8} (f : List Nat) (fs : List (List Nat)) : ∀ (ops : List Op) (gs : List (List Nat)) {w w' : World},
    (∀ o ∈ ops, o.short) → WInv w [] → w.frames = gs ++ f :: fs → inner gs.length ops → run str ops w = some w' →
    (∃ gs', w'.frames = gs' ++ f :: fs) ∧ ∀ x ∈ f, ∃ n m, get w.heap x = some n ∧ get w'.heap x = some m ∧ m.body = n.body
  | [], gs, w, w', _, i, hf, _, e => by
    cases e
    refine ⟨⟨gs, hf⟩, fun x hx => ?_⟩
    obtain ⟨n, hn⟩ := i.root (x := x) (List.mem_cons_of_mem _ (List.mem_append.2 (.inr (by
      rw [hf]; exact List.mem_flatten.2 ⟨f, by simp, hx⟩))))
    exact ⟨n, n, hn, hn, rfl⟩
  | o :: os, gs, w, w', hs, i, hf, hi, e => by
    obtain ⟨w1, e1, i1, _, hfr⟩ := i.step str o (hs o (by simp))
    have e2 : run str os w1 = some w' := by unfold run at e; rw [e1] at e; exact e
    have ih : ∀ gs1 : List (List Nat), w1.frames = gs1 ++ f :: fs → inner gs1.length os → (∃ gs', w'.frames = gs' ++ f :: fs) ∧
        ∀ x ∈ f, ∃ n m, get w.heap x = some n ∧ get w'.heap x = some m ∧ m.body = n.body := by
      intro gs1 hf1 hi1
      obtain ⟨g, hall⟩ := words_run f fs os gs1 (fun o ho => hs o (List.mem_cons_of_mem _ ho)) i1 hf1 hi1 e2
      refine ⟨g, fun x hx => ?_⟩
      obtain ⟨n1, m1, a1, a2, a3⟩ := hall x hx
      obtain ⟨n, m, b1, b2, b3⟩ := words_step (hs o (by simp)) i e1 (x := x) (by rw [hf]; exact List.mem_flatten.2 ⟨f, by simp, hx⟩)
        (by rw [hf1]; exact List.mem_flatten.2 ⟨f, by simp, hx⟩)
      rw [a1] at b2
      cases b2
      exact ⟨n, m1, b1, a2, a3.trans b3⟩
    cases o with
    | enter us => exact ih (us.filterMap w.var :: gs) (by rw [hfr, hf]; rfl) hi
    | leave =>
      cases gs with
      | nil => exact absurd hi (by simp [inner])
      | cons g gs => exact ih gs (by rw [hfr, hf]; rfl) hi
    | _ => exact ih gs (hfr.trans hf) (by cases gs <;> exact hi)

/-- **C94** The words of a command stay alive and unchanged until it returns, whatever it and the scripts it runs do in between; so the texts a C++
function got as `char*` parameters stay valid while it runs. -/
theorem c94_words_partial (str : Heap → Nat → List UInt8) (ops more : List Op) (hs : ∀ o ∈ ops, o.short) (hm : ∀ o ∈ more, o.short) {w w' : World} (hw : run str ops start = some w) {f : List Nat}
    {fs : List (List Nat)} (hf : w.frames = f :: fs) (hi : inner 0 more) (hw' : run str more w = some w') :
    (∃ gs, w'.frames = gs ++ f :: fs) ∧ ∀ x ∈ f, ∃ n m, get w.heap x = some n ∧ get w'.heap x = some m ∧ m.body = n.body := by
  obtain ⟨w0, e, i⟩ := WInv.run str ops hs WInv.start
  rw [hw] at e
  cases e
  exact words_run f fs more [] hm i hf hi hw'

/-- **C94, refuted** A text of `2 ^ 31 - 1` bytes or more as result of a command, as error text, in an array, or as the name of a linked variable that is
written: the conversion gives a null pointer, and that is handed to Tcl. -/
theorem c94_refuted_long (str : Heap → Nat → List UInt8) {b : List UInt8} (hb : 2 ^ 31 - 1 ≤ b.length) (a a' : List (List UInt8))
    (ha : ∀ e ∈ a, e.length < 2 ^ 31 - 1) (ops : List Op) (hs : ∀ o ∈ ops, o.short) {w : World} (hw : run str ops start = some w) :
    step str (.reply (.one b)) w = none ∧ step str (.reply (.arr (a ++ b :: a'))) w = none ∧ (∀ v, step str (.read v (.arr (a ++ b :: a'))) w = none) ∧
      step str (.write b) w = none := by
  have hn : ∀ h, castText b h = (none, h) := fun h => if_neg (by simp at hb; omega)
  have fill : ∀ (l : Nat) (a : List (List UInt8)) (ks : List Nat) (done : List (List UInt8)) (h : Heap) (hs fl : List Nat),
      (∀ e ∈ a, e.length < 2 ^ 31 - 1) → Inv h hs fl → get h l = some ⟨0, .list ks⟩ → Each (IsText h) ks done → fillArr l (a ++ b :: a') h = none := by
    intro l a
    induction a with
    | nil =>
      intro ks done h hs fl _ _ _ _
      rw [List.nil_append]
      unfold fillArr
      rw [hn]
    | cons e a ih =>
      intro ks done h hs fl ha i hl hd
      obtain ⟨h1, ks1, e1, i1, g1, d1, _, _⟩ := fillArr_ok l [e] done ks h (by simpa using ha e (by simp)) i hl hd
      have := ih ks1 _ h1 hs fl (fun x hx => ha x (List.mem_cons_of_mem _ hx)) i1 g1 d1
      unfold fillArr at e1 ⊢
      rw [List.cons_append]
      dsimp only
      rw [castText_short (ha e (by simp))] at e1 ⊢
      dsimp only at e1 ⊢
      cases hap : Objs.append l h.length (Objs.new (.text e) h).2 with
      | none => rfl
      | some h2 =>
        rw [hap] at e1
        have e1' : some h2 = some h1 := e1
        cases e1'
        exact this
  obtain ⟨w0, e, i⟩ := WInv.run str ops hs WInv.start
  rw [hw] at e
  cases e
  have harr : cast (.arr (a ++ b :: a')) w.heap = none := by
    show (castArr (a ++ b :: a') w.heap).bind _ = none
    unfold castArr
    show ((fillArr w.heap.length (a ++ b :: a') (Objs.new (.list []) w.heap).2).bind _).bind _ = none
    rw [fill w.heap.length a [] [] _ w.roots [w.heap.length] ha (Inv.new (.list []) (hs := w.roots) (fl := []) i.inv) (by rw [get_new, if_pos rfl]) .nil]
    rfl
  refine ⟨?_, ?_, fun v => ?_, ?_⟩
  · show Objs.reply _ w = none
    have : cast (.one b) w.heap = some (none, w.heap) := congrArg some (hn w.heap)
    unfold Objs.reply
    rw [this]
    rfl
  · show Objs.reply _ w = none
    unfold Objs.reply
    rw [harr]
    rfl
  · show Objs.traceGet str v _ w = none
    unfold Objs.traceGet
    rw [harr]
    rfl
  · show Objs.onWrite b w = none
    unfold Objs.onWrite traceSet
    rw [hn]
    rfl

/-! ## Examples -/

/-- A script calls a command with the value of a variable, the command runs a script that sets the variable, gives an array of arrays, and a linked
variable is read and written. -/
def busy : List Op := [.setText [97] [1], .enter [[97], [97]], .setText [97] [2], .setList [98] [[97], [97]], .lappend [98] [97], .words,
  .reply (.arr2 [[[1], [2]], [], [[3]]]), .leave, .keep [99], .read [100] (.arr [[5], [6]]), .write [100], .reply (.one [7]), .result, .unset [99]]

theorem busy_short : ∀ o ∈ busy, o.short := by
  simp [busy, Op.short, Value.short]

example := c94_owned_partial (fun _ _ => [0]) busy busy_short

/-- A released value is really gone: the old text of a variable. -/
example : (run (fun _ _ => [0]) [.setText [97] [1], .setText [97] [2], .enter [[97]]] start).map (fun w => (w.heap, w.frames)) =
    some ([some ⟨1, .text []⟩, none, some ⟨2, .text [2]⟩], [[2]]) := by
  have hr : release [1] [some ⟨1, .text []⟩, some ⟨1, .text [1]⟩, some ⟨1, .text [2]⟩] = some [some ⟨1, .text []⟩, none, some ⟨1, .text [2]⟩] := by
    rw [release_cons (n := ⟨1, .text [1]⟩) rfl, if_neg (by decide)]
    exact release_nil _
  simp [run, step, setVar, setVarObj, new, incr, get, World.var, start, hr]
  simp [World.var, incrAll, incr, get]

/-- The command `a` with its own name as its word sets the variable anew and unsets it; the word stays. -/
example (w' : World) (h : run (fun _ _ => [0]) [.setText [97] [2], .unset [97], .reply (.one [3])]
    ⟨[some ⟨1, .text []⟩, some ⟨2, .text [1]⟩], 0, [([97], 1)], [[1]]⟩ = some w') : ∃ r, get w'.heap 1 = some ⟨r, .text [1]⟩ := by
  obtain ⟨_, h2⟩ := c94_words_partial (fun _ _ => [0]) [.setText [97] [1], .enter [[97]]] _ (by simp [Op.short]) (by simp [Op.short, Value.short]) (f := [1]) (fs := []) rfl rfl (by simp [inner]) h
  obtain ⟨n, ⟨r, b⟩, h3, h4, h5⟩ := h2 1 (by simp)
  cases h3
  exact ⟨r, h4.trans (congrArg (fun b : Body => some (Node.mk r b)) h5)⟩

end Bdlib.Tcl.Objs
