import Verif.Props.C104

/-!
# C106: algorithms of the standard library on arrays

`std::sort(a.begin(), a.end())`, `std::reverse`, `std::unique`, `std::iter_swap`, …, on arrays of `String`s and on arrays of arrays:
they do to the array what they do to a plain list, and to nothing else.
-/

namespace Bdlib.Deep
open Bdlib Bdlib.Spec Bdlib.Rca

variable {p : Params} {n k : Nat}

/-- The call returns or throws as `out` says and leaves `v` in array `a`, and everything else is as before; or memory runs out before it
begins, and `a` is unchanged or, if it was shared, empty.  The program may go on. -/
def Arranges (p : Params) (k : Nat) (w : Mem p (n + 1)) (E : Envs (n + 1)) (call : Call (n + 1)) (a : Nat) (out : Outcome (Ty (n + 1)))
    (v : List (Slot (Ty n))) : Prop :=
  ∃ w', (result (run p call w) = some (.here out, w') ∧ Plays p (n := n + 1) k w' (E.1, E.2.upd a (.val v))) ∨
    (result (run p call w) = some (.exc .badAlloc, w') ∧
      Plays p (n := n + 1) k w' (E.1, if (shares p w).2 a then E.2.upd a (.val []) else E.2))

/-- Any algorithm, whatever it moves, copies, compares or throws: what it does to a plain list it does to the array.  With reverse iterators
(`rev`) the list has the elements in reverse order. -/
theorem c106_any {w : Mem p (n + 1)} {E : Envs (n + 1)} (h : Plays p (k + 1) w E) {a : Nat} {xs : List (Slot (Ty n))} (ha : E.2 a = .val xs)
    (rev back : Bool) (f : Nat → Algo n) (hok : (f xs.length).Ok (left p n) ⟨turned rev xs, []⟩) :
    Arranges p k w E (.algo rev back a f) a ((f xs.length).effect (left p n) ⟨turned rev xs, []⟩).1
      (turned rev ((f xs.length).effect (left p n) ⟨turned rev xs, []⟩).2) := by
  have hget : E.2.get a = xs := env_gets (B := E.2) ha
  obtain ⟨out, w', ⟨F, e⟩, h1, h2, h3⟩ := h.2 (.algo rev back a f) ⟨⟨xs, ha⟩, by rw [hget]; exact hok⟩
  refine ⟨w', ?_⟩
  rcases h2 with ⟨rfl, hF, he⟩ | ⟨rfl, hF, he⟩
  · exact .inr ⟨h1, by change F = E.1 at hF; change e = _ at he; subst hF he; exact h3⟩
  · refine .inl ⟨?_, ?_⟩
    · rw [hget] at h1; exact h1
    · rw [hget] at he; change F = E.1 at hF; change e = _ at he; subst hF he; exact h3

theorem any_forward {w : Mem p (n + 1)} {E : Envs (n + 1)} (h : Plays p (k + 1) w E) {a : Nat} {xs : List (Slot (Ty n))} (ha : E.2 a = .val xs)
    (back : Bool) (f : Nat → Algo n) (hok : (f xs.length).Ok (left p n) ⟨xs, []⟩) :
    Arranges p k w E (.algo false back a f) a ((f xs.length).effect (left p n) ⟨xs, []⟩).1 ((f xs.length).effect (left p n) ⟨xs, []⟩).2 :=
  c106_any h ha false back f hok

theorem turned_perm {T : Type} (rev : Bool) (l : List T) : (turned rev l).Perm l := by
  cases rev
  · exact .refl _
  · exact List.reverse_perm l

/-! ## Algorithms that compare and swap -/

/-- `l` with the elements at `i` and `j` exchanged. -/
def swapped {T : Type} (l : List T) (i j : Nat) : List T :=
  match l[i]?, l[j]? with
  | some x, some y => (l.set i y).set j x
  | _, _ => l

theorem swapped_length {T : Type} (l : List T) (i j : Nat) : (swapped l i j).length = l.length := by
  unfold swapped; split <;> simp

theorem swapped_perm {T : Type} (l : List T) (i j : Nat) : (swapped l i j).Perm l := by
  unfold swapped
  split
  · rename_i x y hx hy
    obtain ⟨hi, rfl⟩ := List.getElem?_eq_some_iff.mp hx
    obtain ⟨hj, rfl⟩ := List.getElem?_eq_some_iff.mp hy
    exact List.set_set_perm hi hj
  · exact .refl _

theorem swapped_self {T : Type} (l : List T) (i : Nat) : swapped l i i = l := by
  unfold swapped
  cases h : l[i]? with
  | none => rfl
  | some x =>
    obtain ⟨hi, rfl⟩ := List.getElem?_eq_some_iff.mp h
    simp only [List.set_set]
    exact List.set_getElem_self hi

theorem swapped_getElem? {T : Type} (l : List T) {i j : Nat} (hi : i < l.length) (hj : j < l.length) (m : Nat) :
    (swapped l i j)[m]? = if m = j then l[i]? else if m = i then l[j]? else l[m]? := by
  unfold swapped
  rw [List.getElem?_eq_getElem hi, List.getElem?_eq_getElem hj]
  simp only [List.getElem?_set, List.length_set]
  by_cases h1 : j = m
  · subst h1; simp [hj]
  · rw [if_neg h1, if_neg (Ne.symm h1)]
    by_cases h2 : i = m
    · subst h2; simp [hi]
    · rw [if_neg h2, if_neg (Ne.symm h2)]

/-- What swapping does, step by step. -/
theorem swap_effect (mv : Slot (Ty n)) {i j : Nat} {l : List (Slot (Ty n))} (hi : i < l.length) (hj : j < l.length) (A : Algo n) :
    ((Algo.swap i j A).effect mv ⟨l, []⟩ = A.effect mv ⟨swapped l i j, []⟩) ∧
    (A.Ok mv ⟨swapped l i j, []⟩ → (Algo.swap i j A).Ok mv ⟨l, []⟩) := by
  have e : ∀ h : Hand (Ty n), h = ((((⟨l, []⟩ : Hand (Ty n)).put (.elem i) mv).push (Hand.get ⟨l, []⟩ (.elem i))).move mv (.elem i) (.elem j)) →
      (h.move mv (.elem j) (.temp 0)).pop = ⟨swapped l i j, []⟩ := by
    rintro h rfl
    have h1 : l[i]? = some l[i] := List.getElem?_eq_getElem hi
    have h2 : l[j]? = some l[j] := List.getElem?_eq_getElem hj
    by_cases hne : i = j
    · subst hne
      simp only [Hand.move, Hand.put, Hand.push, Hand.pop, Hand.get, if_true, h1, Option.getD_some, reduceCtorEq, List.tail_cons, if_false,
        List.set_cons_zero, List.getElem?_cons_zero, List.set_set]
      rw [swapped_self, List.set_getElem_self hi]
    · have hij : ¬ (Place.elem i = Place.elem j) := fun e => hne (Place.elem.inj e)
      simp only [Hand.move, Hand.put, Hand.push, Hand.pop, Hand.get, hij, if_false, h1, Option.getD_some, reduceCtorEq, List.tail_cons,
        List.getElem?_set_ne hne, h2, List.set_cons_zero, List.getElem?_cons_zero]
      unfold swapped
      rw [h1, h2]
      simp only
      congr 1
      rw [List.set_comm _ _ (Ne.symm hne), List.set_set, List.set_comm _ _ hne, List.set_comm _ _ (Ne.symm hne), List.set_set]
  have hlen : ∀ (h : Hand (Ty n)) d s, (h.move mv d s).elems.length = h.elems.length := by
    intro h d s
    unfold Hand.move
    split
    · rfl
    · cases d <;> cases s <;> simp [Hand.put]
  have htl : ∀ (h : Hand (Ty n)) d s, (h.move mv d s).temps.length = h.temps.length := by
    intro h d s
    unfold Hand.move
    split
    · rfl
    · cases d <;> cases s <;> simp [Hand.put]
  constructor
  · show A.effect mv _ = _
    rw [e _ rfl]
  · intro hA
    refine ⟨hi, ?_, ?_, ?_, ?_, ?_, ?_⟩
    · show i < _; simp [Hand.push, Hand.put, hi]
    · show j < _; simp [Hand.push, Hand.put, hj]
    · show j < _; rw [hlen]; simp [Hand.push, Hand.put, hj]
    · show 0 < _; rw [htl]; simp [Hand.push]
    · intro h
      have := congrArg List.length h
      rw [htl, htl] at this
      simp [Hand.push] at this
    · rw [e _ rfl]; exact hA

/-- An algorithm on `len` elements that compares elements by `q`, exchanges elements, and does nothing else. -/
inductive Exchanging (q : Cmp n) (len : Nat) : Algo n → Prop where
  | done (r : Nat) : Exchanging q len (.done r)
  | raise (e : Exc) : Exchanging q len (.raise e)
  | swap {i j : Nat} {A : Algo n} (hi : i < len) (hj : j < len) (h : Exchanging q len A) : Exchanging q len (.swap i j A)
  | test {i j : Nat} {A : Bool → Algo n} (hi : i < len) (hj : j < len) (h : ∀ b, Exchanging q len (A b)) :
      Exchanging q len (.test q (.elem i) (.elem j) A)

theorem exchanging_perm (mv : Slot (Ty n)) {q : Cmp n} {len : Nat} {A : Algo n} (h : Exchanging q len A) :
    ∀ l : List (Slot (Ty n)), l.length = len → (∀ x ∈ l, ∀ y ∈ l, q.Ok x y) → A.Ok mv ⟨l, []⟩ ∧ (A.effect mv ⟨l, []⟩).2.Perm l := by
  induction h with
  | done r | raise e => exact fun l _ _ => ⟨trivial, .refl _⟩
  | swap hi hj _ ih =>
    intro l hl hq
    rename_i i j A _
    obtain ⟨h1, h2⟩ := swap_effect mv (l := l) (i := i) (j := j) (by omega) (by omega) A
    have hp := swapped_perm l i j
    obtain ⟨h3, h4⟩ := ih (swapped l i j) ((swapped_length l i j).trans hl) fun x hx y hy => hq x (hp.subset hx) y (hp.subset hy)
    exact ⟨h2 h3, by rw [h1]; exact h4.trans hp⟩
  | test hi hj _ ih =>
    intro l hl hq
    subst hl
    have g : ∀ {i : Nat}, i < l.length → Hand.get ⟨l, []⟩ (.elem i) ∈ l := fun {i} hi => by
      show l[i]?.getD .dead ∈ l
      rw [List.getElem?_eq_getElem hi]; exact List.getElem_mem hi
    obtain ⟨h3, h4⟩ := ih _ l rfl hq
    exact ⟨⟨hi, hj, hq _ (g hi) _ (g hj), h3⟩, h4⟩

/-- Whatever such an algorithm does, even if it throws: the array has the elements it had, none lost, none twice. -/
theorem c106_exchange {w : Mem p (n + 1)} {E : Envs (n + 1)} (h : Plays p (k + 1) w E) {a : Nat} {xs : List (Slot (Ty n))} (ha : E.2 a = .val xs)
    (rev back : Bool) (f : Nat → Algo n) {q : Cmp n} (hf : Exchanging q xs.length (f xs.length)) (hq : ∀ x ∈ xs, ∀ y ∈ xs, q.Ok x y) :
    ∃ out v, v.Perm xs ∧ Arranges p k w E (.algo rev back a f) a out v := by
  obtain ⟨h1, h2⟩ := exchanging_perm (left p n) hf (turned rev xs) length_turned fun x hx y hy => hq x (mem_turned.mp hx) y (mem_turned.mp hy)
  exact ⟨_, _, (turned_perm rev _).trans (h2.trans (turned_perm rev xs)), c106_any h ha rev back f h1⟩

/-- A sorting network of one comparator. -/
example : Exchanging (n := 0) .less 2 (.test .less (.elem 1) (.elem 0) fun b => if b then .swap 0 1 (.done 0) else .done 0) :=
  .test (by decide) (by decide) fun b => by
    cases b
    · exact .done 0
    · exact .swap (by decide) (by decide) (.done 0)

/-- `std::iter_swap(a.begin() + i, a.begin() + j)`. -/
theorem c106_swap {w : Mem p (n + 1)} {E : Envs (n + 1)} (h : Plays p (k + 1) w E) {a i j : Nat} {xs : List (Slot (Ty n))} {x y : Slot (Ty n)}
    (ha : E.2 a = .val xs) (back : Bool) (hi : xs[i]? = some x) (hj : xs[j]? = some y) :
    Arranges p k w E (.algo false back a fun _ => .swap i j (.done 0)) a (.ret (.num 0)) ((xs.set i y).set j x) := by
  obtain ⟨h1, h2⟩ := swap_effect (left p n) (l := xs) (List.getElem?_eq_some_iff.mp hi).1 (List.getElem?_eq_some_iff.mp hj).1 (.done 0)
  have := any_forward h ha back (fun _ => .swap i j (.done 0)) (h2 trivial)
  simp only [h1] at this
  unfold swapped at this
  rw [hi, hj] at this
  exact this

/-! ## `std::reverse` -/

/-- `for (; m; ++i, --m) std::iter_swap(first + i, first + (k - 1 - i));` -/
def reverseFrom (k : Nat) (i : Nat) : Nat → Algo n
  | 0 => .done 0
  | m + 1 => .swap i (k - 1 - i) (reverseFrom k (i + 1) m)

/-- `std::reverse` -/
def reversal (k : Nat) : Algo n := reverseFrom k 0 (k / 2)

theorem reverseFrom_effect (mv : Slot (Ty n)) (xs : List (Slot (Ty n))) : ∀ (m i : Nat) (l : List (Slot (Ty n))), l.length = xs.length →
    i + m = xs.length / 2 → (∀ j, l[j]? = if j < i ∨ xs.length - i ≤ j then xs.reverse[j]? else xs[j]?) →
    (reverseFrom xs.length i m).Ok mv ⟨l, []⟩ ∧ (reverseFrom xs.length i m).effect mv ⟨l, []⟩ = (.ret (.num 0), xs.reverse)
  | 0, i, l, hl, hm, h => by
    refine ⟨trivial, ?_⟩
    show (_, l) = _
    congr 1
    apply List.ext_getElem?
    intro j
    rw [h]
    split
    · rfl
    · have hj : j < xs.length := by omega
      rw [List.getElem?_reverse hj]
      congr 1; omega
  | m + 1, i, l, hl, hm, h => by
    have hi : i < l.length := by omega
    have hj : xs.length - 1 - i < l.length := by omega
    obtain ⟨h1, h2⟩ := swap_effect mv hi hj (reverseFrom xs.length (i + 1) m)
    obtain ⟨h3, h4⟩ := reverseFrom_effect mv xs m (i + 1) (swapped l i (xs.length - 1 - i)) ((swapped_length _ _ _).trans hl) (by omega) fun j => by
      rw [swapped_getElem? l hi hj, h, h, h]
      by_cases e1 : j = xs.length - 1 - i
      · subst e1
        rw [if_pos rfl, if_neg (by omega), if_pos (by omega), List.getElem?_reverse (by omega)]
        congr 1; omega
      · rw [if_neg e1]
        by_cases e2 : j = i
        · subst e2
          rw [if_pos rfl, if_neg (by omega), if_pos (by omega), List.getElem?_reverse (by omega)]
        · rw [if_neg e2]
          by_cases e3 : j < i ∨ xs.length - i ≤ j
          · rw [if_pos e3, if_pos (by omega)]
          · rw [if_neg e3]
            by_cases e4 : j < i + 1 ∨ xs.length - (i + 1) ≤ j
            · omega
            · rw [if_neg e4]
    exact ⟨h2 h3, h1.trans h4⟩

/-- `std::reverse(a.begin(), a.end())` -/
theorem c106_reverse {w : Mem p (n + 1)} {E : Envs (n + 1)} (h : Plays p (k + 1) w E) {a : Nat} {xs : List (Slot (Ty n))} (ha : E.2 a = .val xs)
    (back : Bool) : Arranges p k w E (.algo false back a reversal) a (.ret (.num 0)) xs.reverse := by
  obtain ⟨h1, h2⟩ := reverseFrom_effect (left p n) xs (xs.length / 2) 0 xs rfl (by omega) fun j => by
    split
    · rename_i hj
      have hj : xs.length ≤ j := by omega
      rw [List.getElem?_eq_none hj, List.getElem?_eq_none (by simpa using hj)]
    · rfl
  have := any_forward h ha back reversal h1
  unfold reversal at this
  rw [h2] at this
  exact this

/-! ## Sorting

The insertion sort `std::sort` and `std::stable_sort` use for short ranges. -/

/-- The object of the algorithm goes to its place among the first `j` elements; element `j` has been moved from. -/
def insertion (q : Cmp n) : Nat → Algo n → Algo n
  | 0, A => .move (.elem 0) (.temp 0) (.drop A)
  | j + 1, A => .test q (.temp 0) (.elem j) fun b =>
    if b then .move (.elem (j + 1)) (.elem j) (insertion q j A) else .move (.elem (j + 1)) (.temp 0) (.drop A)

/-- The elements from `i` on, `m` of them, are inserted among those before. -/
def sortFrom (q : Cmp n) (i : Nat) : Nat → Algo n
  | 0 => .done 0
  | m + 1 => .take (.elem i) (insertion q i (sortFrom q (i + 1) m))

def insertionSort (q : Cmp n) (k : Nat) : Algo n := sortFrom q 1 (k - 1)

theorem set_mid {T : Type} {A B : List T} {x y : T} {j : Nat} (h : A.length = j) : (A ++ x :: B).set j y = A ++ y :: B := by
  subst h
  rw [List.set_append_right _ _ (Nat.le_refl _), Nat.sub_self, List.set_cons_zero]

theorem get_mid {T : Type} {A B : List T} {x : T} {j : Nat} (h : A.length = j) : (A ++ x :: B)[j]? = some x := by
  subst h
  rw [List.getElem?_append_right (Nat.le_refl _), Nat.sub_self, List.getElem?_cons_zero]

theorem insertion_effect (mv : Slot (Ty n)) (q : Cmp n) (K : Algo n) (x : Slot (Ty n)) : ∀ (j : Nat) (A B : List (Slot (Ty n))) (hole : Slot (Ty n)),
    A.length = j → (∀ y ∈ A, q.Ok x y) →
    ∃ A1 A2, A = A1 ++ A2 ∧ (∀ y ∈ A2, q.says x y = true) ∧ (∀ A0 z, A1 = A0 ++ [z] → q.says x z = false) ∧
      (insertion q j K).effect mv ⟨A ++ hole :: B, [x]⟩ = K.effect mv ⟨A1 ++ x :: A2 ++ B, []⟩ ∧
      (K.Ok mv ⟨A1 ++ x :: A2 ++ B, []⟩ → (insertion q j K).Ok mv ⟨A ++ hole :: B, [x]⟩)
  | 0, A, B, hole, hA, hq => by
    have hA : A = [] := List.eq_nil_of_length_eq_zero hA
    subst hA
    refine ⟨[], [], rfl, by simp, fun A0 z e => by simp at e, rfl, fun h => ⟨?_, ?_, ?_, h⟩⟩
    · show 0 < _; simp
    · show 0 < _; simp
    · intro e; simp [Hand.move, Hand.put] at e
  | j + 1, A, B, hole, hA, hq => by
    obtain ⟨A', y, rfl⟩ : ∃ A' y, A = A' ++ [y] := by
      rcases List.eq_nil_or_concat A with rfl | ⟨A', y, rfl⟩
      · simp at hA
      · exact ⟨A', y, by simp⟩
    have hA' : A'.length = j := by simpa using hA
    have hform : A' ++ [y] ++ hole :: B = A' ++ y :: hole :: B := by simp
    have hy : Hand.get (⟨A' ++ [y] ++ hole :: B, [x]⟩ : Hand (Ty n)) (.elem j) = y := by
      show (A' ++ [y] ++ hole :: B)[j]?.getD .dead = y
      rw [hform, get_mid hA']; rfl
    have hx : Hand.get (⟨A' ++ [y] ++ hole :: B, [x]⟩ : Hand (Ty n)) (.temp 0) = x := rfl
    have hhole : ∀ z, (A' ++ [y] ++ hole :: B).set (j + 1) z = A' ++ [y] ++ z :: B := fun z => set_mid (by simp [hA'])
    have hlen : (A' ++ [y] ++ hole :: B).length = j + 2 + B.length := by simp [hA']; omega
    by_cases hb : q.says x y = true
    · obtain ⟨A1, A2, rfl, h2, h3, h4, h5⟩ := insertion_effect mv q K x j A' (y :: B) mv hA' fun z hz => hq z (by simp [hz])
      have hmove : (⟨A1 ++ A2 ++ [y] ++ hole :: B, [x]⟩ : Hand (Ty n)).move mv (.elem (j + 1)) (.elem j) = ⟨A1 ++ A2 ++ mv :: y :: B, [x]⟩ := by
        have hne : ¬ (Place.elem (j + 1) = Place.elem j) := fun e => by cases e
        simp only [Hand.move, if_neg hne, hy, Hand.put]
        congr 1
        rw [hform, set_mid hA']
        have : A1 ++ A2 ++ mv :: hole :: B = A1 ++ A2 ++ [mv] ++ hole :: B := by simp
        rw [this, set_mid (by simp at hA'; simp; omega)]
        simp
      refine ⟨A1, A2 ++ [y], by simp, fun z hz => ?_, h3, ?_, fun h => ?_⟩
      · rcases List.mem_append.mp hz with hz | hz
        · exact h2 z hz
        · rw [List.mem_singleton.mp hz]; exact hb
      · show Algo.effect mv (if q.says _ _ then _ else _) _ = _
        rw [hy, hx, hb, if_pos rfl]
        show Algo.effect mv _ (Hand.move _ _ _ _) = _
        rw [hmove, h4]
        simp
      · refine ⟨?_, ?_, ?_, ?_⟩
        · show 0 < _; simp
        · show j < _; rw [hlen]; omega
        · rw [hx, hy]; exact hq y (by simp)
        · show Algo.Ok mv (if q.says _ _ then _ else _) _
          rw [hy, hx, hb, if_pos rfl]
          refine ⟨?_, ?_, ?_⟩
          · show j + 1 < _; rw [hlen]; omega
          · show j < _; rw [hlen]; omega
          · rw [hmove]; exact h5 (by simpa using h)
    · have hb : q.says x y = false := by simpa using hb
      have hmove : ((⟨A' ++ [y] ++ hole :: B, [x]⟩ : Hand (Ty n)).move mv (.elem (j + 1)) (.temp 0)).pop = ⟨A' ++ [y] ++ x :: [] ++ B, []⟩ := by
        have hne : ¬ (Place.elem (j + 1) = Place.temp 0) := fun e => by cases e
        simp only [Hand.move, if_neg hne, hx, Hand.put, Hand.pop, hhole]
        simp
      refine ⟨A' ++ [y], [], by simp, by simp, fun A0 z e => ?_, ?_, fun h => ?_⟩
      · have : y = z := by simpa using congrArg List.getLast? e
        rw [← this]; exact hb
      · show Algo.effect mv (if q.says _ _ then _ else _) _ = _
        rw [hy, hx, hb, if_neg (by decide)]
        show Algo.effect mv K (Hand.pop _) = _
        rw [hmove]
      · refine ⟨?_, ?_, ?_, ?_⟩
        · show 0 < _; simp
        · show j < _; rw [hlen]; omega
        · rw [hx, hy]; exact hq y (by simp)
        · show Algo.Ok mv (if q.says _ _ then _ else _) _
          rw [hy, hx, hb, if_neg (by decide)]
          refine ⟨?_, ?_, ?_, ?_⟩
          · show j + 1 < _; rw [hlen]; omega
          · show 0 < _; simp
          · intro e; simp [Hand.move, Hand.put] at e
          · rw [hmove]; exact h

/-- `q` orders `xs`: elements in no order are equivalent. -/
structure Orders (q : Cmp n) (xs : List (Slot (Ty n))) : Prop where
  ok : ∀ x ∈ xs, ∀ y ∈ xs, q.Ok x y
  asymm : ∀ x ∈ xs, ∀ y ∈ xs, q.says x y = true → q.says y x = false
  trans : ∀ x ∈ xs, ∀ y ∈ xs, ∀ z ∈ xs, q.says y x = false → q.says z y = false → q.says z x = false

theorem sortFrom_effect (mv : Slot (Ty n)) (q : Cmp n) (xs : List (Slot (Ty n))) (ho : Orders q xs) :
    ∀ (m : Nat) (S R : List (Slot (Ty n))), R.length = m → (S ++ R).Perm xs → S.Pairwise (fun x y => q.says y x = false) →
    (sortFrom q S.length m).Ok mv ⟨S ++ R, []⟩ ∧ ∃ v, (sortFrom q S.length m).effect mv ⟨S ++ R, []⟩ = (.ret (.num 0), v) ∧ v.Perm xs ∧
      v.Pairwise (fun x y => q.says y x = false) ∧
      ∀ P : Slot (Ty n) → Bool, (∀ x ∈ xs, ∀ y ∈ xs, P x = true → P y = true → q.says x y = false) → v.filter P = (S ++ R).filter P
  | 0, S, R, hR, hp, hs => by
    have hR : R = [] := List.eq_nil_of_length_eq_zero hR
    subst hR
    refine ⟨trivial, S ++ [], rfl, hp, by simpa using hs, fun P _ => rfl⟩
  | m + 1, S, R, hR, hp, hs => by
    cases R with
    | nil => simp at hR
    | cons x R =>
      have hmem : ∀ {y}, y ∈ S ++ x :: R → y ∈ xs := fun h => hp.subset h
      have hx : x ∈ xs := hmem (by simp)
      have hS : ∀ {y}, y ∈ S → y ∈ xs := fun h => hmem (by simp [h])
      obtain ⟨A1, A2, hA, h2, h3, h4, h5⟩ := insertion_effect mv q (sortFrom q (S.length + 1) m) x S.length S R mv rfl fun y hy => ho.ok x hx y (hS hy)
      have hlen : (A1 ++ x :: A2).length = S.length + 1 := by rw [hA]; simp; omega
      have hperm : (A1 ++ x :: A2 ++ R).Perm (S ++ x :: R) := by
        rw [hA]
        have : (A1 ++ x :: A2).Perm (A1 ++ A2 ++ [x]) := by
          rw [List.append_assoc]
          exact (List.perm_append_singleton x A2).symm.append_left A1
        have := this.append_right R
        simpa using this
      have h1 : ∀ z ∈ A1, q.says x z = false := by
        rcases List.eq_nil_or_concat A1 with rfl | ⟨A0, l, e⟩
        · simp
        · rw [List.concat_eq_append] at e
          have hl := h3 A0 l e
          intro z hz
          rw [e] at hz
          rcases List.mem_append.mp hz with hz | hz
          · rw [hA, e] at hs
            have : q.says l z = false := ((List.pairwise_append.mp ((List.pairwise_append.mp hs).1)).2.2) z hz l (by simp)
            exact ho.trans z (hS (by rw [hA, e]; simp [hz])) l (hS (by rw [hA, e]; simp)) x hx this hl
          · rw [List.mem_singleton.mp hz]; exact hl
      have hsorted : (A1 ++ x :: A2).Pairwise (fun x y => q.says y x = false) := by
        rw [hA] at hs
        obtain ⟨s1, s2, s3⟩ := List.pairwise_append.mp hs
        refine List.pairwise_append.mpr ⟨s1, List.pairwise_cons.mpr ⟨fun y hy => ?_, s2⟩, fun z hz y hy => ?_⟩
        · exact ho.asymm x hx y (hS (by rw [hA]; simp [hy])) (h2 y hy)
        · rcases List.mem_cons.mp hy with rfl | hy
          · exact h1 z hz
          · exact s3 z hz y hy
      obtain ⟨g1, v, g2, g3, g4, g5⟩ := sortFrom_effect mv q xs ho m (A1 ++ x :: A2) R (by simpa using hR) (hperm.trans hp) hsorted
      rw [hlen] at g1 g2
      have hput : (⟨S ++ x :: R, []⟩ : Hand (Ty n)).put (.elem S.length) mv = ⟨S ++ mv :: R, []⟩ := by
        show (⟨(S ++ x :: R).set S.length mv, []⟩ : Hand (Ty n)) = _
        rw [set_mid rfl]
      have hget : (⟨S ++ x :: R, []⟩ : Hand (Ty n)).get (.elem S.length) = x := by
        show (S ++ x :: R)[S.length]?.getD .dead = x
        rw [get_mid rfl]; rfl
      refine ⟨⟨?_, ?_⟩, v, ?_, g3, g4, fun P hP => ?_⟩
      · show S.length < _; simp
      · rw [hput, hget]; exact h5 g1
      · show Algo.effect mv (insertion q S.length (sortFrom q (S.length + 1) m))
          (Hand.push (Hand.put ⟨S ++ x :: R, []⟩ (.elem S.length) mv) (Hand.get ⟨S ++ x :: R, []⟩ (.elem S.length))) = _
        rw [hput, hget]
        exact h4.trans g2
      · rw [g5 P hP, hA]
        simp only [List.filter_append, List.filter_cons, List.append_assoc]
        congr 1
        by_cases hPx : P x = true
        · have : A2.filter P = [] := by
            rw [List.filter_eq_nil_iff]
            intro y hy hPy
            have := hP x hx y (hS (by rw [hA]; simp [hy])) hPx hPy
            rw [h2 y hy] at this; cases this
          rw [this]; simp [hPx]
        · simp [hPx]

/-- Any comparison that orders the elements: the array has the same elements in ascending order, and equivalent ones in the order they had. -/
theorem c106_sort {w : Mem p (n + 1)} {E : Envs (n + 1)} (h : Plays p (k + 1) w E) {a : Nat} {xs : List (Slot (Ty n))} (ha : E.2 a = .val xs)
    (back : Bool) {q : Cmp n} (ho : Orders q xs) :
    ∃ v, v.Perm xs ∧ v.Pairwise (fun x y => q.says y x = false) ∧
      (∀ P : Slot (Ty n) → Bool, (∀ x ∈ xs, ∀ y ∈ xs, P x = true → P y = true → q.says x y = false) → v.filter P = xs.filter P) ∧
      Arranges p k w E (.algo false back a (insertionSort q)) a (.ret (.num 0)) v := by
  cases xs with
  | nil => exact ⟨[], .refl _, .nil, fun _ _ => rfl, any_forward h ha back (insertionSort q) trivial⟩
  | cons x xs =>
    obtain ⟨h1, v, h2, h3, h4, h5⟩ := sortFrom_effect (left p n) q (x :: xs) ho xs.length [x] xs rfl (.refl _) (by simp)
    refine ⟨v, h3, h4, h5, ?_⟩
    have := any_forward h ha back (insertionSort q) h1
    rw [show ((insertionSort q (x :: xs).length).effect (left p n) ⟨x :: xs, []⟩) = _ from h2] at this
    exact this

/-- `std::sort(a.rbegin(), a.rend())`: the same elements in descending order, and equivalent ones in the order they had. -/
theorem c106_descending {w : Mem p (n + 1)} {E : Envs (n + 1)} (h : Plays p (k + 1) w E) {a : Nat} {xs : List (Slot (Ty n))} (ha : E.2 a = .val xs)
    (back : Bool) {q : Cmp n} (ho : Orders q xs) :
    ∃ v, v.Perm xs ∧ v.Pairwise (fun x y => q.says x y = false) ∧
      (∀ P : Slot (Ty n) → Bool, (∀ x ∈ xs, ∀ y ∈ xs, P x = true → P y = true → q.says x y = false) → v.filter P = xs.filter P) ∧
      Arranges p k w E (.algo true back a (insertionSort q)) a (.ret (.num 0)) v := by
  have hr : Orders q xs.reverse := by
    obtain ⟨h1, h2, h3⟩ := ho
    exact ⟨fun x hx y hy => h1 x (List.mem_reverse.mp hx) y (List.mem_reverse.mp hy),
      fun x hx y hy => h2 x (List.mem_reverse.mp hx) y (List.mem_reverse.mp hy),
      fun x hx y hy z hz => h3 x (List.mem_reverse.mp hx) y (List.mem_reverse.mp hy) z (List.mem_reverse.mp hz)⟩
  have hl : (insertionSort q xs.length).Ok (left p n) ⟨xs.reverse, []⟩ ∧ ∃ v, (insertionSort q xs.length).effect (left p n) ⟨xs.reverse, []⟩ =
      (.ret (.num 0), v) ∧ v.Perm xs.reverse ∧ v.Pairwise (fun x y => q.says y x = false) ∧
        ∀ P : Slot (Ty n) → Bool, (∀ x ∈ xs.reverse, ∀ y ∈ xs.reverse, P x = true → P y = true → q.says x y = false) →
          v.filter P = xs.reverse.filter P := by
    rw [← List.length_reverse]
    generalize xs.reverse = ys at hr
    cases ys with
    | nil => exact ⟨trivial, [], rfl, .refl _, .nil, fun _ _ => rfl⟩
    | cons x ys =>
      obtain ⟨h1, v, h2, h3, h4, h5⟩ := sortFrom_effect (left p n) q (x :: ys) hr ys.length [x] ys rfl (.refl _) (by simp)
      exact ⟨h1, v, h2, h3, h4, h5⟩
  obtain ⟨h1, v, h2, h3, h4, h5⟩ := hl
  refine ⟨v.reverse, (List.reverse_perm v).trans (h3.trans (List.reverse_perm xs)), List.pairwise_reverse.mpr h4, fun P hP => ?_, ?_⟩
  · rw [List.filter_reverse, h5 P fun x hx y hy => hP x (List.mem_reverse.mp hx) y (List.mem_reverse.mp hy), List.filter_reverse,
      List.reverse_reverse]
  · have := c106_any h ha true back (insertionSort q) h1
    rw [show ((insertionSort q xs.length).effect (left p n) ⟨turned true xs, []⟩) = _ from h2] at this
    exact this

theorem map_val {T : Type} {xs : List (List T)} {v : List (Slot T)} (h : v.Perm (xs.map .val)) :
    ∃ ys : List (List T), v = ys.map .val ∧ ys.Perm xs := by
  let un : Slot T → List T := fun s => match s with | .val l => l | _ => []
  have e : ∀ ys : List (List T), (ys.map Slot.val).map un = ys := fun ys => by
    rw [List.map_map]; exact List.map_id ys
  refine ⟨v.map un, ?_, ?_⟩
  · rw [List.map_map]
    refine (List.map_id v).symm.trans (List.map_congr_left fun x hx => ?_)
    obtain ⟨l, _, rfl⟩ := List.mem_map.mp (h.subset hx)
    rfl
  · have := h.map un
    rwa [e] at this

/-- Sorting an `Array<String>` by `<`: the array has the same strings in the order of a dictionary.

Partial: the lengths of the strings must not differ by 2^31 or more; `<` is wrong then (`c24_refuted_long`). -/
theorem c106_strings_partial {w : Mem p 1} {E : Envs 1} (h : Plays p (k + 1) w E) {a : Nat} {ss : List (List UInt8)} (ha : E.2 a = .val (ss.map .val))
    (back : Bool) (hl : ∀ u ∈ ss, ∀ v ∈ ss, u.length < v.length + 2147483648) :
    ∃ ts : List (List UInt8), ts.Perm ss ∧ ts.Pairwise (fun u v => ¬ v < u) ∧
      Arranges (n := 0) p k w E (.algo false back a (insertionSort .less)) a (.ret (.num 0)) (ts.map .val) := by
  have ho : Orders (n := 0) .less (ss.map .val) := by
    refine ⟨?_, ?_, ?_⟩
    · intro x hx y hy
      obtain ⟨u, hu, rfl⟩ := List.mem_map.mp hx
      obtain ⟨v, hv, rfl⟩ := List.mem_map.mp hy
      exact ⟨u, v, rfl, rfl, hl u hu v hv, Nat.le_of_lt (hl v hv u hu)⟩
    · intro x hx y hy e
      obtain ⟨u, hu, rfl⟩ := List.mem_map.mp hx
      obtain ⟨v, hv, rfl⟩ := List.mem_map.mp hy
      simp only [Cmp.says, before, decide_eq_true_iff, decide_eq_false_iff_not] at e ⊢
      exact List.lt_asymm (α := UInt8) e
    · intro x hx y hy z hz e1 e2
      obtain ⟨u, hu, rfl⟩ := List.mem_map.mp hx
      obtain ⟨v, hv, rfl⟩ := List.mem_map.mp hy
      obtain ⟨t, ht, rfl⟩ := List.mem_map.mp hz
      simp only [Cmp.says, before, decide_eq_false_iff_not] at e1 e2 ⊢
      exact List.le_trans (α := UInt8) (l₁ := u) (l₂ := v) (l₃ := t) e1 e2
  obtain ⟨v, h1, h2, -, h3⟩ := c106_sort (n := 0) h ha back (q := .less) ho
  obtain ⟨ts, rfl, h4⟩ := map_val h1
  refine ⟨ts, h4, ?_, h3⟩
  rw [List.pairwise_map] at h2
  exact h2.imp fun {u v} e => by simpa [Cmp.says, before] using e

/-- Sorting by length, at any depth: the array has the same elements, short ones first, and elements of equal length in the order they had. -/
theorem c106_stable {w : Mem p (n + 1)} {E : Envs (n + 1)} (h : Plays p (k + 1) w E) {a : Nat} {ss : List (List (Ty n))} (ha : E.2 a = .val (ss.map .val))
    (back : Bool) :
    ∃ ts : List (List (Ty n)), ts.Perm ss ∧ ts.Pairwise (fun u v => u.length ≤ v.length) ∧
      (∀ l, ts.filter (fun v => decide (v.length = l)) = ss.filter (fun v => decide (v.length = l))) ∧
      Arranges p k w E (.algo false back a (insertionSort .shorter)) a (.ret (.num 0)) (ts.map .val) := by
  have ho : Orders .shorter (ss.map .val) := by
    refine ⟨?_, ?_, ?_⟩
    · intro x hx y hy
      obtain ⟨u, hu, rfl⟩ := List.mem_map.mp hx
      obtain ⟨v, hv, rfl⟩ := List.mem_map.mp hy
      exact ⟨u, v, rfl, rfl⟩
    · intro x hx y hy e
      obtain ⟨u, hu, rfl⟩ := List.mem_map.mp hx
      obtain ⟨v, hv, rfl⟩ := List.mem_map.mp hy
      simp only [Cmp.says, decide_eq_true_iff, decide_eq_false_iff_not] at e ⊢
      omega
    · intro x hx y hy z hz e1 e2
      obtain ⟨u, hu, rfl⟩ := List.mem_map.mp hx
      obtain ⟨v, hv, rfl⟩ := List.mem_map.mp hy
      obtain ⟨t, ht, rfl⟩ := List.mem_map.mp hz
      simp only [Cmp.says, decide_eq_false_iff_not] at e1 e2 ⊢
      omega
  obtain ⟨v, h1, h2, h3, h4⟩ := c106_sort h ha back (q := .shorter) ho
  obtain ⟨ts, rfl, h5⟩ := map_val h1
  refine ⟨ts, h5, ?_, fun l => ?_, h4⟩
  · rw [List.pairwise_map] at h2
    exact h2.imp fun {u v} e => by simpa [Cmp.says] using e
  · have := h3 (fun s => match s with | .val v => decide (v.length = l) | _ => false) fun x hx y hy e1 e2 => by
      obtain ⟨u, hu, rfl⟩ := List.mem_map.mp hx
      obtain ⟨v, hv, rfl⟩ := List.mem_map.mp hy
      simp only [decide_eq_true_iff] at e1 e2
      simp only [Cmp.says, decide_eq_false_iff_not]
      omega
    rw [List.filter_map, List.filter_map] at this
    exact (List.map_inj_right fun _ _ e => Slot.val.inj e).mp this

/-! ## `std::unique` -/

/-- The elements kept so far end at `r`; those from `i` on, `m` of them, have not been looked at. -/
def uniqueFrom (r i : Nat) : Nat → Algo n
  | 0 => .done (r + 1)
  | m + 1 => .test .eq (.elem r) (.elem i) fun b =>
    if b then uniqueFrom r (i + 1) m
    else if r + 1 = i then uniqueFrom (r + 1) (i + 1) m
    else .move (.elem (r + 1)) (.elem i) (uniqueFrom (r + 1) (i + 1) m)

/-- `std::unique` -/
def uniq : Nat → Algo n
  | 0 => .done 0
  | k + 1 => uniqueFrom 0 1 k

/-- Of equal elements in a row only the first one. -/
def firsts {T : Type} [DecidableEq T] : List T → List T
  | x :: y :: l => if x = y then firsts (x :: l) else x :: firsts (y :: l)
  | l => l
termination_by l => l.length

theorem uniqueFrom_effect (mv : Slot (Ty n)) : ∀ (R P Q : List (Slot (Ty n))) (z : Slot (Ty n)), Known z → (∀ y ∈ R, Known y) →
    (uniqueFrom P.length (P.length + 1 + Q.length) R.length).Ok mv ⟨P ++ z :: (Q ++ R), []⟩ ∧ ∃ v,
      (uniqueFrom P.length (P.length + 1 + Q.length) R.length).effect mv ⟨P ++ z :: (Q ++ R), []⟩ =
        (.ret (.num (P ++ firsts (z :: R)).length), v) ∧ v.length = (P ++ z :: (Q ++ R)).length ∧
      v.take (P ++ firsts (z :: R)).length = P ++ firsts (z :: R)
  | [], P, Q, z, hz, hR => by
    refine ⟨trivial, P ++ z :: (Q ++ []), ?_, rfl, ?_⟩
    · show (Outcome.ret (.num (P.length + 1)), _) = _
      simp [firsts]
    · simp [firsts, List.take_append, List.take_of_length_le]
  | y :: R, P, Q, z, hz, hR => by
    have hg1 : Hand.get (⟨P ++ z :: (Q ++ y :: R), []⟩ : Hand (Ty n)) (.elem P.length) = z := by
      show (P ++ z :: (Q ++ y :: R))[P.length]?.getD .dead = z
      rw [get_mid rfl]; rfl
    have hform : P ++ z :: (Q ++ y :: R) = (P ++ z :: Q) ++ y :: R := by simp
    have hlenQ : (P ++ z :: Q).length = P.length + 1 + Q.length := by simp; omega
    have hg2 : Hand.get (⟨P ++ z :: (Q ++ y :: R), []⟩ : Hand (Ty n)) (.elem (P.length + 1 + Q.length)) = y := by
      show (P ++ z :: (Q ++ y :: R))[P.length + 1 + Q.length]?.getD .dead = y
      rw [hform, get_mid hlenQ]; rfl
    have hlen : (P ++ z :: (Q ++ y :: R)).length = P.length + 1 + Q.length + (R.length + 1) := by simp; omega
    have hy := hR y (by simp)
    have hR' : ∀ x ∈ R, Known x := fun x hx => hR x (by simp [hx])
    by_cases e : z = y
    · obtain ⟨h1, v, h2, h3, h4⟩ := uniqueFrom_effect mv R P (Q ++ [y]) z hz hR'
      have e1 : P ++ z :: (Q ++ [y] ++ R) = P ++ z :: (Q ++ y :: R) := by simp
      have e2 : P.length + 1 + (Q ++ [y]).length = P.length + 1 + Q.length + 1 := by simp; omega
      have e3 : firsts (z :: y :: R) = firsts (z :: R) := by rw [firsts, if_pos e]
      rw [e1, e2] at h1 h2
      rw [e1] at h3
      rw [e3]
      refine ⟨⟨?_, ?_, ?_, ?_⟩, v, ?_, h3, h4⟩
      · show P.length < _; rw [hlen]; omega
      · show P.length + 1 + Q.length < _; rw [hlen]; omega
      · rw [hg1, hg2]; exact ⟨hz, hy⟩
      · show Algo.Ok mv (if decide (_ = _) = true then _ else _) _
        rw [hg1, hg2, if_pos (by simpa using e)]; exact h1
      · show Algo.effect mv (if decide (_ = _) = true then _ else _) _ = _
        rw [hg1, hg2, if_pos (by simpa using e)]; exact h2
    · have e3 : firsts (z :: y :: R) = z :: firsts (y :: R) := by rw [firsts, if_neg e]
      have e4 : P ++ firsts (z :: y :: R) = (P ++ [z]) ++ firsts (y :: R) := by rw [e3]; simp
      rw [e4]
      have step : ∃ Q', (P ++ [z]).length + 1 + Q'.length = P.length + 1 + Q.length + 1 ∧
          (P ++ [z] ++ y :: (Q' ++ R)).length = (P ++ z :: (Q ++ y :: R)).length ∧
          (∀ {r : Outcome (Ty (n + 1)) × List (Slot (Ty n))},
            (uniqueFrom (P.length + 1) (P.length + 1 + Q.length + 1) R.length).effect mv ⟨P ++ [z] ++ y :: (Q' ++ R), []⟩ = r →
            (if P.length + 1 = P.length + 1 + Q.length then uniqueFrom (P.length + 1) (P.length + 1 + Q.length + 1) R.length
              else Algo.move (.elem (P.length + 1)) (.elem (P.length + 1 + Q.length))
                (uniqueFrom (P.length + 1) (P.length + 1 + Q.length + 1) R.length)).effect mv ⟨P ++ z :: (Q ++ y :: R), []⟩ = r) ∧
          ((uniqueFrom (P.length + 1) (P.length + 1 + Q.length + 1) R.length).Ok mv ⟨P ++ [z] ++ y :: (Q' ++ R), []⟩ →
            (if P.length + 1 = P.length + 1 + Q.length then uniqueFrom (P.length + 1) (P.length + 1 + Q.length + 1) R.length
              else Algo.move (.elem (P.length + 1)) (.elem (P.length + 1 + Q.length))
                (uniqueFrom (P.length + 1) (P.length + 1 + Q.length + 1) R.length)).Ok mv ⟨P ++ z :: (Q ++ y :: R), []⟩) := by
        cases Q with
        | nil =>
          refine ⟨[], by simp, by simp, fun {r} h => ?_, fun h => ?_⟩
          · rw [if_pos (by simp)]; rw [← h]; simp
          · rw [if_pos (by simp)]; simpa using h
        | cons q Q =>
          have hm : (⟨P ++ z :: (q :: Q ++ y :: R), []⟩ : Hand (Ty n)).move mv (.elem (P.length + 1)) (.elem (P.length + 1 + (q :: Q).length)) =
              ⟨P ++ [z] ++ y :: (Q ++ [mv] ++ R), []⟩ := by
            have hne : ¬ (Place.elem (P.length + 1) = Place.elem (P.length + 1 + (q :: Q).length)) := fun e => by
              have := Place.elem.inj e; simp at this
            simp only [Hand.move, if_neg hne, hg2, Hand.put]
            congr 1
            rw [hform, set_mid hlenQ]
            have : P ++ z :: q :: Q ++ mv :: R = (P ++ [z]) ++ q :: (Q ++ mv :: R) := by simp
            rw [this, set_mid (by simp)]
            simp
          refine ⟨Q ++ [mv], by simp; omega, by simp, fun {r} h => ?_, fun h => ?_⟩
          · rw [if_neg (by simp)]
            show Algo.effect mv _ (Hand.move _ _ _ _) = _
            rw [hm]; exact h
          · rw [if_neg (by simp)]
            refine ⟨?_, ?_, ?_⟩
            · show P.length + 1 < _; rw [hlen]; simp; omega
            · show P.length + 1 + (q :: Q).length < _; rw [hlen]; omega
            · rw [hm]; exact h
      obtain ⟨Q', s1, s2, s3, s4⟩ := step
      obtain ⟨h1, v, h2, h3, h4⟩ := uniqueFrom_effect mv R (P ++ [z]) Q' y hy hR'
      rw [s1, show (P ++ [z]).length = P.length + 1 by simp] at h1 h2
      refine ⟨⟨?_, ?_, ?_, ?_⟩, v, ?_, h3.trans s2, h4⟩
      · show P.length < _; rw [hlen]; omega
      · show P.length + 1 + Q.length < _; rw [hlen]; omega
      · rw [hg1, hg2]; exact ⟨hz, hy⟩
      · show Algo.Ok mv (if decide (_ = _) = true then _ else _) _
        rw [hg1, hg2, if_neg (by simpa using e)]; exact s4 h1
      · show Algo.effect mv (if decide (_ = _) = true then _ else _) _ = _
        rw [hg1, hg2, if_neg (by simpa using e)]; exact s3 h2

/-- `std::unique(a.begin(), a.end())`: it returns where the rest begins; before it there are the elements without repetitions, and the array
is as long as before. -/
theorem c106_unique {w : Mem p (n + 1)} {E : Envs (n + 1)} (h : Plays p (k + 1) w E) {a : Nat} {xs : List (Slot (Ty n))} (ha : E.2 a = .val xs)
    (hk : ∀ x ∈ xs, Known x) (back : Bool) :
    ∃ rest, (firsts xs ++ rest).length = xs.length ∧
      Arranges p k w E (.algo false back a uniq) a (.ret (.num (firsts xs).length)) (firsts xs ++ rest) := by
  cases xs with
  | nil =>
    refine ⟨[], by simp [firsts], ?_⟩
    rw [show firsts ([] : List (Slot (Ty n))) = [] by rw [firsts]; simp]
    exact any_forward h ha back uniq trivial
  | cons x xs =>
    obtain ⟨h1, v, h2, h3, h4⟩ := uniqueFrom_effect (left p n) xs [] [] x (hk x (by simp)) fun y hy => hk y (by simp [hy])
    have e : v = firsts (x :: xs) ++ v.drop (firsts (x :: xs)).length := by
      have := List.take_append_drop (firsts (x :: xs)).length v
      rw [show v.take (firsts (x :: xs)).length = firsts (x :: xs) from h4] at this
      exact this.symm
    refine ⟨v.drop (firsts (x :: xs)).length, by rw [← e]; exact h3, ?_⟩
    have := any_forward h ha back uniq h1
    rw [show ((uniq (x :: xs).length).effect (left p n) ⟨x :: xs, []⟩) = _ from h2] at this
    rw [← e]; exact this

/-! ## A part of an array -/

/-- The object, if the iterator given is `first + i`. -/
def Place.shift (i : Nat) : Place → Place
  | .elem j => .elem (i + j)
  | .temp t => .temp t

/-- `algorithm(first + i, …)`: the same steps, on elements from `i` on. -/
def Algo.shift (i : Nat) : Algo n → Algo n
  | .done r => .done r
  | .raise e => .raise e
  | .move d s k => .move (d.shift i) (s.shift i) (k.shift i)
  | .copy d s k => .copy (d.shift i) (s.shift i) (k.shift i)
  | .take s k => .take (s.shift i) (k.shift i)
  | .dup s k => .dup (s.shift i) (k.shift i)
  | .drop k => .drop (k.shift i)
  | .test q x y k => .test q (x.shift i) (y.shift i) fun b => (k b).shift i

/-- The hand with more elements on both sides. -/
def Hand.among {T : Type} (P Q : List (Slot T)) (h : Hand T) : Hand T := ⟨P ++ h.elems ++ Q, h.temps⟩

section
variable {T : Type} {P Q : List (Slot T)} {h : Hand T}

theorem among_has {d : Place} (hd : h.Has d) : (h.among P Q).Has (d.shift P.length) := by
  cases d with
  | elem i =>
    have : i < h.elems.length := hd
    show P.length + i < (P ++ h.elems ++ Q).length
    simp; omega
  | temp t => exact hd

theorem among_get {d : Place} (hd : h.Has d) : (h.among P Q).get (d.shift P.length) = h.get d := by
  cases d with
  | elem i =>
    have : i < h.elems.length := hd
    show (P ++ h.elems ++ Q)[P.length + i]?.getD .dead = h.elems[i]?.getD .dead
    rw [List.getElem?_append_left (by simp; omega), List.getElem?_append_right (by omega), Nat.add_sub_cancel_left]
  | temp t => rfl

theorem among_put {d : Place} (hd : h.Has d) (x : Slot T) : (h.among P Q).put (d.shift P.length) x = (h.put d x).among P Q := by
  cases d with
  | elem i =>
    have : i < h.elems.length := hd
    show (⟨(P ++ h.elems ++ Q).set (P.length + i) x, h.temps⟩ : Hand T) = ⟨P ++ h.elems.set i x ++ Q, h.temps⟩
    rw [List.set_append_left _ _ (by simp; omega), List.set_append_right _ _ (by omega), Nat.add_sub_cancel_left]
  | temp t => rfl

theorem put_has {d s : Place} {x : Slot T} (hd : h.Has d) : (h.put s x).Has d := by
  cases d <;> cases s <;> simpa [Hand.put, Hand.Has] using hd

theorem shift_inj {i : Nat} {d s : Place} : d.shift i = s.shift i ↔ d = s := by
  cases d <;> cases s <;> simp [Place.shift]

theorem among_move {mv : Slot T} {d s : Place} (hd : h.Has d) (hs : h.Has s) :
    (h.among P Q).move mv (d.shift P.length) (s.shift P.length) = (h.move mv d s).among P Q := by
  unfold Hand.move
  by_cases e : d = s
  · rw [if_pos (shift_inj.mpr e), if_pos e]
  · rw [if_neg fun h => e (shift_inj.mp h), if_neg e, among_put hs, among_get hs, among_put (put_has hd)]
end

/-- On a list: the part becomes what it would become on its own, and the rest stays. -/
theorem shift_effect (mv : Slot (Ty n)) (P Q : List (Slot (Ty n))) : ∀ (A : Algo n) (h : Hand (Ty n)), A.Ok mv h →
    (A.shift P.length).Ok mv (h.among P Q) ∧
      (A.shift P.length).effect mv (h.among P Q) = ((A.effect mv h).1, P ++ (A.effect mv h).2 ++ Q)
  | .done _, _, _ | .raise _, _, _ => ⟨trivial, rfl⟩
  | .move d s k, h, ⟨hd, hs, hk⟩ => by
    obtain ⟨h1, h2⟩ := shift_effect mv P Q k _ hk
    rw [← among_move hd hs] at h1 h2
    exact ⟨⟨among_has hd, among_has hs, h1⟩, h2⟩
  | .copy d s k, h, ⟨hd, hs, hk⟩ => by
    obtain ⟨h1, h2⟩ := shift_effect mv P Q k _ hk
    rw [← among_put hd, ← among_get (P := P) (Q := Q) hs] at h1 h2
    exact ⟨⟨among_has hd, among_has hs, h1⟩, h2.trans (by rw [among_get hs]; rfl)⟩
  | .take s k, h, ⟨hs, hk⟩ => by
    obtain ⟨h1, h2⟩ := shift_effect mv P Q k _ hk
    have e : ((h.put s mv).push (h.get s)).among P Q =
        ((h.among P Q).put (s.shift P.length) mv).push ((h.among P Q).get (s.shift P.length)) := by
      rw [among_put hs, among_get hs]; rfl
    rw [e] at h1 h2
    exact ⟨⟨among_has hs, h1⟩, h2⟩
  | .dup s k, h, ⟨hs, hk⟩ => by
    obtain ⟨h1, h2⟩ := shift_effect mv P Q k _ hk
    have e : (h.push (h.get s)).among P Q = (h.among P Q).push ((h.among P Q).get (s.shift P.length)) := by
      rw [among_get hs]; rfl
    rw [e] at h1 h2
    exact ⟨⟨among_has hs, h1⟩, h2⟩
  | .drop k, h, ⟨ht, hk⟩ => by
    obtain ⟨h1, h2⟩ := shift_effect mv P Q k _ hk
    exact ⟨⟨ht, h1⟩, h2⟩
  | .test q x y k, h, ⟨hx, hy, hq, hk⟩ => by
    obtain ⟨h1, h2⟩ := shift_effect mv P Q (k (q.says (h.get x) (h.get y))) h hk
    refine ⟨⟨among_has hx, among_has hy, by rw [among_get hx, among_get hy]; exact hq, by rw [among_get hx, among_get hy]; exact h1⟩, ?_⟩
    show ((k (q.says ((h.among P Q).get (x.shift P.length)) ((h.among P Q).get (y.shift P.length)))).shift P.length).effect mv _ = _
    rw [among_get hx, among_get hy]
    exact h2

/-- `algorithm(a.begin() + i, a.begin() + j)`, or `algorithm(a.rbegin() + i, a.rbegin() + j)`: that part of the array becomes what the algorithm
makes of a plain list with these elements, and the rest stays. -/
theorem c106_part {w : Mem p (n + 1)} {E : Envs (n + 1)} (h : Plays p (k + 1) w E) {a : Nat} {xs : List (Slot (Ty n))} (ha : E.2 a = .val xs)
    (rev back : Bool) {i j : Nat} (hij : i ≤ j) (hj : j ≤ xs.length) (f : Nat → Algo n)
    (hok : (f (j - i)).Ok (left p n) ⟨((turned rev xs).take j).drop i, []⟩) :
    Arranges p k w E (.algo rev back a fun _ => (f (j - i)).shift i) a ((f (j - i)).effect (left p n) ⟨((turned rev xs).take j).drop i, []⟩).1
      (turned rev ((turned rev xs).take i ++ ((f (j - i)).effect (left p n) ⟨((turned rev xs).take j).drop i, []⟩).2 ++ (turned rev xs).drop j)) := by
  have hl : (turned rev xs).length = xs.length := length_turned
  have e : ∀ v : List (Slot (Ty n)), v.take i ++ (v.take j).drop i ++ v.drop j = v := fun v => by
    have h1 : (v.take j).take i = v.take i := by rw [List.take_take, Nat.min_eq_left hij]
    rw [← h1, List.take_append_drop, List.take_append_drop]
  obtain ⟨h1, h2⟩ := shift_effect (left p n) ((turned rev xs).take i) ((turned rev xs).drop j) (f (j - i)) _ hok
  unfold Hand.among at h1 h2
  simp only at h1 h2
  rw [e, List.length_take, hl, Nat.min_eq_left (by omega)] at h1 h2
  have := c106_any h ha rev back (fun _ => (f (j - i)).shift i) h1
  simp only [h2] at this
  exact this

/-! ## An array inside an array -/

/-- `algorithm(a[i].begin(), a[i].end())`, or with reverse iterators: `a[i]` becomes what the algorithm makes of a plain list; the other elements of `a`, and everything else at every
depth, are as before, also if `a` or `a[i]` shares its storage. -/
theorem c106_inside {w : Mem p (n + 2)} {A : Envs (n + 1)} {C : Env (Slot (Ty (n + 1)))} (h : Plays p (n := n + 2) (k + 1) w (A, C)) {a i : Nat}
    {ys : List (Slot (Ty (n + 1)))} {xs : List (Slot (Ty n))} (ha : C a = .val ys) (hi : ys[i]? = some (arr xs)) (rev back : Bool) (f : Nat → Algo n)
    (hok : (f xs.length).Ok (left p n) ⟨turned rev xs, []⟩) :
    ∃ w', (result (run p (.modify a i fun t => .algo rev back t f) w) =
          some (.inner (.here ((f xs.length).effect (left p n) ⟨turned rev xs, []⟩).1), w') ∧
        Plays p (n := n + 2) k w' (A, C.upd a (.val (ys.set i (arr (turned rev ((f xs.length).effect (left p n) ⟨turned rev xs, []⟩).2)))))) ∨
      (result (run p (.modify a i fun t => .algo rev back t f) w) = some (.exc .badAlloc, w') ∧
        ∃ v, (v = ys ∨ v = [] ∨ v = ys.set i (arr [])) ∧ Plays p (n := n + 2) k w' (A, C.upd a (.val v))) := by
  have hget : C.get a = ys := env_gets ha
  have hil : i < ys.length := (List.getElem?_eq_some_iff.mp hi).1
  have hgt : ∀ t, (A.upd t (arr xs)).2.get t = xs := fun t => env_gets (B := (A.upd t (arr xs)).2) (upd_top A t (arr xs))
  obtain ⟨out, w', ⟨F, g⟩, h1, h2, h3⟩ := h.2 (.modify a i fun t => .algo rev back t f) (by
    refine ⟨⟨ys, ha⟩, hget.symm ▸ hil, fun t y s hd hy => ⟨⟨?_, ?_⟩, fun e => e⟩⟩
    · have hy : (C.get a)[i]? = some y := hy
      rw [hget, hi] at hy; cases hy
      exact ⟨xs, upd_top A t (arr xs)⟩
    · have hy : (C.get a)[i]? = some y := hy
      rw [hget, hi] at hy; cases hy
      have := hgt t
      show (f ((A.upd t (arr xs)).2.get t).length).Ok _ ⟨turned rev ((A.upd t (arr xs)).2.get t), []⟩
      rw [this]; exact hok)
  refine ⟨w', ?_⟩
  rcases h2 with ⟨rfl, hF, hg⟩ | ⟨t, y, s, o, G, hd, hy, hq, rfl, hF, hg⟩
  · refine .inr ⟨h1, ?_⟩
    have hF : F = A := hF
    have hg : g = if (shares p w).2 a then C.upd a (.val []) else C := hg
    subst hF
    cases hs : (shares p w).2 a
    · rw [hs] at hg
      exact ⟨ys, .inl rfl, (hg.trans (Env.upd_id ha).symm) ▸ h3⟩
    · rw [hs] at hg
      exact ⟨[], .inr (.inl rfl), (show g = C.upd a (.val []) from hg) ▸ h3⟩
  · have hy : (C.get a)[i]? = some y := hy
    rw [hget, hi] at hy; cases hy
    have hd : A.top t = .dead := hd
    have hF : F = G.upd t .dead := hF
    have hg : g = C.upd a (.val ((C.get a).set i (G.top t))) := hg
    rw [hget] at hg
    have back : ∀ v, G = A.upd t (.val v) → F = A ∧ g = C.upd a (.val (ys.set i (arr v))) := fun v e => by
      subst e
      exact ⟨by rw [hF, upd_upd, upd_same hd], by rw [hg, upd_top]; rfl⟩
    obtain ⟨G1, G2⟩ := G
    rcases hq with ⟨rfl, e1, e2⟩ | ⟨ho, e1, e2⟩
    · refine .inr ⟨h1, ?_⟩
      have e1 : G1 = (A.upd t (arr xs)).1 := e1
      have e2 : G2 = if s.2 t then (A.upd t (arr xs)).2.upd t (.val []) else (A.upd t (arr xs)).2 := e2
      cases hs : s.2 t
      · rw [hs] at e2
        obtain ⟨rfl, rfl⟩ := back xs (by rw [e1, e2]; rfl)
        refine ⟨ys, .inl rfl, ?_⟩
        have : ys.set i (arr xs) = ys := by
          obtain ⟨hl, e⟩ := List.getElem?_eq_some_iff.mp hi
          rw [← e]; exact List.set_getElem_self hl
        rw [this] at h3; exact h3
      · rw [hs] at e2
        obtain ⟨rfl, rfl⟩ := back [] (by
          have : (A.upd t (arr xs)).upd t (.val []) = A.upd t (.val []) := upd_upd A t _ _
          rw [← this, e1, e2]; rfl)
        exact ⟨_, .inr (.inr rfl), h3⟩
    · refine .inl ?_
      have ho : o = .here ((f ((A.upd t (arr xs)).2.get t).length).effect (left p n) ⟨turned rev ((A.upd t (arr xs)).2.get t), []⟩).1 := ho
      have e1 : G1 = (A.upd t (arr xs)).1 := e1
      have e2 : G2 = (A.upd t (arr xs)).2.upd t
        (.val (turned rev ((f ((A.upd t (arr xs)).2.get t).length).effect (left p n) ⟨turned rev ((A.upd t (arr xs)).2.get t), []⟩).2)) := e2
      rw [hgt t] at ho e2
      subst ho
      obtain ⟨rfl, rfl⟩ := back (turned rev ((f xs.length).effect (left p n) ⟨turned rev xs, []⟩).2) (by
        have : (A.upd t (arr xs)).upd t (.val (turned rev ((f xs.length).effect (left p n) ⟨turned rev xs, []⟩).2)) = A.upd t _ := upd_upd A t _ _
        rw [← this, e1, e2]; rfl)
      exact ⟨h1, h3⟩

/-! ## Programs -/

/-- `String s("b"), t("ab"), u("a"); Array<String> a{s, t, u, u}, b(a);` -/
def fourStrings : List (Call 1) :=
  [.inner (.str (.strCtor [98])), .inner (.str (.strCtor [97, 98])), .inner (.str (.strCtor [97])), .listCtor [0, 1, 2, 2], .arr (.copyCtor 0)]

/-- `std::sort(a.begin(), a.end());`: `b`, which shared the storage of `a`, is as before. -/
example : seen1 (trace params (fourStrings ++ [.algo false true 0 (insertionSort .less)]) (tower params 1).init).2 0 =
    some [some [97], some [97], some [97, 98], some [98]] := by decide +kernel
example : seen1 (trace params (fourStrings ++ [.algo false true 0 (insertionSort .less)]) (tower params 1).init).2 1 =
    some [some [98], some [97, 98], some [97], some [97]] := by decide +kernel

/-- By length: `b` stays before `a`. -/
example : seen1 (trace params (fourStrings ++ [.algo false false 0 (insertionSort .shorter)]) (tower params 1).init).2 0 =
    some [some [98], some [97], some [97], some [97, 98]] := by decide +kernel

/-- `std::reverse(a.begin(), a.end()); a.resize(std::unique(a.begin(), a.end()) - a.begin());` -/
example : seen1 (trace params (fourStrings ++ [.algo false false 0 reversal, .algo false true 0 uniq, .arr (.resize 0 3)]) (tower params 1).init).2 0 =
    some [some [97], some [97, 98], some [98]] := by decide +kernel

/-- `std::sort(a.rbegin(), a.rend());` -/
example : seen1 (trace params (fourStrings ++ [.algo true true 0 (insertionSort .less)]) (tower params 1).init).2 0 =
    some [some [98], some [97, 98], some [97], some [97]] := by decide +kernel
/-- `std::reverse(a.begin() + 1, a.begin() + 3);` and `std::reverse(a.rbegin() + 1, a.rbegin() + 4);` -/
example : seen1 (trace params (fourStrings ++ [.algo false true 0 fun _ => (reversal 2).shift 1]) (tower params 1).init).2 0 =
    some [some [98], some [97], some [97, 98], some [97]] := by decide +kernel
example : seen1 (trace params (fourStrings ++ [.algo true false 0 fun _ => (reversal 3).shift 1]) (tower params 1).init).2 0 =
    some [some [97], some [97, 98], some [98], some [97]] := by decide +kernel

/-- `std::sort(c[0].begin(), c[0].end());` for `Array<Array<String>> c{a, a};`: only `c[0]` is sorted. -/
example : (((trace params ((fourStrings.map Call.inner) ++ [.listCtor [0, 0], .modify 0 0 fun t => .algo false true t (insertionSort .less)])
    (tower params 2).init).2.arrs.view 0).map fun l => l.map fun t => seen1 (trace params ((fourStrings.map Call.inner) ++ [.listCtor [0, 0],
      .modify 0 0 fun t => .algo false true t (insertionSort .less)]) (tower params 2).init).2.elts t) =
    some [some [some [97], some [97], some [97, 98], some [98]], some [some [98], some [97, 98], some [97], some [97]]] := by decide +kernel

end Bdlib.Deep
