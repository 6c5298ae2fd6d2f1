/-!
# Specification: searching, cutting and replacing

Plain definitions on lists; nothing here refers to the model of the code.
-/

namespace Bdlib.Spec

variable {α : Type}

/-- `w` occurs in `v` at index `i`. -/
def OccursAt (w v : List α) (i : Nat) : Prop := ∃ before after, v = before ++ w ++ after ∧ before.length = i

/-- `w` occurs in `v`. -/
def Occurs (w v : List α) : Prop := ∃ i, OccursAt w v i

/-- `i` is the smallest number with property `P`. -/
def Smallest (P : Nat → Prop) (i : Nat) : Prop := P i ∧ ∀ j, P j → i ≤ j

/-- `i` is the largest number with property `P`. -/
def Largest (P : Nat → Prop) (i : Nat) : Prop := P i ∧ ∀ j, P j → j ≤ i

/-- The result of a search: the number asked for, or `none` (a given value) if there is no such number. -/
def Finds (best : (Nat → Prop) → Nat → Prop) (P : Nat → Prop) (none r : Nat) : Prop :=
  best P r ∧ r ≠ none ∨ (∀ i, ¬ P i) ∧ r = none

/-- The sign of an `int` result says how two sequences compare lexicographically. -/
def SignOf [LT α] (r : Int) (v w : List α) : Prop := (r < 0 ↔ v < w) ∧ (r = 0 ↔ v = w) ∧ (r > 0 ↔ w < v)

/-- `v` is `before ++ w ++ after`, and `w` does not occur in `v` earlier. -/
def FirstAt (w v before after : List α) : Prop :=
  v = before ++ w ++ after ∧ ∀ i, OccursAt w v i → before.length ≤ i

/-- `Cut d v ps`: cutting `v` at the leftmost occurrence of `d`, then the rest in the same way, gives the
pieces `ps`; an empty remainder gives no piece. -/
inductive Cut (d : List α) : List α → List (List α) → Prop
  | nil : Cut d [] []
  | last {v : List α} : v ≠ [] → ¬ Occurs d v → Cut d v [v]
  | cons {v p rest : List α} {ps : List (List α)} : FirstAt d v p rest → Cut d rest ps → Cut d v (p :: ps)

/-- `Chopped n v ps`: `v` consists of the pieces `ps` with `n` elements, whatever they are, between two of them and possibly behind the
last. -/
inductive Chopped (n : Nat) : List α → List (List α) → Prop
  | nil : Chopped n [] []
  | last {v : List α} : v ≠ [] → Chopped n v [v]
  | cons {p s rest : List α} {ps : List (List α)} : s.length = n → Chopped n rest ps → Chopped n (p ++ s ++ rest) (p :: ps)

/-- `Words sp v ws`: `ws` are the maximal runs in `v` of elements other than `sp`. -/
inductive Words (sp : α) : List α → List (List α) → Prop
  | nil {v : List α} : (∀ c ∈ v, c = sp) → Words sp v []
  | cons {blank w rest : List α} {ws : List (List α)} : (∀ c ∈ blank, c = sp) → w ≠ [] → (∀ c ∈ w, c ≠ sp) →
      (rest = [] ∨ rest.head? = some sp) → Words sp rest ws → Words sp (blank ++ w ++ rest) (w :: ws)

/-- `Scraps sp v ps`: `v` consists of the pieces `ps`, none of which is empty or begins with `sp`, with any number of `sp`s before each and at
the end, and one element, whatever it is, behind each that is not the last. -/
inductive Scraps (sp : α) : List α → List (List α) → Prop
  | nil {v : List α} : (∀ c ∈ v, c = sp) → Scraps sp v []
  | last {blank p : List α} : (∀ c ∈ blank, c = sp) → p ≠ [] → p.head? ≠ some sp → Scraps sp (blank ++ p) [p]
  | cons {blank p rest : List α} {c : α} {ps : List (List α)} : (∀ c ∈ blank, c = sp) → p ≠ [] → p.head? ≠ some sp → Scraps sp rest ps →
      Scraps sp (blank ++ p ++ c :: rest) (p :: ps)

/-- `CutAtMost d n v ps`: at most `n` times, the part before the leftmost `d` is cut off together with `d`; what
is then left is the last piece.  When the string runs out earlier, the last piece is empty. -/
inductive CutAtMost (d : List α) : Nat → List α → List (List α) → Prop
  | enough {v : List α} : CutAtMost d 0 v [v]
  | empty {n : Nat} : CutAtMost d n [] [[]]
  | last {n : Nat} {v : List α} : v ≠ [] → ¬ Occurs d v → CutAtMost d (n + 1) v [v, []]
  | cons {n : Nat} {v p rest : List α} {ps : List (List α)} : FirstAt d v p rest → CutAtMost d n rest ps →
      CutAtMost d (n + 1) v (p :: ps)

/-- `WordsAtMost sp n v ws`: the first `n` words of `v`, or all if there are fewer, and then one last piece: what
follows them, without the `sp`s in front. -/
inductive WordsAtMost (sp : α) : Nat → List α → List (List α) → Prop
  | enough {blank v : List α} : (∀ c ∈ blank, c = sp) → v.head? ≠ some sp → WordsAtMost sp 0 (blank ++ v) [v]
  | empty {n : Nat} {v : List α} : (∀ c ∈ v, c = sp) → WordsAtMost sp n v [[]]
  | cons {n : Nat} {blank w rest : List α} {ws : List (List α)} : (∀ c ∈ blank, c = sp) → w ≠ [] →
      (∀ c ∈ w, c ≠ sp) → (rest = [] ∨ rest.head? = some sp) → WordsAtMost sp n rest ws →
      WordsAtMost sp (n + 1) (blank ++ w ++ rest) (w :: ws)

/-- `Replaced d r n v out`: `out` is `v` with the first `n` (all, for `none`) leftmost non-overlapping
occurrences of `d` replaced by `r`. -/
inductive Replaced (d r : List α) : Option Nat → List α → List α → Prop
  | stop {v : List α} : Replaced d r (some 0) v v
  | done {n : Option Nat} {v : List α} : ¬ Occurs d v → Replaced d r n v v
  | step {n : Option Nat} {v p rest out : List α} : n ≠ some 0 → FirstAt d v p rest →
      Replaced d r (n.map (· - 1)) rest out → Replaced d r n v (p ++ r ++ out)

/-- In no text do an occurrence of `x` and an occurrence of `y` share a position. -/
def NoOverlap (x y : List α) : Prop :=
  ∀ t i j, OccursAt x t i → OccursAt y t j → i + x.length ≤ j ∨ j + y.length ≤ i

/-- `Simul kvs v out`: `out` is `v` with every occurrence of every key replaced by its value, scanning once
from left to right. -/
inductive Simul (kvs : List (List α × List α)) : List α → List α → Prop
  | nil : Simul kvs [] []
  | key {k r rest out : List α} : (k, r) ∈ kvs → Simul kvs rest out → Simul kvs (k ++ rest) (r ++ out)
  | char {c : α} {v out : List α} : (∀ k r, (k, r) ∈ kvs → ¬ k <+: c :: v) → Simul kvs v out →
      Simul kvs (c :: v) (c :: out)

end Bdlib.Spec
