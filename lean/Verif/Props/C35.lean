import Verif.Props.C30
import Verif.Props.C32

/-!
# C35: `join`
-/

namespace Bdlib.Str
open Bdlib

/-- An element as it appears in the joined string. -/
def shown (quoted : Bool) (x : Bytes) : Bytes := if quoted then ['"'.toUInt8] ++ x ++ ['"'.toUInt8] else x

theorem shown_eq (quoted : Bool) (x : Bytes) : joinPiece quoted x = shown quoted x := by
  have : '"'.toUInt8 = 34 := by decide
  unfold joinPiece shown
  rw [this]

theorem joinLoop_false (d : Bytes) (q : Bool) : ∀ (a : List Bytes) (str : Bytes),
    joinLoop d q a false str = str ++ (a.map fun x => d ++ shown q x).flatten
  | [], str => by simp [joinLoop]
  | x :: a, str => by
    unfold joinLoop
    rw [joinLoop_false d q a, shown_eq]
    simp

theorem intercalate_cons (d x : Bytes) (a : List Bytes) :
    d.intercalate (x :: a) = x ++ (a.map fun y => d ++ y).flatten := by
  induction a generalizing x with
  | nil => simp [List.intercalate]
  | cons y a ih =>
    have := ih y
    simp only [List.intercalate, List.intersperse, List.flatten_cons, List.map_cons] at this ⊢
    rw [this]
    simp

theorem joinLoop_eq (d : Bytes) (q : Bool) (a : List Bytes) : joinLoop d q a true [] = d.intercalate (a.map (shown q)) := by
  cases a with
  | nil => rfl
  | cons x a =>
    unfold joinLoop
    rw [joinLoop_false, shown_eq, List.map_cons, intercalate_cons]
    simp [Function.comp_def]

/-- `join(delim, quoted)` puts the delimiter between consecutive elements (quoted if asked for).

Partial: at least one of: no element, a non-empty delimiter, quoting, a non-empty element
(`c35_refuted_empty`).  The size computed, which is what the result needs if `delim` is one character
longer at most, must be available. -/
theorem c35_join_partial (a : List Bytes) (d : Bytes) (q : Bool)
    (hsize : a.length * d.length + a.length * 2 + (a.map List.length).sum < Rca.maxCells)
    (hne : a = [] ∨ d ≠ [] ∨ q = true ∨ ∃ x ∈ a, x ≠ []) :
    join a d q = .ret (d.intercalate (a.map (shown q))) := by
  unfold join
  by_cases h0 : a.length = 0
  · rw [if_pos h0, List.length_eq_zero_iff.mp h0]; rfl
  rw [if_neg h0]
  dsimp only
  have hM : Rca.maxCells = 9223372036854775808 := by decide
  have hsum : totalLength a = (a.map List.length).sum := rfl
  have hpos : 0 < a.length * d.length + (if q then a.length * 2 else 0) + totalLength a := by
    rcases hne with h | h | h | ⟨x, hx, h⟩
    · exact absurd (by rw [h]; rfl) h0
    · have hdl : d.length ≠ 0 := fun h' => h (List.length_eq_zero_iff.mp h')
      have : 0 < a.length * d.length := Nat.mul_pos (by omega) (by omega)
      omega
    · rw [h]; simp only [if_true]; omega
    · have hxl : x.length ≠ 0 := fun h' => h (List.length_eq_zero_iff.mp h')
      have : x.length ≤ (a.map List.length).sum := by
        clear hsum hsize h0
        induction a with
        | nil => cases hx
        | cons y a ih =>
          rcases List.mem_cons.mp hx with rfl | hx
          · simp
          · have := ih hx; simp; omega
      rw [hsum]
      omega
  have hq : (if q then a.length * 2 else 0) ≤ a.length * 2 := by split <;> omega
  have : (sub64 (a.length * d.length) 1 + (if q then a.length * 2 else 0) + totalLength a) % two64
      = a.length * d.length + (if q then a.length * 2 else 0) + totalLength a - 1 := by
    generalize a.length * d.length = ad at *
    generalize (if q then a.length * 2 else 0) = qq at *
    unfold sub64 two64
    split <;> omega
  rw [this]
  unfold alloc
  rw [if_pos (by omega)]
  simp only [Eff.ret_bind]
  rw [joinLoop_eq]
  rfl

/-- Joining any number of empty strings (at least one) with an empty delimiter throws `bad_alloc`: the size computed is
`0 - 1 + 0`. -/
theorem c35_refuted_empty {a : List Bytes} (hne : a ≠ []) (ha : ∀ x ∈ a, x = []) : join a [] false = .exc .badAlloc := by
  have hs : totalLength a = 0 := by
    clear hne
    unfold totalLength
    induction a with
    | nil => rfl
    | cons x a ih =>
      rw [List.map_cons, List.sum_cons, ih fun y hy => ha y (by simp [hy]), ha x (by simp)]
      rfl
  unfold join
  rw [if_neg fun h => hne (List.length_eq_zero_iff.mp h)]
  dsimp only
  rw [hs]
  simp only [List.length_nil, Nat.mul_zero, Bool.false_eq_true, if_false]
  rfl

theorem cut_unique {d v : Bytes} {ps : List Bytes} (hd : d ≠ []) (h : Spec.Cut d v ps) : ∀ {qs}, Spec.Cut d v qs → ps = qs := by
  have hocc : ∀ {v p rest : Bytes}, Spec.FirstAt d v p rest → Spec.Occurs d v := fun h => ⟨_, _, _, h.1, rfl⟩
  have hne : ∀ {p rest : Bytes}, ¬ Spec.FirstAt d [] p rest := fun h => by
    have := congrArg List.length h.1
    have hdl : d.length ≠ 0 := fun h => hd (List.length_eq_zero_iff.mp h)
    simp at this
    omega
  induction h with
  | nil =>
    intro qs h'
    cases h' with
    | nil => rfl
    | last h _ => exact absurd rfl h
    | cons h _ => exact absurd h hne
  | last h1 h2 =>
    intro qs h'
    cases h' with
    | nil => exact absurd rfl h1
    | last _ _ => rfl
    | cons h _ => exact absurd (hocc h) h2
  | cons h1 h2 ih =>
    intro qs h'
    cases h' with
    | nil => exact absurd h1 hne
    | last _ h => exact absurd (hocc h1) h
    | cons h3 h4 =>
      obtain ⟨rfl, rfl⟩ := firstAt_unique h1 h3
      rw [ih h4]

/-- Elements without the character `c`, the last one not empty: cutting the joined string gives them back. -/
theorem cut_intercalate {c : UInt8} : ∀ {a : List Bytes}, (∀ x ∈ a, c ∉ x) → a.getLast? ≠ some [] →
    Spec.Cut [c] ([c].intercalate a) a
  | [], _, _ => by simpa [List.intercalate] using Spec.Cut.nil
  | [x], h, hl => by
    have : [c].intercalate [x] = x := by simp [List.intercalate]
    rw [this]
    refine .last (fun h => hl (by simp [h])) ?_
    rw [occurs_single]
    exact h x (by simp)
  | x :: y :: a, h, hl => by
    have ih := cut_intercalate (c := c) (a := y :: a) (fun z hz => h z (by simp [hz])) (by simpa using hl)
    have : [c].intercalate (x :: y :: a) = x ++ c :: [c].intercalate (y :: a) := by
      rw [intercalate_cons, intercalate_cons]; simp
    rw [this]
    exact .cons (firstAt_of_split (h x (by simp))) ih

/-- Splitting what was joined gives the elements back, if none contains the delimiter character and the
last is not empty.  (Partial as C28 is: `memmem`, fewer than 2^31 characters.) -/
theorem c35_join_split_partial {L : Libc} (hL : L.Ok) (hm : L.memmem = true) {a : List Bytes} {c : UInt8}
    (hc : c ≠ 32) (ha : ∀ x ∈ a, c ∉ x) (hlast : a.getLast? ≠ some [])
    (hv : ([c].intercalate a).length ≤ maxInt) (hsize : a.length * 1 + a.length * 2 + (a.map List.length).sum < Rca.maxCells)
    {fuel : Nat} (hf : ([c].intercalate a).length < fuel) :
    ∃ s, join a [c] false = .ret s ∧ split L fuel s [c] npos = .ret a := by
  have hs : a.map (shown false) = a := by
    rw [show shown false = id from by funext x; rfl]; simp
  refine ⟨[c].intercalate a, ?_, ?_⟩
  · rw [c35_join_partial a [c] false hsize (Or.inr (Or.inl (by simp))), hs]
  · obtain ⟨ps, h1, h2, _⟩ := c28_split_partial hL hm hv (d := [c]) (by simp) (by simpa using hc) fuel hf
    rw [h1, cut_unique (by simp) h2 (cut_intercalate ha hlast)]

example : join [[], []] [] false = .exc .badAlloc := c35_refuted_empty (by simp) (by simp)
example : join [[97], [], [98, 99]] [44, 32] true = .ret [34, 97, 34, 44, 32, 34, 34, 44, 32, 34, 98, 99, 34] := by decide

end Bdlib.Str
