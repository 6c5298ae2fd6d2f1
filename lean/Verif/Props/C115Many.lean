import Verif.Props.C115
import Verif.Stm.SavingMany

/-!
# C115: several programs save to one file at once
-/

namespace Bdlib.Stm
open Bdlib Bdlib.Str Bdlib.Spec

/-- The contents after each of the steps. -/
def seenAfter (b : Bytes) : List SaveStep → List Bytes
  | [] => []
  | a :: l => saveStep b a :: seenAfter (saveStep b a) l

theorem seenAfter_stores (new : Bytes) : ∀ (order : List Nat) (b : Bytes),
    seenAfter b (order.map fun i => .store i (new.getD i 0)) = stores new b order
  | [], b => rfl
  | i :: is, b => by rw [List.map_cons, seenAfter, stores]; exact congrArg _ (seenAfter_stores new is _)

theorem seenAfter_pieces (w : Bytes) : ∀ (sizes : List Nat) (k : Nat), seenAfter (w.take k) (pieces w k sizes) = writes [] 0 w k sizes
  | [], k => rfl
  | c :: cs, k => by
    rw [pieces, seenAfter, writes, written_nil]
    have h : saveStep (w.take k) (.write k ((w.drop k).take c)) = w.take (k + c) := by
      show written (w.take k) k ((w.drop k).take c) = _
      unfold written
      split
      · rename_i h
        have h1 : ((w.drop k).take c).length = 0 := by rw [h]; rfl
        rw [List.length_take, List.length_drop] at h1
        by_cases hc : c = 0
        · rw [hc, Nat.add_zero]
        · rw [List.take_of_length_le (by omega), List.take_of_length_le (by omega)]
      · rename_i h
        have hk : k < w.length := by
          refine Nat.lt_of_not_le fun hk => h ?_
          rw [List.drop_eq_nil_of_le hk, List.take_nil]
        have hd : (w.take k).drop (k + ((w.drop k).take c).length) = [] := List.drop_eq_nil_of_le (by rw [List.length_take]; omega)
        rw [hd, List.take_take, Nat.min_self, List.length_take, Nat.min_eq_left (by omega), Nat.sub_self, List.take_add]
        simp
    rw [h, seenAfter_pieces w cs (k + c)]

/-- **C115** A program alone: the steps give the contents that `saveFile` lists. -/
theorem c115_steps (mmap : Bool) (sys : Sys) (order sizes : List Nat) (s : Stream) (old : Bytes) :
    (seenAfter old (stepsOf mmap sys order sizes s)).map some = saveFile mmap sys order sizes s := by
  unfold stepsOf saveFile
  split
  · rfl
  · rw [seenAfter, List.map_cons]
    refine congrArg (some [] :: List.map some ·) ?_
    unfold saveFd
    show seenAfter [] _ = _
    cases mmap with
    | true =>
      simp only [if_true]
      split
      · rfl
      · rw [seenAfter]
        refine congrArg (resized [] s.str.length :: ·) ?_
        split
        · rfl
        · exact seenAfter_stores _ _ _
    | false =>
      simp only [Bool.false_eq_true, if_false]
      split
      · rfl
      · exact seenAfter_pieces _ sizes 0

/-- All bytes of a step are 0 or at their place in one of the texts. -/
def FromTexts (news : List Stream) : SaveStep → Prop
  | .store i x => x = 0 ∨ ∃ t ∈ news, t.str[i]? = some x
  | .write off w => ∀ (j : Nat) (y : UInt8), w[j]? = some y → ∃ t ∈ news, t.str[off + j]? = some y
  | _ => True

theorem pieces_fromTexts {news : List Stream} {s : Stream} (hs : s ∈ news) {w : Bytes} (hw : w <+: s.str) : ∀ (sizes : List Nat) (k : Nat),
    ∀ a ∈ pieces w k sizes, FromTexts news a
  | [], k, a, ha => by cases ha
  | c :: cs, k, a, ha => by
    rw [pieces] at ha
    rcases List.mem_cons.1 ha with rfl | ha
    · intro j y hy
      refine ⟨s, hs, ?_⟩
      rw [List.getElem?_take] at hy
      split at hy
      · rw [List.getElem?_drop] at hy
        obtain ⟨t, ht⟩ := hw
        rw [← ht, List.getElem?_append_left (List.getElem?_eq_some_iff.1 hy).1]
        exact hy
      · cases hy
    · exact pieces_fromTexts hs hw cs _ a ha

theorem stepsOf_fromTexts {news : List Stream} {s : Stream} (hs : s ∈ news) (mmap : Bool) (sys : Sys) (order sizes : List Nat) :
    ∀ a ∈ stepsOf mmap sys order sizes s, FromTexts news a := by
  intro a ha
  unfold stepsOf at ha
  split at ha
  · cases ha
  · rcases List.mem_cons.1 ha with rfl | ha
    · trivial
    · split at ha
      · split at ha
        · cases ha
        · rcases List.mem_cons.1 ha with rfl | ha
          · trivial
          · split at ha
            · cases ha
            · obtain ⟨i, -, rfl⟩ := List.mem_map.1 ha
              by_cases hi : i < s.str.length
              · right
                refine ⟨s, hs, ?_⟩
                rw [List.getD_eq_getElem?_getD, List.getElem?_eq_getElem hi]; rfl
              · left
                rw [List.getD_eq_getElem?_getD, List.getElem?_eq_none (by omega)]; rfl
      · split at ha
        · cases ha
        · exact pieces_fromTexts hs (List.take_prefix _ _) sizes 0 a ha

theorem Interleave.mem {ps : List (List SaveStep)} {l : List SaveStep} {ps' : List (List SaveStep)} (h : Interleave ps l ps') :
    ∀ a ∈ l, ∃ p ∈ ps, a ∈ p := by
  induction h with
  | done ps => intro a ha; cases ha
  | @step ps a rest l ps' j h1 h2 ih =>
    intro x hx
    have hmem : a :: rest ∈ ps := List.mem_of_getElem? h1
    rcases List.mem_cons.1 hx with rfl | hx
    · exact ⟨_, hmem, List.mem_cons_self⟩
    · obtain ⟨p, hp, hxp⟩ := ih x hx
      rcases List.mem_or_eq_of_mem_set hp with hp | rfl
      · exact ⟨p, hp, hxp⟩
      · exact ⟨_, hmem, List.mem_cons_of_mem _ hxp⟩

theorem saveStep_keeps {news : List Stream} {old b : Bytes} {a : SaveStep} (ha : FromTexts news a)
    (hb : ∀ (i : Nat) (x : UInt8), b[i]? = some x → x = 0 ∨ old[i]? = some x ∨ ∃ t ∈ news, t.str[i]? = some x) :
    ∀ (i : Nat) (x : UInt8), (saveStep b a)[i]? = some x → x = 0 ∨ old[i]? = some x ∨ ∃ t ∈ news, t.str[i]? = some x := by
  intro i x hx
  cases a with
  | opened => cases hx
  | cut n =>
    rcases resized_seen hx with h | h
    · exact hb i x h
    · exact Or.inl h.2
  | store j y =>
    by_cases hj : j = i
    · subst hj
      by_cases hl : j < b.length
      · rw [saveStep, List.getElem?_set_self hl] at hx
        cases hx
        exact ha.imp_right Or.inr
      · rw [saveStep, List.set_eq_of_length_le (by omega)] at hx
        exact hb j x hx
    · rw [saveStep, List.getElem?_set_ne hj] at hx
      exact hb i x hx
  | write off w =>
    rw [saveStep, written] at hx
    split at hx
    · exact hb i x hx
    · by_cases h1 : i < (b.take off).length
      · rw [List.append_assoc, List.append_assoc, List.getElem?_append_left h1, List.getElem?_take] at hx
        split at hx
        · exact hb i x hx
        · cases hx
      · have hlen : (b.take off ++ List.replicate (off - b.length) 0).length = off := by
          rw [List.length_append, List.length_take, List.length_replicate]; omega
        by_cases h2 : i < off
        · rw [List.append_assoc, List.getElem?_append_left (by omega), List.getElem?_append_right (by omega)] at hx
          obtain ⟨_, h3⟩ := List.getElem?_eq_some_iff.1 hx
          rw [List.getElem_replicate] at h3
          exact Or.inl h3.symm
        · by_cases h3 : i < off + w.length
          · rw [List.getElem?_append_left (by rw [List.length_append]; omega), List.getElem?_append_right (by omega), hlen] at hx
            obtain ⟨t, ht, h4⟩ := ha _ _ hx
            exact Or.inr (Or.inr ⟨t, ht, by rw [← h4]; congr 1; omega⟩)
          · rw [List.getElem?_append_right (by rw [List.length_append]; omega), List.getElem?_drop, List.length_append, hlen] at hx
            exact hb i x (by rw [← hx]; congr 1; omega)

/-- **C115** Any number of programs save to one file at once, in both builds, whatever fails for them; any of them may be killed.  At every moment
each byte of the file was at its place in the file from before or in one of the texts, or is 0. -/
theorem c115_many {news : List Stream} {ps : List (List SaveStep)}
    (hps : ∀ p ∈ ps, ∃ s ∈ news, ∃ mmap sys order sizes, p = stepsOf mmap sys order sizes s) {l : List SaveStep} {ps' : List (List SaveStep)}
    (h : Interleave ps l ps') (old : Bytes) (i : Nat) (x : UInt8) (hx : (l.foldl saveStep old)[i]? = some x) :
    x = 0 ∨ old[i]? = some x ∨ ∃ t ∈ news, t.str[i]? = some x := by
  have hl : ∀ a ∈ l, FromTexts news a := by
    intro a ha
    obtain ⟨p, hp, hap⟩ := h.mem a ha
    obtain ⟨s, hs, mmap, sys, order, sizes, rfl⟩ := hps p hp
    exact stepsOf_fromTexts hs mmap sys order sizes a hap
  have key : ∀ (l : List SaveStep) (b : Bytes), (∀ a ∈ l, FromTexts news a) →
      (∀ (i : Nat) (x : UInt8), b[i]? = some x → x = 0 ∨ old[i]? = some x ∨ ∃ t ∈ news, t.str[i]? = some x) →
      ∀ (i : Nat) (x : UInt8), (l.foldl saveStep b)[i]? = some x → x = 0 ∨ old[i]? = some x ∨ ∃ t ∈ news, t.str[i]? = some x := by
    intro l
    induction l with
    | nil => intro b _ hb; exact hb
    | cons a l ih =>
      intro b hl hb
      exact ih _ (fun a' h' => hl a' (List.mem_cons_of_mem _ h')) (saveStep_keeps (hl a List.mem_cons_self) hb)
  exact key l old hl (fun i x h => Or.inr (Or.inl h)) i x hx

theorem Interleave.trans {ps ps' ps'' : List (List SaveStep)} {l l' : List SaveStep} (h : Interleave ps l ps') (h' : Interleave ps' l' ps'') :
    Interleave ps (l ++ l') ps'' := by
  induction h with
  | done ps => exact h'
  | step j h1 h2 ih => exact .step j h1 (ih h')

theorem Interleave.left (q : List SaveStep) : ∀ (p p' : List SaveStep), Interleave [p ++ p', q] p [p', q]
  | [], _ => .done _
  | _ :: p, p' => .step 0 rfl (Interleave.left q p p')

theorem Interleave.right (p : List SaveStep) : ∀ (q q' : List SaveStep), Interleave [p, q ++ q'] q [p, q']
  | [], _ => .done _
  | _ :: q, q' => .step 1 rfl (Interleave.right p q q')

theorem foldl_stores (new : Bytes) : ∀ (order : List Nat) (b : Bytes), b.length = new.length →
    ((order.map fun i => SaveStep.store i (new.getD i 0)).foldl saveStep b).length = new.length ∧
    ∀ j : Nat, ((order.map fun i => SaveStep.store i (new.getD i 0)).foldl saveStep b)[j]? = if j ∈ order then new[j]? else b[j]?
  | [], b, h => ⟨h, fun j => rfl⟩
  | i :: is, b, h => by
    rw [List.map_cons, List.foldl_cons]
    obtain ⟨h1, h2⟩ := foldl_stores new is (saveStep b (.store i (new.getD i 0))) (by rw [saveStep, List.length_set, h])
    refine ⟨h1, fun j => ?_⟩
    rw [h2 j, saveStep]
    by_cases hj : j ∈ is
    · rw [if_pos hj, if_pos (List.mem_cons_of_mem _ hj)]
    · rw [if_neg hj]
      by_cases hij : i = j
      · subst hij
        rw [if_pos List.mem_cons_self]
        by_cases hi : i < b.length
        · rw [List.getElem?_set_self hi, List.getD_eq_getElem?_getD, List.getElem?_eq_getElem (by omega)]; rfl
        · rw [List.set_eq_of_length_le (by omega), List.getElem?_eq_none (by omega), List.getElem?_eq_none (by omega)]
      · rw [List.getElem?_set_ne hij, if_neg (fun h => (List.mem_cons.1 h).elim (fun h => hij h.symm) hj)]

/-- **C115 refuted** Two programs that save texts of one length at once, in an `mmap` build: for any `k` it can be that both copy all their bytes and end
normally, and the file holds the first `k` bytes of one text and the rest of the other. -/
theorem c115_refuted_mixed {a b : Stream} (hab : a.str.length = b.str.length) (hne : a.str ≠ []) (k : Nat) (old : Bytes) :
    ∃ order order' l, (∀ i, i < a.str.length → i ∈ order) ∧ (∀ i, i < b.str.length → i ∈ order') ∧
      Interleave [stepsOf true {} order [] a, stepsOf true {} order' [] b] l [[], []] ∧
      l.foldl saveStep old = a.str.take k ++ b.str.drop k := by
  have hz : a.str.length ≠ 0 := fun h => hne (List.length_eq_zero_iff.1 h)
  have hz' : b.str.length ≠ 0 := by omega
  let n := a.str.length
  let late := List.range (min k n)
  let st (t : Bytes) (o : List Nat) : List SaveStep := o.map fun i => SaveStep.store i (t.getD i 0)
  have ea : stepsOf true {} (List.range n ++ late) [] a = (.opened :: .cut n :: st a.str (List.range n)) ++ (st a.str late ++ []) := by
    simp [stepsOf, hz, st, n]
  have eb : stepsOf true {} (List.range n) [] b = (.opened :: .cut n :: []) ++ (st b.str (List.range n) ++ []) := by
    simp [stepsOf, hz', st, n, hab]
  have r1 : Interleave [stepsOf true {} (List.range n ++ late) [] a, stepsOf true {} (List.range n) [] b]
      ([.opened, .cut n] ++ ((.opened :: .cut n :: st a.str (List.range n)) ++ (st b.str (List.range n) ++ st a.str late))) [[], []] := by
    rw [ea, eb]
    exact (Interleave.right _ _ _).trans ((Interleave.left _ _ _).trans ((Interleave.right _ _ _).trans (Interleave.left _ _ _)))
  refine ⟨List.range n ++ late, List.range n, _, fun i hi => List.mem_append_left _ (List.mem_range.2 hi),
    fun i hi => List.mem_range.2 (by show i < a.str.length; omega), r1, ?_⟩
  rw [List.foldl_append, List.foldl_append, List.foldl_append]
  obtain ⟨p1, p2⟩ := foldl_stores a.str (List.range n) (resized [] n) (resized_length _ _)
  have e1 : List.foldl saveStep (List.foldl saveStep old [.opened, .cut n]) (.opened :: .cut n :: st a.str (List.range n)) =
      (st a.str (List.range n)).foldl saveStep (resized [] n) := rfl
  rw [e1]
  obtain ⟨q1, q2⟩ := foldl_stores b.str (List.range n) ((st a.str (List.range n)).foldl saveStep (resized [] n)) (by rw [p1, hab])
  obtain ⟨s1, s2⟩ := foldl_stores a.str late ((st b.str (List.range n)).foldl saveStep ((st a.str (List.range n)).foldl saveStep (resized [] n)))
    (by rw [q1, hab])
  apply List.ext_getElem?
  intro j
  rw [s2 j, q2 j]
  by_cases hj : j < n
  · rw [if_pos (List.mem_range.2 hj)]
    by_cases hk : j < k
    · rw [if_pos (List.mem_range.2 (by omega)), List.getElem?_append_left (by rw [List.length_take]; omega), List.getElem?_take, if_pos hk]
    · rw [if_neg (fun h => by have := List.mem_range.1 h; omega), List.getElem?_append_right (by rw [List.length_take]; omega), List.getElem?_drop,
        List.length_take]
      congr 1
      have : k ≤ a.str.length := by omega
      omega
  · have hn : n = a.str.length := rfl
    rw [if_neg (fun h => by have := List.mem_range.1 h; omega), if_neg (fun h => hj (List.mem_range.1 h)), p2 j, if_neg (fun h => hj (List.mem_range.1 h)),
      List.getElem?_eq_none (by rw [resized_length]; omega), List.getElem?_eq_none (by rw [List.length_append, List.length_take, List.length_drop]; omega)]

/-- Hypotheses of `c115_many`: "abc" is saved in an `mmap` build and "de" in a `stdio` build, the latter in the middle of the former. -/
example : ∃ l, Interleave [stepsOf true {} [0, 1, 2] [] (ofString [97, 98, 99] 16), stepsOf false {} [] [2] (ofString [100, 101] 16)] l [[], []] ∧
    l.foldl saveStep [120] = [100, 101] := by
  refine ⟨[.opened, .cut 3, .store 0 97, .opened, .store 1 98, .write 0 [100, 101], .store 2 99], ?_, by decide +kernel⟩
  exact .step 0 (by decide +kernel) (.step 0 rfl (.step 0 rfl (.step 1 (by decide +kernel) (.step 0 rfl (.step 1 rfl (.step 0 rfl (.done _)))))))

end Bdlib.Stm
