import Verif.Str.Cut

/-!
# `split` with a limit
-/

namespace Bdlib.Str
open Bdlib Bdlib.Spec

variable {α : Type}

theorem Cuts.atMost {d v r : List α} {ps : List (List α)} (h : Cuts d v ps r) : ∀ {cap : Nat}, ps.length ≤ cap →
    (ps.length < cap → r = []) → CutAtMost d cap v (ps ++ [r]) := by
  induction h with
  | nil =>
    intro cap _ h2
    cases cap with
    | zero => exact .enough
    | succ n =>
      have := h2 (by simp)
      subst this
      exact .empty
  | cons h1 _ ih =>
    intro cap hle h2
    simp only [List.length_cons] at hle h2
    obtain ⟨n, rfl⟩ : ∃ n, cap = n + 1 := ⟨cap - 1, by omega⟩
    exact .cons h1 (ih (by omega) fun h => h2 (by omega))

theorem Cuts.atMost_last {d v x : List α} {qs : List (List α)} (h : Cuts d v qs x) (hx : x ≠ []) (ho : ¬ Occurs d x) :
    ∀ {cap : Nat}, qs.length + 1 ≤ cap → CutAtMost d cap v (qs ++ [x] ++ [[]]) := by
  induction h with
  | nil =>
    intro cap h2
    obtain ⟨n, rfl⟩ : ∃ n, cap = n + 1 := ⟨cap - 1, by omega⟩
    exact .last hx ho
  | cons h1 _ ih =>
    intro cap h2
    simp only [List.length_cons] at h2
    obtain ⟨n, rfl⟩ : ∃ n, cap = n + 1 := ⟨cap - 1, by omega⟩
    exact .cons h1 (ih hx ho (by omega))

/-- At most that many pieces. -/
theorem cutAtMost_length {d v : List α} {n : Nat} {ps : List (List α)} (h : CutAtMost d n v ps) :
    ps.length ≤ n + 1 := by
  induction h with
  | enough => simp
  | empty => simp
  | last => simp
  | cons _ _ ih => simp only [List.length_cons]; omega

theorem firstAt_same {d v p rest p' rest' : List α} (h : FirstAt d v p rest) (h' : FirstAt d v p' rest') :
    p = p' ∧ rest = rest' := by
  have h1 := h.2 _ ⟨p', rest', h'.1, rfl⟩
  have h2 := h'.2 _ ⟨p, rest, h.1, rfl⟩
  have hl : p.length = p'.length := by omega
  have he := h.1.symm.trans h'.1
  rw [List.append_assoc, List.append_assoc] at he
  obtain ⟨e1, e2⟩ := List.append_inj he hl
  exact ⟨e1, List.append_cancel_left e2⟩

theorem firstAt_occurs {d v p rest : List α} (h : FirstAt d v p rest) : Occurs d v := ⟨_, p, rest, h.1, rfl⟩

theorem firstAt_nil {d p rest : List α} (hd : d ≠ []) (h : FirstAt d [] p rest) : False := by
  have := congrArg List.length h.1
  simp only [List.length_nil, List.length_append] at this
  exact hd (List.length_eq_zero_iff.mp (by omega))

/-- The pieces are determined by the string, the delimiter and the limit. -/
theorem cutAtMost_unique {d v : List α} (hd : d ≠ []) {n : Nat} {ps : List (List α)} (h : CutAtMost d n v ps) :
    ∀ {ps'}, CutAtMost d n v ps' → ps = ps' := by
  induction h with
  | enough => intro ps' h'; cases h' <;> rfl
  | empty =>
    intro ps' h'
    cases h' with
    | enough => rfl
    | empty => rfl
    | last h => exact absurd rfl h
    | cons h _ => exact (firstAt_nil hd h).elim
  | last hne ho =>
    intro ps' h'
    cases h' with
    | empty => exact absurd rfl hne
    | last => rfl
    | cons h _ => exact absurd (firstAt_occurs h) ho
  | cons hf _ ih =>
    intro ps' h'
    cases h' with
    | empty => exact (firstAt_nil hd hf).elim
    | last _ ho => exact absurd (firstAt_occurs hf) ho
    | cons hf' h' =>
      obtain ⟨rfl, rfl⟩ := firstAt_same hf hf'
      rw [ih h']

/-! ## Words -/

theorem wordsAtMost_sp {sp : α} {v : List α} {n : Nat} {ws : List (List α)} (h : WordsAtMost sp n v ws) :
    WordsAtMost sp n (sp :: v) ws := by
  cases h with
  | enough h1 h2 =>
    rw [← List.cons_append]
    exact .enough (by simpa using h1) h2
  | empty h => exact .empty (by simpa using h)
  | cons h1 h2 h3 h4 h5 =>
    have := WordsAtMost.cons (blank := sp :: _) (by simpa using h1) h2 h3 h4 h5
    simpa using this

/-- Where the trimming stops. -/
theorem trimIt_spec (v : Bytes) (it : Nat) : it ≤ trimIt v [32] it ∧ trimIt v [32] it ≤ max it v.length ∧
    (∀ c ∈ (v.drop it).take (trimIt v [32] it - it), c = 32) ∧ (v.drop (trimIt v [32] it)).head? ≠ some 32 ∧
    v.drop it = (v.drop it).take (trimIt v [32] it - it) ++ v.drop (trimIt v [32] it) := by
  generalize hj : trimIt v [32] it = j
  unfold trimIt at hj
  rw [if_pos rfl] at hj
  obtain ⟨h1, h2, h3, h4⟩ := skipSpaces_spec v (v.length - it) it (by omega)
  rw [hj] at h1 h2 h3 h4
  refine ⟨h1, by omega, h3, ?_, ?_⟩
  · rw [List.head?_drop]
    by_cases h : j < v.length
    · exact h4 h
    · rw [List.getElem?_eq_none (by omega)]; simp
  · rw [show v.drop j = (v.drop it).drop (j - it) by rw [List.drop_drop]; congr 1; omega, List.take_append_drop]

theorem splitLoop_wordsAtMost {L : Libc} (hL : L.Ok) (hm : L.memmem = true) {v : Bytes} (hv : v.length ≤ maxInt)
    {cap : Nat} : ∀ fuel it acc, v.length - it < fuel → it ≤ v.length + 1 →
    ∃ it' ws, splitLoop L v [32] cap fuel it acc = .ret (it', acc ++ ws) ∧
      WordsAtMost 32 (cap - acc.length) (v.drop it) (ws ++ [v.drop (trimIt v [32] it')]) := by
  intro fuel
  induction fuel with
  | zero => intro it acc h; omega
  | succ fuel ih =>
    intro it acc hf hit
    have hmx : v.length ≤ 2147483647 := hv
    unfold splitLoop
    obtain ⟨h1, h2, h3, h4, hblank⟩ := trimIt_spec v it
    rcases Decidable.em (¬ acc.length < cap) with hacap | hacap
    · rw [if_pos hacap]
      refine ⟨it, [], by simp, ?_⟩
      rw [show cap - acc.length = 0 by omega]
      have := WordsAtMost.enough h3 h4
      rw [← hblank] at this
      exact this
    rw [if_neg hacap]
    obtain ⟨k, hk⟩ : ∃ k, cap - acc.length = k + 1 := ⟨cap - acc.length - 1, by omega⟩
    rw [hk]
    dsimp only
    generalize hj : trimIt v [32] it = j at *
    by_cases hend : j ≥ v.length
    · rw [if_pos hend]
      refine ⟨j, [], by simp, ?_⟩
      have hj' : v.drop (trimIt v [32] j) = [] := List.drop_eq_nil_of_le (by have := (trimIt_spec v j).1; omega)
      rw [hj']
      refine .empty ?_
      rw [hblank, List.drop_eq_nil_of_le hend, List.append_nil]
      exact h3
    · rw [if_neg hend]
      have hhead : v.drop j = v[j] :: v.drop (j + 1) := List.drop_eq_getElem_cons (by omega)
      have hne32 : v[j] ≠ 32 := by
        intro h; rw [hhead, h] at h4; exact h4 rfl
      rcases find_cases hL hm (d := [32]) hv (it := j) (by omega) with ⟨p, rest, f1, f2, f3⟩ | ⟨f1, f2⟩
      · rw [f2]
        simp only [Eff.ret_bind, List.length_singleton]
        rw [if_neg f3]
        have hlen := congrArg List.length f1.1
        simp only [List.length_append, List.length_drop, List.length_cons, List.length_nil] at hlen
        rw [slice_in hv (by omega)]
        simp only [Eff.ret_bind]
        have htake : (v.drop j).take p.length = p := by rw [f1.1]; simp
        rw [htake]
        have hrest : v.drop (j + p.length + 1) = rest := by
          rw [firstAt_drop f1, List.drop_drop]; congr 1
        have hpne : p ≠ [] := by
          intro h
          subst h
          have := f1.1
          rw [hhead, List.nil_append, List.cons_append] at this
          exact hne32 (List.cons.inj this).1
        have hpl : p.length ≠ 0 := fun h => hpne (List.length_eq_zero_iff.mp h)
        obtain ⟨it', ws, h5, h6⟩ := ih (j + p.length + 1) (acc ++ [p]) (by omega) (by omega)
        refine ⟨it', p :: ws, by rw [h5]; simp, ?_⟩
        rw [hrest] at h6
        simp only [List.length_append, List.length_singleton] at h6
        rw [show cap - (acc.length + 1) = k by omega] at h6
        obtain ⟨g1, g2⟩ := firstAt_single f1
        rw [hblank, g1]
        have := WordsAtMost.cons (blank := (v.drop it).take (j - it)) h3 hpne g2 (rest := 32 :: rest) (Or.inr rfl)
          (wordsAtMost_sp h6)
        simpa using this
      · rw [f2]
        simp only [Eff.ret_bind, if_true, List.length_singleton]
        rw [slice_in hv (by omega)]
        simp only [Eff.ret_bind]
        have htake : (v.drop j).take (v.length - j) = v.drop j := List.take_of_length_le (by simp)
        rw [htake]
        obtain ⟨it', ws, h5, h6⟩ := ih (j + (v.length - j) + 1) (acc ++ [v.drop j]) (by omega) (by omega)
        refine ⟨it', v.drop j :: ws, by rw [h5]; simp, ?_⟩
        rw [List.drop_eq_nil_of_le (show v.length ≤ j + (v.length - j) + 1 by omega)] at h6
        simp only [List.length_append, List.length_singleton] at h6
        rw [show cap - (acc.length + 1) = k by omega] at h6
        rw [hblank]
        have := WordsAtMost.cons (blank := (v.drop it).take (j - it)) (w := v.drop j) h3 (fun h => by rw [h] at hhead; cases hhead)
          (fun c hc he => f1 (occurs_single.mpr (by rw [← he]; exact hc))) (rest := []) (Or.inl rfl) h6
        simpa using this

end Bdlib.Str
