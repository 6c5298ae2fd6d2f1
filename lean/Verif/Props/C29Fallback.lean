import Verif.Props.C28Fallback
import Verif.Props.C29

/-!
# C29: `split(' ')` where the platform has no `memmem`
-/

namespace Bdlib.Str
open Bdlib Bdlib.Spec

/-- What is searched from `it` on, for one space. -/
theorem seen_space {v : Bytes} {it i : Nat} : Seen [32] v it i ↔ it ≤ i ∧ v[i]? = some 32 ∧ it + i < v.length := by
  unfold Seen
  constructor
  · rintro ⟨h1, ⟨a, b, h2, h3⟩, h4⟩
    subst h3
    refine ⟨h1, ?_, h4⟩
    rw [h2]
    simp
  · rintro ⟨h1, h2, h3⟩
    have hi : i < v.length := by omega
    rw [List.getElem?_eq_getElem hi] at h2
    injection h2 with h2
    refine ⟨h1, ⟨v.take i, v.drop (i + 1), ?_, by simp; omega⟩, h3⟩
    conv => lhs; rw [← List.take_append_drop i v, List.drop_eq_getElem_cons hi, h2]
    simp

section
variable {L : Libc} (hL : L.Ok) (hm : L.memmem = false) {v : Bytes} (hv : v.length ≤ maxInt)
include hL hm hv

theorem splitLoop_scraps : ∀ fuel it acc, it ≤ v.length → v.length - it < fuel → acc.length ≤ it →
    ∃ it' ps, splitLoop L v [32] (npos - 1) fuel it acc = .ret (it', acc ++ ps) ∧ Scraps 32 (v.drop it) ps ∧
      (∀ b w, v.drop it = b ++ w → (∀ c ∈ b, c = 32) → (∀ c ∈ w, c ≠ 32) → ps = if w = [] then [] else [w]) ∧
      (it = 0 → ∀ w rest, v = w ++ 32 :: rest → w ≠ [] → (∀ c ∈ w, c ≠ 32) →
        ∃ qs, ps = w :: qs ∧ ∀ b w', rest = b ++ w' → (∀ c ∈ b, c = 32) → (∀ c ∈ w', c ≠ 32) → qs = if w' = [] then [] else [w']) := by
  intro fuel
  induction fuel with
  | zero => intro it acc _ h; omega
  | succ fuel ih =>
    intro it acc hit hf hacc
    have hmx : v.length ≤ 2147483647 := hv
    unfold splitLoop
    rw [if_neg (by unfold npos; omega)]
    obtain ⟨t1, t2, t3, t4, t5⟩ := trimIt_spec v it
    generalize hj : trimIt v [32] it = j at t1 t2 t3 t4 t5
    have hjl : j ≤ v.length := by omega
    simp only
    by_cases hend : j ≥ v.length
    · rw [if_pos hend]
      rw [List.drop_eq_nil_of_le hend, List.append_nil] at t5
      have hall : ∀ c ∈ v.drop it, c = 32 := by rw [t5]; exact t3
      refine ⟨j, [], by simp, .nil hall, fun b w hbw _ hw => ?_, fun h0 w rest hw hne hws => ?_⟩
      · cases w with
        | nil => rfl
        | cons x w => exact absurd (hall x (by rw [hbw]; simp)) (hw x (by simp))
      · subst h0
        cases w with
        | nil => exact absurd rfl hne
        | cons x w => exact absurd (hall x (by rw [List.drop_zero, hw]; simp)) (hws x (by simp))
    · rw [if_neg hend]
      have hjv : j < v.length := by omega
      obtain ⟨x, tl, hx⟩ : ∃ x tl, v.drop j = x :: tl := by
        cases h : v.drop j with
        | nil => exact absurd (List.drop_eq_nil_iff.mp h) hend
        | cons x tl => exact ⟨x, tl, rfl⟩
      have hx32 : x ≠ 32 := fun h => t4 (by rw [hx, h]; rfl)
      have hvx : v[j]? = some x := by
        have := congrArg (·[0]?) hx
        simpa using this
      obtain ⟨r, h1, h2⟩ := find_fallback hL hm hv (d := [32]) (by simp) hjl
      rw [h1]
      simp only [Eff.ret_bind]
      rcases h2 with ⟨h2, h3⟩ | ⟨h2, h3⟩
      · rw [if_neg h3]
        obtain ⟨g1, g2, g3⟩ := seen_space.mp h2.1
        have hr0 : r ≠ 0 := fun h => by
          subst h
          have : j = 0 := by omega
          subst this
          rw [hvx] at g2
          injection g2 with g2
          exact hx32 g2
        rw [slice_in hv (by omega)]
        simp only [Eff.ret_bind, List.length_singleton]
        obtain ⟨it', ps, h4, h5, h6, -⟩ := ih (j + r + 1) (acc ++ [(v.drop j).take r]) (by omega) (by omega) (by simp; omega)
        have hmid : v.drop j = (v.drop j).take r ++ v[j + r] :: v.drop (j + r + 1) := by
          conv => lhs; rw [← List.take_append_drop r (v.drop j), List.drop_drop,
            List.drop_eq_getElem_cons (by omega : j + r < v.length)]
        refine ⟨it', (v.drop j).take r :: ps, by rw [h4]; simp, ?_, fun b w hbw hb hw => ?_, fun h0 w rest hw hne hws => ?_⟩
        · rw [t5, hmid, ← List.append_assoc, List.take_append_of_le_length (by simp; omega), List.take_take, Nat.min_self]
          refine .cons t3 ?_ ?_ h5
          · rw [hx]
            cases r with
            | zero => exact absurd rfl hr0
            | succ r => simp
          · rw [hx]
            cases r with
            | zero => exact absurd rfl hr0
            | succ r => simpa using hx32
        · -- the space found lies in `w`
          exfalso
          have e1 : v[r]? = (v.drop it)[r - it]? := by
            rw [List.getElem?_drop]
            congr 1
            omega
          have hbl : b.length ≤ j - it := by
            rcases Nat.lt_or_ge (j - it) b.length with hlt | hge
            · exfalso
              have : (v.drop it)[j - it]? = some x := by
                rw [List.getElem?_drop, show it + (j - it) = j by omega]
                exact hvx
              rw [hbw, List.getElem?_append_left hlt] at this
              exact hx32 (hb x (List.mem_of_getElem? this))
            · exact hge
          rw [g2, hbw, List.getElem?_append_right (by omega)] at e1
          exact hw 32 (List.mem_of_getElem? e1.symm) rfl
        · subst h0
          have hj0 : j = 0 := by
            rcases Nat.eq_zero_or_pos j with h | h
            · exact h
            · exfalso
              cases w with
              | nil => exact hne rfl
              | cons y w =>
                refine hws y (by simp) (t3 y ?_)
                rw [hw]
                cases j with
                | zero => omega
                | succ j => simp
          subst hj0
          have hwl : r = w.length := by
            refine Nat.le_antisymm (h2.2 _ (seen_space.mpr ⟨by omega, by rw [hw]; simp, by rw [hw]; simp⟩)) ?_
            rcases Nat.lt_or_ge r w.length with hlt | hge
            · exfalso
              rw [hw, List.getElem?_append_left hlt] at g2
              exact hws 32 (List.mem_of_getElem? g2) rfl
            · exact hge
          subst hwl
          refine ⟨ps, ?_, fun b w' hr hb hw' => h6 b w' ?_ hb hw'⟩
          · conv => lhs; rw [List.drop_zero, hw]
            simp
          · rw [← hr]
            conv => lhs; rw [hw]
            simp
      · subst h3
        rw [if_pos rfl, slice_in hv (by omega)]
        simp only [Eff.ret_bind, List.length_singleton]
        have htake : (v.drop j).take (v.length - j) = v.drop j := List.take_of_length_le (by simp)
        rw [htake]
        refine ⟨j + (v.length - j) + 1, [v.drop j], ?_, ?_, fun b w hbw hb hw => ?_, fun h0 w rest hw hne hws => ?_⟩
        · cases fuel with
          | zero => omega
          | succ fuel =>
            unfold splitLoop
            rw [if_neg (by unfold npos; simp; omega)]
            have ht := (trimIt_spec v (j + (v.length - j) + 1)).1
            simp only []
            rw [if_pos (by omega)]
            have ht2 := (trimIt_spec v (j + (v.length - j) + 1)).2.1
            rw [show trimIt v [32] (j + (v.length - j) + 1) = j + (v.length - j) + 1 by omega]
        · rw [t5]
          exact .last t3 (by rw [hx]; simp) t4
        · cases w with
          | nil =>
            exfalso
            refine hx32 (hb x ?_)
            rw [List.append_nil] at hbw
            rw [← hbw, t5, hx]
            simp
          | cons y w =>
            rw [if_neg (by simp)]
            rw [t5] at hbw
            obtain ⟨e1, e2⟩ : v.drop j = y :: w ∧ ([] : Bytes) = [] := by
              have hn : ∀ (b b' : Bytes) (p p' : Bytes), (∀ c ∈ b, c = 32) → (∀ c ∈ b', c = 32) → p.head? ≠ some 32 → p'.head? ≠ some 32 →
                  b ++ p = b' ++ p' → p = p' := by
                intro b
                induction b with
                | nil =>
                  intro b' p p' _ hb' hp _ he
                  cases b' with
                  | nil => exact he
                  | cons c b' =>
                    rw [List.nil_append] at he
                    rw [he, List.cons_append, List.head?_cons, hb' c (by simp)] at hp
                    exact absurd rfl hp
                | cons c b ih =>
                  intro b' p p' hb hb' hp hp' he
                  cases b' with
                  | nil =>
                    rw [List.nil_append] at he
                    rw [← he, List.cons_append, List.head?_cons, hb c (by simp)] at hp'
                    exact absurd rfl hp'
                  | cons c' b' =>
                    exact ih b' p p' (fun z hz => hb z (by simp [hz])) (fun z hz => hb' z (by simp [hz])) hp hp' (List.cons.inj he).2
              refine ⟨hn _ _ _ _ t3 hb t4 ?_ hbw, rfl⟩
              rw [List.head?_cons]
              intro h
              injection h with h
              exact hw y (by simp) h
            rw [e1]
        · exfalso
          subst h0
          have hj0 : j = 0 := by
            rcases Nat.eq_zero_or_pos j with h | h
            · exact h
            · exfalso
              cases w with
              | nil => exact hne rfl
              | cons y w =>
                refine hws y (by simp) (t3 y ?_)
                rw [hw]
                cases j with
                | zero => omega
                | succ j => simp
          subst hj0
          exact h2 w.length (seen_space.mpr ⟨by omega, by rw [hw]; simp, by rw [hw]; simp⟩)

/-- `split(' ')` without `memmem`: it terminates, is defined, and gives pieces that are not empty and do not begin with a space; the first is
the first word if the string does not begin with a space.  They may contain spaces and end in them (`c29_refuted_memmem`, `c29_refuted_tail`),
and characters get lost between them (`c29_refuted_lost`). -/
theorem c29_fallback : ∀ fuel, v.length < fuel → ∃ ps, split L fuel v [32] npos = .ret ps ∧ Scraps 32 v ps ∧
    ∀ w rest, v = w ++ 32 :: rest → w ≠ [] → (∀ c ∈ w, c ≠ 32) → ps.head? = some w := by
  intro fuel hf
  unfold split
  by_cases h0 : v.length = 0
  · rw [if_pos h0, List.length_eq_zero_iff.mp h0]
    exact ⟨[], rfl, .nil (by simp), fun w rest h => by simp at h⟩
  rw [if_neg h0, if_neg (by decide), cap_npos]
  obtain ⟨it', ps, h1, h2, -, h4⟩ := splitLoop_scraps hL hm hv fuel 0 [] (Nat.zero_le _) (by omega) (Nat.le_refl _)
  rw [h1]
  simp only [Eff.ret_bind, List.nil_append]
  rw [if_neg (by simp)]
  refine ⟨ps, rfl, h2, fun w rest hw hne hws => ?_⟩
  obtain ⟨qs, hq, -⟩ := h4 rfl w rest hw hne hws
  rw [hq]
  rfl

/-- One word, with spaces before it only, and two words with spaces only between them or behind the first, are found as they should. -/
theorem c29_fallback_few {ws : List Bytes} (hws : Words 32 v ws)
    (hfew : (∃ b w, v = b ++ w ∧ (∀ c ∈ b, c = 32) ∧ ∀ c ∈ w, c ≠ 32) ∨
      ∃ w b w', v = w ++ b ++ w' ∧ w ≠ [] ∧ (∀ c ∈ w, c ≠ 32) ∧ (∀ c ∈ b, c = 32) ∧ ∀ c ∈ w', c ≠ 32) :
    ∀ fuel, v.length < fuel → split L fuel v [32] npos = .ret ws := by
  intro fuel hf
  unfold split
  by_cases h0 : v.length = 0
  · rw [if_pos h0]
    rw [List.length_eq_zero_iff.mp h0] at hws
    rw [c29_words_unique hws (.nil (by simp))]
  rw [if_neg h0, if_neg (by decide), cap_npos]
  obtain ⟨it', ps, h1, -, h3, h4⟩ := splitLoop_scraps hL hm hv fuel 0 [] (Nat.zero_le _) (by omega) (Nat.le_refl _)
  rw [h1]
  simp only [Eff.ret_bind, List.nil_append]
  rw [if_neg (by simp)]
  show Eff.ret ps = _
  congr 1
  rw [List.drop_zero] at h3
  refine c29_words_unique ?_ hws
  have one : ∀ b w : Bytes, (∀ c ∈ b, c = 32) → (∀ c ∈ w, c ≠ 32) → Words 32 (b ++ w) (if w = [] then [] else [w]) := by
    intro b w hb hw
    by_cases hn : w = []
    · rw [if_pos hn, hn, List.append_nil]; exact .nil hb
    · rw [if_neg hn, ← List.append_nil (b ++ w)]
      exact .cons hb hn hw (Or.inl rfl) (.nil (by simp))
  rcases hfew with ⟨b, w, hbw, hb, hw⟩ | ⟨w, b, w', hbw, hne, hw, hb, hw'⟩
  · rw [h3 b w hbw hb hw, hbw]
    exact one b w hb hw
  · cases b with
    | nil =>
      rw [List.append_nil] at hbw
      have hall : ∀ c ∈ w ++ w', c ≠ 32 := fun c hc => (List.mem_append.mp hc).elim (hw c) (hw' c)
      rw [h3 [] (w ++ w') hbw (by simp) hall, hbw]
      exact one [] (w ++ w') (by simp) hall
    | cons x b =>
      obtain rfl : x = 32 := hb x (by simp)
      obtain ⟨qs, hq, hqs⟩ := h4 rfl w (b ++ w') (by rw [hbw]; simp) hne hw
      rw [hq, hqs b w' rfl (fun c hc => hb c (by simp [hc])) hw', hbw]
      have := Words.cons (sp := 32) (blank := []) (w := w) (rest := 32 :: b ++ w') (by simp) hne hw (Or.inr rfl) (one (32 :: b) w' hb hw')
      simpa using this

end

/-- Without `memmem`, `String("ab cd ").split(' ')` is `{"ab", "cd "}`. -/
theorem c29_refuted_tail : split noMemmem 9 [97, 98, 32, 99, 100, 32] [32] npos = .ret [[97, 98], [99, 100, 32]] := by decide

/-- Without `memmem`, `String(" a bcd").split(' ')` is `{"a ", "cd"}`: the `b` is lost, and the first word is wrong. -/
theorem c29_refuted_lost : split noMemmem 9 [32, 97, 32, 98, 99, 100] [32] npos = .ret [[97, 32], [99, 100]] := by decide

example : Scraps 32 [32, 97, 32, 98, 99, 100] [[97, 32], [99, 100]] :=
  .cons (blank := [32]) (p := [97, 32]) (c := 98) (by simp) (by simp) (by decide) (.last (blank := []) (by simp) (by simp) (by decide))
example : split noMemmem 9 [97, 98, 32, 32, 99] [32] npos = .ret [[97, 98], [99]] := by decide
example : ∃ w b w' : Bytes, [97, 98, 32, 32, 99] = w ++ b ++ w' ∧ w ≠ [] ∧ (∀ c ∈ w, c ≠ 32) ∧ (∀ c ∈ b, c = 32) ∧ ∀ c ∈ w', c ≠ 32 :=
  ⟨[97, 98], [32, 32], [99], rfl, by simp, by decide, by decide, by decide⟩

end Bdlib.Str
