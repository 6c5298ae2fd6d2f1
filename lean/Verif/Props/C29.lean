import Verif.Props.C28

/-!
# C29: `split` on a space returns the words
-/

namespace Bdlib.Str
open Bdlib Bdlib.Spec

/-- `split(' ')` returns the maximal runs of non-space characters in order.

Partial: needs `memmem` (`c29_refuted_memmem`) and fewer than 2^31 characters. -/
theorem c29_words_partial {L : Libc} (hL : L.Ok) (hm : L.memmem = true) {v : Bytes} (hv : v.length ≤ maxInt) :
    ∀ fuel, v.length < fuel → ∃ ws, split L fuel v [32] npos = .ret ws ∧ Words 32 v ws := by
  intro fuel hf
  have hmx : v.length ≤ 2147483647 := hv
  unfold split
  by_cases h0 : v.length = 0
  · rw [if_pos h0, List.length_eq_zero_iff.mp h0]
    exact ⟨[], rfl, .nil (by simp)⟩
  rw [if_neg h0, if_neg (by decide), cap_npos]
  obtain ⟨it', ws, h1, h2⟩ := splitLoop_words hL hm hv (cap := npos - 1) (by unfold npos; omega) fuel 0 [] (by omega)
    (by omega) (by simp)
  rw [h1]
  simp only [Eff.ret_bind, List.nil_append]
  rw [if_neg (by simp)]
  exact ⟨ws, rfl, h2⟩

/-- `split(' ', k)` exactly, for every `k` other than 1 and "no limit": the first `k - 1` words and, as the last
piece, what follows them without the spaces in front.  `k = 0` counts as 2^64.

Partial: needs `memmem` and fewer than 2^31 characters. -/
theorem c29_words_at_most_partial {L : Libc} (hL : L.Ok) (hm : L.memmem = true) {v : Bytes} (hv : v.length ≤ maxInt)
    (h0 : v ≠ []) {k : Nat} (hk1 : k ≠ 1) (hkn : k < npos) : ∀ fuel, v.length < fuel →
    ∃ ws, split L fuel v [32] k = .ret ws ∧ WordsAtMost 32 (if k = 0 then npos else k - 1) v ws := by
  intro fuel hf
  have hmx : v.length ≤ 2147483647 := hv
  unfold split
  have hl0 : v.length ≠ 0 := fun h => h0 (List.length_eq_zero_iff.mp h)
  rw [if_neg hl0, if_neg hk1]
  have hsub : sub64 k 1 = if k = 0 then npos else k - 1 := by
    unfold sub64 two64 npos
    by_cases h : k = 0
    · subst h; rfl
    · rw [if_pos (by omega), if_neg h]
  rw [← hsub]
  obtain ⟨it', ws, h1, h2⟩ := splitLoop_wordsAtMost hL hm hv (cap := sub64 k 1) fuel 0 [] (by omega) (by omega)
  rw [h1]
  simp only [Eff.ret_bind, List.nil_append]
  rw [if_pos (by omega), slice_rest hv]
  exact ⟨_, rfl, h2⟩

/-- The first word and what follows it. -/
theorem word_eq {α : Type} {sp : α} : ∀ (b b' w w' r r' : List α), (∀ c ∈ b, c = sp) → (∀ c ∈ b', c = sp) → w ≠ [] → w' ≠ [] →
    (∀ c ∈ w, c ≠ sp) → (∀ c ∈ w', c ≠ sp) → (r = [] ∨ r.head? = some sp) → (r' = [] ∨ r'.head? = some sp) →
    b ++ w ++ r = b' ++ w' ++ r' → w = w' ∧ r = r' := by
  intro b
  induction b with
  | nil =>
    intro b' w w' r r' _ hb' hw hw' hws hws' hr hr' he
    have hb0 : b' = [] := by
      cases b' with
      | nil => rfl
      | cons c b' =>
        cases w with
        | nil => exact absurd rfl hw
        | cons x w =>
          simp only [List.nil_append, List.cons_append] at he
          have h1 := (List.cons.inj he).1
          exact absurd (h1.trans (hb' c (by simp))) (hws x (by simp))
    subst hb0
    simp only [List.nil_append] at he
    clear hw hw' hb'
    induction w generalizing w' with
    | nil =>
      cases w' with
      | nil => exact ⟨rfl, he⟩
      | cons y w' =>
        simp only [List.nil_append, List.cons_append] at he
        rcases hr with rfl | hr
        · cases he
        · rw [he] at hr; simp at hr; exact absurd hr (hws' y (by simp))
    | cons x w ih =>
      cases w' with
      | nil =>
        simp only [List.nil_append, List.cons_append] at he
        rcases hr' with rfl | hr'
        · cases he
        · rw [← he] at hr'; simp at hr'; exact absurd hr' (hws x (by simp))
      | cons y w' =>
        simp only [List.cons_append] at he
        obtain ⟨h1, h2⟩ := List.cons.inj he
        obtain ⟨h3, h4⟩ := ih w' (fun c hc => hws c (by simp [hc])) (fun c hc => hws' c (by simp [hc])) h2
        exact ⟨by rw [h1, h3], h4⟩
  | cons c b ih =>
    intro b' w w' r r' hb hb' hw hw' hws hws' hr hr' he
    cases b' with
    | nil =>
      cases w' with
      | nil => exact absurd rfl hw'
      | cons y w' =>
        simp only [List.nil_append, List.cons_append] at he
        have h1 := (List.cons.inj he).1
        exact absurd (h1.symm.trans (hb c (by simp))) (hws' y (by simp))
    | cons c' b' =>
      simp only [List.cons_append] at he
      exact ih b' w w' r r' (fun x hx => hb x (by simp [hx])) (fun x hx => hb' x (by simp [hx])) hw hw' hws hws' hr hr'
        (List.cons.inj he).2

/-- The words are determined by the string. -/
theorem c29_words_unique {α : Type} {sp : α} {v : List α} {ws : List (List α)} (h : Words sp v ws) :
    ∀ {ws'}, Words sp v ws' → ws = ws' := by
  induction h with
  | nil hall =>
    intro ws' h'
    cases h' with
    | nil _ => rfl
    | @cons b w r ws hb hw hws hr h =>
      exfalso
      cases w with
      | nil => exact hw rfl
      | cons x w => exact hws x (by simp) (hall x (by simp))
  | @cons b w r ws hb hw hws hr h ih =>
    intro ws' h'
    generalize hv : b ++ w ++ r = v at h'
    cases h' with
    | nil hall =>
      exfalso
      cases w with
      | nil => exact hw rfl
      | cons x w => exact hws x (by simp) (hall x (by rw [← hv]; simp))
    | @cons b' w' r' ws' hb' hw' hws' hr' h' =>
      obtain ⟨h1, h2⟩ := word_eq b b' w w' r r' hb hb' hw hw' hws hws' hr hr' hv
      subst h1 h2
      rw [ih h']

/-- The same with a limit. -/
theorem c29_words_at_most_unique {α : Type} {sp : α} {v : List α} {n : Nat} {ws : List (List α)} (h : WordsAtMost sp n v ws) :
    ∀ {ws'}, WordsAtMost sp n v ws' → ws = ws' := by
  have blanks : ∀ {b b' v v' : List α}, (∀ c ∈ b, c = sp) → (∀ c ∈ b', c = sp) → v.head? ≠ some sp → v'.head? ≠ some sp →
      b ++ v = b' ++ v' → v = v' := by
    intro b
    induction b with
    | nil =>
      intro b' v v' _ hb' hv _ he
      cases b' with
      | nil => exact he
      | cons c b' =>
        rw [List.nil_append] at he
        rw [he, List.cons_append, List.head?_cons, hb' c (by simp)] at hv
        exact absurd rfl hv
    | cons c b ih =>
      intro b' v v' hb hb' hv hv' he
      cases b' with
      | nil =>
        rw [List.nil_append] at he
        rw [← he, List.cons_append, List.head?_cons, hb c (by simp)] at hv'
        exact absurd rfl hv'
      | cons c' b' =>
        exact ih (fun x hx => hb x (by simp [hx])) (fun x hx => hb' x (by simp [hx])) hv hv' (List.cons.inj he).2
  induction h with
  | @enough b v hb hv =>
    intro ws' h'
    generalize hx : b ++ v = x at h'
    generalize hz : 0 = z at h'
    cases h' with
    | enough hb' hv' => rw [blanks hb hb' hv hv' hx]
    | empty hall =>
      have : v = [] := by
        cases v with
        | nil => rfl
        | cons c v =>
          rw [List.head?_cons, hall c (by rw [← hx]; simp)] at hv
          exact absurd rfl hv
      rw [this]
    | cons => cases hz
  | @empty n v hall =>
    intro ws' h'
    cases h' with
    | enough hb hv =>
      rename_i v
      cases v with
      | nil => rfl
      | cons c v =>
        rw [List.head?_cons, hall c (by simp)] at hv
        exact absurd rfl hv
    | empty => rfl
    | @cons _ b w r ws hb hw hws hr h =>
      exfalso
      cases w with
      | nil => exact hw rfl
      | cons x w => exact hws x (by simp) (hall x (by simp))
  | @cons n b w r ws hb hw hws hr h ih =>
    intro ws' h'
    generalize hv : b ++ w ++ r = v at h'
    generalize hz : n + 1 = z at h'
    cases h' with
    | enough => cases hz
    | empty hall =>
      exfalso
      cases w with
      | nil => exact hw rfl
      | cons x w => exact hws x (by simp) (hall x (by rw [← hv]; simp))
    | @cons n' b' w' r' ws' hb' hw' hws' hr' h' =>
      cases hz
      obtain ⟨h1, h2⟩ := word_eq b b' w w' r r' hb hb' hw hw' hws hws' hr hr' hv
      subst h1 h2
      rw [ih h']

/-- No word is empty or contains a space. -/
theorem c29_words_nonempty {α : Type} {sp : α} {v : List α} {ws : List (List α)} (h : Words sp v ws) :
    ∀ w ∈ ws, w ≠ [] ∧ ∀ c ∈ w, c ≠ sp := by
  induction h with
  | nil => simp
  | cons _ hw hws _ _ ih =>
    intro w' h'
    rcases List.mem_cons.mp h' with rfl | h'
    · exact ⟨hw, hws⟩
    · exact ih w' h'

/-- Without `memmem`, `String("a b c").split(' ')` is `{"a", "b c"}`. -/
theorem c29_refuted_memmem : split noMemmem 9 [97, 32, 98, 32, 99] [32] npos = .ret [[97], [98, 32, 99]] := by decide

example : split glibc 9 [32, 97, 32, 32, 98, 99, 32] [32] npos = .ret [[97], [98, 99]] := by decide
example : split glibc 9 [32, 97, 32, 32, 98, 99, 32] [32] 2 = .ret [[97], [98, 99, 32]] := by decide
example : Words 32 [32, 97, 32, 32, 98, 99, 32] [[97], [98, 99]] :=
  .cons (blank := [32]) (w := [97]) (rest := [32, 32, 98, 99, 32]) (by simp) (by simp) (by simp) (Or.inr rfl)
    (.cons (blank := [32, 32]) (w := [98, 99]) (rest := [32]) (by simp) (by simp) (by simp) (Or.inr rfl)
      (.nil (by simp)))

end Bdlib.Str
