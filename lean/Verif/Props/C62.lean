import Verif.Tcl.Script
import Verif.Spec.TclWords
import Verif.Props.C35
import Verif.Props.C36

/-!
# C62: script callbacks receive their parameters intact

`ScriptCallbackerTCL::call` puts every parameter between double quotes, without escaping anything, and lets the
interpreter split the text.  So the property fails for parameters with a `"`, `$`, `[` or `\` (`c62_refuted_*`),
for which the script may even run commands found in a parameter; it fails for parameters with a NUL, and for
texts of 4096 or more characters.  Proved: for all other parameters it holds.
-/

namespace Bdlib.Tcl
open Bdlib Bdlib.Str

/-- Characters Tcl takes as they are between double quotes; and no NUL. -/
def Safe (p : Bytes) : Prop := ∀ c ∈ p, c ≠ 0 ∧ c ≠ 34 ∧ c ≠ 36 ∧ c ≠ 91 ∧ c ≠ 92

theorem split_quoted : ∀ (p : Bytes) (w : List Spec.Tok) (r : Bytes), Safe p →
    Spec.split (.quoted w) (p ++ 34 :: r) = Spec.split (.closed (w ++ Spec.literal p)) r
  | [], w, r, _ => by
    rw [List.nil_append, Spec.split.eq_def]
    simp [Spec.literal]
  | c :: p, w, r, h => by
    obtain ⟨-, h1, h2, h3, h4⟩ := h c List.mem_cons_self
    rw [List.cons_append, Spec.split.eq_def]
    dsimp only
    rw [if_neg h1, if_neg h4, split_quoted p _ r fun c hc => h c (List.mem_cons_of_mem _ hc)]
    have : Spec.tok c = .ch c := by
      unfold Spec.tok
      rw [if_neg (by simp [h2, h3, h4])]
    rw [this]
    simp [Spec.literal]

/-- Parameters between quotes, separated by spaces, are the words. -/
theorem split_params : ∀ (ps : List Bytes), (∀ p ∈ ps, Safe p) →
    Spec.split .gap ((ps.map fun p => 34 :: p ++ [34]).intersperse [32]).flatten = some (ps.map Spec.literal)
  | [], _ => by simp [Spec.split]
  | [p], h => by
    have := split_quoted p [] [] (h p List.mem_cons_self)
    have e : (List.intersperse [32] (List.map (fun p => 34 :: p ++ [34]) [p])).flatten = (34 : UInt8) :: (p ++ 34 :: []) := by simp
    rw [e, Spec.split.eq_def]
    simp [Spec.isBlank, Spec.isEnd, this]
    simp [Spec.split]
  | p :: q :: ps, h => by
    have ih := split_params (q :: ps) fun x hx => h x (List.mem_cons_of_mem _ hx)
    have := split_quoted p [] (32 :: ((List.map (fun p => 34 :: p ++ [34]) (q :: ps)).intersperse [32]).flatten) (h p List.mem_cons_self)
    have e : (List.intersperse [32] (List.map (fun p => 34 :: p ++ [34]) (p :: q :: ps))).flatten =
        (34 : UInt8) :: (p ++ 34 :: (32 :: ((List.map (fun p => 34 :: p ++ [34]) (q :: ps)).intersperse [32]).flatten)) := by simp
    rw [e, Spec.split.eq_def]
    dsimp only
    rw [if_neg (by decide), if_neg (by decide), if_pos rfl, this, Spec.split.eq_def]
    dsimp only
    rw [if_pos (by decide), ih]
    simp

theorem split_nil (r : Bytes) (pl : Spec.Place) (ws : List (List Spec.Tok)) (h : Spec.split pl [] = some ws) :
    Spec.split pl (32 :: r) = (Spec.split .gap r).map (ws ++ ·) := by
  rw [Spec.split.eq_def] at h
  rw [Spec.split.eq_def]
  have hb : Spec.isBlank 32 = true := by decide
  cases pl with
  | gap => cases h; dsimp only; rw [if_pos hb]; simp
  | bare w => cases h; dsimp only; rw [if_pos hb]; rfl
  | quoted w => cases h
  | closed w => cases h; dsimp only; rw [if_pos hb]; rfl

/-- A command followed by a space and more words. -/
theorem split_append (r : Bytes) : ∀ (n : Nat) (a : Bytes) (pl : Spec.Place) (ws : List (List Spec.Tok)), a.length ≤ n → Spec.split pl a = some ws →
    Spec.split pl (a ++ 32 :: r) = (Spec.split .gap r).map (ws ++ ·) := by
  intro n
  induction n with
  | zero =>
    intro a pl ws hl h
    rw [List.length_eq_zero_iff.mp (by omega : a.length = 0)] at h ⊢
    exact split_nil r pl ws h
  | succ n ih =>
    intro a pl ws hl h
    cases a with
    | nil =>
      exact split_nil r pl ws h
    | cons c a =>
      have hl' : a.length ≤ n := by simp at hl; omega
      rw [Spec.split.eq_def] at h
      rw [List.cons_append, Spec.split.eq_def]
      cases pl with
      | gap =>
        dsimp only at h ⊢
        split at h
        · rw [if_pos ‹_›]; exact ih a _ ws hl' h
        rw [if_neg ‹_›]
        split at h
        · cases h
        rw [if_neg ‹_›]
        split at h
        · rw [if_pos ‹_›]; exact ih a _ ws hl' h
        rw [if_neg ‹_›]
        split at h
        · rw [if_pos ‹_›]
          cases a with
          | nil => cases h
          | cons d a => exact ih a _ ws (by simp at hl'; omega) h
        rw [if_neg ‹_›]
        exact ih a _ ws hl' h
      | bare w =>
        dsimp only at h ⊢
        split at h
        · rw [if_pos ‹_›]
          cases hg : Spec.split .gap a with
          | none => rw [hg] at h; cases h
          | some vs =>
            rw [hg] at h
            cases h
            rw [ih a _ vs hl' hg]
            cases Spec.split .gap r <;> rfl
        rw [if_neg ‹_›]
        split at h
        · cases h
        rw [if_neg ‹_›]
        split at h
        · rw [if_pos ‹_›]
          cases a with
          | nil => cases h
          | cons d a => exact ih a _ ws (by simp at hl'; omega) h
        rw [if_neg ‹_›]
        exact ih a _ ws hl' h
      | quoted w =>
        dsimp only at h ⊢
        split at h
        · rw [if_pos ‹_›]; exact ih a _ ws hl' h
        rw [if_neg ‹_›]
        split at h
        · rw [if_pos ‹_›]
          cases a with
          | nil => cases h
          | cons d a => exact ih a _ ws (by simp at hl'; omega) h
        rw [if_neg ‹_›]
        exact ih a _ ws hl' h
      | closed w =>
        dsimp only at h ⊢
        split at h
        · rw [if_pos ‹_›]
          cases hg : Spec.split .gap a with
          | none => rw [hg] at h; cases h
          | some vs =>
            rw [hg] at h
            cases h
            rw [ih a _ vs hl' hg]
            cases Spec.split .gap r <;> rfl
        · cases h

theorem callScript_words (cmd : Bytes) (params : List Bytes) (ws : List (List Spec.Tok)) (hz : 0 ∉ cmd)
    (hc : Spec.words cmd = some ws) (hp : ∀ p ∈ params, Safe p)
    (hlen : cmd.length + 1 + (params.map fun p => p.length + 3).sum < 4096) :
    ∃ script, callScript cmd params = .ret script ∧ Spec.words script = some (ws ++ params.map Spec.literal) ∧ script.length < 4096 := by
  have hsum : params.length * [(32 : UInt8)].length + params.length * 2 + (params.map List.length).sum = (params.map fun p => p.length + 3).sum := by
    clear hp hlen
    induction params with
    | nil => rfl
    | cons p ps ih => simp only [List.length_cons, List.map_cons, List.sum_cons, List.length_nil] at ih ⊢; omega
  have hj := c35_join_partial params [32] true (by
    have : 4096 < Rca.maxCells := by decide
    omega) (.inr (.inr (.inl rfl)))
  have hq : params.map (shown true) = params.map fun p => 34 :: p ++ [34] := by
    congr 1
  rw [hq] at hj
  have hflat : ([32] : Bytes).intercalate (params.map fun p => 34 :: p ++ [34]) = ((params.map fun p => 34 :: p ++ [34]).intersperse [32]).flatten := rfl
  have hjl : (([32] : Bytes).intercalate (params.map fun p => 34 :: p ++ [34])).length ≤ (params.map fun p => p.length + 3).sum := by
    clear hp hlen hsum hj hq hflat
    cases params with
    | nil => simp [List.intercalate]
    | cons p ps =>
      rw [List.map_cons, intercalate_cons]
      have : ((ps.map fun p => (34 :: p ++ [34] : Bytes)).map fun y => ([32] : Bytes) ++ y).flatten.length = (ps.map fun p => p.length + 3).sum := by
        induction ps with
        | nil => rfl
        | cons q qs ih => simp only [List.map_cons, List.flatten_cons, List.length_append, List.sum_cons, ih, List.length_cons, List.length_nil]; omega
      rw [List.length_append, this]
      simp
  have hjz : 0 ∉ ([32] : Bytes).intercalate (params.map fun p => 34 :: p ++ [34]) := by
    rw [hflat]
    clear hlen hsum hj hq hflat hjl
    induction params with
    | nil => simp
    | cons p ps ih =>
      have ih := ih fun x hx => hp x (List.mem_cons_of_mem _ hx)
      have h0 : (0 : UInt8) ∉ p := fun hm => (hp p List.mem_cons_self 0 hm).1 rfl
      cases ps with
      | nil => simp [h0]
      | cons q qs =>
        simp only [List.map_cons, List.intersperse, List.flatten_cons, List.mem_append, not_or] at ih ⊢
        refine ⟨by simp [h0], by simp, ih⟩
  refine ⟨cmd ++ 32 :: ([32] : Bytes).intercalate (params.map fun p => 34 :: p ++ [34]), ?_, ?_, ?_⟩
  · unfold callScript
    rw [hj]
    simp only [Eff.ret_bind]
    rw [cstr_self hz, cstr_self hjz, c36_printf_partial _ (by
      simp only [List.length_append, List.length_cons, List.length_nil]
      omega)]
    simp
  · have h1 := split_append (([32] : Bytes).intercalate (params.map fun p => 34 :: p ++ [34])) cmd.length cmd .gap ws (Nat.le_refl _) hc
    rw [hflat, split_params params hp] at h1
    exact h1
  · simp only [List.length_append, List.length_cons]
    omega

/-- For parameters without special characters, and not too long: the command the script interpreter executes
has the words of the command, then exactly the parameters. -/
theorem c62_call_partial (cmd : Bytes) (params : List Bytes) (ws : List (List Spec.Tok)) (hz : 0 ∉ cmd)
    (hc : Spec.words cmd = some ws) (hp : ∀ p ∈ params, Safe p)
    (hlen : cmd.length + 1 + (params.map fun p => p.length + 3).sum < 4096) :
    ∃ script, callScript cmd params = .ret script ∧ Spec.words script = some (ws ++ params.map Spec.literal) := by
  obtain ⟨script, h1, h2, _⟩ := callScript_words cmd params ws hz hc hp hlen
  exact ⟨script, h1, h2⟩

/-- `foo` called with `a b` and `;}`. -/
example := c62_call_partial [102, 111, 111] [[97, 32, 98], [59, 125]] [Spec.literal [102, 111, 111]] (by decide) (by decide)
  (by unfold Safe; decide) (by decide)
example : callScript [102, 111, 111] [[97, 32, 98], [59, 125]] = .ret "foo \"a b\" \";}\"".toUTF8.data.toList := by decide +kernel

/-! ## Exactly which parameters arrive -/

/-- Words go on with the characters they have. -/
theorem split_quoted_prefix : ∀ (n : Nat) (x : Bytes) (w : List Spec.Tok) (l : List (List Spec.Tok)), x.length ≤ n →
    Spec.split (.quoted w) x = some l → ∃ v l', l = v :: l' ∧ w <+: v := by
  intro n
  induction n with
  | zero =>
    intro x w l hl h
    rw [List.length_eq_zero_iff.mp (by omega : x.length = 0)] at h
    simp [Spec.split] at h
  | succ n ih =>
    intro x w l hl h
    cases x with
    | nil => simp [Spec.split] at h
    | cons c x =>
      have hl' : x.length ≤ n := by simp at hl; omega
      rw [Spec.split.eq_def] at h
      dsimp only at h
      split at h
      · rw [Spec.split.eq_def] at h
        cases x with
        | nil => dsimp only at h; cases h; exact ⟨w, [], rfl, List.prefix_rfl⟩
        | cons d x =>
          dsimp only at h
          split at h
          · cases hg : Spec.split .gap x with
            | none => rw [hg] at h; cases h
            | some vs => rw [hg] at h; cases h; exact ⟨w, vs, rfl, List.prefix_rfl⟩
          · cases h
      · split at h
        · cases x with
          | nil => cases h
          | cons d x =>
            obtain ⟨v, l', e, hp⟩ := ih x _ l (by simp at hl'; omega) h
            exact ⟨v, l', e, (List.prefix_append _ _).trans hp⟩
        · obtain ⟨v, l', e, hp⟩ := ih x _ l hl' h
          exact ⟨v, l', e, (List.prefix_append _ _).trans hp⟩

/-- Safe characters of a quoted word. -/
theorem split_quoted_safe : ∀ (a : Bytes) (w : List Spec.Tok) (x : Bytes), Safe a →
    Spec.split (.quoted w) (a ++ x) = Spec.split (.quoted (w ++ Spec.literal a)) x
  | [], w, x, _ => by simp [Spec.literal]
  | c :: a, w, x, h => by
    obtain ⟨-, h1, h2, h3, h4⟩ := h c List.mem_cons_self
    rw [List.cons_append, Spec.split.eq_def]
    dsimp only
    rw [if_neg h1, if_neg h4, split_quoted_safe a _ x fun c hc => h c (List.mem_cons_of_mem _ hc)]
    have : Spec.tok c = .ch c := by
      unfold Spec.tok
      rw [if_neg (by simp [h2, h3, h4])]
    rw [this]
    simp [Spec.literal]

/-- What is not safe has a first special character. -/
theorem unsafe_first : ∀ {p : Bytes}, ¬ Safe p → ∃ a c b, p = a ++ c :: b ∧ Safe a ∧ (c = 0 ∨ c = 34 ∨ c = 36 ∨ c = 91 ∨ c = 92)
  | [], h => absurd (fun _ hc => by cases hc) h
  | c :: p, h => by
    by_cases hc : c = 0 ∨ c = 34 ∨ c = 36 ∨ c = 91 ∨ c = 92
    · exact ⟨[], c, p, rfl, (fun _ hx => by cases hx), hc⟩
    · have hp : ¬ Safe p := fun hp => h fun x hx => by
        rcases List.mem_cons.1 hx with rfl | hx
        · simp only [not_or] at hc; exact hc
        · exact hp x hx
      obtain ⟨a, d, b, e, ha, hd⟩ := unsafe_first hp
      refine ⟨c :: a, d, b, by rw [e]; rfl, fun x hx => ?_, hd⟩
      rcases List.mem_cons.1 hx with rfl | hx
      · simp only [not_or] at hc; exact hc
      · exact ha x hx

/-- A quoted text with a special character (or one cut off at a NUL) is not that text as a word. -/
theorem split_quoted_unsafe {a b r : Bytes} {c : UInt8} {l : List (List Spec.Tok)} (ha : Safe a) (hc : c = 34 ∨ c = 36 ∨ c = 91 ∨ c = 92)
    (h : Spec.split (.quoted []) (a ++ c :: r) = some (Spec.literal (a ++ c :: b) :: l)) : False := by
  rw [split_quoted_safe a [] _ ha, List.nil_append, Spec.split.eq_def] at h
  dsimp only at h
  have hno : ∀ {x : Bytes} {t : UInt8}, Spec.split (.quoted (Spec.literal a ++ [.subst t])) x = some (Spec.literal (a ++ c :: b) :: l) → False := by
    intro x t hx
    obtain ⟨v, l', e, hp⟩ := split_quoted_prefix _ x _ _ (Nat.le_refl _) hx
    cases e
    obtain ⟨q, hq⟩ := hp
    unfold Spec.literal at hq
    have : Spec.Tok.subst t ∈ (a ++ c :: b).map Spec.Tok.ch := by rw [← hq]; simp
    obtain ⟨_, _, e⟩ := List.mem_map.1 this
    cases e
  by_cases h34 : c = 34
  · rw [if_pos h34, Spec.split.eq_def] at h
    have hlen : Spec.literal a ≠ Spec.literal (a ++ c :: b) := fun e => by
      have := congrArg List.length e
      simp [Spec.literal] at this
    cases r with
    | nil => dsimp only at h; injection h with h; injection h with h; exact hlen h
    | cons d r =>
      dsimp only at h
      split at h
      · cases hg : Spec.split .gap r with
        | none => rw [hg] at h; cases h
        | some vs => rw [hg] at h; injection h with h; injection h with h; exact hlen h
      · cases h
  · rw [if_neg h34] at h
    split at h
    · cases r with
      | nil => cases h
      | cons d r => exact hno h
    · have : Spec.tok c = .subst c := by
        unfold Spec.tok
        rw [if_pos (hc.resolve_left h34)]
      rw [this] at h
      exact hno h

theorem split_quoted_end {a : Bytes} (ha : Safe a) : Spec.split (.quoted []) a = none := by
  have := split_quoted_safe a [] [] ha
  rw [List.append_nil] at this
  rw [this]
  simp [Spec.split]

theorem cstr_cut {u w : Bytes} (hu : 0 ∉ u) : cstr (u ++ 0 :: w) = u := by
  unfold cstr
  rw [List.takeWhile_append_of_pos (fun x hx => by simp only [ne_eq, decide_eq_true_eq]; rintro rfl; exact hu hx)]
  simp

theorem cstr_append {u w : Bytes} (hu : 0 ∉ u) : cstr (u ++ w) = u ++ cstr w := by
  unfold cstr
  rw [List.takeWhile_append_of_pos (fun x hx => by simp only [ne_eq, decide_eq_true_eq]; rintro rfl; exact hu hx)]

/-- The text of quoted parameters, cut off at a NUL, has the parameters as words only if all of them are safe. -/
theorem split_params_only : ∀ (ps : List Bytes),
    Spec.split .gap (cstr ((ps.map fun p => 34 :: p ++ [34]).intersperse [32]).flatten) = some (ps.map Spec.literal) → ∀ p ∈ ps, Safe p
  | [], _ => nofun
  | p :: ps, h => by
    have hcase : ∃ r, ((((p :: ps).map fun p => 34 :: p ++ [34]).intersperse [32]).flatten : Bytes) = [34] ++ (p ++ 34 :: r) ∧
        ((ps = [] ∧ r = []) ∨ r = 32 :: ((ps.map fun p => 34 :: p ++ [34]).intersperse [32]).flatten) := by
      cases ps with
      | nil => exact ⟨[], by simp, .inl ⟨rfl, rfl⟩⟩
      | cons q ps => exact ⟨_, by simp, .inr rfl⟩
    obtain ⟨r, hr, hr'⟩ := hcase
    have hq : ∀ x, Spec.split .gap ([34] ++ x) = Spec.split (.quoted []) x := by
      intro x
      show Spec.split .gap (34 :: x) = _
      rw [Spec.split.eq_def]
      dsimp only
      rw [if_neg (by decide), if_neg (by decide), if_pos rfl]
    rw [hr, cstr_append (by decide), hq] at h
    by_cases hp : Safe p
    · have hp0 : 0 ∉ p := fun hm => (hp 0 hm).1 rfl
      intro x hx
      rcases List.mem_cons.1 hx with rfl | hx
      · exact hp
      · rcases hr' with ⟨rfl, -⟩ | rfl
        · cases hx
        · refine split_params_only ps ?_ x hx
          rw [show p ++ 34 :: 32 :: ((ps.map fun p => 34 :: p ++ [34]).intersperse [32]).flatten =
              (p ++ [34, 32]) ++ ((ps.map fun p => 34 :: p ++ [34]).intersperse [32]).flatten by simp,
            cstr_append (by intro hm; rcases List.mem_append.1 hm with hm | hm; exact hp0 hm; revert hm; decide),
            show (p ++ [34, 32]) ++ cstr ((ps.map fun p => 34 :: p ++ [34]).intersperse [32]).flatten =
              p ++ 34 :: (32 :: cstr ((ps.map fun p => 34 :: p ++ [34]).intersperse [32]).flatten) by simp,
            split_quoted p [] _ hp, Spec.split.eq_def] at h
          dsimp only at h
          rw [if_pos (by decide)] at h
          cases hg : Spec.split .gap (cstr ((ps.map fun p => 34 :: p ++ [34]).intersperse [32]).flatten) with
          | none => rw [hg] at h; cases h
          | some vs => rw [hg] at h; injection h with h; injection h with _ h; rw [h]
    · exfalso
      obtain ⟨a, c, b, rfl, ha, hc⟩ := unsafe_first hp
      have ha0 : 0 ∉ a := fun hm => (ha 0 hm).1 rfl
      rw [List.append_assoc, List.cons_append, cstr_append ha0] at h
      rcases hc with rfl | hc
      · rw [show cstr (0 :: (b ++ 34 :: r)) = [] by simp [cstr], List.append_nil, split_quoted_end ha] at h
        cases h
      · have hc0 : c ≠ 0 := by rcases hc with rfl | rfl | rfl | rfl <;> decide
        rw [show cstr (c :: (b ++ 34 :: r)) = c :: cstr (b ++ 34 :: r) by simp [cstr, hc0]] at h
        exact split_quoted_unsafe ha hc h

/-- **C62**, exactly, for texts below 4096 characters: the command gets the words of the command and then exactly the parameters if and only if no
parameter has a NUL, `"`, `$`, `[` or `\`. -/
theorem c62_exactly_partial (cmd : Bytes) (params : List Bytes) (ws : List (List Spec.Tok)) (hz : 0 ∉ cmd) (hc : Spec.words cmd = some ws)
    (hlen : cmd.length + 1 + (params.map fun p => p.length + 3).sum < 4096) :
    ∃ script, callScript cmd params = .ret script ∧ (Spec.words script = some (ws ++ params.map Spec.literal) ↔ ∀ p ∈ params, Safe p) := by
  have hsum : params.length * [(32 : UInt8)].length + params.length * 2 + (params.map List.length).sum = (params.map fun p => p.length + 3).sum := by
    clear hlen
    induction params with
    | nil => rfl
    | cons p ps ih => simp only [List.length_cons, List.map_cons, List.sum_cons, List.length_nil] at ih ⊢; omega
  have hj := c35_join_partial params [32] true (by
    have : 4096 < Rca.maxCells := by decide
    omega) (.inr (.inr (.inl rfl)))
  have hq : params.map (shown true) = params.map fun p => 34 :: p ++ [34] := by
    congr 1
  rw [hq] at hj
  have hflat : ([32] : Bytes).intercalate (params.map fun p => 34 :: p ++ [34]) = ((params.map fun p => 34 :: p ++ [34]).intersperse [32]).flatten := rfl
  have hjl : (([32] : Bytes).intercalate (params.map fun p => 34 :: p ++ [34])).length ≤ (params.map fun p => p.length + 3).sum := by
    clear hlen hsum hj hq hflat
    cases params with
    | nil => simp [List.intercalate]
    | cons p ps =>
      rw [List.map_cons, intercalate_cons]
      have : ((ps.map fun p => (34 :: p ++ [34] : Bytes)).map fun y => ([32] : Bytes) ++ y).flatten.length = (ps.map fun p => p.length + 3).sum := by
        induction ps with
        | nil => rfl
        | cons q qs ih => simp only [List.map_cons, List.flatten_cons, List.length_append, List.sum_cons, ih, List.length_cons, List.length_nil]; omega
      rw [List.length_append, this]
      simp
  have hcl : ∀ x : Bytes, (cstr x).length ≤ x.length := fun x => (List.takeWhile_sublist _).length_le
  refine ⟨cmd ++ 32 :: cstr (([32] : Bytes).intercalate (params.map fun p => 34 :: p ++ [34])), ?_, ?_⟩
  · unfold callScript
    rw [hj]
    simp only [Eff.ret_bind]
    rw [cstr_self hz, c36_printf_partial _ (by
      have := hcl (([32] : Bytes).intercalate (params.map fun p => 34 :: p ++ [34]))
      simp only [List.length_append, List.length_cons, List.length_nil]
      omega)]
    simp
  · have h1 := split_append (cstr (([32] : Bytes).intercalate (params.map fun p => 34 :: p ++ [34]))) cmd.length cmd .gap ws (Nat.le_refl _) hc
    unfold Spec.words
    rw [h1, hflat]
    constructor
    · intro h
      cases hg : Spec.split .gap (cstr ((params.map fun p => 34 :: p ++ [34]).intersperse [32]).flatten) with
      | none => rw [hg] at h; cases h
      | some vs =>
        rw [hg] at h
        injection h with h
        have := List.append_cancel_left h
        subst this
        exact split_params_only params hg
    · intro hp
      obtain ⟨script, g1, g2, -⟩ := callScript_words cmd params ws hz hc hp hlen
      unfold callScript at g1
      rw [hj] at g1
      simp only [Eff.ret_bind] at g1
      rw [cstr_self hz, c36_printf_partial _ (by
        have := hcl (([32] : Bytes).intercalate (params.map fun p => 34 :: p ++ [34]))
        simp only [List.length_append, List.length_cons, List.length_nil]
        omega)] at g1
      injection g1 with g1
      rw [← hflat, ← h1, show cmd ++ 32 :: cstr (([32] : Bytes).intercalate (params.map fun p => 34 :: p ++ [34])) = script by rw [← g1]; simp]
      exact g2

/-- `foo` called with `a b` and with `a"`, `$x`. -/
example := c62_exactly_partial [102, 111, 111] [[97, 32, 98], [97, 34], [36, 120]] [Spec.literal [102, 111, 111]] (by decide) (by decide) (by decide)

/-- Refutation: with parameter `a"b` the script is not a command at all. -/
theorem c62_refuted_quote : callScript [102] [[97, 34, 98]] = .ret "f \"a\"b\"".toUTF8.data.toList ∧
    Spec.words "f \"a\"b\"".toUTF8.data.toList = none := by decide +kernel

/-- Refutation: with parameter `" "` (three characters) the command gets two parameters. -/
theorem c62_refuted_words : ∃ script, callScript [102] [[34, 32, 34]] = .ret script ∧
    Spec.words script = some [[.ch 102], [], []] := ⟨[102, 32, 34, 34, 32, 34, 34], by decide +kernel, by decide +kernel⟩

theorem quoted_join : ∀ (w : Bytes) (ws : List Bytes),
    ([32] : Bytes).intercalate ((w :: ws).map (shown true)) = shown true (([34, 32, 34] : Bytes).intercalate (w :: ws))
  | w, [] => by simp [List.intercalate]
  | w, x :: ws => by
    have ih := quoted_join x ws
    have e : ∀ (d a b : Bytes) (l : List Bytes), d.intercalate (a :: b :: l) = a ++ d ++ d.intercalate (b :: l) := by
      intro d a b l
      rw [intercalate_cons, intercalate_cons]
      simp
    rw [List.map_cons, List.map_cons, e, ← List.map_cons, ih, e]
    simp [shown]
    decide

/-- Refutation, in general: whatever words one likes, there is one parameter, the words joined by `" "`, with which the script
is the same as if each word had been passed as a parameter of its own. -/
theorem c62_refuted_injection (cmd : Bytes) {ws : List Bytes} (hne : ws ≠ [])
    (hsize : 6 * ws.length + (ws.map List.length).sum < 2 ^ 62) :
    callScript cmd [([34, 32, 34] : Bytes).intercalate ws] = callScript cmd ws := by
  cases ws with
  | nil => exact absurd rfl hne
  | cons w ws =>
    have hM : Rca.maxCells = 9223372036854775808 := by decide
    have hlen : ∀ (w : Bytes) (ws : List Bytes), (([34, 32, 34] : Bytes).intercalate (w :: ws)).length ≤
        3 * (w :: ws).length + ((w :: ws).map List.length).sum := by
      intro w ws
      rw [intercalate_cons]
      simp only [List.length_append, List.length_flatten, List.map_map, List.length_cons, List.map_cons, List.sum_cons]
      have : (ws.map (List.length ∘ fun y => ([34, 32, 34] : Bytes) ++ y)).sum = 3 * ws.length + (ws.map List.length).sum := by
        clear hsize
        induction ws with
        | nil => rfl
        | cons x ws ih => simp only [List.map_cons, List.sum_cons, ih, List.length_cons, Function.comp_apply, List.length_append]; simp; omega
      omega
    have := hlen w ws
    unfold callScript
    rw [c35_join_partial (w :: ws) [32] true (by simp only [List.length_cons, List.length_nil] at hsize ⊢; omega) (Or.inr (Or.inl (by simp))),
      c35_join_partial [_] [32] true (by simp only [List.length_cons, List.length_nil, List.map_cons, List.map_nil, List.sum_cons, List.sum_nil] at hsize this ⊢; omega) (Or.inr (Or.inl (by simp))),
      quoted_join w ws, quoted_join _ []]
    have e : ∀ x : Bytes, ([34, 32, 34] : Bytes).intercalate [x] = x := fun x => by simp [List.intercalate]
    rw [e]

/-- `f` called with the one parameter `a" "b` is `f` called with `a` and `b`. -/
example := c62_refuted_injection [102] (ws := [[97], [98]]) (by simp) (by decide)

/-- Refutation: parameter `$x` is replaced by the value of a variable. -/
theorem c62_refuted_variable : ∃ script, callScript [102] [[36, 120]] = .ret script ∧
    Spec.words script = some [[.ch 102], [.subst 36, .ch 120]] := ⟨[102, 32, 34, 36, 120, 34], by decide +kernel, by decide +kernel⟩

/-- Refutation: of parameter `[a]`, `a` is executed as a command. -/
theorem c62_refuted_command : ∃ script, callScript [102] [[91, 97, 93]] = .ret script ∧
    Spec.words script = some [[.ch 102], [.subst 91, .ch 97, .ch 93]] := ⟨[102, 32, 34, 91, 97, 93, 34], by decide +kernel, by decide +kernel⟩

/-- Refutation: a NUL in a parameter cuts the text off, and it is not a command any more. -/
theorem c62_refuted_nul : ∃ script, callScript [102] [[97, 0, 98]] = .ret script ∧ Spec.words script = none := ⟨[102, 32, 34, 97], by decide +kernel, by decide +kernel⟩

/-- Refutation: every command with parameters without NUL whose text has more than 4096 characters is undefined behaviour. -/
theorem c62_refuted_long (cmd : Bytes) (params : List Bytes) (hz : 0 ∉ cmd) (hp : ∀ p ∈ params, 0 ∉ p)
    (hsize : params.length * 3 + (params.map List.length).sum < 2 ^ 62)
    (h : 4096 < cmd.length + 1 + (([32] : Bytes).intercalate (params.map fun p => 34 :: p ++ [34])).length) : callScript cmd params = .ub := by
  have hM : Rca.maxCells = 9223372036854775808 := by decide
  have hj := c35_join_partial params [32] true (by simp only [List.length_cons, List.length_nil]; omega) (.inr (.inr (.inl rfl)))
  have hq : params.map (shown true) = params.map fun p => 34 :: p ++ [34] := by
    congr 1
  rw [hq] at hj
  have hjz : ∀ ps : List Bytes, (∀ p ∈ ps, 0 ∉ p) → 0 ∉ ([32] : Bytes).intercalate (ps.map fun p => 34 :: p ++ [34]) := by
    intro ps hp
    cases ps with
    | nil => simp [List.intercalate]
    | cons p ps =>
      rw [List.map_cons, intercalate_cons]
      have h0 := hp p List.mem_cons_self
      simp only [List.mem_append, List.mem_flatten, List.mem_map, not_or]
      refine ⟨by simp [h0], ?_⟩
      rintro ⟨_, ⟨_, ⟨q, hq, rfl⟩, rfl⟩, hm⟩
      have := hp q (List.mem_cons_of_mem _ hq)
      simp [this] at hm
  unfold callScript
  rw [hj]
  simp only [Eff.ret_bind]
  rw [cstr_self hz, cstr_self (hjz params hp), c36_refuted_long _ (by simp only [List.length_append, List.length_cons, List.length_nil]; omega)]

/-- One parameter of 5000 characters. -/
example := c62_refuted_long [102] [List.replicate 5000 97] (by decide)
  (fun p hp => by rw [List.mem_singleton.1 hp]; intro h; cases List.eq_of_mem_replicate h)
  (by rw [List.map_cons, List.map_nil, List.length_replicate]; decide)
  (by rw [List.map_cons, List.map_nil, intercalate_cons]; simp only [List.length_append, List.length_cons, List.length_replicate, List.map_nil]; omega)

end Bdlib.Tcl
