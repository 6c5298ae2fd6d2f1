import Verif.Props.C21

/-!
# Lemmas on cutting: `slice`, `split`
-/

namespace Bdlib.Str
open Bdlib Bdlib.Spec

variable {α : Type}

/-- Longest string on which `slice` works (lengths are converted to `int`). -/
def maxInt : Nat := 2147483647

theorem toInt32_le {n : Nat} (h : n ≤ maxInt) : Rca.toInt32 n = n := by
  unfold Rca.toInt32 maxInt at *
  dsimp only
  rw [if_pos (by omega)]
  omega

theorem slice_in {v : List α} {i k : Nat} (hv : v.length ≤ maxInt) (h : i + k ≤ v.length) :
    slice v i k = .ret ((v.drop i).take k) := by
  unfold slice
  rw [toInt32_le hv]
  dsimp only
  have hm : v.length ≤ 2147483647 := hv
  rw [if_neg (by omega : ¬ ((k : Int) = -1))]
  by_cases hi : v.length ≤ i
  · rw [if_pos (by omega)]
    have : k = 0 := by omega
    subst this
    simp
  · rw [if_neg (by omega), if_neg (by omega), if_neg (by omega), if_neg (by omega)]
    by_cases hk : v.length ≤ i + k
    · rw [if_pos (by omega)]
      have : ((((v.length : Int) - i) % (two64 : Int)).toNat) = k := by unfold two64; omega
      rw [this, rdN_le (by omega)]
      congr 1
    · rw [if_neg (by omega), if_neg (by omega)]
      have : (((k : Int) % (two64 : Int)).toNat) = k := by unfold two64; omega
      rw [this, rdN_le (by omega)]
      congr 1

theorem slice_rest {v : List α} {i : Nat} (hv : v.length ≤ maxInt) : slice v i (-1) = .ret (v.drop i) := by
  unfold slice
  rw [toInt32_le hv]
  dsimp only
  have hm : v.length ≤ 2147483647 := hv
  rw [if_pos rfl]
  by_cases hi : v.length ≤ i
  · rw [if_pos (by omega), List.drop_eq_nil_of_le hi]
  · rw [if_neg (by omega), if_neg (by omega), if_neg (by omega), if_neg (by omega), if_pos (by omega)]
    have : ((((v.length : Int) - i) % (two64 : Int)).toNat) = v.length - i := by unfold two64; omega
    rw [this, rdN_le (by omega)]
    congr 1
    rw [Int.toNat_natCast, List.take_of_length_le (by simp)]

theorem plusEq_eq (v : List α) (n : Nat) : plusEq v n = v.drop n := by
  unfold plusEq
  by_cases h : v.length = 0
  · rw [if_pos h, List.length_eq_zero_iff.mp h]; simp
  · rw [if_neg h]
    split
    · rw [List.drop_eq_nil_of_le (by omega)]
    · rfl

/-! ## `_find` as used by the loops -/

/-- Either the delimiter occurs, first at distance `r`, or it does not. -/
theorem find_cases {L : Libc} (hL : L.Ok) (hm : L.memmem = true) {v d : Bytes} (hv : v.length ≤ maxInt)
    {it : Nat} (hit : it ≤ v.length) :
    (∃ p rest, FirstAt d (v.drop it) p rest ∧ find_ L v d it = .ret p.length ∧ p.length ≠ npos) ∨
    (¬ Occurs d (v.drop it) ∧ find_ L v d it = .ret npos) := by
  have hmx : v.length ≤ 2147483647 := hv
  obtain ⟨r, h1, h2⟩ := find_spec hL (str := d) (by unfold npos; omega) hit (Or.inl hm)
  rcases h2 with ⟨⟨h2, h3⟩, h4⟩ | ⟨h2, h3⟩
  · left
    obtain ⟨p, rest, h5, h6⟩ := (occursAt_drop hit).mpr h2
    refine ⟨p, rest, ⟨h5, fun i hi => ?_⟩, by rw [h6]; exact h1, by rw [h6]; exact h4⟩
    rw [h6]
    exact h3 i ((occursAt_drop hit).mp hi)
  · right
    refine ⟨fun ⟨i, hi⟩ => h2 i ((occursAt_drop hit).mp hi), by rw [h1, h3]⟩

/-! ## Partial cuts -/

/-- Cutting off the pieces `ps`, each followed by a delimiter, leaves `rest`. -/
inductive Cuts (d : List α) : List α → List (List α) → List α → Prop
  | nil {v : List α} : Cuts d v [] v
  | cons {v p r rest : List α} {ps : List (List α)} : FirstAt d v p r → Cuts d r ps rest → Cuts d v (p :: ps) rest

theorem Cuts.snoc {d v p r rest : List α} {ps : List (List α)} (h : Cuts d v ps r) (hf : FirstAt d r p rest) :
    Cuts d v (ps ++ [p]) rest := by
  induction h with
  | nil => exact .cons hf .nil
  | cons h1 _ ih => exact .cons h1 (ih hf)

theorem Cuts.toCut {d v rest : List α} {ps qs : List (List α)} (h : Cuts d v ps rest) (hc : Cut d rest qs) :
    Cut d v (ps ++ qs) := by
  induction h with
  | nil => exact hc
  | cons h1 _ ih => exact .cons h1 (ih hc)

/-- Every piece followed by a delimiter. -/
def closed (d : List α) (ps : List (List α)) : List α := (ps.map (· ++ d)).flatten

theorem Cuts.eq {d v rest : List α} {ps : List (List α)} (h : Cuts d v ps rest) : v = closed d ps ++ rest := by
  induction h with
  | nil => simp [closed]
  | cons h1 _ ih =>
    rw [h1.1, ih]
    simp [closed]

theorem intercalate_snoc (d : List α) : ∀ (ps : List (List α)) (x : List α),
    d.intercalate (ps ++ [x]) = closed d ps ++ x
  | [], x => by simp [List.intercalate, closed]
  | [p], x => by simp [List.intercalate, closed]
  | p :: q :: ps, x => by
    have ih := intercalate_snoc d (q :: ps) x
    simp only [List.cons_append, closed, List.map_cons, List.flatten_cons] at ih ⊢
    simp only [List.intercalate, List.intersperse, List.flatten_cons] at ih ⊢
    rw [ih]
    simp

theorem closed_intercalate (d : List α) {ps : List (List α)} (h : ps ≠ []) : closed d ps = d.intercalate ps ++ d := by
  obtain ⟨qs, x, rfl⟩ : ∃ qs x, ps = qs ++ [x] := ⟨ps.dropLast, ps.getLast h, (List.dropLast_concat_getLast h).symm⟩
  rw [intercalate_snoc]
  simp [closed]

theorem firstAt_drop {d v p rest : List α} (h : FirstAt d v p rest) : rest = v.drop (p.length + d.length) := by
  rw [h.1]
  rw [show p.length + d.length = (p ++ d).length by simp, List.drop_left]

theorem firstAt_not_occurs {d v p rest : List α} (hd : d ≠ []) (h : FirstAt d v p rest) : ¬ Occurs d p := by
  rintro ⟨i, b, a, rfl, rfl⟩
  have := h.2 b.length ⟨b, a ++ d ++ rest, by rw [h.1]; simp, rfl⟩
  simp at this
  have : d.length ≠ 0 := fun h => hd (List.length_eq_zero_iff.mp h)
  omega

theorem Cuts.pieces {d v rest : List α} {ps : List (List α)} (hd : d ≠ []) (h : Cuts d v ps rest) :
    ∀ p ∈ ps, ¬ Occurs d p := by
  induction h with
  | nil => simp
  | cons h1 _ ih =>
    intro p hp
    rcases List.mem_cons.mp hp with rfl | hp
    · exact firstAt_not_occurs hd h1
    · exact ih p hp

/-! ## The loop of `split`, delimiter other than a single space -/

theorem splitLoop_spec {L : Libc} (hL : L.Ok) (hm : L.memmem = true) {v d : Bytes} (hv : v.length ≤ maxInt)
    (hd : d ≠ []) (hsp : d ≠ [32]) {cap : Nat} : ∀ fuel it acc, it ≤ v.length → v.length - it < fuel →
    ∃ it' ps, splitLoop L v d cap fuel it acc = .ret (it', acc ++ ps) ∧
      ((Cuts d (v.drop it) ps (v.drop it') ∧ it' ≤ v.length ∧
          (acc.length + ps.length < cap → it' = v.length) ∧ (ps ≠ [] → acc.length + ps.length ≤ cap)) ∨
       (∃ qs x, ps = qs ++ [x] ∧ Cuts d (v.drop it) qs x ∧ x ≠ [] ∧ ¬ Occurs d x ∧ v.drop it' = [] ∧
          acc.length + ps.length ≤ cap)) := by
  intro fuel
  induction fuel with
  | zero => intro it acc _ h; omega
  | succ fuel ih =>
    intro it acc hit hf
    have hmx : v.length ≤ 2147483647 := hv
    have hdl : d.length ≠ 0 := fun h => hd (List.length_eq_zero_iff.mp h)
    unfold splitLoop
    by_cases hcap : acc.length < cap
    · rw [if_neg (by simpa using hcap)]
      have htrim : trimIt v d it = it := by unfold trimIt; rw [if_neg hsp]
      dsimp only
      rw [htrim]
      by_cases hend : it ≥ v.length
      · rw [if_pos hend]
        exact ⟨it, [], by simp, Or.inl ⟨.nil, hit, fun _ => by omega, fun h => absurd rfl h⟩⟩
      · rw [if_neg hend]
        rcases find_cases hL hm (d := d) hv hit with ⟨p, rest, h1, h2, h3⟩ | ⟨h1, h2⟩
        · rw [h2]
          simp only [Eff.ret_bind]
          rw [if_neg h3]
          have hlen := congrArg List.length h1.1
          simp only [List.length_append, List.length_drop] at hlen
          rw [slice_in hv (by omega)]
          simp only [Eff.ret_bind]
          have htake : (v.drop it).take p.length = p := by rw [h1.1]; simp
          rw [htake]
          have hrest : v.drop (it + p.length + d.length) = rest := by
            rw [firstAt_drop h1, List.drop_drop]; congr 1; omega
          obtain ⟨it', ps, h4, h5⟩ := ih (it + p.length + d.length) (acc ++ [p]) (by omega) (by omega)
          refine ⟨it', p :: ps, by rw [h4]; simp, ?_⟩
          rw [hrest] at h5
          simp only [List.length_append, List.length_cons, List.length_nil] at h5
          rcases h5 with ⟨h6, h7, h8, h9⟩ | ⟨qs, x, h6, h7, h8, h9, h10, h11⟩
          · left
            refine ⟨.cons h1 h6, h7, fun h => h8 ?_, fun _ => ?_⟩
            · simp only [List.length_cons] at h; omega
            · simp only [List.length_cons]
              by_cases hps : ps = []
              · subst hps; simp; omega
              · have := h9 hps; omega
          · right
            refine ⟨p :: qs, x, by rw [h6]; rfl, .cons h1 h7, h8, h9, h10, ?_⟩
            simp only [List.length_cons]; omega
        · rw [h2]
          simp only [Eff.ret_bind, if_true]
          rw [slice_in hv (by omega)]
          simp only [Eff.ret_bind]
          have htake : (v.drop it).take (v.length - it) = v.drop it := List.take_of_length_le (by simp)
          rw [htake]
          have hne : v.drop it ≠ [] := by
            intro h
            have := congrArg List.length h
            simp only [List.length_drop, List.length_nil] at this
            omega
          obtain ⟨fuel', rfl⟩ : ∃ f, fuel = f + 1 := ⟨fuel - 1, by omega⟩
          refine ⟨it + (v.length - it) + d.length, [v.drop it], ?_, Or.inr ⟨[], v.drop it, rfl, .nil, hne, h1, ?_, ?_⟩⟩
          · unfold splitLoop
            by_cases hc : (acc ++ [v.drop it]).length < cap
            · rw [if_neg (by simpa using hc)]
              dsimp only
              have htrim' : trimIt v d (it + (v.length - it) + d.length) = it + (v.length - it) + d.length := by
                unfold trimIt; rw [if_neg hsp]
              rw [htrim', if_pos (by omega)]
            · rw [if_pos hc]
          · exact List.drop_eq_nil_of_le (by omega)
          · simp; omega
    · rw [if_pos hcap]
      exact ⟨it, [], by simp, Or.inl ⟨.nil, hit, fun h => by simp at h; omega, fun h => absurd rfl h⟩⟩

/-! ## Delimiter a single space -/

theorem skipSpaces_spec (v : Bytes) : ∀ k it, it + k = max it v.length →
    it ≤ skipSpaces v it k ∧ skipSpaces v it k ≤ it + k ∧
      (∀ c ∈ (v.drop it).take (skipSpaces v it k - it), c = 32) ∧
      (skipSpaces v it k < v.length → v[skipSpaces v it k]? ≠ some 32) := by
  intro k
  induction k with
  | zero =>
    intro it h
    refine ⟨Nat.le_refl _, Nat.le_refl _, by simp [skipSpaces], fun hl => ?_⟩
    unfold skipSpaces at hl
    omega
  | succ k ih =>
    intro it h
    have hlt : it < v.length := by omega
    unfold skipSpaces
    by_cases h32 : v[it]? = some 32
    · rw [if_pos h32]
      obtain ⟨h1, h2, h3, h4⟩ := ih (it + 1) (by omega)
      refine ⟨by omega, by omega, ?_, h4⟩
      intro c hc
      rw [List.drop_eq_getElem_cons hlt, show skipSpaces v (it + 1) k - it = (skipSpaces v (it + 1) k - (it + 1)) + 1 by omega,
        List.take_succ_cons] at hc
      rcases List.mem_cons.mp hc with rfl | hc
      · rw [List.getElem?_eq_getElem hlt] at h32
        simpa using h32
      · exact h3 c hc
    · rw [if_neg h32]
      exact ⟨Nat.le_refl _, by omega, by simp, fun _ => h32⟩

theorem words_sp {sp : α} {v : List α} {ws : List (List α)} (h : Words sp v ws) : Words sp (sp :: v) ws := by
  cases h with
  | nil h => exact .nil (by simpa using h)
  | cons h1 h2 h3 h4 h5 =>
    have := Words.cons (blank := sp :: _) (by simpa using h1) h2 h3 h4 h5
    simpa using this

theorem words_blank {sp : α} {v : List α} {ws : List (List α)} (h : Words sp v ws) : ∀ b : List α, (∀ c ∈ b, c = sp) →
    Words sp (b ++ v) ws
  | [], _ => h
  | c :: b, hb => by
    have hc : c = sp := hb c (by simp)
    subst hc
    exact words_sp (words_blank h b fun d hd => hb d (by simp [hd]))

theorem occurs_single {c : α} {v : List α} : Occurs [c] v ↔ c ∈ v := by
  constructor
  · rintro ⟨_, b, a, rfl, _⟩; simp
  · intro h
    obtain ⟨b, a, rfl⟩ := List.append_of_mem h
    exact ⟨b.length, b, a, by simp, rfl⟩

theorem firstAt_single {c : α} {v p rest : List α} (h : FirstAt [c] v p rest) : v = p ++ c :: rest ∧ ∀ x ∈ p, x ≠ c := by
  refine ⟨by simpa using h.1, fun x hx he => ?_⟩
  subst he
  exact firstAt_not_occurs (by simp) h (occurs_single.mpr hx)

theorem splitLoop_words {L : Libc} (hL : L.Ok) (hm : L.memmem = true) {v : Bytes} (hv : v.length ≤ maxInt)
    {cap : Nat} (hcap : v.length < cap) : ∀ fuel it acc, v.length - it < fuel → it ≤ v.length + 1 →
    acc.length ≤ it →
    ∃ it' ws, splitLoop L v [32] cap fuel it acc = .ret (it', acc ++ ws) ∧ Words 32 (v.drop it) ws := by
  intro fuel
  induction fuel with
  | zero => intro it acc h; omega
  | succ fuel ih =>
    intro it acc hf hit hacc
    have hmx : v.length ≤ 2147483647 := hv
    unfold splitLoop
    rcases Decidable.em (¬ acc.length < cap) with hacap | hacap
    · have : it = v.length + 1 := by omega
      rw [if_pos hacap]
      refine ⟨it, [], by simp, ?_⟩
      rw [List.drop_eq_nil_of_le (by omega)]
      exact .nil (by simp)
    rw [if_neg hacap]
    dsimp only
    generalize hj : trimIt v [32] it = j
    unfold trimIt at hj
    rw [if_pos rfl] at hj
    obtain ⟨h1, h2, h3, h4⟩ := skipSpaces_spec v (v.length - it) it (by omega)
    rw [hj] at h1 h2 h3 h4
    have hblank : v.drop it = (v.drop it).take (j - it) ++ v.drop j := by
      rw [show v.drop j = (v.drop it).drop (j - it) by rw [List.drop_drop]; congr 1; omega, List.take_append_drop]
    by_cases hend : j ≥ v.length
    · rw [if_pos hend]
      refine ⟨j, [], by simp, .nil ?_⟩
      rw [hblank, List.drop_eq_nil_of_le hend, List.append_nil]
      exact h3
    · rw [if_neg hend]
      have hj32 := h4 (by omega)
      have hhead : v.drop j = v[j] :: v.drop (j + 1) := List.drop_eq_getElem_cons (by omega)
      have hne32 : v[j] ≠ 32 := by
        intro h; rw [List.getElem?_eq_getElem (by omega), h] at hj32; exact hj32 rfl
      rcases find_cases hL hm (d := [32]) hv (it := j) (by omega) with ⟨p, rest, f1, f2, f3⟩ | ⟨f1, f2⟩
      · rw [f2]
        simp only [Eff.ret_bind, List.length_singleton]
        rw [if_neg f3]
        have hlen := congrArg List.length f1.1
        simp only [List.length_append, List.length_drop, List.length_cons, List.length_nil] at hlen
        rw [slice_in hv (by omega)]
        simp only [Eff.ret_bind, List.length_singleton]
        have htake : (v.drop j).take p.length = p := by rw [f1.1]; simp
        rw [htake]
        have hrest : v.drop (j + p.length + 1) = rest := by
          rw [firstAt_drop f1, List.drop_drop]; congr 1
        have hpne : p ≠ [] := by
          intro h
          subst h
          have := f1.1
          rw [hhead, List.nil_append, List.cons_append] at this
          exact hne32 (List.cons.inj this).1
        have hpl : p.length ≠ 0 := fun h => hpne (List.length_eq_zero_iff.mp h)
        obtain ⟨it', ws, h5, h6⟩ := ih (j + p.length + 1) (acc ++ [p]) (by omega) (by omega)
          (by simp; omega)
        refine ⟨it', p :: ws, by rw [h5]; simp, ?_⟩
        rw [hrest] at h6
        obtain ⟨g1, g2⟩ := firstAt_single f1
        rw [hblank, g1]
        have := Words.cons (blank := (v.drop it).take (j - it)) h3 hpne g2 (rest := 32 :: rest) (Or.inr rfl) (words_sp h6)
        simpa using this
      · rw [f2]
        simp only [Eff.ret_bind, if_true, List.length_singleton]
        rw [slice_in hv (by omega)]
        simp only [Eff.ret_bind, List.length_singleton]
        have htake : (v.drop j).take (v.length - j) = v.drop j := List.take_of_length_le (by simp)
        rw [htake]
        obtain ⟨it', ws, h5, h6⟩ := ih (j + (v.length - j) + 1) (acc ++ [v.drop j]) (by omega)
          (by omega) (by simp; omega)
        refine ⟨it', v.drop j :: ws, by rw [h5]; simp, ?_⟩
        rw [List.drop_eq_nil_of_le (by omega)] at h6
        rw [hblank]
        have := Words.cons (blank := (v.drop it).take (j - it)) (w := v.drop j) h3 (fun h => by rw [h] at hhead; cases hhead)
          (fun c hc he => f1 (occurs_single.mpr (by rw [← he]; exact hc))) (rest := []) (Or.inl rfl) h6
        simpa using this

end Bdlib.Str
