import Verif.Props.C29

/-!
# C32: `newsplit` takes one token off the front

`v` is what the String holds before the call.
-/

namespace Bdlib.Str
open Bdlib Bdlib.Spec

theorem skipRun_spec (v : Bytes) : ∀ k pos, v.length ≤ pos + k →
    v.drop (skipRun v pos k + 1) = (v.drop (pos + 1)).dropWhile (· == 32) := by
  intro k
  induction k with
  | zero =>
    intro pos h
    unfold skipRun
    rw [List.drop_eq_nil_of_le (by omega)]
    rfl
  | succ k ih =>
    intro pos h
    unfold skipRun
    by_cases h32 : v[pos + 1]? = some 32
    · rw [if_pos h32, ih (pos + 1) (by omega)]
      have hlt : pos + 1 < v.length := by
        rcases Nat.lt_or_ge (pos + 1) v.length with h' | h'
        · exact h'
        · rw [List.getElem?_eq_none h'] at h32; cases h32
      rw [List.getElem?_eq_getElem hlt] at h32
      rw [List.drop_eq_getElem_cons hlt, Option.some.inj h32]
      rfl
    · rw [if_neg h32]
      rcases Nat.lt_or_ge (pos + 1) v.length with hlt | hlt
      · rw [List.getElem?_eq_getElem hlt] at h32
        rw [List.drop_eq_getElem_cons hlt, List.dropWhile_cons_of_neg]
        intro hc
        exact h32 (by simpa using hc)
      · rw [List.drop_eq_nil_of_le hlt]; rfl

/-- The string has no delimiter: it is the token, and nothing is left. -/
theorem c32_last {v : Bytes} (hv : v.length ≤ maxInt) {d : UInt8} (hd : d ∉ v) : newsplit v d = .ret (v, []) := by
  have hmx : v.length ≤ 2147483647 := hv
  unfold newsplit
  by_cases h0 : v.length = 0
  · rw [if_pos h0, List.length_eq_zero_iff.mp h0]
  rw [if_neg h0]
  rcases findItem_spec_ (v := v) d (Nat.zero_le _) with ⟨m, _, h2, _, _⟩ | ⟨_, h2⟩
  · exact absurd (List.mem_of_getElem? h2) hd
  · unfold findItem
    rw [h2]
    simp only [Eff.ret_bind, if_true]
    have := slice_in (i := 0) (k := v.length) hv (by omega)
    rw [show ((0 : Int)) = ((0 : Nat) : Int) from rfl, this]
    simp only [Eff.ret_bind, List.drop_zero, List.take_length, plusEq_eq]
    show Eff.ret _ = _
    congr 2
    by_cases h32 : d = 32
    · rw [if_pos h32, skipRun_spec v _ _ (by omega), List.drop_eq_nil_of_le (by omega)]; rfl
    · rw [if_neg h32, List.drop_eq_nil_of_le (by omega)]

/-- The string is `p`, the delimiter, `rest`, with no delimiter in `p`: the token is `p`; `rest` is left,
without the spaces it starts with if the delimiter is a space.

The hypothesis `hv` is that of every slice (C08): fewer than 2^31 characters. -/
theorem c32_newsplit_partial {p rest : Bytes} {d : UInt8} (hv : (p ++ d :: rest).length ≤ maxInt) (hp : d ∉ p) :
    newsplit (p ++ d :: rest) d = .ret (p, if d = 32 then rest.dropWhile (· == 32) else rest) := by
  have hmx : (p ++ d :: rest).length ≤ 2147483647 := hv
  have hlen : (p ++ d :: rest).length = p.length + rest.length + 1 := by simp; omega
  unfold newsplit
  rw [if_neg (by omega)]
  have hat : (p ++ d :: rest)[p.length]? = some d := by simp
  have hfind : findItem (p ++ d :: rest) d = .ret p.length := by
    unfold findItem
    rcases findItem_spec_ (v := p ++ d :: rest) d (Nat.zero_le _) with ⟨m, _, h2, h3, h4⟩ | ⟨h1, _⟩
    · rw [h4]
      have hle := h3 p.length (Nat.zero_le _) hat
      rcases Nat.lt_or_ge m p.length with hlt | hge
      · rw [List.getElem?_append_left hlt] at h2
        exact absurd (List.mem_of_getElem? h2) hp
      · congr 1; omega
    · exact absurd hat (h1 p.length (Nat.zero_le _))
  rw [hfind]
  simp only [Eff.ret_bind]
  rw [if_neg (by unfold npos; omega : ¬ p.length = npos)]
  have := slice_in (i := 0) (k := p.length) hv (by omega)
  rw [show ((0 : Int)) = ((0 : Nat) : Int) from rfl, this]
  simp only [Eff.ret_bind, List.drop_zero, plusEq_eq]
  have htail : (p ++ d :: rest).drop (p.length + 1) = rest := by
    rw [show p.length + 1 = (p ++ [d]).length by simp, show p ++ d :: rest = (p ++ [d]) ++ rest by simp, List.drop_left]
  show Eff.ret _ = _
  congr 2
  · simp
  · by_cases h32 : d = 32
    · rw [if_pos h32, if_pos h32, skipRun_spec _ _ _ (by omega), htail]
    · rw [if_neg h32, if_neg h32, htail]

/-- `while (!str.isEmpty()) tokens << newsplit(str, d);` with at most `fuel` iterations. -/
def tokens (d : UInt8) : Nat → Bytes → Eff (List Bytes)
  | 0, _ => .more
  | fuel + 1, v => if v.length = 0 then .ret [] else do
      let (t, rest) ← newsplit v d
      let ts ← tokens d fuel rest
      return t :: ts

theorem split_at_first {d : UInt8} {v : Bytes} (h : d ∈ v) : ∃ p rest, v = p ++ d :: rest ∧ d ∉ p := by
  have := List.eq_append_cons_of_mem h
  obtain ⟨p, rest, h1, h2⟩ := this
  exact ⟨p, rest, h1, h2⟩

theorem firstAt_of_split {d : UInt8} {p rest : Bytes} (hp : d ∉ p) : FirstAt [d] (p ++ d :: rest) p rest := by
  refine ⟨by simp, fun i ⟨b, a, h1, h2⟩ => ?_⟩
  subst h2
  rcases Nat.lt_or_ge b.length p.length with h | h
  · exfalso
    have : (p ++ d :: rest)[b.length]? = some d := by rw [h1]; simp
    rw [List.getElem?_append_left h] at this
    exact hp (List.mem_of_getElem? this)
  · exact h

/-- Taking tokens until the string is empty cuts it at every delimiter (`Cut`, as `split` does, C28). -/
theorem c32_tokens_partial {d : UInt8} (hd : d ≠ 32) : ∀ fuel (v : Bytes), v.length < fuel → v.length ≤ maxInt →
    ∃ ts, tokens d fuel v = .ret ts ∧ Cut [d] v ts := by
  intro fuel
  induction fuel with
  | zero => intro v h; omega
  | succ fuel ih =>
    intro v hf hv
    unfold tokens
    by_cases h0 : v.length = 0
    · rw [if_pos h0, List.length_eq_zero_iff.mp h0]
      exact ⟨[], rfl, .nil⟩
    rw [if_neg h0]
    by_cases hm : d ∈ v
    · obtain ⟨p, rest, rfl, hp⟩ := split_at_first hm
      rw [c32_newsplit_partial hv hp, if_neg hd]
      simp only [List.length_append, List.length_cons] at hf hv
      obtain ⟨ts, h1, h2⟩ := ih rest (by omega) (by omega)
      refine ⟨p :: ts, ?_, .cons (firstAt_of_split hp) h2⟩
      simp only [Eff.ret_bind]
      rw [h1]; rfl
    · rw [c32_last hv hm]
      obtain ⟨fuel', rfl⟩ : ∃ f, fuel = f + 1 := ⟨fuel - 1, by omega⟩
      refine ⟨[v], rfl, .last (fun h => h0 (by rw [h]; rfl)) ?_⟩
      rw [occurs_single]; exact hm

theorem words_dropWhile {v : Bytes} {ws : List Bytes} (h : Words 32 (v.dropWhile (· == 32)) ws) : Words 32 v ws := by
  have := words_blank h (v.takeWhile (· == 32)) (fun c hc => by
    have := List.all_takeWhile (l := v) (p := (· == 32))
    rw [List.all_eq_true] at this
    simpa using this c hc)
  rwa [List.takeWhile_append_dropWhile] at this

theorem head_dropWhile (v : Bytes) : (v.dropWhile (· == 32)).head? ≠ some 32 := by
  induction v with
  | nil => simp
  | cons c v ih =>
    rw [List.dropWhile_cons]
    split
    · exact ih
    · rename_i h
      intro hc
      apply h
      simpa using hc

/-- With a space as delimiter the tokens are the words (`Words`, as for `split`, C29); if the string starts
with a space, an empty token comes first. -/
theorem c32_words_partial : ∀ fuel (v : Bytes), v.length < fuel → v.length ≤ maxInt →
    ∃ ws, tokens 32 fuel v = .ret (if v.head? = some 32 then [] :: ws else ws) ∧ Words 32 v ws := by
  intro fuel
  induction fuel with
  | zero => intro v h; omega
  | succ fuel ih =>
    intro v hf hv
    unfold tokens
    by_cases h0 : v.length = 0
    · rw [if_pos h0, List.length_eq_zero_iff.mp h0]
      exact ⟨[], rfl, .nil (by simp)⟩
    rw [if_neg h0]
    by_cases hm : (32 : UInt8) ∈ v
    · obtain ⟨p, rest, rfl, hp⟩ := split_at_first hm
      rw [c32_newsplit_partial hv hp, if_pos rfl]
      simp only [List.length_append, List.length_cons] at hf hv
      have hle : (rest.dropWhile (· == 32)).length ≤ rest.length := (List.dropWhile_sublist _).length_le
      obtain ⟨ws, h1, h2⟩ := ih (rest.dropWhile (· == 32)) (by omega) (by omega)
      rw [if_neg (head_dropWhile rest)] at h1
      simp only [Eff.ret_bind]
      rw [h1]
      simp only [Eff.ret_bind, Eff.pure_eq]
      cases p with
      | nil =>
        refine ⟨ws, by simp, ?_⟩
        exact words_sp (words_dropWhile h2)
      | cons c p =>
        have hc : c ≠ 32 := fun h => hp (by simp [h])
        refine ⟨(c :: p) :: ws, by simp [hc], ?_⟩
        have := Words.cons (sp := 32) (blank := []) (w := c :: p) (rest := 32 :: rest) (by simp) (by simp)
          (fun x hx he => hp (by rw [← he]; exact hx)) (Or.inr rfl) (words_sp (words_dropWhile h2))
        simpa using this
    · rw [c32_last hv hm]
      obtain ⟨fuel', rfl⟩ : ∃ f, fuel = f + 1 := ⟨fuel - 1, by omega⟩
      have hh : v.head? ≠ some 32 := fun h => hm (List.mem_of_head? h)
      refine ⟨[v], by rw [if_neg hh]; rfl, ?_⟩
      have := Words.cons (sp := 32) (blank := []) (w := v) (rest := []) (by simp) (fun h => h0 (by rw [h]; rfl))
        (fun x hx he => hm (by rw [← he]; exact hx)) (Or.inl rfl) (.nil (by simp))
      simpa using this

/-- From 2^31 characters on no token comes off correctly: for a length that is a multiple of 2^32, it is
empty (see C08, C28). -/
theorem c32_refuted_long {v : Bytes} (hv : v.length = 4294967296) (hd : (58 : UInt8) ∉ v) : newsplit v 58 = .ret ([], []) := by
  unfold newsplit
  rw [if_neg (by omega)]
  rcases findItem_spec_ (v := v) (58 : UInt8) (Nat.zero_le _) with ⟨m, _, h2, _, _⟩ | ⟨_, h2⟩
  · exact absurd (List.mem_of_getElem? h2) hd
  · unfold findItem
    rw [h2]
    simp only [Eff.ret_bind, if_true]
    have : slice v 0 v.length = .ret [] := by
      unfold slice
      have : Rca.toInt32 v.length = 0 := by rw [hv]; decide
      rw [this]
      dsimp only
      rw [if_pos (by omega)]
    rw [this]
    simp only [Eff.ret_bind, plusEq_eq]
    rw [if_neg (by decide), List.drop_eq_nil_of_le (by omega)]
    rfl

example : tokens 58 9 [97, 58, 58, 98] = .ret [[97], [], [98]] := by decide
example : tokens 32 9 [32, 97, 32, 32, 98] = .ret [[], [97], [98]] := by decide
example : newsplit [97, 58, 98] 58 = .ret ([97], [98]) := by decide

end Bdlib.Str
