import Verif.Conc.Table
import Verif.Props.C54

/-!
# C93 Looking things up in one table by several threads

Proved, taking the accesses as interleaved: no lookup is undefined, whatever the schedule, and each finds what the
table has under its key (`c93_safe_partial`, `c93_values_partial`), in a bounded number of its own steps, whatever the
others do (`c93_finishes`); remembered hashes never change once known (`c93_kept`).  If the keys in the table and the
keys used by several threads remember their hash already there is no data race (`c93_race_free_partial`).

Refuted: two threads that look up the same key object race if it does not remember its hash (`c93_refuted_key`); a key in
the table whose hash is 0 never does, and threads that look up other keys race on it (`c93_refuted_zero`).
-/

namespace Bdlib.Table
open Bdlib.Hash Bdlib.Spec

variable {K V : Type} {L : Lib K V}

/-- What is in the chain around a bucket. -/
theorem around (hn : L.order.Nodup) (hp : ∀ i, ∀ p ∈ L.t.bkt i, L.c.hash p.1 % L.t.n = i) {b : Nat} (hb : b ∈ L.order) :
    ∃ A C, L.chain = A ++ L.t.bkt b ++ C ∧ A.length = ((L.order.takeWhile (· ≠ b)).flatMap L.t.bkt).length ∧
      ∀ e ∈ C, L.c.hash e.1 % L.t.n ≠ b := by
  have : ∀ (o : List Nat), o.Nodup → b ∈ o → ∃ C, o.flatMap L.t.bkt = (o.takeWhile (· ≠ b)).flatMap L.t.bkt ++ L.t.bkt b ++ C ∧
      ∀ e ∈ C, L.c.hash e.1 % L.t.n ≠ b := by
    intro o
    induction o with
    | nil => intro _ h; cases h
    | cons a o ih =>
      intro hn hb
      have hn' := List.nodup_cons.1 hn
      by_cases ha : a = b
      · subst ha
        refine ⟨o.flatMap L.t.bkt, by simp, fun e he h => ?_⟩
        obtain ⟨i, hi, he⟩ := List.mem_flatMap.1 he
        rw [hp i e he] at h
        exact hn'.1 (h ▸ hi)
      · have hb' : b ∈ o := by
          rcases List.mem_cons.1 hb with h | h
          · exact absurd h.symm ha
          · exact h
        obtain ⟨C, h1, h2⟩ := ih hn'.2 hb'
        refine ⟨C, ?_, h2⟩
        rw [List.takeWhile_cons_of_pos (by simpa using ha), List.flatMap_cons, List.flatMap_cons, h1]
        simp [List.append_assoc]
  obtain ⟨C, h1, h2⟩ := this _ hn hb
  exact ⟨_, C, h1, rfl, h2⟩

/-- Place `p` is the `i`th after the start of the bucket of `q`, and the entries before do not have the key. -/
def At (L : Lib K V) (q p i : Nat) : Prop :=
  L.start (L.c.hash (L.val q) % L.t.n) = some (p - i) ∧ i ≤ p ∧ i ≤ (L.t.bkt (L.c.hash (L.val q) % L.t.n)).length ∧
    ∀ e ∈ (L.t.bkt (L.c.hash (L.val q) % L.t.n)).take i, L.c.eq e.1 (L.val q) = false

/-- What is known of a thread in each place. -/
def Fine (L : Lib K V) : Pc → Prop
  | .idle | .get _ | .put _ => True
  | .eq q h p => h = L.c.hash (L.val q) ∧ ∃ i, At L q p i ∧ i < (L.t.bkt (L.c.hash (L.val q) % L.t.n)).length
  | .nget q h p | .nput q h p => h = L.c.hash (L.val q) ∧ p < L.chain.length ∧ ∃ i, At L q p i

structure Inv (L : Lib K V) (s : Sys K V) : Prop where
  hash : ∀ i, s.hash i = 0 ∨ s.hash i = L.c.hash (L.val i)
  fine : ∀ t, Fine L (s.pc t)
  log : ∀ t q r, (t, q, r) ∈ s.log → r = L.t.find L.c (L.val q)

theorem Inv.to {s : Sys K V} (h : Inv L s) (t : Nat) {p : Pc} (hp : Fine L p) : Inv L (s.to t p) := by
  refine ⟨h.hash, fun u => ?_, h.log⟩
  unfold Sys.to setFn
  dsimp only
  split
  · exact hp
  · exact h.fine u

theorem Inv.ret {s : Sys K V} (h : Inv L s) (t : Nat) {q : Nat} {r : Option (K × V)} (hr : r = L.t.find L.c (L.val q)) : Inv L (s.ret t q r) := by
  refine ⟨h.hash, (h.to t (p := .idle) trivial).fine, fun t' q' r' hm => ?_⟩
  rcases List.mem_append.1 hm with hm | hm
  · exact h.log t' q' r' hm
  · rw [List.mem_singleton] at hm
    cases hm
    exact hr

theorem Inv.put {s : Sys K V} (h : Inv L s) (i : Nat) : Inv L { s with hash := setFn s.hash i (L.c.hash (L.val i)) } := by
  refine ⟨fun j => ?_, h.fine, h.log⟩
  unfold setFn
  dsimp only
  split
  · rename_i hj; subst hj; exact .inr rfl
  · exact h.hash j

theorem Inv.enter {s : Sys K V} (h : Inv L s) (t q : Nat) : Inv L (enter L s t q (L.c.hash (L.val q))) := by
  unfold Table.enter
  split
  · rename_i hs
    refine h.ret t ?_
    unfold Lib.start at hs
    split at hs
    · rename_i hb; unfold UMap.find; rw [hb]; rfl
    · cases hs
  · rename_i p hs
    refine h.to t ⟨rfl, 0, ⟨by simpa using hs, Nat.zero_le _, Nat.zero_le _, by simp⟩, ?_⟩
    unfold Lib.start at hs
    split at hs
    · cases hs
    · rename_i hb; exact List.length_pos_iff.2 hb

section
variable (hpos : 0 < L.t.n) (hpl : ∀ i, ∀ p ∈ L.t.bkt i, L.c.hash p.1 % L.t.n = i)
  (hn : L.order.Nodup) (ha : ∀ b < L.t.n, b ∈ L.order) (hk : ∀ p e, L.chain[p]? = some e → L.val p = e.1)
include hpos hpl hn ha

/-- The entry in a place of the bucket, and those behind the bucket. -/
theorem at_chain {q p i : Nat} (h : At L q p i) :
    (∀ e, (L.t.bkt (L.c.hash (L.val q) % L.t.n))[i]? = some e → L.chain[p]? = some e) ∧
    (i = (L.t.bkt (L.c.hash (L.val q) % L.t.n)).length → ∀ e, L.chain[p]? = some e → L.c.hash e.1 % L.t.n ≠ L.c.hash (L.val q) % L.t.n) ∧
    (L.chain.length ≤ p → i = (L.t.bkt (L.c.hash (L.val q) % L.t.n)).length) := by
  obtain ⟨A, C, h1, h2, h3⟩ := around hn hpl (ha _ (Nat.mod_lt (L.c.hash (L.val q)) hpos))
  obtain ⟨hs, hip, hil, -⟩ := h
  have hp : p = A.length + i := by
    unfold Lib.start at hs
    split at hs
    · cases hs
    · injection hs with hs; omega
  subst hp
  refine ⟨fun e he => ?_, fun hi e he => ?_, fun hl => ?_⟩
  · have := (List.getElem?_eq_some_iff.1 he).1
    rw [h1, List.append_assoc, List.getElem?_append_right (by omega), List.getElem?_append_left (by omega)]
    simpa using he
  · rw [h1, List.append_assoc, List.getElem?_append_right (by omega), List.getElem?_append_right (by omega)] at he
    exact h3 e (List.mem_of_getElem? he)
  · rw [h1] at hl
    simp only [List.length_append] at hl
    omega

omit hpos hpl hn ha in
theorem find_none_of {q i : Nat} (hi : i = (L.t.bkt (L.c.hash (L.val q) % L.t.n)).length)
    (h : ∀ e ∈ (L.t.bkt (L.c.hash (L.val q) % L.t.n)).take i, L.c.eq e.1 (L.val q) = false) : L.t.find L.c (L.val q) = none := by
  subst hi
  rw [List.take_length] at h
  unfold UMap.find
  rw [List.find?_eq_none]
  intro e he
  rw [h e he]
  simp

include hk

theorem Inv.further {s : Sys K V} (h : Inv L s) (t : Nat) {q p i : Nat} (hi : At L q p i) (hp : p < L.chain.length) :
    Inv L (further L s t q (L.c.hash (L.val q)) p (L.c.hash (L.val p))) := by
  obtain ⟨h1, h2, h3⟩ := at_chain hpos hpl hn ha hi
  have he : L.chain[p]? = some L.chain[p] := List.getElem?_eq_getElem hp
  have hv := hk p _ he
  unfold Table.further
  by_cases hb : L.c.hash (L.val p) % L.t.n = L.c.hash (L.val q) % L.t.n
  · rw [if_pos hb]
    refine h.to t ⟨rfl, i, hi, ?_⟩
    have := hi.2.2.1
    refine Nat.lt_of_le_of_ne this fun hc => h2 hc _ he ?_
    rw [← hv]; exact hb
  · rw [if_neg hb]
    refine h.ret t (find_none_of (i := i) ?_ hi.2.2.2).symm
    have := hi.2.2.1
    refine Nat.le_antisymm this (Nat.le_of_not_lt fun hc => hb ?_)
    have hx := h1 _ (List.getElem?_eq_getElem hc)
    rw [he] at hx
    injection hx with hx
    rw [hv, hx]
    exact hpl _ _ (List.getElem_mem hc)

theorem Inv.go {s : Sys K V} (h : Inv L s) (t : Nat) : ∃ s', go L s t = some s' ∧ Inv L s' := by
  have hf := h.fine t
  unfold Table.go
  cases hpc : s.pc t with
  | idle => exact ⟨_, rfl, h⟩
  | get q =>
    refine ⟨_, rfl, ?_⟩
    by_cases h0 : s.hash q ≠ 0
    · rw [if_pos h0, (h.hash q).resolve_left h0]; exact h.enter t q
    · rw [if_neg h0]; exact h.to t trivial
  | put q => exact ⟨_, rfl, (h.put q).enter t q⟩
  | eq q hh p =>
    rw [hpc] at hf
    obtain ⟨rfl, i, hi, hil⟩ := hf
    obtain ⟨h1, h2, h3⟩ := at_chain hpos hpl hn ha hi
    have he := h1 _ (List.getElem?_eq_getElem hil)
    dsimp only
    rw [he]
    refine ⟨_, rfl, ?_⟩
    by_cases heq : L.c.eq (L.t.bkt (L.c.hash (L.val q) % L.t.n))[i].1 (L.val q) = true
    · rw [if_pos heq]
      refine h.ret t ?_
      unfold UMap.find
      symm
      rw [List.find?_eq_some_iff_getElem]
      refine ⟨heq, i, hil, rfl, fun j hj => ?_⟩
      rw [hi.2.2.2 _ (List.mem_take_iff_getElem.2 ⟨j, by omega, rfl⟩)]
      rfl
    · rw [if_neg heq]
      have heq : L.c.eq (L.t.bkt (L.c.hash (L.val q) % L.t.n))[i].1 (L.val q) = false := by
        cases hc : L.c.eq (L.t.bkt (L.c.hash (L.val q) % L.t.n))[i].1 (L.val q) with
        | true => exact absurd hc heq
        | false => rfl
      have hno : ∀ e ∈ (L.t.bkt (L.c.hash (L.val q) % L.t.n)).take (i + 1), L.c.eq e.1 (L.val q) = false := by
        intro e hm
        rw [List.take_succ, List.getElem?_eq_getElem hil] at hm
        rcases List.mem_append.1 hm with hm | hm
        · exact hi.2.2.2 e hm
        · simp only [Option.toList_some, List.mem_singleton] at hm; rw [hm]; exact heq
      have hat : At L q (p + 1) (i + 1) :=
        ⟨by rw [Nat.add_sub_add_right]; exact hi.1, Nat.succ_le_succ hi.2.1, hil, hno⟩
      by_cases hl : p + 1 < L.chain.length
      · rw [if_pos hl]
        exact h.to t ⟨rfl, hl, i + 1, hat⟩
      · rw [if_neg hl]
        exact h.ret t (find_none_of ((at_chain hpos hpl hn ha hat).2.2 (Nat.le_of_not_lt hl)) hno).symm
  | nget q hh p =>
    rw [hpc] at hf
    obtain ⟨rfl, hp, i, hi⟩ := hf
    refine ⟨_, rfl, ?_⟩
    by_cases hkp : L.keeps = true
    · rw [if_pos hkp]; exact h.further hpos hpl hn ha hk t hi hp
    · rw [if_neg hkp]
      by_cases h0 : s.hash p ≠ 0
      · rw [if_pos h0, (h.hash p).resolve_left h0]; exact h.further hpos hpl hn ha hk t hi hp
      · rw [if_neg h0]; exact h.to t ⟨rfl, hp, i, hi⟩
  | nput q hh p =>
    rw [hpc] at hf
    obtain ⟨rfl, hp, i, hi⟩ := hf
    exact ⟨_, rfl, (h.put p).further hpos hpl hn ha hk t hi hp⟩

end

variable {P : Nat → Nat → Prop} {s₀ s : Sys K V}

theorem Start.inv (h : Start L s₀) : Inv L s₀ :=
  ⟨h.hash, fun t => by rw [h.idle t]; trivial, fun t q r hm => by rw [h.log] at hm; cases hm⟩

theorem Reaches.inv {g : K → Option V} (ht : Is L.c L.t g) (h0 : Start L s₀) (h : Reaches L P s₀ s) : Inv L s := by
  induction h with
  | init => exact h0.inv
  | look _ _ _ ih => exact ih.to _ trivial
  | go _ hg ih =>
    rename_i t _
    obtain ⟨s', h1, h2⟩ := ih.go ht.wf.pos ht.wf.place h0.once h0.all h0.keys t
    rw [hg] at h1
    injection h1 with h1
    rw [h1]; exact h2

/-- **C93** No lookup is undefined under any schedule: every thread can always go on. -/
theorem c93_safe_partial {g : K → Option V} (ht : Is L.c L.t g) (h0 : Start L s₀) (h : Reaches L P s₀ s) (t : Nat) :
    ∃ s', go L s t = some s' := by
  obtain ⟨s', h1, -⟩ := (h.inv ht h0).go ht.wf.pos ht.wf.place h0.once h0.all h0.keys t
  exact ⟨s', h1⟩

/-- **C93** Every lookup finds what the table has under its key, for every table that is the map `g` (C53: all tables
are maps, whatever calls made them). -/
theorem c93_values_partial {g : K → Option V} (ht : Is L.c L.t g) (h0 : Start L s₀) (h : Reaches L P s₀ s)
    {t q : Nat} {r : Option (K × V)} (hr : (t, q, r) ∈ s.log) : r.map Prod.snd = g (L.val q) := by
  rw [(h.inv ht h0).log t q r hr, ← ht.look]
  rfl

/-! ## Remembered hashes -/

theorem enter_hash (s : Sys K V) (t q h : Nat) : (enter L s t q h).hash = s.hash := by
  unfold enter; split <;> rfl

theorem further_hash (s : Sys K V) (t q h p x : Nat) : (further L s t q h p x).hash = s.hash := by
  unfold further; split <;> rfl

theorem go_hash {s s' : Sys K V} {t : Nat} (h : go L s t = some s') (i : Nat) : s'.hash i = s.hash i ∨ s'.hash i = L.c.hash (L.val i) := by
  have hset : ∀ j, setFn s.hash j (L.c.hash (L.val j)) i = s.hash i ∨ setFn s.hash j (L.c.hash (L.val j)) i = L.c.hash (L.val i) := by
    intro j
    unfold setFn
    split
    · rename_i hj; subst hj; exact .inr rfl
    · exact .inl rfl
  unfold go at h
  split at h
  · injection h with h; subst h; exact .inl rfl
  · injection h with h; subst h; split
    · exact .inl (congrFun (enter_hash ..) i)
    · exact .inl rfl
  · injection h with h; subst h; rw [enter_hash]; exact hset _
  · split at h
    · cases h
    · injection h with h; subst h
      split
      · exact .inl rfl
      · split <;> exact .inl rfl
  · injection h with h; subst h
    split
    · exact .inl (congrFun (further_hash ..) i)
    · split
      · exact .inl (congrFun (further_hash ..) i)
      · exact .inl rfl
  · injection h with h; subst h; rw [further_hash]; exact hset _

/-- **C93** What an object remembers stays, and is its hash. -/
theorem c93_kept (h0 : Start L s₀) (h : Reaches L P s₀ s) (i : Nat) :
    (s.hash i = s₀.hash i ∨ s.hash i = L.c.hash (L.val i)) ∧ (s₀.hash i ≠ 0 → s.hash i = s₀.hash i) := by
  have h1 : s.hash i = s₀.hash i ∨ s.hash i = L.c.hash (L.val i) := by
    induction h with
    | init => exact .inl rfl
    | look _ _ _ ih => exact ih
    | go _ hg ih =>
      rcases go_hash hg i with h | h
      · rw [h]; exact ih
      · exact .inr h
  refine ⟨h1, fun hne => ?_⟩
  rcases h1 with h | h
  · exact h
  · rw [h, (h0.hash i).resolve_left hne]

/-! ## Data races -/

/-- What a thread may be about to store, for race freedom. -/
def Mine (L : Lib K V) (P : Nat → Nat → Prop) (s₀ : Sys K V) (t : Nat) : Pc → Prop
  | .idle | .eq _ _ _ => True
  | .get q => P t q
  | .put q => P t q ∧ s₀.hash q = 0
  | .nget _ _ p => p < L.chain.length
  | .nput _ _ _ => False

/-- **C93** If the keys in the table remember their hashes, or the library keeps them, and each key object that does not is
looked up by one thread only, no schedule leads to a data race. -/
theorem c93_race_free_partial (h0 : Start L s₀)
    (hkeys : L.keeps = false → ∀ p < L.chain.length, s₀.hash p ≠ 0) (hown : ∀ t t' q, P t q → P t' q → s₀.hash q = 0 → t = t')
    (h : Reaches L P s₀ s) : ¬ Races L s := by
  have hm : ∀ t, Mine L P s₀ t (s.pc t) := by
    induction h with
    | init => intro t; rw [h0.idle t]; trivial
    | @look s u q hr hi hp ih =>
      intro t
      unfold look Sys.to setFn
      dsimp only
      by_cases htu : t = u
      · subst htu; rw [if_pos rfl]; exact hp
      · rw [if_neg htu]; exact ih t
    | @go s s' u hr hg ih =>
      have hto : ∀ {s1 : Sys K V} {p : Pc}, s1.pc = s.pc → Mine L P s₀ u p → ∀ t, Mine L P s₀ t ((s1.to u p).pc t) := by
        intro s1 p he hp t
        unfold Sys.to setFn
        dsimp only
        by_cases htu : t = u
        · subst htu; rw [if_pos rfl]; exact hp
        · rw [if_neg htu, he]; exact ih t
      have hret : ∀ {s1 : Sys K V} {q : Nat} {r : Option (K × V)}, s1.pc = s.pc → ∀ t, Mine L P s₀ t ((s1.ret u q r).pc t) :=
        fun he t => hto (p := .idle) he trivial t
      have hent : ∀ {s1 : Sys K V} {q hh : Nat}, s1.pc = s.pc → ∀ t, Mine L P s₀ t ((enter L s1 u q hh).pc t) := by
        intro s1 q hh he t
        unfold enter
        split
        · exact hret he t
        · exact hto he (by trivial) t
      have hfur : ∀ {s1 : Sys K V} {q hh p x : Nat}, s1.pc = s.pc → ∀ t, Mine L P s₀ t ((further L s1 u q hh p x).pc t) := by
        intro s1 q hh p x he t
        unfold further
        split
        · exact hto he (by trivial) t
        · exact hret he t
      have hu := ih u
      unfold go at hg
      split at hg <;> rename_i hpc <;> rw [hpc] at hu
      · injection hg with hg; subst hg; exact ih
      · rename_i q
        injection hg with hg; subst hg
        split
        · exact hent rfl
        · rename_i hz
          refine hto rfl ⟨hu, ?_⟩
          apply Classical.byContradiction
          intro hne
          exact hz (by rw [(c93_kept h0 hr q).2 hne]; exact hne)
      · injection hg with hg; subst hg; exact hent rfl
      · split at hg
        · cases hg
        · injection hg with hg; subst hg
          split
          · exact hret rfl
          · split
            · rename_i hl; exact hto rfl hl
            · exact hret rfl
      · rename_i q hh p
        injection hg with hg; subst hg
        split
        · exact hfur rfl
        · rename_i hkp
          have hkeys := hkeys (Bool.not_eq_true _ ▸ hkp)
          split
          · exact hfur rfl
          · rename_i hz
            exact absurd (by rw [(c93_kept h0 hr p).2 (hkeys p hu)]; exact hkeys p hu) hz
      · exact hu.elim
  rintro ⟨t, t', l, w, w', hne, h1, h2, hw⟩
  -- a thread that stores is about to store the hash of the key it was asked for
  have key : ∀ t t' w', t ≠ t' → touches L (s.pc t) = some (l, true) → touches L (s.pc t') = some (l, w') → False := by
    intro t t' w' hne h1 h2
    have m1 := hm t
    have m2 := hm t'
    cases hp : s.pc t with
    | put q =>
      rw [hp] at h1 m1
      injection h1 with h1
      injection h1 with h1 _
      subst h1
      cases hp' : s.pc t' with
      | get q' =>
        rw [hp'] at h2 m2
        injection h2 with h2
        injection h2 with h2 _
        subst h2
        exact hne (hown _ _ _ m1.1 m2 m1.2)
      | put q' =>
        rw [hp'] at h2 m2
        injection h2 with h2
        injection h2 with h2 _
        subst h2
        exact hne (hown _ _ _ m1.1 m2.1 m1.2)
      | nget q' hh p =>
        rw [hp'] at h2 m2
        have h2 : (if L.keeps = true then none else some (p, false)) = some (q, w') := h2
        by_cases hkp : L.keeps = true
        · rw [if_pos hkp] at h2; cases h2
        · rw [if_neg hkp] at h2
          injection h2 with h2
          injection h2 with h2 _
          subst h2
          exact hkeys (Bool.not_eq_true _ ▸ hkp) _ m2 m1.2
      | nput q' hh p => rw [hp'] at m2; exact m2.elim
      | idle => rw [hp'] at h2; cases h2
      | eq _ _ _ => rw [hp'] at h2; cases h2
    | nput q hh p => rw [hp] at m1; exact m1.elim
    | get q => rw [hp] at h1; injection h1 with h1; injection h1 with _ h1; cases h1
    | nget q hh p =>
      rw [hp] at h1
      have h1 : (if L.keeps = true then none else some (p, false)) = some (l, true) := h1
      by_cases hkp : L.keeps = true
      · rw [if_pos hkp] at h1; cases h1
      · rw [if_neg hkp] at h1; injection h1 with h1; injection h1 with _ h1; cases h1
    | idle => rw [hp] at h1; cases h1
    | eq _ _ _ => rw [hp] at h1; cases h1
  rcases hw with rfl | rfl
  · exact key t t' w' hne h1 h2
  · exact key t' t w (Ne.symm hne) h2 h1

/-! ## Lookups end -/

/-- The threads in `ts` go on, in this order. -/
def goes (L : Lib K V) : List Nat → Sys K V → Option (Sys K V)
  | [], s => some s
  | t :: ts, s => (go L s t).bind (goes L ts)

/-- Steps left. -/
def left (n : Nat) : Pc → Nat
  | .idle => 0
  | .get _ => 3 * n + 2
  | .put _ => 3 * n + 1
  | .eq _ _ p => 3 * (n - p)
  | .nget _ _ p => 3 * (n - p) + 2
  | .nput _ _ p => 3 * (n - p) + 1

/-- The object a thread is looking up. -/
def asks : Pc → Option Nat
  | .idle => none
  | .get q | .put q | .eq q _ _ | .nget q _ _ | .nput q _ _ => some q

/-- Thread `u` goes on: it comes nearer to the end, or it ends and the result is recorded; the others stay where they are. -/
theorem go_left {s s' : Sys K V} {u : Nat} (hi : Inv L s) (h : go L s u = some s') :
    (∀ t, t ≠ u → s'.pc t = s.pc t) ∧ (∀ x ∈ s.log, x ∈ s'.log) ∧
    ∀ q, asks (s.pc u) = some q → left L.chain.length (s'.pc u) < left L.chain.length (s.pc u) ∧
      (asks (s'.pc u) = some q ∨ s'.pc u = .idle ∧ ∃ r, (u, q, r) ∈ s'.log) := by
  have hto : ∀ {s1 : Sys K V} {p : Pc}, s1.pc = s.pc → s1.log = s.log →
      (∀ t, t ≠ u → (s1.to u p).pc t = s.pc t) ∧ (∀ x ∈ s.log, x ∈ (s1.to u p).log) ∧ (s1.to u p).pc u = p := by
    intro s1 p h1 h2
    refine ⟨fun t ht => ?_, fun x hx => h2 ▸ hx, setFn_same ..⟩
    rw [← h1]; exact setFn_ne _ _ ht
  have hret : ∀ {s1 : Sys K V} {q : Nat} {r : Option (K × V)}, s1.pc = s.pc → s1.log = s.log →
      (∀ t, t ≠ u → (s1.ret u q r).pc t = s.pc t) ∧ (∀ x ∈ s.log, x ∈ (s1.ret u q r).log) ∧ (s1.ret u q r).pc u = .idle ∧
      (u, q, r) ∈ (s1.ret u q r).log := by
    intro s1 q r h1 h2
    refine ⟨(hto (p := .idle) h1 h2).1, fun x hx => ?_, setFn_same .., ?_⟩
    · exact List.mem_append_left _ (h2 ▸ hx)
    · exact List.mem_append_right _ (List.mem_singleton.2 rfl)
  -- the two ways to end a step
  have step : ∀ {s1 : Sys K V} {q : Nat} {p : Pc}, s1.pc = s.pc → s1.log = s.log → asks p = some q →
      left L.chain.length p < left L.chain.length (s.pc u) →
      (∀ t, t ≠ u → (s1.to u p).pc t = s.pc t) ∧ (∀ x ∈ s.log, x ∈ (s1.to u p).log) ∧
      (left L.chain.length ((s1.to u p).pc u) < left L.chain.length (s.pc u) ∧
        (asks ((s1.to u p).pc u) = some q ∨ (s1.to u p).pc u = .idle ∧ ∃ r, (u, q, r) ∈ (s1.to u p).log)) := by
    intro s1 q p h1 h2 ha hl
    obtain ⟨a, b, c⟩ := hto (p := p) h1 h2
    exact ⟨a, b, by rw [c]; exact ⟨hl, .inl ha⟩⟩
  have done : ∀ {s1 : Sys K V} {q : Nat} {r : Option (K × V)}, s1.pc = s.pc → s1.log = s.log →
      0 < left L.chain.length (s.pc u) →
      (∀ t, t ≠ u → (s1.ret u q r).pc t = s.pc t) ∧ (∀ x ∈ s.log, x ∈ (s1.ret u q r).log) ∧
      (left L.chain.length ((s1.ret u q r).pc u) < left L.chain.length (s.pc u) ∧
        (asks ((s1.ret u q r).pc u) = some q ∨ (s1.ret u q r).pc u = .idle ∧ ∃ r', (u, q, r') ∈ (s1.ret u q r).log)) := by
    intro s1 q r h1 h2 hl
    obtain ⟨a, b, c, d⟩ := hret (q := q) (r := r) h1 h2
    exact ⟨a, b, by rw [c]; exact ⟨hl, .inr ⟨rfl, r, d⟩⟩⟩
  have hent : ∀ {s1 : Sys K V} {q hh : Nat}, s1.pc = s.pc → s1.log = s.log → 3 * L.chain.length < left L.chain.length (s.pc u) →
      (∀ t, t ≠ u → (enter L s1 u q hh).pc t = s.pc t) ∧ (∀ x ∈ s.log, x ∈ (enter L s1 u q hh).log) ∧
      (left L.chain.length ((enter L s1 u q hh).pc u) < left L.chain.length (s.pc u) ∧
        (asks ((enter L s1 u q hh).pc u) = some q ∨ (enter L s1 u q hh).pc u = .idle ∧ ∃ r', (u, q, r') ∈ (enter L s1 u q hh).log)) := by
    intro s1 q hh h1 h2 hl
    unfold enter
    split
    · exact done h1 h2 (by omega)
    · rename_i p _
      exact step h1 h2 rfl (by show 3 * (L.chain.length - p) < _; omega)
  have hfur : ∀ {s1 : Sys K V} {q hh p x : Nat}, s1.pc = s.pc → s1.log = s.log → 3 * (L.chain.length - p) < left L.chain.length (s.pc u) →
      (∀ t, t ≠ u → (further L s1 u q hh p x).pc t = s.pc t) ∧ (∀ y ∈ s.log, y ∈ (further L s1 u q hh p x).log) ∧
      (left L.chain.length ((further L s1 u q hh p x).pc u) < left L.chain.length (s.pc u) ∧
        (asks ((further L s1 u q hh p x).pc u) = some q ∨ (further L s1 u q hh p x).pc u = .idle ∧
          ∃ r', (u, q, r') ∈ (further L s1 u q hh p x).log)) := by
    intro s1 q hh p x h1 h2 hl
    unfold further
    split
    · exact step h1 h2 rfl hl
    · exact done h1 h2 (by omega)
  suffices hs : s.pc u = .idle ∧ s' = s ∨ ∃ q, asks (s.pc u) = some q ∧ (∀ t, t ≠ u → s'.pc t = s.pc t) ∧ (∀ x ∈ s.log, x ∈ s'.log) ∧
      (left L.chain.length (s'.pc u) < left L.chain.length (s.pc u) ∧
        (asks (s'.pc u) = some q ∨ s'.pc u = .idle ∧ ∃ r', (u, q, r') ∈ s'.log)) by
    rcases hs with ⟨h1, h2⟩ | ⟨q, h1, h2, h3, h4⟩
    · rw [h2, h1]; exact ⟨fun _ _ => rfl, fun _ hx => hx, fun q hq => nomatch hq⟩
    · refine ⟨h2, h3, fun q' hq' => ?_⟩
      rw [h1] at hq'
      injection hq' with hq'
      subst hq'
      exact h4
  have hf := hi.fine u
  unfold go at h
  cases hpc : s.pc u with
  | idle =>
    rw [hpc] at h
    injection h with h
    exact .inl ⟨rfl, h.symm⟩
  | get q =>
    rw [hpc] at h
    injection h with h; subst h
    refine .inr ⟨q, rfl, ?_⟩
    rw [← hpc]
    split
    · exact hent rfl rfl (by rw [hpc]; unfold left; dsimp only; omega)
    · exact step rfl rfl rfl (by rw [hpc]; unfold left; dsimp only; omega)
  | put q =>
    rw [hpc] at h
    injection h with h; subst h
    refine .inr ⟨q, rfl, ?_⟩
    rw [← hpc]
    exact hent rfl rfl (by rw [hpc]; unfold left; dsimp only; omega)
  | eq q hh p =>
    rw [hpc] at h hf
    refine .inr ⟨q, rfl, ?_⟩
    rw [← hpc]
    dsimp only at h
    split at h
    · cases h
    · rename_i e he
      have hp := (List.getElem?_eq_some_iff.1 he).1
      injection h with h; subst h
      split
      · exact done rfl rfl (by rw [hpc]; unfold left; dsimp only; omega)
      · split
        · exact step rfl rfl rfl (by rw [hpc]; unfold left; dsimp only; omega)
        · exact done rfl rfl (by rw [hpc]; unfold left; dsimp only; omega)
  | nget q hh p =>
    rw [hpc] at h
    injection h with h; subst h
    refine .inr ⟨q, rfl, ?_⟩
    rw [← hpc]
    split
    · exact hfur rfl rfl (by rw [hpc]; unfold left; dsimp only; omega)
    · split
      · exact hfur rfl rfl (by rw [hpc]; unfold left; dsimp only; omega)
      · exact step rfl rfl rfl (by rw [hpc]; unfold left; dsimp only; omega)
  | nput q hh p =>
    rw [hpc] at h
    injection h with h; subst h
    refine .inr ⟨q, rfl, ?_⟩
    rw [← hpc]
    exact hfur rfl rfl (by rw [hpc]; unfold left; dsimp only; omega)

theorem goes_left {g : K → Option V} (ht : Is L.c L.t g) (h0 : Start L s₀) {t q : Nat} : ∀ {ts : List Nat} {s s' : Sys K V},
    Reaches L P s₀ s → goes L ts s = some s' → (asks (s.pc t) = some q ∧ left L.chain.length (s.pc t) ≤ ts.count t ∨
      s.pc t = .idle ∧ ∃ r, (t, q, r) ∈ s.log) → s'.pc t = .idle ∧ ∃ r, (t, q, r) ∈ s'.log := by
  intro ts
  induction ts with
  | nil =>
    intro s s' hr hg h
    injection hg with hg
    subst hg
    rcases h with ⟨h1, h2⟩ | h
    · have hn : left L.chain.length (s.pc t) = 0 := Nat.le_zero.1 h2
      have hf := (hr.inv ht h0).fine t
      cases hpc : s.pc t with
      | idle => rw [hpc] at h1; cases h1
      | eq q' hh p =>
        rw [hpc] at hn hf
        obtain ⟨-, i, hi, hil⟩ := hf
        have he := (at_chain ht.wf.pos ht.wf.place h0.once h0.all hi).1 _ (List.getElem?_eq_getElem hil)
        have hp := (List.getElem?_eq_some_iff.1 he).1
        unfold left at hn
        dsimp only at hn
        omega
      | get _ => rw [hpc] at hn; unfold left at hn; dsimp only at hn; omega
      | put _ => rw [hpc] at hn; unfold left at hn; dsimp only at hn; omega
      | nget _ _ _ => rw [hpc] at hn; unfold left at hn; dsimp only at hn; omega
      | nput _ _ _ => rw [hpc] at hn; unfold left at hn; dsimp only at hn; omega
    · exact h
  | cons u ts ih =>
    intro s s' hr hg h
    cases h1 : go L s u with
    | none => unfold goes at hg; rw [h1] at hg; cases hg
    | some s1 =>
      unfold goes at hg
      rw [h1] at hg
      obtain ⟨ho, hl, hd⟩ := go_left (hr.inv ht h0) h1
      refine ih (.go hr h1) hg ?_
      by_cases hut : t = u
      · subst hut
        rw [List.count_cons_self] at h
        rcases h with ⟨ha, hc⟩ | ⟨ha, r, hm⟩
        · obtain ⟨hd1, hd2⟩ := hd q ha
          rcases hd2 with hd2 | hd2
          · exact .inl ⟨hd2, by omega⟩
          · exact .inr hd2
        · refine .inr ⟨?_, r, hl _ hm⟩
          unfold go at h1
          rw [ha] at h1
          injection h1 with h1
          rw [← h1]; exact ha
      · rw [List.count_cons_of_ne (Ne.symm hut)] at h
        rw [ho t hut]
        rcases h with h | ⟨ha, r, hm⟩
        · exact .inl h
        · exact .inr ⟨ha, r, hl _ hm⟩

/-- **C93** A lookup ends after at most `3 n + 2` steps of its own thread (`n` entries), whatever the others do and
whenever they do it. -/
theorem c93_finishes {g : K → Option V} (ht : Is L.c L.t g) (h0 : Start L s₀) (h : Reaches L P s₀ s) {t q : Nat}
    (hq : s.pc t = .get q) {ts : List Nat} (hts : 3 * L.chain.length + 2 ≤ ts.count t) {s' : Sys K V} (hg : goes L ts s = some s') :
    s'.pc t = .idle ∧ ∃ r, (t, q, r) ∈ s'.log :=
  goes_left ht h0 h hg (.inl (by rw [hq]; exact ⟨rfl, hts⟩))

/-! ## Races -/

/-- **C93 refuted** Two threads look up the same key object, which does not remember its hash: some schedule has a data race. -/
theorem c93_refuted_key (h0 : Start L s₀) {t t' q : Nat} (hne : t ≠ t') (hq : s₀.hash q = 0) (h1 : P t q) (h2 : P t' q) :
    ∃ s, Reaches L P s₀ s ∧ Races L s := by
  have r1 : Reaches L P s₀ (look s₀ t q) := .look .init (h0.idle t) h1
  have r2 : Reaches L P s₀ (look (look s₀ t q) t' q) :=
    .look r1 ((setFn_ne _ _ (Ne.symm hne)).trans (h0.idle t')) h2
  have p1 : (look (look s₀ t q) t' q).pc t = .get q := (setFn_ne _ _ hne).trans (setFn_same ..)
  have p2 : (look (look s₀ t q) t' q).pc t' = .get q := setFn_same ..
  have g1 : go L (look (look s₀ t q) t' q) t = some ((look (look s₀ t q) t' q).to t (.put q)) := by
    unfold go
    rw [p1]
    dsimp only
    rw [if_neg (by show ¬ s₀.hash q ≠ 0; simp [hq])]
  refine ⟨_, .go r2 g1, t, t', q, true, false, hne, ?_, ?_, .inl rfl⟩
  · exact congrArg (touches L) (setFn_same ..)
  · exact congrArg (touches L) ((setFn_ne _ _ (Ne.symm hne)).trans p2)

/-- A thread on its way to the entry behind the first of its bucket. -/
theorem walk {s : Sys K V} (hr : Reaches L P s₀ s) {t q p : Nat} {e : K × V} (hi : s.pc t = .idle) (hP : P t q) (hh : s.hash q ≠ 0)
    (hs : L.start (s.hash q % L.t.n) = some p) (he : L.chain[p]? = some e) (hx : L.c.eq e.1 (L.val q) = false) (hl : p + 1 < L.chain.length) :
    ∃ s', Reaches L P s₀ s' ∧ s'.pc t = .nget q (s.hash q) (p + 1) ∧ s'.hash = s.hash ∧ ∀ u, u ≠ t → s'.pc u = s.pc u := by
  have g1 : go L (look s t q) t = some ((look s t q).to t (.eq q (s.hash q) p)) := by
    unfold go
    rw [show (look s t q).pc t = .get q from setFn_same ..]
    dsimp only
    rw [if_pos (show (look s t q).hash q ≠ 0 from hh)]
    unfold enter
    rw [show (look s t q).hash = s.hash from rfl, hs]
  have g2 : go L ((look s t q).to t (.eq q (s.hash q) p)) t =
      some (((look s t q).to t (.eq q (s.hash q) p)).to t (.nget q (s.hash q) (p + 1))) := by
    unfold go
    rw [show ((look s t q).to t (.eq q (s.hash q) p)).pc t = .eq q (s.hash q) p from setFn_same ..]
    dsimp only
    rw [he]
    dsimp only
    rw [hx, if_neg Bool.false_ne_true, if_pos hl]
  refine ⟨_, .go (.go (.look hr hi hP) g1) g2, setFn_same .., rfl, fun u hu => ?_⟩
  exact (setFn_ne _ _ hu).trans ((setFn_ne _ _ hu).trans (setFn_ne _ _ hu))

/-- **C93 refuted** A key in the table whose hash is 0 never remembers it.  Two threads look up other keys, with key
objects of their own that remember their hashes; if that takes both past that entry, some schedule has a data race,
from every state in which the two are not looking up anything. -/
theorem c93_refuted_zero (hkp : L.keeps = false) (h0 : Start L s₀) (h : Reaches L P s₀ s) {t t' q q' p : Nat} {e : K × V} (hne : t ≠ t')
    (hi : s.pc t = .idle) (hi' : s.pc t' = .idle) (hP : P t q) (hP' : P t' q') (hq : s₀.hash q ≠ 0) (hq' : s₀.hash q' ≠ 0)
    (hs : L.start (s₀.hash q % L.t.n) = some p) (hs' : L.start (s₀.hash q' % L.t.n) = some p) (he : L.chain[p]? = some e)
    (hx : L.c.eq e.1 (L.val q) = false) (hx' : L.c.eq e.1 (L.val q') = false) (hl : p + 1 < L.chain.length)
    (hz0 : s₀.hash (p + 1) = 0) (hz : L.c.hash (L.val (p + 1)) = 0) :
    ∃ s', Reaches L P s₀ s' ∧ Races L s' := by
  have k1 := (c93_kept h0 h q).2 hq
  have k2 := (c93_kept h0 h q').2 hq'
  have k3 : s.hash (p + 1) = 0 := by
    rcases (c93_kept h0 h (p + 1)).1 with h | h
    · rw [h, hz0]
    · rw [h, hz]
  obtain ⟨s1, r1, a1, b1, c1⟩ := walk h hi hP (by rw [k1]; exact hq) (by rw [k1]; exact hs) he hx hl
  obtain ⟨s2, r2, a2, b2, c2⟩ := walk (t := t') (q := q') r1 (by rw [c1 t' (Ne.symm hne)]; exact hi') hP' (by rw [b1, k2]; exact hq')
    (by rw [b1, k2]; exact hs') he hx' hl
  have p1 : s2.pc t = .nget q (s.hash q) (p + 1) := (c2 t hne).trans a1
  have g1 : go L s2 t = some (s2.to t (.nput q (s.hash q) (p + 1))) := by
    unfold go
    rw [p1]
    dsimp only
    rw [hkp, if_neg Bool.false_ne_true, if_neg (by rw [b2, b1, k3]; simp)]
  refine ⟨_, .go r2 g1, t, t', p + 1, true, false, hne, ?_, ?_, .inl rfl⟩
  · exact congrArg (touches L) (setFn_same ..)
  · refine (congrArg (touches L) ((setFn_ne _ _ (Ne.symm hne)).trans a2)).trans ?_
    show (if L.keeps = true then none else some (p + 1, false)) = _
    rw [hkp]; rfl

/-! ## A case -/

/-- Texts with the hash of the code for `char`s up to 127. -/
def texts : Types (List UInt8) Nat := ⟨fun a b => a = b, fun v => djb UInt8.toNat v, 0, fun _ _ => none⟩

theorem textsLawful : texts.Lawful where
  refl := by simp [texts]
  symm := by simp only [texts, decide_eq_true_iff]; intro a b _ _ h; exact h.symm
  trans := by simp only [texts, decide_eq_true_iff]; intro a b d _ _ _ h h'; exact h.trans h'
  hash := by simp only [texts, decide_eq_true_iff]; intro a b _ _ h; rw [h]

/-- "glidpk" has the hash 0. -/
example : djb UInt8.toNat [103, 108, 105, 100, 112, 107] = 0 := by decide +kernel

/-- A table of one bucket: "a", "glidpk". -/
def two : UMap (List UInt8) Nat := Hash.set texts (Hash.set texts (UMap.empty 1) [103, 108, 105, 100, 112, 107] 1) [97] 2

theorem two_is : Is texts two (mapSet texts.eq (mapSet texts.eq (fun _ => none) [103, 108, 105, 100, 112, 107] 1) [97] 2) :=
  ((is_empty 1).set textsLawful _ _).set textsLawful _ _

/-- Keys asked for are "b" (objects 2 and 3) and "a" (all others). -/
def case (keeps : Bool) : Lib (List UInt8) Nat :=
  ⟨texts, two, [0], fun i => if i = 1 then [103, 108, 105, 100, 112, 107] else if i = 2 ∨ i = 3 then [98] else [97], keeps⟩

/-- All objects remember their hashes (it is 0 for "glidpk"). -/
def begins : Sys (List UInt8) Nat := ⟨fun i => texts.hash ((case false).val i), fun _ => .idle, []⟩

theorem case_start (keeps : Bool) : Start (case keeps) begins where
  once := by cases keeps <;> decide
  all := by intro b hb; have : b = 0 := by unfold case two at hb; exact Nat.lt_one_iff.1 hb
            subst this; cases keeps <;> decide
  keys := by
    have hc : (case keeps).chain = [([97], 2), ([103, 108, 105, 100, 112, 107], 1)] := by cases keeps <;> decide +kernel
    intro p e he
    rw [hc] at he
    match p with
    | 0 => injection he with he; subst he; rfl
    | 1 => injection he with he; subst he; rfl
    | p + 2 => cases he
  hash := fun _ => .inr rfl
  idle := fun _ => rfl
  log := rfl

/-- Two threads look up "b" and race on "glidpk". -/
example : ∃ s, Reaches (case false) (fun t q => t < 2 ∧ q = t + 2) begins s ∧ Races (case false) s :=
  c93_refuted_zero (t := 0) (t' := 1) (q := 2) (q' := 3) (p := 0) (e := ([97], 2)) rfl (case_start false) .init (by decide) rfl rfl
    ⟨by decide, rfl⟩ ⟨by decide, rfl⟩ (by decide +kernel) (by decide +kernel) (by decide +kernel) (by decide +kernel) (by decide +kernel) (by decide +kernel)
    (by decide +kernel) (by decide +kernel) (by decide +kernel) (by decide +kernel)

/-- With a library that keeps the hashes there is no race. -/
example {s : Sys (List UInt8) Nat} (h : Reaches (case true) (fun t q => t < 2 ∧ q = t + 2) begins s) : ¬ Races (case true) s :=
  c93_race_free_partial (case_start true) (fun h => nomatch h) (fun t t' q h1 h2 _ => by omega) h

/-- … and thread 0 finds "a" under object 4. -/
example : ∃ s, Reaches (case true) (fun _ _ => True) begins s ∧ (0, 4, some ([97], 2)) ∈ s.log := by
  refine ⟨_, .go (t := 0) (.go (t := 0) (s' := (look begins 0 4).to 0 (.eq 4 (texts.hash [97]) 0)) (.look .init (t := 0) (q := 4) rfl trivial) ?_)
    (s' := ((look begins 0 4).to 0 (.eq 4 (texts.hash [97]) 0)).ret 0 4 (some ([97], 2))) ?_, ?_⟩
  · have h : (look begins 0 4).hash 4 ≠ 0 := by decide +kernel
    show some (if (look begins 0 4).hash 4 ≠ 0 then _ else _) = _
    rw [if_pos h]
    unfold enter
    rw [show (case true).start ((look begins 0 4).hash 4 % (case true).t.n) = some 0 by decide +kernel]
    rfl
  · unfold go
    rw [show ((look begins 0 4).to 0 (.eq 4 (texts.hash [97]) 0)).pc 0 = .eq 4 (texts.hash [97]) 0 from rfl]
    dsimp only
    rw [show (case true).chain[0]? = some ([97], 2) by decide +kernel]
    rfl
  · exact List.mem_singleton.2 rfl

end Bdlib.Table
