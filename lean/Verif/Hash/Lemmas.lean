import Verif.Hash.Model

/-!
# The buckets represent a finite map
-/

namespace Bdlib.Hash
open Bdlib.Spec

variable {K V : Type}

/-- Laws for the keys in use: `==` is an equivalence and equal keys have the same hash. -/
structure Laws (c : Types K V) (ok : K → Prop) : Prop where
  refl : ∀ a, ok a → c.eq a a = true
  symm : ∀ a b, ok a → ok b → c.eq a b = true → c.eq b a = true
  trans : ∀ a b d, ok a → ok b → ok d → c.eq a b = true → c.eq b d = true → c.eq a d = true
  hash : ∀ a b, ok a → ok b → c.eq a b = true → c.hash a = c.hash b

theorem setFn_same {β : Type} (f : Nat → β) (a : Nat) (b : β) : setFn f a b a = b := by simp [setFn]
theorem setFn_ne {β : Type} (f : Nat → β) {a x : Nat} (b : β) (h : x ≠ a) : setFn f a b x = f x := by simp [setFn, h]

/-- Changing one bucket. -/
theorem flatMap_set {b : Nat → List (K × V)} {i : Nat} {x : List (K × V)} : ∀ {l : List Nat}, l.Nodup → i ∈ l →
    (l.flatMap (setFn b i x) ++ b i).Perm (l.flatMap b ++ x)
  | [], _, h => by cases h
  | j :: l, hn, h => by
    rw [List.nodup_cons] at hn
    by_cases hj : i = j
    · subst hj
      have : l.flatMap (setFn b i x) = l.flatMap b := by
        simp only [List.flatMap]
        congr 1
        exact List.map_congr_left fun y hy => setFn_ne _ _ (by rintro rfl; exact hn.1 hy)
      rw [List.flatMap_cons, List.flatMap_cons, setFn_same, this]
      refine (List.perm_append_comm (l₁ := x ++ l.flatMap b)).trans ?_
      rw [List.append_assoc]
      exact List.Perm.append_left _ List.perm_append_comm
    · have hi : i ∈ l := (List.mem_cons.1 h).resolve_left hj
      rw [List.flatMap_cons, List.flatMap_cons, setFn_ne _ _ (fun e => hj e.symm), List.append_assoc, List.append_assoc]
      exact List.Perm.append_left _ (flatMap_set hn.2 hi)

/-- The representation invariant. -/
structure WF (c : Types K V) (ok : K → Prop) (m : UMap K V) : Prop where
  pos : 0 < m.n
  place : ∀ i, ∀ p ∈ m.bkt i, c.hash p.1 % m.n = i
  once : ∀ i, (m.bkt i).Pairwise fun p q => c.eq p.1 q.1 = false
  good : ∀ i, ∀ p ∈ m.bkt i, ok p.1
  count : m.count = m.entries.length

variable {c : Types K V} {ok : K → Prop} {m : UMap K V}

theorem mem_entries (h : WF c ok m) {p : K × V} : p ∈ m.entries ↔ p ∈ m.bkt (c.hash p.1 % m.n) := by
  unfold UMap.entries
  rw [List.mem_flatMap]
  constructor
  · rintro ⟨i, -, hp⟩
    rw [h.place i p hp]
    exact hp
  · intro hp
    exact ⟨_, List.mem_range.2 (Nat.mod_lt _ h.pos), hp⟩

/-- The map the table represents. -/
def look (c : Types K V) (m : UMap K V) (k : K) : Option V := (m.find c k).map Prod.snd

theorem find_some (hl : Laws c ok) (h : WF c ok m) {k : K} (hk : ok k) {p : K × V} :
    m.find c k = some p ↔ p ∈ m.entries ∧ c.eq p.1 k = true := by
  unfold UMap.find
  constructor
  · intro hf
    have he : c.eq p.1 k = true := by simpa using List.find?_some hf
    have hm := List.mem_of_find?_eq_some hf
    refine ⟨?_, he⟩
    rw [mem_entries h]
    have := h.place _ p hm
    rw [this]
    exact hm
  · rintro ⟨hm, he⟩
    rw [mem_entries h] at hm
    have hok := h.good _ p hm
    rw [← hl.hash p.1 k hok hk he]
    cases hf : (m.bkt (c.hash p.1 % m.n)).find? fun p => c.eq p.1 k with
    | none =>
      rw [List.find?_eq_none] at hf
      exact absurd he (hf p hm)
    | some q =>
      have hq : c.eq q.1 k = true := by simpa using List.find?_some hf
      have hqm := List.mem_of_find?_eq_some hf
      have hqo := h.good _ q hqm
      have ho := h.once (c.hash p.1 % m.n)
      have hqp : c.eq q.1 p.1 = true := hl.trans _ _ _ hqo hk hok hq (hl.symm _ _ hok hk he)
      have hpq := hl.symm _ _ hqo hok hqp
      congr 1
      revert hm hqm ho
      generalize m.bkt (c.hash p.1 % m.n) = l
      intro hm hqm ho
      induction l with
      | nil => cases hm
      | cons a l ih =>
        rw [List.pairwise_cons] at ho
        rcases List.mem_cons.1 hm with hpa | hpl
        · rcases List.mem_cons.1 hqm with hqa | hql
          · rw [hqa, hpa]
          · rw [hpa, ho.1 q hql] at hpq; cases hpq
        · rcases List.mem_cons.1 hqm with hqa | hql
          · rw [hqa, ho.1 p hpl] at hqp; cases hqp
          · exact ih hpl hql ho.2

theorem find_none (hl : Laws c ok) (h : WF c ok m) {k : K} (hk : ok k) :
    m.find c k = none ↔ ∀ p ∈ m.entries, c.eq p.1 k = false := by
  constructor
  · intro hf p hp
    cases he : c.eq p.1 k with
    | false => rfl
    | true => rw [(find_some hl h hk).2 ⟨hp, he⟩] at hf; cases hf
  · intro ha
    cases hf : m.find c k with
    | none => rfl
    | some p =>
      obtain ⟨h1, h2⟩ := (find_some hl h hk).1 hf
      rw [ha p h1] at h2; cases h2

theorem entries_ok (h : WF c ok m) {p : K × V} (hp : p ∈ m.entries) : ok p.1 := h.good _ p ((mem_entries h).1 hp)

theorem entries_once (hl : Laws c ok) (h : WF c ok m) : m.entries.Pairwise fun p q => c.eq p.1 q.1 = false := by
  unfold UMap.entries
  rw [List.pairwise_flatMap]
  refine ⟨fun i _ => h.once i, ?_⟩
  refine List.Pairwise.imp ?_ List.nodup_range
  intro i j hij p hp q hq
  cases he : c.eq p.1 q.1 with
  | false => rfl
  | true =>
    have := hl.hash _ _ (h.good i p hp) (h.good j q hq) he
    have h1 := h.place i p hp
    have h2 := h.place j q hq
    rw [this] at h1
    exact absurd (h1.symm.trans h2) hij

theorem entries_empty (n : Nat) : (UMap.empty n : UMap K V).entries = [] := by
  simp [UMap.empty, UMap.entries]

theorem wf_empty (n : Nat) : WF c ok (UMap.empty n : UMap K V) where
  pos := by unfold UMap.empty; exact Nat.lt_of_lt_of_le Nat.one_pos (Nat.le_max_right ..)
  place := nofun
  once := fun _ => List.Pairwise.nil
  good := nofun
  count := by rw [entries_empty]; rfl

theorem entries_set (h : 0 < m.n) {i : Nat} (hi : i < m.n) (x : List (K × V)) (k : Nat) :
    (({ m with bkt := setFn m.bkt i x, count := k } : UMap K V).entries ++ m.bkt i).Perm (m.entries ++ x) :=
  flatMap_set List.nodup_range (List.mem_range.2 hi)

/-- Inserting an entry whose key is not there. -/
theorem wf_push (hl : Laws c ok) (h : WF c ok m) {p : K × V} (hp : ok p.1) (hn : ∀ q ∈ m.entries, c.eq q.1 p.1 = false) :
    WF c ok (m.push c p) ∧ (m.push c p).entries.Perm (p :: m.entries) := by
  have hperm : (m.push c p).entries.Perm (p :: m.entries) := by
    have := entries_set (m := m) h.pos (Nat.mod_lt (c.hash p.1) h.pos) (p :: m.bkt (c.hash p.1 % m.n)) (m.count + 1)
    refine (List.perm_append_right_iff (m.bkt (c.hash p.1 % m.n))).1 (this.trans ?_)
    exact List.perm_middle
  refine ⟨⟨h.pos, fun i q hq => ?_, fun i => ?_, fun i q hq => ?_, ?_⟩, hperm⟩
  · simp only [UMap.push] at hq ⊢
    by_cases hi : i = c.hash p.1 % m.n
    · subst hi
      rw [setFn_same] at hq
      rcases List.mem_cons.1 hq with rfl | hq
      · rfl
      · exact h.place _ q hq
    · rw [setFn_ne _ _ hi] at hq
      exact h.place i q hq
  · simp only [UMap.push]
    by_cases hi : i = c.hash p.1 % m.n
    · subst hi
      rw [setFn_same, List.pairwise_cons]
      refine ⟨fun q hq => ?_, h.once _⟩
      have hqm : q ∈ m.entries := by rw [mem_entries h, h.place _ q hq]; exact hq
      cases he : c.eq p.1 q.1 with
      | false => rfl
      | true =>
        have := hn q hqm
        rw [hl.symm _ _ hp (h.good _ q hq) he] at this; cases this
    · rw [setFn_ne _ _ hi]; exact h.once i
  · simp only [UMap.push] at hq
    by_cases hi : i = c.hash p.1 % m.n
    · subst hi
      rw [setFn_same] at hq
      rcases List.mem_cons.1 hq with rfl | hq
      · exact hp
      · exact h.good _ q hq
    · rw [setFn_ne _ _ hi] at hq
      exact h.good i q hq
  · rw [hperm.length_eq, List.length_cons, ← h.count]; rfl

theorem wf_pushes (hl : Laws c ok) : ∀ (l : List (K × V)) {m : UMap K V}, WF c ok m → (∀ p ∈ l, ok p.1) →
    (l.Pairwise fun p q => c.eq p.1 q.1 = false) → (∀ p ∈ l, ∀ q ∈ m.entries, c.eq q.1 p.1 = false) →
    WF c ok (l.foldl (UMap.push c) m) ∧ (l.foldl (UMap.push c) m).entries.Perm (l ++ m.entries)
  | [], m, h, _, _, _ => ⟨h, List.Perm.refl _⟩
  | p :: l, m, h, ho, hp, hn => by
    rw [List.pairwise_cons] at hp
    obtain ⟨h1, h2⟩ := wf_push hl h (ho p (List.mem_cons_self ..)) (hn p (List.mem_cons_self ..))
    have := wf_pushes hl l h1 (fun q hq => ho q (List.mem_cons_of_mem _ hq)) hp.2 (fun q hq r hr => by
      rcases List.mem_cons.1 (h2.mem_iff.1 hr) with rfl | hr
      · exact hp.1 q hq
      · exact hn q (List.mem_cons_of_mem _ hq) r hr)
    refine ⟨this.1, this.2.trans ?_⟩
    exact (List.Perm.append_left l h2).trans List.perm_middle

theorem wf_rehash (hl : Laws c ok) (h : WF c ok m) (n : Nat) : WF c ok (m.rehash c n) ∧ (m.rehash c n).entries.Perm m.entries := by
  have := wf_pushes hl m.entries (m := UMap.empty n) (wf_empty n) (fun p hp => entries_ok h hp) (entries_once hl h)
    (fun p _ q hq => by rw [entries_empty] at hq; cases hq)
  rw [entries_empty, List.append_nil] at this
  exact this

theorem wf_insertNew (hl : Laws c ok) (h : WF c ok m) {p : K × V} (hp : ok p.1) (hn : m.find c p.1 = none) :
    WF c ok (m.insertNew c p) ∧ (m.insertNew c p).entries.Perm (p :: m.entries) := by
  have hn := (find_none hl h hp).1 hn
  unfold UMap.insertNew
  split
  · rename_i n _
    obtain ⟨h1, h2⟩ := wf_rehash hl h n
    obtain ⟨h3, h4⟩ := wf_push hl h1 hp (fun q hq => hn q (h2.mem_iff.1 hq))
    exact ⟨h3, h4.trans (h2.cons p)⟩
  · exact wf_push hl h hp hn

/-- Two well-formed tables: finding depends on the entries only. -/
theorem look_some (hl : Laws c ok) (h : WF c ok m) {k : K} (hk : ok k) {v : V} :
    look c m k = some v ↔ ∃ p ∈ m.entries, c.eq p.1 k = true ∧ p.2 = v := by
  unfold look
  rw [Option.map_eq_some_iff]
  constructor
  · rintro ⟨p, hp, rfl⟩
    obtain ⟨h1, h2⟩ := (find_some hl h hk).1 hp
    exact ⟨p, h1, h2, rfl⟩
  · rintro ⟨p, h1, h2, rfl⟩
    exact ⟨p, (find_some hl h hk).2 ⟨h1, h2⟩, rfl⟩

theorem look_none (hl : Laws c ok) (h : WF c ok m) {k : K} (hk : ok k) :
    look c m k = none ↔ ∀ p ∈ m.entries, c.eq p.1 k = false := by
  unfold look
  rw [Option.map_eq_none_iff]
  exact find_none hl h hk

theorem opt_ext {a b : Option V} (h : ∀ v, a = some v ↔ b = some v) : a = b := by
  cases a with
  | none => cases b with
    | none => rfl
    | some v => exact ((h v).2 rfl)
  | some v => exact ((h v).1 rfl).symm

theorem look_insertNew (hl : Laws c ok) (h : WF c ok m) {p : K × V} (hp : ok p.1) (hn : m.find c p.1 = none) {k : K} (hk : ok k) :
    look c (m.insertNew c p) k = mapSet c.eq (look c m) p.1 p.2 k := by
  obtain ⟨h1, h2⟩ := wf_insertNew hl h hp hn
  refine opt_ext fun v => ?_
  rw [look_some hl h1 hk]
  unfold mapSet
  have hnone := (find_none hl h hp).1 hn
  constructor
  · rintro ⟨q, hq, he, rfl⟩
    rcases List.mem_cons.1 (h2.mem_iff.1 hq) with rfl | hq
    · rw [if_pos he]
    · rw [if_neg]
      · exact (look_some hl h hk).2 ⟨q, hq, he, rfl⟩
      · intro hpk
        have := hl.trans _ _ _ (entries_ok h hq) hk hp he (hl.symm _ _ hp hk hpk)
        rw [hnone q hq] at this; cases this
  · intro hv
    split at hv
    · rename_i he
      injection hv with hv
      exact ⟨p, h2.mem_iff.2 (List.mem_cons_self ..), he, hv⟩
    · obtain ⟨q, hq, he, hv⟩ := (look_some hl h hk).1 hv
      exact ⟨q, h2.mem_iff.2 (List.mem_cons_of_mem _ hq), he, hv⟩

/-- `operator[]`. -/
theorem wf_index (hl : Laws c ok) (h : WF c ok m) {k : K} (hk : ok k) : WF c ok (m.index c k) := by
  unfold UMap.index
  split
  · exact h
  · rename_i hn; exact (wf_insertNew hl h hk hn).1

theorem look_index (hl : Laws c ok) (h : WF c ok m) {k : K} (hk : ok k) {x : K} (hx : ok x) :
    look c (m.index c k) x = if look c m k = none then mapSet c.eq (look c m) k c.dflt x else look c m x := by
  unfold UMap.index
  split
  · rename_i p hp
    rw [if_neg]
    unfold look; rw [hp]; nofun
  · rename_i hn
    rw [if_pos (by unfold look; rw [hn]; rfl)]
    exact look_insertNew hl h (p := (k, c.dflt)) hk hn hx

/-- Assigning keeps the keys. -/
theorem entries_assign_mem (h : WF c ok m) (k : K) (hpos : 0 < m.n) {p : K × V} {v : V} :
    p ∈ (m.assign c k v).bkt (c.hash p.1 % m.n) ↔ ∃ q ∈ m.bkt (c.hash p.1 % m.n), p =
      if c.hash p.1 % m.n = c.hash k % m.n ∧ c.eq q.1 k = true then (q.1, v) else q := by
  unfold UMap.assign
  dsimp only
  by_cases hi : c.hash p.1 % m.n = c.hash k % m.n
  · rw [hi, setFn_same, List.mem_map]
    constructor
    · rintro ⟨q, hq, rfl⟩
      exact ⟨q, hq, by simp⟩
    · rintro ⟨q, hq, he⟩
      exact ⟨q, hq, by rw [he]; simp⟩
  · rw [setFn_ne _ _ hi]
    constructor
    · intro hp; exact ⟨p, hp, by simp [hi]⟩
    · rintro ⟨q, hq, he⟩
      rw [if_neg (by simp [hi])] at he
      rw [he]; exact he ▸ hq

theorem wf_assign (hl : Laws c ok) (h : WF c ok m) {k : K} (hk : ok k) (v : V) : WF c ok (m.assign c k v) := by
  refine ⟨h.pos, fun i p hp => ?_, fun i => ?_, fun i p hp => ?_, ?_⟩
  · unfold UMap.assign at hp ⊢
    dsimp only at hp ⊢
    by_cases hi : i = c.hash k % m.n
    · subst hi
      rw [setFn_same, List.mem_map] at hp
      obtain ⟨q, hq, rfl⟩ := hp
      split
      · exact h.place _ q hq
      · exact h.place _ q hq
    · rw [setFn_ne _ _ hi] at hp; exact h.place i p hp
  · unfold UMap.assign
    dsimp only
    by_cases hi : i = c.hash k % m.n
    · subst hi
      rw [setFn_same, List.pairwise_map]
      refine (h.once _).imp fun {p q} hpq => ?_
      split <;> split <;> exact hpq
    · rw [setFn_ne _ _ hi]; exact h.once i
  · unfold UMap.assign at hp
    dsimp only at hp
    by_cases hi : i = c.hash k % m.n
    · subst hi
      rw [setFn_same, List.mem_map] at hp
      obtain ⟨q, hq, rfl⟩ := hp
      split <;> exact h.good _ q hq
    · rw [setFn_ne _ _ hi] at hp; exact h.good i p hp
  · have := (entries_set (m := m) h.pos (Nat.mod_lt (c.hash k) h.pos)
      ((m.bkt (c.hash k % m.n)).map fun p => if c.eq p.1 k then (p.1, v) else p) m.count).length_eq
    simp only [List.length_append, List.length_map] at this
    show m.count = _
    rw [h.count]
    unfold UMap.assign
    omega

theorem find_assign (hl : Laws c ok) (h : WF c ok m) {k : K} (hk : ok k) (v : V) {x : K} (hx : ok x) :
    (m.assign c k v).find c x = (m.find c x).map fun p => if c.eq p.1 k then (p.1, v) else p := by
  unfold UMap.find UMap.assign
  dsimp only
  by_cases hi : c.hash x % m.n = c.hash k % m.n
  · rw [hi, setFn_same, List.find?_map]
    congr 1
    apply congrArg (fun f => List.find? f _)
    funext p
    simp only [Function.comp]
    split <;> rfl
  · rw [setFn_ne _ _ hi]
    cases hf : (m.bkt (c.hash x % m.n)).find? fun p => c.eq p.1 x with
    | none => rfl
    | some p =>
      rw [Option.map_some, if_neg]
      intro he
      have h1 : c.eq p.1 x = true := by simpa using List.find?_some hf
      have h2 := h.good _ p (List.mem_of_find?_eq_some hf)
      rw [← hl.hash _ _ h2 hx h1, hl.hash _ _ h2 hk he] at hi
      exact hi rfl

theorem look_assign (hl : Laws c ok) (h : WF c ok m) {k : K} (hk : ok k) (v : V) (hin : look c m k ≠ none) {x : K} (hx : ok x) :
    look c (m.assign c k v) x = mapSet c.eq (look c m) k v x := by
  unfold look mapSet
  rw [find_assign hl h hk v hx]
  by_cases he : c.eq k x = true
  · rw [if_pos he]
    obtain ⟨w, hw⟩ : ∃ w, look c m k = some w := by
      cases hk' : look c m k with
      | none => exact absurd hk' hin
      | some w => exact ⟨w, rfl⟩
    obtain ⟨p, hp, hpe, -⟩ := (look_some hl h hk).1 hw
    have hpx := hl.trans _ _ _ (entries_ok h hp) hk hx hpe he
    rw [(find_some hl h hx).2 ⟨hp, hpx⟩]
    simp [hpe]
  · rw [if_neg he]
    dsimp only
    cases hf : m.find c x with
    | none => rfl
    | some p =>
      obtain ⟨h1, h2⟩ := (find_some hl h hx).1 hf
      have : ¬ c.eq p.1 k = true := fun hpk => he (hl.trans _ _ _ hk (entries_ok h h1) hx (hl.symm _ _ (entries_ok h h1) hk hpk) h2)
      simp [this]

/-- Erasing. -/
theorem erase_some (hl : Laws c ok) (h : WF c ok m) {k : K} (hk : ok k) {p : K × V} (hf : m.find c k = some p) :
    WF c ok (m.erase c k).2 ∧ m.entries.Perm (p :: (m.erase c k).2.entries) := by
  have hm : (m.bkt (c.hash k % m.n)).find? (fun q => c.eq q.1 k) = some p := hf
  have hb : (m.bkt (c.hash k % m.n)).Perm (p :: (m.bkt (c.hash k % m.n)).eraseP fun q => c.eq q.1 k) := by
    revert hm
    generalize m.bkt (c.hash k % m.n) = l
    intro hm
    induction l with
    | nil => cases hm
    | cons a l ih =>
      rw [List.find?_cons] at hm
      rw [List.eraseP_cons]
      cases he : c.eq a.1 k with
      | true => rw [he] at hm; injection hm with hm; subst hm; exact List.Perm.refl _
      | false =>
        rw [he] at hm
        exact ((ih hm).cons a).trans (List.Perm.swap ..)
  have hsub : ((m.bkt (c.hash k % m.n)).eraseP fun q => c.eq q.1 k).Sublist (m.bkt (c.hash k % m.n)) := List.eraseP_sublist
  have herase : (m.erase c k).2 = { m with
      bkt := setFn m.bkt (c.hash k % m.n) ((m.bkt (c.hash k % m.n)).eraseP fun p => c.eq p.1 k), count := m.count - 1 } := by
    unfold UMap.erase; rw [hf]
  have hperm : m.entries.Perm (p :: (m.erase c k).2.entries) := by
    rw [herase]
    have := entries_set (m := m) h.pos (Nat.mod_lt (c.hash k) h.pos)
      ((m.bkt (c.hash k % m.n)).eraseP fun p => c.eq p.1 k) (m.count - 1)
    refine (List.perm_append_right_iff ((m.bkt (c.hash k % m.n)).eraseP fun p => c.eq p.1 k)).1 (this.symm.trans ?_)
    refine (List.Perm.append_left _ hb).trans ?_
    rw [List.cons_append]
    exact List.perm_middle
  refine ⟨?_, hperm⟩
  rw [herase] at hperm ⊢
  refine ⟨h.pos, fun i q hq => ?_, fun i => ?_, fun i q hq => ?_, ?_⟩
  · dsimp only at hq ⊢
    by_cases hi : i = c.hash k % m.n
    · subst hi
      rw [setFn_same] at hq
      exact h.place _ q (hsub.mem hq)
    · rw [setFn_ne _ _ hi] at hq; exact h.place i q hq
  · dsimp only
    by_cases hi : i = c.hash k % m.n
    · subst hi
      rw [setFn_same]
      exact (h.once _).sublist hsub
    · rw [setFn_ne _ _ hi]; exact h.once i
  · dsimp only at hq
    by_cases hi : i = c.hash k % m.n
    · subst hi
      rw [setFn_same] at hq
      exact h.good _ q (hsub.mem hq)
    · rw [setFn_ne _ _ hi] at hq; exact h.good i q hq
  · have := hperm.length_eq
    rw [List.length_cons, ← h.count] at this
    dsimp only
    omega

theorem look_erase (hl : Laws c ok) (h : WF c ok m) {k : K} (hk : ok k) {x : K} (hx : ok x) :
    look c (m.erase c k).2 x = mapDel c.eq (look c m) k x := by
  cases hf : m.find c k with
  | none =>
    have : (m.erase c k).2 = m := by unfold UMap.erase; rw [hf]
    rw [this]
    unfold mapDel
    split
    · rename_i he
      rw [look_none hl h hx]
      intro p hp
      have := (find_none hl h hk).1 hf p hp
      cases hpx : c.eq p.1 x with
      | false => rfl
      | true =>
        rw [hl.trans _ _ _ (entries_ok h hp) hx hk hpx (hl.symm _ _ hk hx he)] at this; cases this
    · rfl
  | some p =>
    obtain ⟨h1, h2⟩ := erase_some hl h hk hf
    obtain ⟨hpm, hpk⟩ := (find_some hl h hk).1 hf
    have hpo := entries_ok h hpm
    have honce : (p :: (m.erase c k).2.entries).Pairwise fun a b => ok a.1 → ok b.1 → c.eq a.1 b.1 = false :=
      (h2.pairwise_iff (R := fun a b => ok a.1 → ok b.1 → c.eq a.1 b.1 = false) (fun {a b} hab hb ha => by
        cases hba : c.eq b.1 a.1 with
        | false => rfl
        | true => rw [hl.symm _ _ hb ha hba] at hab; exact hab ha hb)).1 ((entries_once hl h).imp fun h _ _ => h)
    rw [List.pairwise_cons] at honce
    refine opt_ext fun v => ?_
    rw [look_some hl h1 hx]
    unfold mapDel
    constructor
    · rintro ⟨q, hq, he, rfl⟩
      have hqm := h2.mem_iff.2 (List.mem_cons_of_mem _ hq)
      rw [if_neg]
      · exact (look_some hl h hx).2 ⟨q, hqm, he, rfl⟩
      · intro hkx
        have := hl.trans _ _ _ hpo hk hx hpk hkx
        have := hl.trans _ _ _ hpo hx (entries_ok h hqm) this (hl.symm _ _ (entries_ok h hqm) hx he)
        rw [honce.1 q hq hpo (entries_ok h hqm)] at this; cases this
    · intro hv
      split at hv
      · cases hv
      · rename_i hne
        obtain ⟨q, hq, he, hv⟩ := (look_some hl h hx).1 hv
        rcases List.mem_cons.1 (h2.mem_iff.1 hq) with rfl | hq
        · exact absurd (hl.trans _ _ _ hk hpo hx (hl.symm _ _ hpo hk hpk) he) hne
        · exact ⟨q, hq, he, hv⟩

end Bdlib.Hash
