import Verif.Hash.Lemmas

/-!
# C53: HashTable is a finite map

`next` and `Says` are the specification: what each call does to ideal maps (functions from keys to values,
`Spec/Map.lean`) and what it must return.
-/

namespace Bdlib.Hash
open Bdlib.Spec

section
variable {K V : Type} (eq : K → K → Bool) (dflt : V)

/-- The ideal maps after a call. -/
def next (s : Nat → K → Option V) : Op K V → Nat → K → Option V
  | .new i _ => setFn s i fun _ => none
  | .newList i l => setFn s i fun k => (l.find? fun p => eq p.1 k).map Prod.snd
  | .insert i k v => if s i k = none then setFn s i (mapSet eq (s i) k v) else s
  | .remove i k => setFn s i (mapDel eq (s i) k)
  | .index i k => if s i k = none then setFn s i (mapSet eq (s i) k dflt) else s
  | .set i k v => setFn s i (mapSet eq (s i) k v)
  | .clear i => setFn s i fun _ => none
  | .copy i j => setFn s i (s j)
  | .move i j => if i = j then s else setFn (setFn s i (s j)) j fun _ => none
  | .swap i j => setFn (setFn s i (s j)) j (s i)
  | .contains _ _ | .getValue _ _ | .find _ _ | .size _ | .isEmpty _ | .iterate _ => s

/-- What a call may return. -/
def Says (s : Nat → K → Option V) : Op K V → Out K V → Prop
  | .insert i k _, .bool b => b = true ↔ s i k = none
  | .remove i k, .bool b => b = true ↔ s i k ≠ none
  | .contains i k, .bool b => b = true ↔ s i k ≠ none
  | .getValue i k, .value v => v = (s i k).getD dflt
  | .find i k, .found p => p.map Prod.snd = s i k ∧ ∀ q, p = some q → eq q.1 k = true
  | .index i k, .value v => v = (s i k).getD dflt
  | .size i, .nat n => Size eq (s i) n
  | .isEmpty i, .bool b => b = true ↔ ∀ k, s i k = none
  | .iterate i, .list l => Lists eq (s i) l
  | .new _ _, .unit | .newList _ _, .unit | .set _ _ _, .unit | .clear _, .unit | .copy _ _, .unit
  | .move _ _, .unit | .swap _ _, .unit => True
  | _, _ => False

/-- All results of a sequence of calls are right, and `s'` are the maps at the end. -/
def Right (s : Nat → K → Option V) (s' : Nat → K → Option V) : List (Op K V) → List (Out K V) → Prop
  | [], [] => s' = s
  | op :: ops, r :: rs => Says eq dflt s op r ∧ Right (next eq dflt s op) s' ops rs
  | _, _ => False

end

variable {K V : Type} {c : Types K V}

/-- `==` is an equivalence relation that `std::hash` respects. -/
abbrev Types.Lawful (c : Types K V) : Prop := Laws c fun _ => True

/-- The number of keys is determined by the map. -/
theorem size_unique (hl : c.Lawful) {m : K → Option V} : ∀ {l l' : List (K × V)}, Lists c.eq m l → Lists c.eq m l' → l.length ≤ l'.length := by
  intro l
  induction l generalizing m with
  | nil => intros; exact Nat.zero_le _
  | cons a l ih =>
    intro l' h h'
    have h1 := (h.all a.1 a.2).2 ⟨a, List.mem_cons_self .., hl.refl _ trivial, rfl⟩
    obtain ⟨p, hp, hpe, -⟩ := (h'.all a.1 a.2).1 h1
    obtain ⟨s, t, rfl⟩ := List.append_of_mem hp
    have ho := h.once
    rw [List.pairwise_cons] at ho
    have ho' : (s ++ t).Pairwise fun p q => c.eq p.1 q.1 = false := h'.once.sublist (by simp)
    have hnp : ∀ q ∈ s ++ t, c.eq q.1 p.1 = false := by
      intro q hq
      have hw := h'.once
      rw [List.pairwise_append, List.pairwise_cons] at hw
      rcases List.mem_append.1 hq with hq | hq
      · exact hw.2.2 q hq p (List.mem_cons_self ..)
      · have := hw.2.1.1 q hq
        cases hc : c.eq q.1 p.1 with
        | false => rfl
        | true => rw [hl.symm _ _ trivial trivial hc] at this; cases this
    have k1 : Lists c.eq (mapDel c.eq m a.1) l := by
      refine ⟨ho.2, fun k v => ?_⟩
      unfold mapDel
      constructor
      · intro hv
        split at hv
        · cases hv
        · rename_i hk
          obtain ⟨q, hq, hqe, hqv⟩ := (h.all k v).1 hv
          rcases List.mem_cons.1 hq with rfl | hq
          · exact absurd hqe hk
          · exact ⟨q, hq, hqe, hqv⟩
      · rintro ⟨q, hq, hqe, hqv⟩
        rw [if_neg]
        · exact (h.all k v).2 ⟨q, List.mem_cons_of_mem _ hq, hqe, hqv⟩
        · intro hak
          have := ho.1 q hq
          rw [hl.trans _ _ _ trivial trivial trivial hak (hl.symm _ _ trivial trivial hqe)] at this
          cases this
    have k2 : Lists c.eq (mapDel c.eq m a.1) (s ++ t) := by
      refine ⟨ho', fun k v => ?_⟩
      unfold mapDel
      constructor
      · intro hv
        split at hv
        · cases hv
        · rename_i hk
          obtain ⟨q, hq, hqe, hqv⟩ := (h'.all k v).1 hv
          refine ⟨q, ?_, hqe, hqv⟩
          simp only [List.mem_append, List.mem_cons] at hq ⊢
          rcases hq with hq | rfl | hq
          · exact .inl hq
          · exact absurd (hl.trans _ _ _ trivial trivial trivial (hl.symm _ _ trivial trivial hpe) hqe) hk
          · exact .inr hq
      · rintro ⟨q, hq, hqe, hqv⟩
        rw [if_neg]
        · refine (h'.all k v).2 ⟨q, ?_, hqe, hqv⟩
          simp only [List.mem_append, List.mem_cons] at hq ⊢
          rcases hq with hq | hq
          · exact .inl hq
          · exact .inr (.inr hq)
        · intro hak
          have := hnp q hq
          rw [hl.trans _ _ _ trivial trivial trivial hqe (hl.trans _ _ _ trivial trivial trivial (hl.symm _ _ trivial trivial hak) (hl.symm _ _ trivial trivial hpe))] at this
          cases this
    have := ih k1 k2
    simp only [List.length_append, List.length_cons] at this ⊢
    omega

theorem c53_size_unique (hl : c.Lawful) {m : K → Option V} {n n' : Nat} (h : Size c.eq m n) (h' : Size c.eq m n') : n = n' := by
  obtain ⟨l, h1, rfl⟩ := h
  obtain ⟨l', h2, rfl⟩ := h'
  exact Nat.le_antisymm (size_unique hl h1 h2) (size_unique hl h2 h1)

/-! ## Each call -/

/-- A table and the map it is. -/
structure Is (c : Types K V) (t : UMap K V) (m : K → Option V) : Prop where
  wf : WF c (fun _ => True) t
  look : look c t = m

variable {t : UMap K V} {m : K → Option V}

theorem is_empty (n : Nat) : Is c (UMap.empty n) (fun _ => none) :=
  ⟨wf_empty n, by funext k; simp [look, UMap.find, UMap.empty]⟩

theorem Is.lists (hl : c.Lawful) (h : Is c t m) : Lists c.eq m t.entries :=
  ⟨entries_once hl h.wf, fun k v => by rw [← h.look]; exact look_some hl h.wf trivial⟩

theorem Is.isEmpty (hl : c.Lawful) (h : Is c t m) : isEmpty t = true ↔ ∀ k, m k = none := by
  unfold Hash.isEmpty
  rw [decide_eq_true_iff, h.wf.count, List.length_eq_zero_iff]
  constructor
  · intro he k
    rw [← h.look, look_none hl h.wf trivial, he]
    nofun
  · intro hn
    cases he : t.entries with
    | nil => rfl
    | cons p l =>
      have := (h.lists hl).all p.1 p.2
      rw [hn] at this
      have := this.2 ⟨p, by rw [he]; exact List.mem_cons_self .., hl.refl _ trivial, rfl⟩
      cases this

theorem Is.contains (hl : c.Lawful) (h : Is c t m) (k : K) : contains c t k = true ↔ m k ≠ none := by
  unfold Hash.contains
  split
  · rename_i he
    have := (h.isEmpty hl).1 he k
    simp [this]
  · rw [← h.look]
    unfold Hash.look
    cases t.find c k <;> simp

theorem Is.index (hl : c.Lawful) (h : Is c t m) (k : K) :
    Is c (t.index c k) (if m k = none then mapSet c.eq m k c.dflt else m) := by
  refine ⟨wf_index hl h.wf trivial, ?_⟩
  funext x
  rw [look_index hl h.wf trivial trivial, h.look]
  split <;> rfl

theorem Is.assign (hl : c.Lawful) (h : Is c t m) (k : K) (v : V) (hk : m k ≠ none) : Is c (t.assign c k v) (mapSet c.eq m k v) := by
  refine ⟨wf_assign hl h.wf trivial v, ?_⟩
  funext x
  rw [look_assign hl h.wf trivial v (by rw [h.look]; exact hk) trivial, h.look]

theorem mapSet_mapSet (m : K → Option V) (k : K) (v w : V) : mapSet c.eq (mapSet c.eq m k w) k v = mapSet c.eq m k v := by
  funext x
  unfold mapSet
  split <;> rfl

theorem Is.set (hl : c.Lawful) (h : Is c t m) (k : K) (v : V) : Is c (set c t k v) (mapSet c.eq m k v) := by
  have h1 := h.index hl k
  unfold Hash.set
  split at h1
  · have := h1.assign hl k v (by unfold mapSet; rw [hl.refl k trivial]; nofun)
    rwa [mapSet_mapSet] at this
  · rename_i hk; exact h1.assign hl k v hk

theorem Is.erase (hl : c.Lawful) (h : Is c t m) (k : K) : Is c (t.erase c k).2 (mapDel c.eq m k) := by
  refine ⟨?_, ?_⟩
  · cases hf : t.find c k with
    | none => unfold UMap.erase; rw [hf]; exact h.wf
    | some p => exact (erase_some hl h.wf trivial hf).1
  · funext x
    rw [look_erase hl h.wf trivial trivial, h.look]

theorem Is.emplace (hl : c.Lawful) (h : Is c t m) (p : K × V) :
    Is c (t.emplace c p) (if m p.1 = none then mapSet c.eq m p.1 p.2 else m) := by
  unfold UMap.emplace
  split
  · rename_i q hq
    rw [if_neg]
    · exact h
    · rw [← h.look]; unfold Hash.look; rw [hq]; nofun
  · rename_i hn
    rw [if_pos (by rw [← h.look]; unfold Hash.look; rw [hn]; rfl)]
    refine ⟨(wf_insertNew hl h.wf trivial hn).1, ?_⟩
    funext x
    rw [look_insertNew hl h.wf trivial hn trivial, h.look]

theorem is_emplaces (hl : c.Lawful) : ∀ (l : List (K × V)) {t : UMap K V} {m : K → Option V}, Is c t m →
    Is c (l.foldl (UMap.emplace c) t) fun k => (m k).or ((l.find? fun p => c.eq p.1 k).map Prod.snd)
  | [], t, m, h => by simpa using h
  | p :: l, t, m, h => by
    have := is_emplaces hl l (h.emplace hl p)
    refine ⟨this.wf, this.look.trans ?_⟩
    funext k
    rw [List.find?_cons]
    cases hpk : c.eq p.1 k with
    | true =>
      split
      · rename_i hn
        have hk : m k = none := by
          rw [← h.look, look_none hl h.wf trivial] at hn ⊢
          intro q hq
          have := hn q hq
          cases hqk : c.eq q.1 k with
          | false => rfl
          | true => rw [hl.trans _ _ _ trivial trivial trivial hqk (hl.symm _ _ trivial trivial hpk)] at this; cases this
        simp [mapSet, hpk, hk]
      · rename_i hn
        have hk : m k ≠ none := by
          intro hk
          apply hn
          rw [← h.look, look_none hl h.wf trivial] at hk ⊢
          intro q hq
          have := hk q hq
          cases hqk : c.eq q.1 p.1 with
          | false => rfl
          | true => rw [hl.trans _ _ _ trivial trivial trivial hqk hpk] at this; cases this
        cases hmk : m k with
        | none => exact absurd hmk hk
        | some v => simp
    | false =>
      split
      · simp [mapSet, hpk]
      · rfl

theorem is_ofList (hl : c.Lawful) (l : List (K × V)) : Is c (ofList c l) fun k => (l.find? fun p => c.eq p.1 k).map Prod.snd := by
  have := is_emplaces hl l (is_empty (c := c) l.length)
  unfold ofList
  simpa using this

theorem Is.clear (h : Is c t m) : Is c t.clear fun _ => none :=
  ⟨⟨h.wf.pos, nofun, fun _ => List.Pairwise.nil, nofun, by
    have : t.clear.entries = [] := by simp [UMap.clear, UMap.entries]
    rw [this]; rfl⟩, by funext k; simp [Hash.look, UMap.find, UMap.clear]⟩

/-- Every call does what the specification says. -/
theorem run_right (hl : c.Lawful) {s : Nat → UMap K V} {g : Nat → K → Option V} (h : ∀ i, Is c (s i) (g i)) (op : Op K V) :
    Says c.eq c.dflt g op (run c s op).1 ∧ ∀ i, Is c ((run c s op).2 i) (next c.eq c.dflt g op i) := by
  have upd : ∀ {j t m}, Is c t m → ∀ i, Is c (setFn s j t i) (setFn g j m i) := by
    intro j t m ht i
    unfold setFn
    split
    · exact ht
    · exact h i
  cases op with
  | new i n => exact ⟨trivial, upd (is_empty n)⟩
  | newList i l => exact ⟨trivial, upd (is_ofList hl l)⟩
  | insert i k v =>
    have hc := (h i).contains hl k
    unfold run insert next
    dsimp only
    cases hb : contains c (s i) k with
    | true =>
      rw [hb] at hc
      have hk := hc.1 rfl
      rw [if_neg hk]
      refine ⟨by simp [Says, hk], fun j => ?_⟩
      simp only [if_true]
      by_cases hj : j = i
      · subst hj; simpa [setFn] using h j
      · rw [setFn_ne _ _ hj]; exact h j
    | false =>
      rw [hb] at hc
      have hk : g i k = none := Classical.byContradiction fun hne => by have := hc.2 hne; cases this
      rw [if_pos hk]
      exact ⟨by simp [Says, hk], upd ((h i).set hl k v)⟩
  | remove i k =>
    have he := (h i).erase hl k
    unfold run remove next
    dsimp only
    split
    · rename_i hemp
      have hall := ((h i).isEmpty hl).1 hemp
      have : mapDel c.eq (g i) k = g i := by
        funext x; unfold mapDel; split
        · exact (hall x).symm
        · rfl
      rw [this]
      refine ⟨by simp [Says, hall k], upd (h i)⟩
    · refine ⟨?_, upd he⟩
      show _ ↔ _
      rw [← (h i).look]
      unfold look UMap.erase
      cases (s i).find c k <;> simp
  | contains i k => exact ⟨(h i).contains hl k, h⟩
  | getValue i k =>
    refine ⟨?_, h⟩
    show getValue c (s i) k = _
    rw [← (h i).look]
    unfold getValue look
    cases (s i).find c k <;> rfl
  | find i k =>
    refine ⟨⟨by rw [← (h i).look]; rfl, fun q hq => ((find_some hl (h i).wf trivial).1 hq).2⟩, h⟩
  | index i k =>
    have hi := (h i).index hl k
    unfold run index next
    refine ⟨?_, ?_⟩
    · show _ = _
      have : (((s i).index c k).find c k).elim c.dflt Prod.snd = (look c ((s i).index c k) k).getD c.dflt := by
        unfold look
        cases ((s i).index c k).find c k <;> rfl
      rw [this, hi.look]
      split
      · rename_i hn
        rw [hn]
        simp [mapSet, hl.refl k trivial]
      · rfl
    · dsimp only
      split at hi
      · rename_i hn; rw [if_pos hn]; exact upd hi
      · rename_i hn
        rw [if_neg hn]
        have := upd (j := i) hi
        intro j
        have := this j
        unfold setFn at this ⊢
        by_cases hj : j = i
        · subst hj; simpa using this
        · simpa [hj] using h j
  | set i k v => exact ⟨trivial, upd ((h i).set hl k v)⟩
  | size i => exact ⟨⟨_, (h i).lists hl, (h i).wf.count.symm⟩, h⟩
  | isEmpty i => exact ⟨(h i).isEmpty hl, h⟩
  | iterate i => exact ⟨(h i).lists hl, h⟩
  | clear i => exact ⟨trivial, upd (h i).clear⟩
  | copy i j => exact ⟨trivial, upd (h j)⟩
  | move i j =>
    unfold run next
    refine ⟨trivial, fun k => ?_⟩
    dsimp only
    split
    · exact h k
    · unfold setFn
      split
      · exact is_empty 1
      · split
        · exact h j
        · exact h k
  | swap i j =>
    refine ⟨trivial, fun k => ?_⟩
    unfold run next setFn
    dsimp only
    split
    · exact h i
    · split
      · exact h j
      · exact h k

/-- For every key type with a lawful `==` and hash, every value type and every sequence of calls on any
number of tables, all results are those of ideal maps. -/
theorem c53_map (hl : c.Lawful) (ops : List (Op K V)) :
    ∃ g, Right c.eq c.dflt (fun _ _ => none) g ops (runs c ops fun _ => UMap.empty 100).1 := by
  have : ∀ {s : Nat → UMap K V} {g : Nat → K → Option V}, (∀ i, Is c (s i) (g i)) →
      ∃ g', Right c.eq c.dflt g g' ops (runs c ops s).1 := by
    induction ops with
    | nil => intro s g _; exact ⟨g, rfl⟩
    | cons op ops ih =>
      intro s g h
      obtain ⟨h1, h2⟩ := run_right hl h op
      obtain ⟨g', hg⟩ := ih h2
      exact ⟨g', h1, hg⟩
  exact this fun _ => is_empty 100

/-! ## A case -/

/-- Numbers, with a hash that collides. -/
def natTypes : Types Nat Nat := ⟨fun a b => a = b, fun a => a % 3, 0, fun n b => if n < b then none else some (2 * b)⟩

theorem natLawful : natTypes.Lawful where
  refl := by simp [natTypes]
  symm := by simp [natTypes]
  trans := by simp [natTypes]
  hash := by simp [natTypes]

example := c53_map natLawful [.new 0 2, .insert 0 1 10, .insert 0 4 40, .insert 0 1 11, .set 0 7 70, .size 0, .remove 0 4,
  .copy 1 0, .index 1 5, .size 0, .size 1, .iterate 1]
example : (runs natTypes [.new 0 2, .insert 0 1 10, .insert 0 4 40, .insert 0 1 11, .set 0 7 70, .size 0, .remove 0 4,
    .copy 1 0, .index 1 5, .size 0, .size 1] fun _ => UMap.empty 100).1 =
    [.unit, .bool true, .bool true, .bool false, .unit, .nat 3, .bool true, .unit, .value 0, .nat 2, .nat 3] := by rfl

end Bdlib.Hash
