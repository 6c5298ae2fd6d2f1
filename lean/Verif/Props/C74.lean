import Verif.Props.C53
import Verif.Hash.Fault

/-!
# C74: a HashTable call that fails leaves the tables as they were

`next`, `Says` (C53) and `Spec/Map.lean` are the specification: ideal maps.  A call that throws must leave the
maps as they were.
-/

namespace Bdlib.Hash
open Bdlib.Spec

variable {K V : Type} {c : Risky K V}

/-! ## Steps -/

theorem bind_done {α β : Type} {x : X K V α} {g : α → X K V β} {t t' : UMap K V} {f f' : Faults} {a : α} (h : x t f = (.done a, t', f')) :
    (x >>= g) t f = g a t' f' := by show X.bind x g t f = _; unfold X.bind; rw [h]

theorem bind_threw {α β : Type} {x : X K V α} {g : α → X K V β} {t t' : UMap K V} {f f' : Faults} (h : x t f = (.threw, t', f')) :
    (x >>= g) t f = (.threw, t', f') := by show X.bind x g t f = _; unfold X.bind; rw [h]

/-- `x` returns `a` and makes the table `t'`, or throws, which it does only when a step does, and keeps it. -/
def Clean {α : Type} (x : X K V α) (t : UMap K V) (f : Faults) (a : α) (t' : UMap K V) : Prop :=
  (∃ f', x t f = (.done a, t', f') ∧ (true ∉ f → true ∉ f')) ∨ (∃ f', x t f = (.threw, t, f') ∧ true ∈ f)

theorem clean_pure {α : Type} (a : α) (t : UMap K V) (f : Faults) : Clean (pure a : X K V α) t f a t := .inl ⟨f, rfl, id⟩

theorem clean_attempt (t : UMap K V) (f : Faults) : Clean X.attempt t f () t := by
  match f with
  | [] => exact .inl ⟨[], rfl, id⟩
  | false :: f => exact .inl ⟨f, rfl, fun h => fun h' => h (List.mem_cons_of_mem _ h')⟩
  | true :: f => exact .inr ⟨f, rfl, List.mem_cons_self ..⟩

theorem clean_attemptIf (b : Bool) (t : UMap K V) (f : Faults) : Clean (X.attemptIf b) t f () t := by
  unfold X.attemptIf
  split
  · exact clean_attempt t f
  · exact clean_pure () t f

/-- A step that changes nothing, and what follows. -/
theorem Clean.seq {α β : Type} {x : X K V α} {g : α → X K V β} {t t' : UMap K V} {f : Faults} {a : α} {b : β}
    (h : Clean x t f a t) (k : ∀ f', Clean (g a) t f' b t') : Clean (x >>= g) t f b t' := by
  rcases h with ⟨f', h, hn⟩ | ⟨f', h, hn⟩
  · rcases k f' with ⟨f'', k, kn⟩ | ⟨f'', k, kn⟩
    · exact .inl ⟨f'', (bind_done h).trans k, fun hf => kn (hn hf)⟩
    · exact .inr ⟨f'', (bind_done h).trans k, Classical.byContradiction fun hf => hn hf kn⟩
  · exact .inr ⟨f', bind_threw h, hn⟩

/-- Something that may throw, and steps that do not. -/
theorem Clean.andThen {α β : Type} {x : X K V α} {g : α → X K V β} {t t' t'' : UMap K V} {f : Faults} {a : α} {b : β}
    (h : Clean x t f a t') (k : ∀ f', g a t' f' = (.done b, t'', f')) : Clean (x >>= g) t f b t'' := by
  rcases h with ⟨f', h, hn⟩ | ⟨f', h, hn⟩
  · exact .inl ⟨f', (bind_done h).trans (k f'), hn⟩
  · exact .inr ⟨f', bind_threw h, hn⟩

theorem clean_index (k : K) (t : UMap K V) (f : Faults) : Clean (indexX c k) t f () (t.index c.toTypes k) := by
  unfold indexX UMap.index
  show Clean (X.get >>= _) t f () _
  refine Clean.seq (a := t) (.inl ⟨f, rfl, id⟩) fun f => ?_
  cases t.find c.toTypes k with
  | some _ => exact clean_pure () t f
  | none =>
    refine (clean_attempt t f).seq fun f => (clean_attemptIf _ t f).seq fun f => (clean_attemptIf _ t f).seq fun f => ?_
    dsimp only
    cases c.grow t.count t.n with
    | none => exact .inl ⟨f, rfl, id⟩
    | some _ => exact (clean_attempt t f).andThen fun _ => rfl

theorem assign_safe (hc : c.assignThrows = false) (k : K) (v : V) (t : UMap K V) (f : Faults) :
    assignX c k v t f = (.done (), t.assign c.toTypes k v, f) := by
  unfold assignX
  rw [hc]
  rfl

theorem clean_set (hc : c.assignThrows = false) (k : K) (v : V) (t : UMap K V) (f : Faults) :
    Clean (setX c k v) t f () (set c.toTypes t k v) :=
  (clean_index k t f).andThen fun f => assign_safe hc k v _ f

theorem clean_insert (hc : c.assignThrows = false) (k : K) (v : V) (t : UMap K V) (f : Faults) :
    Clean (insertX c k v) t f (insert c.toTypes t k v).1 (insert c.toTypes t k v).2 := by
  unfold insertX insert
  show Clean (X.get >>= _) t f _ _
  refine Clean.seq (a := t) (.inl ⟨f, rfl, id⟩) fun f => ?_
  split
  · exact clean_pure false t f
  · refine (clean_index k t f).andThen fun f => ?_
    rw [bind_done (assign_safe hc k v _ f)]
    rfl

theorem clean_read (k : K) (t : UMap K V) (f : Faults) :
    Clean (readX c k) t f (index c.toTypes t k).1 (index c.toTypes t k).2 :=
  (clean_index k t f).andThen fun _ => rfl

theorem getValue_safe (hm : c.makeThrows = false) (hc : c.copyThrows = false) (k : K) (t : UMap K V) (f : Faults) :
    getValueX c k t f = (.done (getValue c.toTypes t k), t, f) := by
  unfold getValueX getValue X.guarded
  rw [hm, hc, bind_done (x := X.get) (a := t) (t' := t) (f' := f) rfl]
  cases t.find c.toTypes k <;> rfl

theorem clean_emplace (p : K × V) (t : UMap K V) (f : Faults) : Clean (emplaceX c p) t f () (t.emplace c.toTypes p) := by
  unfold emplaceX UMap.emplace
  refine Clean.seq (a := t) (.inl ⟨f, rfl, id⟩) fun f => ?_
  cases t.find c.toTypes p.1 with
  | some _ => exact clean_pure () t f
  | none =>
    refine (clean_attempt t f).seq fun f => (clean_attemptIf _ t f).seq fun f => (clean_attemptIf _ t f).seq fun f => ?_
    dsimp only
    cases c.grow t.count t.n with
    | none => exact .inl ⟨f, rfl, id⟩
    | some _ => exact (clean_attempt t f).andThen fun _ => rfl

/-- For a table that is being made: what it is does not matter when a step throws. -/
theorem emplaces_done : ∀ (l : List (K × V)) (t : UMap K V) (f : Faults),
    (∃ f', emplacesX c l t f = (.done (), l.foldl (UMap.emplace c.toTypes) t, f') ∧ (true ∉ f → true ∉ f')) ∨
    (∃ t' f', emplacesX c l t f = (.threw, t', f') ∧ true ∈ f)
  | [], t, f => .inl ⟨f, rfl, id⟩
  | p :: l, t, f => by
    unfold emplacesX
    rw [List.foldl_cons]
    rcases clean_emplace (c := c) p t f with ⟨f', h, hn⟩ | ⟨f', h, hn⟩
    · rcases emplaces_done l (t.emplace c.toTypes p) f' with ⟨f'', h', hn'⟩ | ⟨t', f'', h', hn'⟩
      · exact .inl ⟨f'', (bind_done h).trans h', fun hf => hn' (hn hf)⟩
      · exact .inr ⟨t', f'', (bind_done h).trans h', Classical.byContradiction fun hf => hn hf hn'⟩
    · exact .inr ⟨t, f', bind_threw h, hn⟩

theorem clean_copies : ∀ (l : List (K × V)) (t : UMap K V) (f : Faults), Clean (copiesX c l) t f () t
  | [], t, f => clean_pure () t f
  | _ :: l, t, f =>
    (clean_attempt t f).seq fun f => (clean_attemptIf _ t f).seq fun f => (clean_attemptIf _ t f).seq fun f => clean_copies l t f

theorem copy_done (u t : UMap K V) (f : Faults) :
    (∃ f', copyX c u t f = (.done (), u, f')) ∨ (true ∈ f ∧ ∃ t' f', copyX c u t f = (.threw, t', f') ∧ (t' = t ∨ t' = t.clear)) := by
  unfold copyX
  rcases clean_attempt t f with ⟨f1, h, hn⟩ | ⟨f1, h, hn⟩
  · rw [bind_done h]
    rw [bind_done (x := X.get) (a := t) (t' := t) (f' := f1) rfl]
    rw [bind_done (x := X.put t.clear) (a := ()) (t' := t.clear) (f' := f1) rfl]
    rcases clean_copies (c := c) u.entries t.clear f1 with ⟨f2, h2, hn2⟩ | ⟨f2, h2, hn2⟩
    · exact .inl ⟨f2, by rw [bind_done h2]; rfl⟩
    · exact .inr ⟨Classical.byContradiction fun hf => hn hf hn2, t.clear, f2, bind_threw h2, .inr rfl⟩
  · exact .inr ⟨hn, t, f1, bind_threw h, .inl rfl⟩

/-! ## One call -/

/-- The value type throws nowhere the call could not bear it: assigning to an entry; and in the functions that
are `noexcept`. -/
def Bears (c : Risky K V) : Op K V → Prop
  | .insert _ _ _ | .set _ _ _ => c.assignThrows = false
  | .getValue _ _ => c.makeThrows = false ∧ c.copyThrows = false
  | _ => True

/-- Every table is the map given for it. -/
def Are (c : Risky K V) (s : Nat → UMap K V) (g : Nat → K → Option V) : Prop := ∀ i, Is c.toTypes (s i) (g i)

theorem Are.set {s : Nat → UMap K V} {g : Nat → K → Option V} (h : Are c s g) {j : Nat} {t : UMap K V} {m : K → Option V}
    (ht : Is c.toTypes t m) : Are c (setFn s j t) (setFn g j m) := by
  intro i
  unfold setFn
  split
  · exact ht
  · exact h i

theorem Are.same {s : Nat → UMap K V} {g : Nat → K → Option V} (h : Are c s g) (j : Nat) : Are c (setFn s j (s j)) g := by
  intro i
  unfold setFn
  split
  · rename_i hi; subst hi; exact h i
  · exact h i

/-- A call that returns has done what it should; one that throws, which it does only when a step throws, has
changed nothing, but that a table assigned to from another table may be empty.  No call ends the program. -/
theorem c74_call (hl : c.toTypes.Lawful) {s : Nat → UMap K V} {g : Nat → K → Option V} (h : Are c s g) (f : Faults)
    (op : Op K V) (hb : Bears c op) :
    (∃ r, (runX c s f op).1 = .done r ∧ Says c.eq c.dflt g op r ∧ Are c (runX c s f op).2 (next c.eq c.dflt g op)) ∨
    ((runX c s f op).1 = .threw ∧ true ∈ f ∧ (Are c (runX c s f op).2 g ∨
      ∃ i j, op = .copy i j ∧ i ≠ j ∧ Are c (runX c s f op).2 (setFn g i fun _ => none))) := by
  obtain ⟨hsay, hnext⟩ := run_right hl h op
  cases op with
  | new i n =>
    simp only [runX]
    rcases clean_attempt (UMap.empty n : UMap K V) f with ⟨f1, h1, -⟩ | ⟨f1, h1, hf⟩
    · rw [h1]; exact .inl ⟨_, rfl, hsay, hnext⟩
    · rw [h1]; exact .inr ⟨rfl, hf, .inl h⟩
  | newList i l =>
    simp only [runX]
    rcases clean_attempt (UMap.empty l.length : UMap K V) f with ⟨f1, h1, hn⟩ | ⟨f1, h1, hf⟩
    · rw [bind_done h1]
      rcases emplaces_done (c := c) l (UMap.empty l.length) f1 with ⟨f2, h2, -⟩ | ⟨t', f2, h2, hn2⟩
      · rw [h2]; exact .inl ⟨_, rfl, hsay, hnext⟩
      · rw [h2]; exact .inr ⟨rfl, Classical.byContradiction fun hf => hn hf hn2, .inl h⟩
    · rw [bind_threw h1]; exact .inr ⟨rfl, hf, .inl h⟩
  | insert i k v =>
    simp only [runX]
    rcases clean_insert hb k v (s i) f with ⟨f1, h1, -⟩ | ⟨f1, h1, hf⟩
    · rw [h1]; exact .inl ⟨_, rfl, hsay, hnext⟩
    · rw [h1]; exact .inr ⟨rfl, hf, .inl (h.same i)⟩
  | getValue i k =>
    simp only [runX]
    rw [getValue_safe hb.1 hb.2]
    exact .inl ⟨_, rfl, hsay, h.same i⟩
  | index i k =>
    simp only [runX]
    rcases clean_read (c := c) k (s i) f with ⟨f1, h1, -⟩ | ⟨f1, h1, hf⟩
    · rw [h1]; exact .inl ⟨_, rfl, hsay, hnext⟩
    · rw [h1]; exact .inr ⟨rfl, hf, .inl (h.same i)⟩
  | set i k v =>
    simp only [runX]
    rcases clean_set hb k v (s i) f with ⟨f1, h1, -⟩ | ⟨f1, h1, hf⟩
    · rw [h1]; exact .inl ⟨_, rfl, hsay, hnext⟩
    · rw [h1]; exact .inr ⟨rfl, hf, .inl (h.same i)⟩
  | copy i j =>
    simp only [runX]
    split
    · rename_i hij
      subst hij
      refine .inl ⟨_, rfl, trivial, ?_⟩
      intro k
      show Is _ (s k) (setFn g i (g i) k)
      unfold setFn
      split
      · rename_i hk; subst hk; exact h k
      · exact h k
    · rename_i hij
      rcases copy_done (c := c) (s j) (s i) f with ⟨f1, h1⟩ | ⟨hf, t', f1, h1, rfl | rfl⟩
      · rw [h1]; exact .inl ⟨_, rfl, hsay, hnext⟩
      · rw [h1]; exact .inr ⟨rfl, hf, .inl (h.same i)⟩
      · rw [h1]; exact .inr ⟨rfl, hf, .inr ⟨i, j, rfl, hij, h.set (h i).clear⟩⟩
  | remove i k => exact .inl ⟨_, rfl, hsay, hnext⟩
  | contains i k => exact .inl ⟨_, rfl, hsay, hnext⟩
  | find i k => exact .inl ⟨_, rfl, hsay, hnext⟩
  | size i => exact .inl ⟨_, rfl, hsay, hnext⟩
  | isEmpty i => exact .inl ⟨_, rfl, hsay, hnext⟩
  | iterate i => exact .inl ⟨_, rfl, hsay, hnext⟩
  | clear i => exact .inl ⟨_, rfl, hsay, hnext⟩
  | move i j => exact .inl ⟨_, rfl, hsay, hnext⟩
  | swap i j => exact .inl ⟨_, rfl, hsay, hnext⟩

/-! ## Histories -/

/-- All results of calls some of which throw are right: a call that throws changes no map, but that a map that
was to be a copy of another may be empty. -/
def RightX (eq : K → K → Bool) (dflt : V) (s : Nat → K → Option V) : List (Op K V) → List (End (Out K V)) → Prop
  | [], [] => True
  | op :: ops, .done r :: rs => Says eq dflt s op r ∧ RightX eq dflt (next eq dflt s op) ops rs
  | op :: ops, .threw :: rs => RightX eq dflt s ops rs ∨
      ∃ i j, op = .copy i j ∧ i ≠ j ∧ RightX eq dflt (setFn s i fun _ => none) ops rs
  | _, _ => False

/-- Whatever throws in whichever calls, all calls before, between and after go on with the maps as they were
before the calls that threw. -/
theorem c74_history (hl : c.toTypes.Lawful) (ops : List (Op K V × Faults)) (hb : ∀ p ∈ ops, Bears c p.1) :
    RightX c.eq c.dflt (fun _ _ => none) (ops.map Prod.fst) (runsX c ops fun _ => UMap.empty 100).1 := by
  have : ∀ {s : Nat → UMap K V} {g : Nat → K → Option V}, Are c s g →
      RightX c.eq c.dflt g (ops.map Prod.fst) (runsX c ops s).1 := by
    induction ops with
    | nil => intros; trivial
    | cons p ops ih =>
      intro s g h
      obtain ⟨op, f⟩ := p
      have ih := fun {s g} => @ih (fun p hp => hb p (List.mem_cons_of_mem _ hp)) s g
      unfold runsX
      rw [List.map_cons]
      rcases c74_call hl h f op (hb _ (List.mem_cons_self ..)) with ⟨r, hr, h1, h2⟩ | ⟨hr, -, h1 | ⟨i, j, ho, hij, h1⟩⟩
      · rw [hr]; exact ⟨h1, ih h2⟩
      · rw [hr]; exact .inl (ih h1)
      · rw [hr]; exact .inr ⟨i, j, ho, hij, ih h1⟩
  exact this fun _ => is_empty 100

/-- For a copy that fails the destination is as before or empty, and nothing else changes: this is all that
is missing from "unchanged". -/
theorem c74_copy_partial (hl : c.toTypes.Lawful) {s : Nat → UMap K V} {g : Nat → K → Option V} (h : Are c s g) (f : Faults)
    (i j : Nat) (ht : (runX c s f (.copy i j)).1 = .threw) :
    Are c (runX c s f (.copy i j)).2 g ∨ Are c (runX c s f (.copy i j)).2 (setFn g i fun _ => none) := by
  rcases c74_call hl h f (.copy i j) trivial with ⟨r, hr, -, -⟩ | ⟨-, -, h1 | ⟨i', j', ho, -, h1⟩⟩
  · rw [hr] at ht; cases ht
  · exact .inl h1
  · cases ho; exact .inr h1

/-! ## What does not hold -/

/-- The faults before the assignment of a new entry's value, none of which happens. -/
def quiet (c : Risky K V) (t : UMap K V) : Faults :=
  false :: ((if c.keyThrows then [false] else []) ++ ((if c.makeThrows then [false] else []) ++
    (match c.grow t.count t.n with | some _ => [false] | none => [])))

theorem attempt_false (t : UMap K V) (f : Faults) : X.attempt t (false :: f) = (.done (), t, f) := rfl

theorem attemptIf_false (b : Bool) (t : UMap K V) (f : Faults) :
    X.attemptIf b t ((if b then [false] else []) ++ f) = (.done (), t, f) := by cases b <;> rfl

theorem index_quiet (t : UMap K V) (k : K) (hk : t.find c.toTypes k = none) (f : Faults) :
    indexX c k t (quiet c t ++ f) = (.done (), t.index c.toTypes k, f) := by
  unfold indexX UMap.index quiet
  rw [bind_done (x := X.get) (a := t) (t' := t) (f' := _) rfl, hk]
  dsimp only
  rw [List.cons_append, bind_done (attempt_false ..), List.append_assoc, bind_done (attemptIf_false ..), List.append_assoc,
    bind_done (attemptIf_false ..)]
  cases c.grow t.count t.n <;> rfl

/-- For every value type whose assignment may throw: `insert` of a new key may throw and yet have put the key
in, with another value; inserting it again then returns false, and the value given is lost. -/
theorem c74_refuted_insert (hl : c.toTypes.Lawful) (ha : c.assignThrows = true) {t : UMap K V} {m : K → Option V} (h : Is c.toTypes t m)
    {k : K} (hk : m k = none) (v : V) :
    ∃ f t' f', insertX c k v t f = (.threw, t', f') ∧ Is c.toTypes t' (mapSet c.eq m k (c.torn c.dflt v)) ∧
      ∀ f'', insertX c k v t' f'' = (.done false, t', f'') := by
  have hf : t.find c.toTypes k = none := by
    have := congrFun h.look k
    rw [hk] at this
    unfold look at this
    cases hf : t.find c.toTypes k with
    | none => rfl
    | some p => rw [hf] at this; cases this
  have hc : contains c.toTypes t k = false := by
    cases hc : contains c.toTypes t k with
    | false => rfl
    | true => exact absurd hk ((h.contains hl k).1 hc)
  have hi := h.index hl k
  rw [if_pos hk] at hi
  have hdf : ((((t.index c.toTypes k).find c.toTypes k).map Prod.snd).getD c.dflt) = c.dflt := by
    have := congrFun hi.look k
    unfold look at this
    rw [this]
    simp [mapSet, hl.refl k trivial]
  have hs := hi.assign hl k (c.torn c.dflt v) (by simp [mapSet, hl.refl k trivial])
  rw [mapSet_mapSet] at hs
  refine ⟨quiet c t ++ [true], _, [], ?_, hs, fun f'' => ?_⟩
  · unfold insertX
    rw [bind_done (x := X.get) (a := t) (t' := t) (f' := _) rfl, hc]
    rw [if_neg (by nofun), bind_done (index_quiet t k hf [true])]
    refine bind_threw ?_
    unfold assignX
    rw [ha, hdf]
    rfl
  · unfold insertX
    rw [bind_done (x := X.get) (a := _) (t' := _) (f' := f'') rfl]
    rw [(hs.contains hl k).2 (by simp [mapSet, hl.refl k trivial])]
    rfl

/-- Assigning a table that is not empty to another may throw and leave that one empty: its entries are lost. -/
theorem c74_refuted_copy (u t : UMap K V) (hu : u.entries ≠ []) :
    ∃ f f', copyX c u t f = (.threw, t.clear, f') := by
  refine ⟨[false, true], [], ?_⟩
  cases he : u.entries with
  | nil => exact absurd he hu
  | cons p l => unfold copyX; rw [he]; rfl

/-- `getValue` ends the program if copying the value throws. -/
theorem c74_refuted_getValue (hc : c.copyThrows = true) {t : UMap K V} {k : K} {p : K × V} (h : t.find c.toTypes k = some p) :
    ∃ f f', getValueX c k t f = (.died, t, f') := by
  refine ⟨[true], [], ?_⟩
  unfold getValueX X.guarded
  rw [bind_done (x := X.get) (a := t) (t' := t) (f' := _) rfl, h, hc]
  rfl

/-! ## Cases -/

/-- Strings or numbers as values: nothing of the value throws. -/
def natRisky : Risky Nat Nat := { natTypes with keyThrows := true, makeThrows := false, copyThrows := false, assignThrows := false, torn := fun a _ => a }

/-- Values like `std::string`: everything may throw. -/
def wildRisky : Risky Nat Nat := { natTypes with keyThrows := true, makeThrows := true, copyThrows := true, assignThrows := true, torn := fun a _ => a }

/-- Two insertions, the second of which fails and is repeated; a copy that fails. -/
def faultyCalls : List (Op Nat Nat × Faults) :=
  [(.new 0 2, []), (.insert 0 1 10, []), (.insert 0 4 40, [false, true]), (.contains 0 4, []), (.insert 0 4 40, []), (.set 1 7 70, []),
    (.copy 1 0, [false, false, false, true]), (.size 1, []), (.size 0, []), (.getValue 0 4, [true])]

example := c74_history (c := natRisky) natLawful faultyCalls (by simp [faultyCalls, Bears, natRisky])
example : (runsX natRisky faultyCalls fun _ => UMap.empty 100).1 =
    [.done .unit, .done (.bool true), .threw, .done (.bool false), .done (.bool true), .done .unit, .threw, .done (.nat 0), .done (.nat 2),
      .done (.value 40)] := by rfl
example : Bears natRisky (.insert 0 1 2) := rfl
example := c74_refuted_insert (c := wildRisky) natLawful rfl (is_empty 4) (k := 3) rfl 5
example := c74_refuted_copy (c := natRisky) (ofList natTypes [(1, 2)]) (ofList natTypes [(3, 4), (5, 6)]) (by decide)
example := c74_refuted_getValue (c := wildRisky) (t := ofList natTypes [(1, 2)]) (k := 1) rfl rfl

end Bdlib.Hash
