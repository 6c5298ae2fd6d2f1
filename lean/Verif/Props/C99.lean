import Verif.Elems.Take

/-!
# C99: elements that throw

Arrays of a class whose constructors and assignments may throw, in a process whose memory may run out: any calls, any
actions that throw at any time.
-/

namespace Bdlib.Elems

open Spec.Elems (Is Call Pre Ret Threw Range Arrays Kept target)

variable {V : Type}

/-- The calls. -/
def run (F : Faults) (E : Ty V) (scale : Nat → Nat) : Call V → M V Unit
  | .new => do let _ ← ctor
  | .list vs => do let _ ← listCtor F E vs
  | .copy p => do let _ ← copyCtor p
  | .assign o p => copyAssign o p
  | .destroy o => destroy o
  | .slice o start len => slice o start len
  | .clear o => clear o
  | .popBack o => popBack o
  | .write o i v => write F E scale o i v
  | .assignList o vs => assignList F E o vs
  | .insert o pos v => insert F E scale o pos v
  | .append o v => append F E scale o v
  | .insertArr o pos p => insertArr F E scale o pos p
  | .replace o pos v => replace F E scale o pos v
  | .replaceArr o pos p => replaceArr F E scale o pos p
  | .resize o n => resize F E scale o n
  | .insertMoved o pos v => insertMoved F E scale o pos v
  | .shift o => do let _ ← shift F E o
  | .pop o => do let _ ← pop F E o
  | .swap o p => swap o p
  | .assignTemp o p => assignTemp o p
  | .insertRange o pos vs => insertRange F E scale o pos vs
  | .insertTemp o pos p => insertTemp F E scale o pos p

/-- The states a program reaches with calls it may make; `k` of them threw what an element or the memory threw. -/
inductive Reach (F : Faults) (E : Ty V) (scale : Nat → Nat) : W V → Nat → Prop
  | start : Reach F E scale W.empty 0
  | ret {w w' : W V} {k : Nat} {c : Call V} {a : Unit} : Reach F E scale w k → Pre (shown w) c → run F E scale c w = .ret a w' → Reach F E scale w' k
  | range {w w' : W V} {k : Nat} {c : Call V} : Reach F E scale w k → Pre (shown w) c → run F E scale c w = .exc .range w' → Reach F E scale w' k
  | fault {w w' : W V} {k : Nat} {c : Call V} : Reach F E scale w k → Pre (shown w) c → run F E scale c w = .exc .fault w' → Reach F E scale w' (k + 1)

variable {k : Nat} (F : Faults) (E : Ty V) (scale : Nat → Nat)

theorem validate_ok {w : W V} {o pos : Nat} {l : List V} (hi : Inv w k) (h : Is (shown w) o l) :
    OK (validate o pos) w (fun _ w' => w = w' ∧ pos ≤ l.length) (fun e w' => e = .range ∧ w = w' ∧ l.length < pos) := by
  have hob : ∃ ob : Ob, w.objs[o]? = some (some ob) ∧ ob.sublen = l.length := by
    rcases hi.cases h with ⟨ho, rfl⟩ | ⟨r, off, xs, ho, -⟩
    · exact ⟨_, ho, rfl⟩
    · exact ⟨_, ho, rfl⟩
  obtain ⟨ob, ho, hsub⟩ := hob
  refine OK.bind (Y := fun _ _ => False) (obj_ok ho) ?_ (fun _ _ hf => hf.elim)
  rintro _ _ ⟨rfl, rfl⟩
  rw [hsub]
  by_cases hc : pos ≠ 0 ∧ l.length ≤ pos - 1
  · rw [if_pos hc]; exact ⟨rfl, rfl, by omega⟩
  · rw [if_neg hc]; exact ⟨rfl, by omega⟩

theorem obj_len {w : W V} {o : Nat} {l : List V} (hi : Inv w k) (h : Is (shown w) o l) : ∃ ob : Ob, w.objs[o]? = some (some ob) ∧ ob.sublen = l.length := by
  rcases hi.cases h with ⟨ho, rfl⟩ | ⟨r, off, xs, ho, -⟩
  · exact ⟨_, ho, rfl⟩
  · exact ⟨_, ho, rfl⟩

theorem insert_ok' {w : W V} {o pos : Nat} {l : List V} (hi : Inv w k) (h : Is (shown w) o l) (v : V) :
    OK (insert F E scale o pos v) w (fun _ w' => Inv w' k ∧ pos ≤ l.length ∧ shown w' = (shown w).set o (some (l.take pos ++ v :: l.drop pos)) ∧ Alone w' o)
      (fun e w' => (e = .range ∧ w = w' ∧ l.length < pos) ∨ (e = .fault ∧ Inv w' (k + 1) ∧ ∃ l' : List V, shown w' = (shown w).set o (some l') ∧
        (l'.length = l.length ∨ l' = []) ∧ (NoMove F → Alone w o → l'.length = l.length ∧ l'.take pos = l.take pos))) := by
  refine OK.bind (validate_ok hi h) ?_ (fun _ _ hx => .inl hx)
  rintro _ _ ⟨rfl, hp⟩
  obtain ⟨ob, ho, hsub⟩ := obj_len hi h
  refine OK.bind (Y := fun _ _ => False) (obj_ok ho) ?_ (fun _ _ hf => hf.elim)
  rintro _ _ ⟨rfl, rfl⟩
  rw [hsub]
  refine (insert_core F E scale (us := [v]) (pure [v]) hi h hp (fun w' m _ _ => ⟨rfl, rfl⟩)).mono ?_ (fun _ _ hx => .inr hx)
  rintro _ w' ⟨h1, h2, h3⟩
  exact ⟨h1, hp, by simpa using h2, h3⟩

theorem insert_ok {w : W V} {o pos : Nat} {l : List V} (hi : Inv w k) (h : Is (shown w) o l) (v : V) :
    OK (insert F E scale o pos v) w (fun _ w' => Inv w' k ∧ pos ≤ l.length ∧ shown w' = (shown w).set o (some (l.take pos ++ v :: l.drop pos)))
      (fun e w' => (e = .range ∧ w = w' ∧ l.length < pos) ∨ (e = .fault ∧ Inv w' (k + 1) ∧ ∃ l' : List V, shown w' = (shown w).set o (some l') ∧
        (l'.length = l.length ∨ l' = []) ∧ (NoMove F → Alone w o → l'.length = l.length ∧ l'.take pos = l.take pos))) :=
  (insert_ok' F E scale hi h v).mono (fun _ _ ⟨h1, h2, h3, _⟩ => ⟨h1, h2, h3⟩) (fun _ _ hx => hx)

theorem insertMoved_ok {w : W V} {o pos : Nat} {l : List V} (hi : Inv w k) (h : Is (shown w) o l) (v : V) :
    OK (insertMoved F E scale o pos v) w (fun _ w' => Inv w' k ∧ pos ≤ l.length ∧ shown w' = (shown w).set o (some (l.take pos ++ v :: l.drop pos)))
      (fun e w' => (e = .range ∧ w = w' ∧ l.length < pos) ∨ (e = .fault ∧ Inv w' (k + 1) ∧ ∃ l' : List V, shown w' = (shown w).set o (some l') ∧
        (l'.length = l.length ∨ l' = []) ∧ (NoMove F → Alone w o → l'.length = l.length ∧ l'.take pos = l.take pos))) := by
  refine OK.bind (validate_ok hi h) ?_ (fun _ _ hx => .inl hx)
  rintro _ _ ⟨rfl, hp⟩
  obtain ⟨ob, ho, hsub⟩ := obj_len hi h
  refine OK.bind (Y := fun _ _ => False) (obj_ok ho) ?_ (fun _ _ hf => hf.elim)
  rintro _ _ ⟨rfl, rfl⟩
  rw [hsub]
  refine (insert_core F E scale (G := fun t _ => F t .move) (us := [v]) (pure [v]) hi h hp (fun w' m _ _ => ⟨rfl, rfl⟩)).mono ?_ (fun _ _ hx => .inr hx)
  rintro _ w' ⟨h1, h2, -⟩
  exact ⟨h1, hp, by simpa using h2⟩

theorem insertArr_ok {w : W V} {o pos p : Nat} {l m : List V} (hi : Inv w k) (h : Is (shown w) o l) (hop : o ≠ p) (hp : Is (shown w) p m)
    (h2 : pos ≠ 0 ∨ l = [] ∨ m.length ≤ l.length) :
    OK (insertArr F E scale o pos p) w (fun _ w' => Inv w' k ∧ pos ≤ l.length ∧ shown w' = (shown w).set o (some (l.take pos ++ m ++ l.drop pos)))
      (fun e w' => (e = .range ∧ w = w' ∧ l.length < pos) ∨ (e = .fault ∧ Inv w' (k + 1) ∧ ∃ l' : List V, shown w' = (shown w).set o (some l') ∧
        (l'.length = l.length ∨ l' = []) ∧ (NoMove F → Alone w o → l'.length = l.length ∧ l'.take pos = l.take pos))) := by
  refine OK.bind (validate_ok hi h) ?_ (fun _ _ hx => .inl hx)
  rintro _ _ ⟨rfl, hpos⟩
  obtain ⟨ob, ho, hsub⟩ := obj_len hi h
  refine OK.bind (Y := fun _ _ => False) (obj_ok ho) ?_ (fun _ _ hf => hf.elim)
  rintro _ _ ⟨rfl, rfl⟩
  obtain ⟨op, hpo, hpsub⟩ := obj_len hi hp
  refine OK.bind (Y := fun _ _ => False) (obj_ok hpo) ?_ (fun _ _ hf => hf.elim)
  rintro _ _ ⟨rfl, rfl⟩
  rw [hsub, hpsub]
  by_cases hc : pos = 0 ∧ m.length > l.length
  · rw [if_pos hc]
    have hl : l = [] := by
      rcases h2 with h2 | h2 | h2
      · exact absurd hc.1 h2
      · exact h2
      · omega
    subst hl
    refine (copyAssign_ok hi h hp (X := fun _ _ => False)).mono ?_ (fun _ _ hf => hf.elim)
    rintro _ w' ⟨g1, g2⟩
    exact ⟨g1, hpos, by simpa using g2⟩
  · rw [if_neg hc]
    refine (insert_core F E scale (us := m) (elems p) hi h hpos ?_).mono ?_ ?_
    · intro w' q hi' hs'
      exact elems_ok hi' (by rw [hs']; exact is_other hp (Ne.symm hop))
    · rintro _ w' ⟨g1, g2, -⟩
      exact ⟨g1, hpos, g2⟩
    · intro _ w' hx
      exact .inr hx

theorem getOwn_ok {w : W V} {o : Nat} {l : List V} (hi : Inv w k) (h : Is (shown w) o l) (ha : Alone w o) :
    OK (getOwn F E scale o) w (fun _ w' => Inv w' k ∧ shown w' = shown w ∧ Alone w' o)
      (fun e w' => e = .fault ∧ Inv w' (k + 1) ∧ ∃ l' : List V, shown w' = (shown w).set o (some l') ∧ (l'.length = l.length ∨ l' = []) ∧ (NoMove F → l' = l)) := by
  obtain ⟨ob, ho, hsub⟩ := obj_len hi h
  refine OK.bind (Y := fun _ _ => False) (obj_ok ho) ?_ (fun _ _ hf => hf.elim)
  rintro _ _ ⟨rfl, rfl⟩
  rw [hsub]
  refine (aboutToModify_ok F E scale hi h (Nat.le_refl _)).mono ?_ ?_
  · rintro _ w' ⟨h1, h2, r, off, xs, hat, -⟩
    exact ⟨h1, h2, alone_of h1 hat⟩
  · rintro _ w' ⟨he, h1, l', h2, h3, h4⟩
    exact ⟨he, h1, l', h2, h3, fun hm => h4 hm ha⟩

theorem insertEach_ok (vs : List V) : ∀ {w : W V} {o pos : Nat} {l : List V}, Inv w k → Is (shown w) o l → pos ≤ l.length → Alone w o →
    OK (insertEach F E scale o pos vs) w (fun _ w' => Inv w' k ∧ shown w' = (shown w).set o (some (l.take pos ++ vs ++ l.drop pos)))
      (fun e w' => e = .fault ∧ Inv w' (k + 1) ∧ ∃ l' : List V, shown w' = (shown w).set o (some l') ∧
        (l.length ≤ l'.length ∧ l'.length ≤ l.length + vs.length ∨ l' = []) ∧ (NoMove F → l.length ≤ l'.length ∧ l'.take pos = l.take pos)) := by
  induction vs with
  | nil =>
    intro w o pos l hi h hp ha
    refine (getOwn_ok F E scale hi h ha).mono ?_ ?_
    · rintro _ w' ⟨h1, h2, -⟩
      exact ⟨h1, by rw [h2, List.append_nil, List.take_append_drop, set_same h]⟩
    · rintro _ w' ⟨he, h1, l', h2, h3, h4⟩
      refine ⟨he, h1, l', h2, h3.imp (fun h => by simp [h]) id, fun hm => by rw [h4 hm]; exact ⟨Nat.le_refl _, rfl⟩⟩
  | cons v vs ih =>
    intro w o pos l hi h hp ha
    refine OK.bind (getOwn_ok F E scale hi h ha) ?_ ?_
    rotate_left
    · rintro _ w' ⟨he, h1, l', h2, h3, h4⟩
      exact ⟨he, h1, l', h2, h3.imp (fun h => by simp [h]) id, fun hm => by rw [h4 hm]; exact ⟨Nat.le_refl _, rfl⟩⟩
    rintro _ w1 ⟨hi1, hs1, ha1⟩
    have h1 : Is (shown w1) o l := by rw [hs1]; exact h
    refine OK.bind (insert_ok' F E scale hi1 h1 v) ?_ ?_
    rotate_left
    · rintro _ w' (⟨-, -, hx⟩ | ⟨he, g1, l', g2, g3, g4⟩)
      · omega
      · exact ⟨he, g1, l', by rw [g2, hs1], g3.imp (fun h => by simp [h]) id, fun hm => ⟨Nat.le_of_eq (g4 hm ha1).1.symm, (g4 hm ha1).2⟩⟩
    rintro _ w2 ⟨hi2, -, hs2, ha2⟩
    have hol : o < (shown w1).length := (List.getElem?_eq_some_iff.mp h1).1
    have h2 : Is (shown w2) o (l.take pos ++ v :: l.drop pos) := by
      show (shown w2)[o]? = _
      rw [hs2, List.getElem?_set_self hol]
    have hlen : (l.take pos ++ v :: l.drop pos).length = l.length + 1 := by simp; omega
    have htake : (l.take pos ++ v :: l.drop pos).take pos = l.take pos := List.take_left' (by simp; omega)
    refine OK.bind (getOwn_ok F E scale hi2 h2 ha2) ?_ ?_
    rotate_left
    · rintro _ w' ⟨he, g1, l', g2, g3, g4⟩
      refine ⟨he, g1, l', by rw [g2, hs2, hs1, List.set_set], ?_, fun hm => ?_⟩
      · rw [hlen] at g3
        simp only [List.length_cons]
        exact g3.imp (fun h => by omega) id
      · rw [g4 hm, hlen]; exact ⟨by omega, htake⟩
    rintro _ w3 ⟨hi3, hs3, ha3⟩
    have h3 : Is (shown w3) o (l.take pos ++ v :: l.drop pos) := by rw [hs3]; exact h2
    refine (ih hi3 h3 (pos := pos + 1) (by omega) ha3).mono ?_ ?_
    · rintro _ w' ⟨g1, g2⟩
      refine ⟨g1, ?_⟩
      rw [g2, hs3, hs2, hs1, List.set_set]
      have e : l.take pos ++ v :: l.drop pos = (l.take pos ++ [v]) ++ l.drop pos := by simp
      have el : (l.take pos ++ [v]).length = pos + 1 := by simp; omega
      rw [e, List.take_left' el, List.drop_left' el]
      simp
    · rintro _ w' ⟨he, g1, l', g2, g3, g4⟩
      refine ⟨he, g1, l', by rw [g2, hs3, hs2, hs1, List.set_set], ?_, fun hm => ?_⟩
      · rw [hlen] at g3
        simp only [List.length_cons]
        exact g3.imp (fun h => by omega) id
      · obtain ⟨q1, q2⟩ := g4 hm
        refine ⟨by omega, ?_⟩
        have := congrArg (List.take pos) q2
        rw [List.take_take, List.take_take, Nat.min_eq_left (by omega)] at this
        rw [this, htake]

theorem insertRange_ok {w : W V} {o pos : Nat} {l : List V} (hi : Inv w k) (h : Is (shown w) o l) (hp : pos ≤ l.length) (vs : List V) :
    OK (insertRange F E scale o pos vs) w (fun _ w' => Inv w' k ∧ shown w' = (shown w).set o (some (l.take pos ++ vs ++ l.drop pos)))
      (fun e w' => e = .fault ∧ Inv w' (k + 1) ∧ ∃ l' : List V, shown w' = (shown w).set o (some l') ∧
        (l.length ≤ l'.length ∧ l'.length ≤ l.length + vs.length ∨ l' = []) ∧ (NoMove F → Alone w o → l.length ≤ l'.length ∧ l'.take pos = l.take pos)) := by
  obtain ⟨ob, ho, hsub⟩ := obj_len hi h
  refine OK.bind (Y := fun _ _ => False) (obj_ok ho) ?_ (fun _ _ hf => hf.elim)
  rintro _ _ ⟨rfl, rfl⟩
  rw [hsub]
  refine OK.bind (aboutToModify_ok F E scale hi h (Nat.le_add_right _ _)) ?_ ?_
  · rintro _ w1 ⟨h1, h2, r, off, xs, hat, -⟩
    refine (insertEach_ok F E scale vs h1 (by rw [h2]; exact h) hp (alone_of h1 hat)).mono ?_ ?_
    · rintro _ w' ⟨g1, g2⟩
      exact ⟨g1, by rw [g2, h2]⟩
    · rintro _ w' ⟨he, g1, l', g2, g3, g4⟩
      exact ⟨he, g1, l', by rw [g2, h2], g3, fun hm _ => g4 hm⟩
  · rintro _ w' ⟨he, h1, l', h2, h3, h4⟩
    refine ⟨he, h1, l', h2, h3.imp (fun h => by omega) id, fun hm ha => ?_⟩
    rw [h4 hm ha]; exact ⟨Nat.le_refl _, rfl⟩

theorem insertTemp_ok {w : W V} {o pos p : Nat} {l m : List V} (hi : Inv w k) (h : Is (shown w) o l) (hop : o ≠ p) (hp : Is (shown w) p m) (hpos : pos ≤ l.length)
    (h2 : pos ≠ 0 ∨ l = [] ∨ m.length ≤ l.length) :
    OK (insertTemp F E scale o pos p) w (fun _ w' => Inv w' k ∧ shown w' = ((shown w).set o (some (l.take pos ++ m ++ l.drop pos))).set p none)
      (fun e w' => e = .fault ∧ Inv w' (k + 1) ∧ ∃ l' : List V, shown w' = ((shown w).set o (some l')).set p none ∧
        (l'.length = l.length ∨ l' = []) ∧ (NoMove F → Alone w o → l'.length = l.length ∧ l'.take pos = l.take pos)) := by
  obtain ⟨ob, ho, hsub⟩ := obj_len hi h
  refine OK.bind (Y := fun _ _ => False) (obj_ok ho) ?_ (fun _ _ hf => hf.elim)
  rintro _ _ ⟨rfl, rfl⟩
  obtain ⟨op, hpo, hpsub⟩ := obj_len hi hp
  refine OK.bind (Y := fun _ _ => False) (obj_ok hpo) ?_ (fun _ _ hf => hf.elim)
  rintro _ _ ⟨rfl, rfl⟩
  rw [hsub, hpsub]
  by_cases hc : pos = 0 ∧ m.length > l.length
  · rw [if_pos hc]
    have hl : l = [] := by
      rcases h2 with h2 | h2 | h2
      · exact absurd hc.1 h2
      · exact h2
      · omega
    subst hl
    refine OK.bind ((moveAssign_ok hi hop h hp (X := fun _ _ => False)).onThrow (X := fun _ _ => False) (fun _ _ hf => hf.elim)) ?_ (fun _ _ hf => hf.elim)
    intro _ w1 hm
    refine (destroyMoved_ok hm (X := fun _ _ => False)).mono ?_ (fun _ _ hf => hf.elim)
    rintro _ w' ⟨g1, g2⟩
    exact ⟨g1, by simpa using g2⟩
  · rw [if_neg hc]
    have his : ∀ (w' : W V) (q : List V), shown w' = (shown w).set o (some q) → Is (shown w') p m := by
      intro w' q hs
      rw [hs]; exact is_other hp (Ne.symm hop)
    refine OK.bind ((insertArr_ok F E scale hi h hop hp h2).onThrow (X := fun e w' => e = .fault ∧ Inv w' (k + 1) ∧ ∃ l' : List V, shown w' = ((shown w).set o (some l')).set p none ∧
        (l'.length = l.length ∨ l' = []) ∧ (NoMove F → Alone w o → l'.length = l.length ∧ l'.take pos = l.take pos)) ?_) ?_ (fun _ _ hx => hx)
    · rintro e w' (⟨-, -, hx⟩ | ⟨he, g1, l', g2, g3, g4⟩)
      · omega
      · refine (destroy_ok g1 (his w' _ g2) (X := fun _ _ => False)).mono ?_ (fun _ _ hf => hf)
        rintro _ w'' ⟨q1, q2⟩
        exact ⟨he, q1, l', by rw [q2, g2], g3, g4⟩
    · rintro _ w' ⟨g1, -, g2⟩
      refine (destroy_ok g1 (his w' _ g2) (X := fun _ _ => False)).mono ?_ (fun _ _ hf => hf.elim)
      rintro _ w'' ⟨q1, q2⟩
      exact ⟨q1, by rw [q2, g2]⟩

theorem replace_ok {w : W V} {o pos : Nat} {l : List V} (hi : Inv w k) (h : Is (shown w) o l) (hne : pos ≠ l.length) (v : V) :
    OK (replace F E scale o pos v) w (fun _ w' => Inv w' k ∧ pos < l.length ∧ shown w' = (shown w).set o (some (l.set pos v)))
      (fun e w' => (e = .range ∧ w = w' ∧ l.length < pos) ∨ (e = .fault ∧ Inv w' (k + 1) ∧ ∃ l' : List V, shown w' = (shown w).set o (some l') ∧
        (l'.length = l.length ∨ l' = []) ∧ (NoMove F → Alone w o → l'.length = l.length ∧ l'.take pos = l.take pos))) := by
  refine OK.bind (validate_ok hi h) ?_ (fun _ _ hx => .inl hx)
  rintro _ _ ⟨rfl, hp⟩
  have hlt : pos < l.length := by omega
  refine (write_ok F E scale hi h hlt v).mono ?_ (fun _ _ hx => .inr hx)
  rintro _ w' ⟨h1, h2⟩
  exact ⟨h1, hlt, h2⟩

theorem replaceArr_ok {w : W V} {o pos p : Nat} {l m : List V} (hi : Inv w k) (h : Is (shown w) o l) (hop : o ≠ p) (hp : Is (shown w) p m) :
    OK (replaceArr F E scale o pos p) w (fun _ w' => Inv w' k ∧ pos ≤ l.length ∧ shown w' = (shown w).set o (some (l.take pos ++ m ++ l.drop (pos + m.length))))
      (fun e w' => (e = .range ∧ w = w' ∧ l.length < pos) ∨ (e = .fault ∧ Inv w' (k + 1) ∧ ∃ l' : List V, shown w' = (shown w).set o (some l') ∧
        (l'.length = l.length ∨ l' = []) ∧ (NoMove F → Alone w o → l'.length = l.length ∧ l'.take pos = l.take pos))) := by
  refine OK.bind (validate_ok hi h) ?_ (fun _ _ hx => .inl hx)
  rintro _ _ ⟨rfl, hpos⟩
  obtain ⟨ob, ho, hsub⟩ := obj_len hi h
  refine OK.bind (Y := fun _ _ => False) (obj_ok ho) ?_ (fun _ _ hf => hf.elim)
  rintro _ _ ⟨rfl, rfl⟩
  obtain ⟨op, hpo, hpsub⟩ := obj_len hi hp
  refine OK.bind (Y := fun _ _ => False) (obj_ok hpo) ?_ (fun _ _ hf => hf.elim)
  rintro _ _ ⟨rfl, rfl⟩
  rw [hsub, hpsub]
  by_cases hc : pos = 0 ∧ m.length > l.length
  · rw [if_pos hc]
    refine (copyAssign_ok hi h hp (X := fun _ _ => False)).mono ?_ (fun _ _ hf => hf.elim)
    rintro _ w' ⟨g1, g2⟩
    refine ⟨g1, hpos, ?_⟩
    rw [g2, hc.1, List.drop_eq_nil_of_le (by omega)]
    simp
  · rw [if_neg hc]
    refine (replace_core F E scale (us := m) (elems p) hi h hpos (by split <;> omega) ?_).mono ?_ ?_
    · intro w' q hi' hs'
      exact elems_ok hi' (by rw [hs']; exact is_other hp (Ne.symm hop))
    · rintro _ w' ⟨g1, g2⟩
      exact ⟨g1, hpos, g2⟩
    · intro _ w' hx
      exact .inr hx

theorem append_ok {w : W V} {o : Nat} {l : List V} (hi : Inv w k) (h : Is (shown w) o l) (v : V) :
    OK (append F E scale o v) w (fun _ w' => Inv w' k ∧ shown w' = (shown w).set o (some (l ++ [v])))
      (fun e w' => e = .fault ∧ Inv w' (k + 1) ∧ ∃ l' : List V, shown w' = (shown w).set o (some l') ∧
        (l'.length = l.length ∨ l' = []) ∧ (NoMove F → Alone w o → l' = l)) := by
  obtain ⟨ob, ho, hsub⟩ := obj_len hi h
  refine OK.bind (Y := fun _ _ => False) (obj_ok ho) ?_ (fun _ _ hf => hf.elim)
  rintro _ _ ⟨rfl, rfl⟩
  rw [hsub]
  refine (insert_ok F E scale hi h v).mono ?_ ?_
  · rintro _ w' ⟨g1, -, g2⟩
    exact ⟨g1, by simpa using g2⟩
  · rintro e w' (⟨-, -, hx⟩ | ⟨he, g1, l', g2, g3, g4⟩)
    · omega
    · refine ⟨he, g1, l', g2, g3, fun hm ha => ?_⟩
      obtain ⟨q1, q2⟩ := g4 hm ha
      rw [List.take_of_length_le (by omega), List.take_length] at q2
      exact q2

theorem resize_ok {w : W V} {o n : Nat} {l : List V} (hi : Inv w k) (h : Is (shown w) o l) :
    OK (resize F E scale o n) w (fun _ w' => Inv w' k ∧ ∃ t : List V, t.length = n - l.length ∧ shown w' = (shown w).set o (some (l.take n ++ t)))
      (fun e w' => e = .fault ∧ Inv w' (k + 1) ∧ ∃ l' : List V, shown w' = (shown w).set o (some l') ∧ (l'.length = l.length ∨ l' = []) ∧
        (NoMove F → Alone w o → l' = l)) := by
  obtain ⟨ob, ho, hsub⟩ := obj_len hi h
  refine OK.bind (Y := fun _ _ => False) (obj_ok ho) ?_ (fun _ _ hf => hf.elim)
  rintro _ _ ⟨rfl, rfl⟩
  rw [hsub]
  by_cases hlt : n < l.length
  · rw [if_pos hlt]
    rcases hi.cases h with ⟨ho', rfl⟩ | ⟨r, off, xs, ho', hb, hl, hv, hu⟩
    · simp at hlt
    · rw [ho] at ho'; cases ho'
      refine OK.bind (Y := fun _ _ => False) (obj_ok ho) ?_ (fun _ _ hf => hf.elim)
      rintro _ _ ⟨rfl, rfl⟩
      have := hi.window (off' := off) (sub' := n) ho hb (by omega)
      refine ⟨this.1, [], by simp; omega, ?_⟩
      have he : l.take n = (xs.drop off).take n := by
        conv => lhs; rw [← hv]
        rw [List.take_take, Nat.min_eq_left (by omega)]
      rw [he, List.append_nil]; exact this.2
  · rw [if_neg hlt]
    refine OK.bind (aboutToModify_ok F E scale hi h (show l.length ≤ n by omega)) ?_ ?_
    rotate_left
    · intro _ w' hx
      exact hx
    rintro _ w1 ⟨hi1, hs1, r, off, xs, hat, hr, hv⟩
    refine (setLength_ok hi1 hat hr (X := fun _ _ => False)).mono ?_ (fun _ _ hf => hf.elim)
    rintro _ w2 ⟨hi2, hs2, -⟩
    refine ⟨hi2, ((xs.drop off).take n).drop l.length, by simp; omega, ?_⟩
    have he : (xs.drop off).take n = l ++ ((xs.drop off).take n).drop l.length := by
      conv => lhs; rw [← List.take_append_drop l.length ((xs.drop off).take n)]
      rw [List.take_take, Nat.min_eq_left (by omega), hv]
    rw [hs2, hs1, List.take_of_length_le (show l.length ≤ n by omega), ← he]

/-- An empty array with no sharer is filled with `vs`. -/
theorem fill_ok {w : W V} {o : Nat} {vs : List V} (hi : Inv w k) (h : Is (shown w) o []) (ha : Alone w o) :
    OK (do reserve F E o vs.length id
           assignFrom F E o 0 vs
           setLength o vs.length) w (fun _ w' => Inv w' k ∧ shown w' = (shown w).set o (some vs))
      (fun e w' => e = .fault ∧ Inv w' (k + 1) ∧ shown w' = (shown w).set o (some [])) := by
  refine OK.bind (reserve_ok F E id hi h ha (Nat.zero_le _)) ?_ ?_
  rotate_left
  · rintro _ w' ⟨he, g1, l', g2, -, g3⟩
    rw [List.length_eq_zero_iff.mp g2] at g3
    exact ⟨he, g1, g3⟩
  rintro _ w1 ⟨hi1, hs1, r, off, xs, hat, hr⟩
  refine OK.bind (assignFrom_ok F E (pos := 0) hi1 hat (by omega)) ?_ ?_
  rotate_left
  · rintro _ w' ⟨he, g1, ys, -, -, g2⟩
    refine ⟨he, g1.more, ?_⟩
    rw [g2, hs1]
    simp
  rintro _ w2 ⟨hi2, hs2, hat2⟩
  refine (setLength_ok hi2 hat2 (by rw [over_length]; omega) (X := fun _ _ => False)).mono ?_ (fun _ _ hf => hf.elim)
  rintro _ w3 ⟨hi3, hs3, -⟩
  refine ⟨hi3, ?_⟩
  rw [hs3, hs2, hs1, List.set_set, Nat.add_zero, over_self _ _ _ (by omega)]

theorem assignList_ok {w : W V} {o : Nat} {l vs : List V} (hi : Inv w k) (h : Is (shown w) o l) :
    OK (assignList F E o vs) w (fun _ w' => Inv w' k ∧ shown w' = (shown w).set o (some vs))
      (fun e w' => e = .fault ∧ Inv w' (k + 1) ∧ shown w' = (shown w).set o (some [])) := by
  refine OK.bind (Y := fun _ _ => False) (clear_ok hi h) ?_ (fun _ _ hf => hf.elim)
  rintro _ w1 ⟨hi1, hs1, ha1⟩
  refine (fill_ok F E hi1 (by rw [hs1]; exact is_set h) ha1).mono ?_ ?_
  · rintro _ w' ⟨g1, g2⟩
    exact ⟨g1, by rw [g2, hs1, List.set_set]⟩
  · rintro _ w' ⟨he, g1, g2⟩
    exact ⟨he, g1, by rw [g2, hs1, List.set_set]⟩

theorem listCtor_ok {w : W V} {vs : List V} (hi : Inv w k) :
    OK (listCtor F E vs) w (fun _ w' => Inv w' k ∧ shown w' = shown w ++ [some vs])
      (fun e w' => e = .fault ∧ Inv w' (k + 1) ∧ shown w' = shown w ++ [none]) := by
  refine OK.bind (Y := fun _ _ => False) (ctor_ok hi) ?_ (fun _ _ hf => hf.elim)
  rintro o w1 ⟨rfl, hi1, hs1, ha1⟩
  have hlen : (shown w).length = w.objs.length := by simp [shown]
  have h1 : Is (shown w1) w.objs.length [] := by rw [hs1, ← hlen]; simp [Is]
  have hset : ∀ x, (shown w1).set w.objs.length x = shown w ++ [x] := by
    intro x
    rw [hs1, ← hlen, List.set_append_right _ _ (Nat.le_refl _), Nat.sub_self, List.set_cons_zero]
  have inner : OK (do
      if vs.length ≠ 0 then reserve F E w.objs.length vs.length id
      assignFrom F E w.objs.length 0 vs
      setLength w.objs.length vs.length) w1 (fun _ w' => Inv w' k ∧ shown w' = shown w ++ [some vs])
      (fun e w' => e = .fault ∧ Inv w' (k + 1) ∧ Is (shown w') w.objs.length [] ∧ ∀ x, (shown w').set w.objs.length x = shown w ++ [x]) := by
    by_cases hv : vs.length ≠ 0
    · rw [if_pos hv]
      refine (fill_ok F E hi1 h1 ha1).mono ?_ ?_
      · rintro _ w' ⟨g1, g2⟩
        exact ⟨g1, by rw [g2, hset]⟩
      · rintro _ w' ⟨he, g1, g2⟩
        exact ⟨he, g1, by rw [g2]; exact is_set h1, fun x => by rw [g2, List.set_set, hset]⟩
    · rw [if_neg hv]
      have hv' : vs = [] := by cases vs <;> simp_all
      subst hv'
      obtain ⟨ob, ho, hsub⟩ := obj_len hi1 h1
      have hob : ob = ⟨none, 0, 0⟩ ∨ ∃ r, ob.ref = some r := by
        rcases hi1.cases h1 with ⟨ho', -⟩ | ⟨r, off, xs, ho', -⟩
        · rw [ho] at ho'; cases ho'; exact .inl rfl
        · rw [ho] at ho'; cases ho'; exact .inr ⟨r, rfl⟩
      refine OK.bind (P := fun _ w' => w1 = w') (Y := fun _ _ => False) ?_ ?_ (fun _ _ hf => hf.elim)
      · refine OK.bind (Y := fun _ _ => False) (obj_ok ho) ?_ (fun _ _ hf => hf.elim)
        rintro _ _ ⟨rfl, rfl⟩
        rcases hob with h | ⟨r, h⟩
        · subst h; exact rfl
        · rw [h]; exact rfl
      · rintro _ _ rfl
        refine OK.bind (Y := fun _ _ => False) (obj_ok ho) ?_ (fun _ _ hf => hf.elim)
        rintro ob _ ⟨rfl, rfl⟩
        have : (⟨ob.ref, ob.offset, 0⟩ : Ob) = ob := by
          obtain ⟨a, b, c⟩ := ob
          simp only [List.length_nil] at hsub
          rw [hsub]
        show Inv { w1 with objs := w1.objs.set w.objs.length (some ⟨ob.ref, ob.offset, 0⟩) } k ∧ shown { w1 with objs := w1.objs.set w.objs.length (some ⟨ob.ref, ob.offset, 0⟩) } = _
        rw [this, set_same ho]
        exact ⟨hi1, by rw [← hset, set_same h1]⟩
  refine OK.bind (OK.onThrow (X := fun e w' => e = .fault ∧ Inv w' (k + 1) ∧ shown w' = shown w ++ [none]) inner ?_) ?_ (fun _ _ hx => hx)
  · rintro e w' ⟨he, g1, g2, g3⟩
    refine (destroy_ok g1 g2 (X := fun _ _ => False)).mono ?_ (fun _ _ hf => hf)
    rintro _ w'' ⟨g4, g5⟩
    exact ⟨he, g4, by rw [g5, g3]⟩
  · rintro _ w' hw
    exact OK.pure _ _ hw

theorem run_ok {w : W V} {c : Call V} (hi : Inv w k) (hp : Pre (shown w) c) :
    OK (run F E scale c) w (fun _ w' => Inv w' k ∧ Ret (shown w) (shown w') c)
      (fun e w' => (e = .range ∧ w = w' ∧ Range (shown w) c) ∨ (e = .fault ∧ Inv w' (k + 1) ∧ Threw (shown w) (shown w') c)) := by
  cases c with
  | new =>
    refine OK.bind (Y := fun _ _ => False) (ctor_ok hi) ?_ (fun _ _ hf => hf.elim)
    rintro _ _ ⟨-, g1, g2, -⟩
    exact ⟨g1, g2⟩
  | list vs =>
    refine OK.bind (listCtor_ok F E hi) ?_ (fun _ _ hx => .inr hx)
    rintro _ _ ⟨g1, g2⟩
    exact ⟨g1, g2⟩
  | copy p =>
    obtain ⟨l, hl⟩ := hp
    refine OK.bind (Y := fun _ _ => False) (copyCtor_ok hi hl) ?_ (fun _ _ hf => hf.elim)
    rintro _ _ ⟨-, g1, g2⟩
    exact ⟨g1, l, hl, g2⟩
  | assign o p =>
    obtain ⟨⟨l, hl⟩, m, hm⟩ := hp
    refine (copyAssign_ok hi hl hm (X := fun _ _ => False)).mono ?_ (fun _ _ hf => hf.elim)
    rintro _ _ ⟨g1, g2⟩
    exact ⟨g1, m, hm, g2⟩
  | destroy o =>
    obtain ⟨l, hl⟩ := hp
    exact (destroy_ok hi hl (X := fun _ _ => False)).mono (fun _ _ hx => hx) (fun _ _ hf => hf.elim)
  | slice o start len =>
    obtain ⟨l, hl, h1, h2⟩ := hp
    refine (slice_ok hi hl h1 h2 (X := fun _ _ => False)).mono ?_ (fun _ _ hf => hf.elim)
    rintro _ _ ⟨g1, g2⟩
    exact ⟨g1, l, hl, g2⟩
  | clear o =>
    obtain ⟨l, hl⟩ := hp
    refine (clear_ok hi hl (X := fun _ _ => False)).mono ?_ (fun _ _ hf => hf.elim)
    rintro _ _ ⟨g1, g2, -⟩
    exact ⟨g1, g2⟩
  | popBack o =>
    obtain ⟨l, hl, h1⟩ := hp
    refine (popBack_ok hi hl h1 (X := fun _ _ => False)).mono ?_ (fun _ _ hf => hf.elim)
    rintro _ _ ⟨g1, g2⟩
    exact ⟨g1, l, hl, g2⟩
  | write o i v =>
    obtain ⟨l, hl, h1⟩ := hp
    refine (write_ok F E scale hi hl h1 v).mono ?_ ?_
    · rintro _ _ ⟨g1, g2⟩
      exact ⟨g1, l, hl, g2⟩
    · rintro _ _ ⟨he, g1, l', g2, g3, -⟩
      exact .inr ⟨he, g1, l, l', hl, g2, g3⟩
  | assignList o vs =>
    obtain ⟨l, hl⟩ := hp
    exact (assignList_ok F E hi hl).mono (fun _ _ hx => hx) (fun _ _ hx => .inr hx)
  | insert o pos v =>
    obtain ⟨l, hl⟩ := hp
    refine (insert_ok F E scale hi hl v).mono ?_ ?_
    · rintro _ _ ⟨g1, g2, g3⟩
      exact ⟨g1, l, hl, g2, g3⟩
    · rintro _ _ (⟨he, hw, g⟩ | ⟨he, g1, l', g2, g3, -⟩)
      · exact .inl ⟨he, hw, l, hl, g⟩
      · exact .inr ⟨he, g1, l, l', hl, g2, g3⟩
  | append o v =>
    obtain ⟨l, hl⟩ := hp
    refine (append_ok F E scale hi hl v).mono ?_ ?_
    · rintro _ _ ⟨g1, g2⟩
      exact ⟨g1, l, hl, g2⟩
    · rintro _ _ ⟨he, g1, l', g2, g3, -⟩
      exact .inr ⟨he, g1, l, l', hl, g2, g3⟩
  | insertArr o pos p =>
    obtain ⟨hop, l, m, hl, hm, h2⟩ := hp
    refine (insertArr_ok F E scale hi hl hop hm h2).mono ?_ ?_
    · rintro _ _ ⟨g1, g2, g3⟩
      exact ⟨g1, l, m, hl, hm, g2, g3⟩
    · rintro _ _ (⟨he, hw, g⟩ | ⟨he, g1, l', g2, g3, -⟩)
      · exact .inl ⟨he, hw, l, hl, g⟩
      · exact .inr ⟨he, g1, l, l', hl, g2, g3⟩
  | replace o pos v =>
    obtain ⟨l, hl, hne⟩ := hp
    refine (replace_ok F E scale hi hl hne v).mono ?_ ?_
    · rintro _ _ ⟨g1, g2, g3⟩
      exact ⟨g1, l, hl, g2, g3⟩
    · rintro _ _ (⟨he, hw, g⟩ | ⟨he, g1, l', g2, g3, -⟩)
      · exact .inl ⟨he, hw, l, hl, g⟩
      · exact .inr ⟨he, g1, l, l', hl, g2, g3⟩
  | replaceArr o pos p =>
    obtain ⟨hop, ⟨l, hl⟩, m, hm⟩ := hp
    refine (replaceArr_ok F E scale hi hl hop hm).mono ?_ ?_
    · rintro _ _ ⟨g1, g2, g3⟩
      exact ⟨g1, l, m, hl, hm, g2, g3⟩
    · rintro _ _ (⟨he, hw, g⟩ | ⟨he, g1, l', g2, g3, -⟩)
      · exact .inl ⟨he, hw, l, hl, g⟩
      · exact .inr ⟨he, g1, l, l', hl, g2, g3⟩
  | resize o n =>
    obtain ⟨l, hl⟩ := hp
    refine (resize_ok F E scale hi hl).mono ?_ ?_
    · rintro _ _ ⟨g1, t, g2, g3⟩
      exact ⟨g1, l, t, hl, g2, g3⟩
    · rintro _ _ ⟨he, g1, l', g2, g3, -⟩
      exact .inr ⟨he, g1, l, l', hl, g2, g3⟩
  | insertMoved o pos v =>
    obtain ⟨l, hl⟩ := hp
    refine (insertMoved_ok F E scale hi hl v).mono ?_ ?_
    · rintro _ _ ⟨g1, g2, g3⟩
      exact ⟨g1, l, hl, g2, g3⟩
    · rintro _ _ (⟨he, hw, g⟩ | ⟨he, g1, l', g2, g3, -⟩)
      · exact .inl ⟨he, hw, l, hl, g⟩
      · exact .inr ⟨he, g1, l, l', hl, g2, g3⟩
  | shift o =>
    obtain ⟨l, hl, hne⟩ := hp
    refine OK.bind (shift_ok F E hi hl hne) ?_ ?_
    · rintro _ _ ⟨-, g1, g2⟩
      exact ⟨g1, l, hl, g2⟩
    · rintro _ _ ⟨he, g1, l', g2, g3, -⟩
      exact .inr ⟨he, g1, l, l', hl, g2, .inl g3⟩
  | pop o =>
    obtain ⟨l, hl, hne⟩ := hp
    refine OK.bind (pop_ok F E hi hl hne) ?_ ?_
    · rintro _ _ ⟨-, g1, g2⟩
      exact ⟨g1, l, hl, g2⟩
    · rintro _ _ ⟨he, g1, l', g2, g3, -⟩
      exact .inr ⟨he, g1, l, l', hl, g2, .inl g3⟩
  | swap o p =>
    obtain ⟨⟨l, hl⟩, m, hm⟩ := hp
    refine (swap_ok hi hl hm (X := fun _ _ => False)).mono ?_ (fun _ _ hf => hf.elim)
    rintro _ _ ⟨g1, g2⟩
    exact ⟨g1, l, m, hl, hm, g2⟩
  | insertRange o pos vs =>
    obtain ⟨l, hl, hpos⟩ := hp
    refine (insertRange_ok F E scale hi hl hpos vs).mono ?_ ?_
    · rintro _ _ ⟨g1, g2⟩
      exact ⟨g1, l, hl, g2⟩
    · rintro _ _ ⟨he, g1, l', g2, g3, -⟩
      exact .inr ⟨he, g1, l, l', hl, g2, g3⟩
  | insertTemp o pos p =>
    obtain ⟨hop, l, m, hl, hm, hpos, h2⟩ := hp
    refine (insertTemp_ok F E scale hi hl hop hm hpos h2).mono ?_ ?_
    · rintro _ _ ⟨g1, g2⟩
      exact ⟨g1, l, m, hl, hm, g2⟩
    · rintro _ _ ⟨he, g1, l', g2, g3, -⟩
      exact .inr ⟨he, g1, l, l', hl, g2, g3⟩
  | assignTemp o p =>
    obtain ⟨hop, ⟨l, hl⟩, m, hm⟩ := hp
    refine (assignTemp_ok hi hop hl hm (X := fun _ _ => False)).mono ?_ (fun _ _ hf => hf.elim)
    rintro _ _ ⟨g1, g2⟩
    exact ⟨g1, m, hm, g2⟩

theorem reach_inv {F : Faults} {E : Ty V} {scale : Nat → Nat} {w : W V} {k : Nat} (h : Reach F E scale w k) : Inv w k := by
  induction h with
  | start =>
    refine ⟨?_, ?_, ?_⟩
    · intro o ob h; simp [W.empty] at h
    · intro r b h; simp [W.empty] at h
    · simp [W.empty]
  | ret _ hp hr ih =>
    have := run_ok F E scale ih hp
    unfold OK at this; rw [hr] at this
    exact this.1
  | range _ hp hr ih =>
    have := run_ok F E scale ih hp
    unfold OK at this; rw [hr] at this
    rcases this with ⟨-, rfl, -⟩ | ⟨h, -⟩
    · exact ih
    · cases h
  | fault _ hp hr ih =>
    have := run_ok F E scale ih hp
    unfold OK at this; rw [hr] at this
    rcases this with ⟨h, -⟩ | ⟨-, h, -⟩
    · cases h
    · exact h

/-- **C99.**  Whatever throws, and when: from a state that a program reaches, a call it may make has no undefined
behaviour.  If it returns it did what it is for; if it throws `std::out_of_range` nothing changed; if it throws what an
element or the memory threw, only its own array changed (it is as long as before, or empty), and the program may go on
with all arrays.  What is missing: the array need not have the elements it had (`c99_refuted_insert`, `c99_refuted_cow`), a buffer is
lost (`c99_refuted_leak`), and `resize(len, value)` is not among the calls (`c99_refuted_fill`). -/
theorem c99_partial {w : W V} {k : Nat} {c : Call V} (hr : Reach F E scale w k) (hp : Pre (shown w) c) :
    match run F E scale c w with
    | .ret _ w' => Ret (shown w) (shown w') c
    | .exc .range w' => Range (shown w) c ∧ shown w' = shown w
    | .exc .fault w' => Threw (shown w) (shown w') c
    | .ub => False := by
  have := run_ok F E scale (reach_inv hr) hp
  unfold OK at this
  cases h : run F E scale c w with
  | ret a w' => rw [h] at this; exact this.2
  | ub => rw [h] at this; exact this
  | exc e w' =>
    rw [h] at this
    cases e with
    | range =>
      rcases this with ⟨-, rfl, h1⟩ | ⟨h1, -⟩
      · exact ⟨h1, rfl⟩
      · cases h1
    | fault =>
      rcases this with ⟨h1, -⟩ | ⟨-, -, h1⟩
      · cases h1
      · exact h1

/-- **C99, the end.**  When all arrays are gone, as many buffers at most are not released as calls threw; so none if none
did. -/
theorem c99_leaks {w : W V} {k : Nat} (hr : Reach F E scale w k) (hd : ∀ x ∈ shown w, x = none) : w.out ≤ k := by
  have hi := reach_inv hr
  have hdead : ∀ x ∈ w.objs, x = none := by
    intro x hx
    cases x with
    | none => rfl
    | some ob =>
      obtain ⟨o, ho⟩ := List.mem_iff_getElem?.mp hx
      have hv := hd (valueOf w ob) (List.mem_of_getElem? (shown_get ho))
      rcases hi.obs o ob ho with ⟨h1, h2, h3⟩ | ⟨r, xs, n, h1, h2, h3⟩
      · simp [valueOf, h1, h3] at hv
      · simp only [valueOf, h1, h2] at hv
        rw [readCells_eq _ _ _ h3] at hv
        cases hv
  have hcap : cap w = 0 := by
    unfold cap
    rw [List.countP_eq_zero]
    intro b hb hh
    cases b with
    | none => simp [held] at hh
    | some b =>
      obtain ⟨r, hrr⟩ := List.mem_iff_getElem?.mp hb
      have hu := (hi.blk r b hrr).2.2
      obtain ⟨x, hx, hxr⟩ := List.countP_pos_iff.mp hu
      rw [hdead x hx] at hxr
      simp [refOf] at hxr
  have := hi.out
  omega

/-- **C99, `append`.**  If moving elements never throws, and no other array shares the elements, `append` either appends
or changes nothing. -/
theorem c99_append {w : W V} {k : Nat} {o : Nat} {l : List V} {v : V} (hr : Reach F E scale w k) (hl : Is (shown w) o l) (hm : ∀ t, F t .move = false)
    (ha : ∀ p ob ob', p ≠ o → w.objs[o]? = some (some ob) → w.objs[p]? = some (some ob') → ob.ref ≠ none → ob'.ref ≠ ob.ref) :
    match run F E scale (.append o v) w with
    | .ret _ w' => shown w' = (shown w).set o (some (l ++ [v]))
    | .exc _ w' => shown w' = shown w
    | .ub => False := by
  have := append_ok F E scale (reach_inv hr) hl v
  unfold OK at this
  show match append F E scale o v w with
    | .ret _ w' => shown w' = (shown w).set o (some (l ++ [v]))
    | .exc _ w' => shown w' = shown w
    | .ub => False
  cases h : append F E scale o v w with
  | ret a w' => rw [h] at this; exact this.2
  | ub => rw [h] at this; exact this
  | exc e w' =>
    rw [h] at this
    obtain ⟨-, -, l', g1, -, g2⟩ := this
    rw [g2 hm ha, set_same hl] at g1
    exact g1

/-- **C99, what is kept.**  If moving elements never throws, and no other array shares the elements of the one that the call writes to, a
call that throws keeps all elements before those it writes to, and as many as there were: in particular `append` and `resize`
change nothing, and `insert` and `replace` at `pos` keep the first `pos` elements. -/
theorem c99_kept {w w' : W V} {k : Nat} {c : Call V} (hr : Reach F E scale w k) (hp : Pre (shown w) c) (hm : ∀ t, F t .move = false)
    (ha : ∀ o, target c = some o → ∀ p ob ob', p ≠ o → w.objs[o]? = some (some ob) → w.objs[p]? = some (some ob') → ob.ref ≠ none → ob'.ref ≠ ob.ref)
    (ht : run F E scale c w = .exc .fault w') : Kept (shown w) (shown w') c := by
  have hi := reach_inv hr
  cases c with
  | new => have := run_ok F E scale hi hp; unfold OK at this; rw [ht] at this; simpa [Threw] using this
  | copy p => have := run_ok F E scale hi hp; unfold OK at this; rw [ht] at this; simpa [Threw] using this
  | assign o p => have := run_ok F E scale hi hp; unfold OK at this; rw [ht] at this; simpa [Threw] using this
  | destroy o => have := run_ok F E scale hi hp; unfold OK at this; rw [ht] at this; simpa [Threw] using this
  | slice o a b => have := run_ok F E scale hi hp; unfold OK at this; rw [ht] at this; simpa [Threw] using this
  | clear o => have := run_ok F E scale hi hp; unfold OK at this; rw [ht] at this; simpa [Threw] using this
  | popBack o => have := run_ok F E scale hi hp; unfold OK at this; rw [ht] at this; simpa [Threw] using this
  | list vs =>
    have := run_ok F E scale hi hp; unfold OK at this; rw [ht] at this
    rcases this with ⟨h, -⟩ | ⟨-, -, h⟩
    · cases h
    · exact h
  | assignList o vs =>
    have := run_ok F E scale hi hp; unfold OK at this; rw [ht] at this
    rcases this with ⟨h, -⟩ | ⟨-, -, h⟩
    · cases h
    · exact h
  | write o i v =>
    obtain ⟨l, hl, h1⟩ := hp
    have := write_ok F E scale hi hl h1 v
    unfold OK at this
    rw [show write F E scale o i v w = .exc .fault w' from ht] at this
    obtain ⟨-, -, l', g1, -, g2⟩ := this
    exact ⟨l, l', hl, g1, g2 hm (ha o rfl)⟩
  | insert o i v =>
    obtain ⟨l, hl⟩ := hp
    have := insert_ok F E scale hi hl (pos := i) v
    unfold OK at this
    rw [show insert F E scale o i v w = .exc .fault w' from ht] at this
    rcases this with ⟨h, -⟩ | ⟨-, -, l', g1, -, g2⟩
    · cases h
    · exact ⟨l, l', hl, g1, g2 hm (ha o rfl)⟩
  | append o v =>
    obtain ⟨l, hl⟩ := hp
    have := append_ok F E scale hi hl v
    unfold OK at this
    rw [show append F E scale o v w = .exc .fault w' from ht] at this
    obtain ⟨-, -, l', g1, -, g2⟩ := this
    rw [g2 hm (ha o rfl), set_same hl] at g1
    exact g1
  | insertArr o i p =>
    obtain ⟨hop, l, m, hl, hq, h2⟩ := hp
    have := insertArr_ok F E scale hi hl hop hq h2
    unfold OK at this
    rw [show insertArr F E scale o i p w = .exc .fault w' from ht] at this
    rcases this with ⟨h, -⟩ | ⟨-, -, l', g1, -, g2⟩
    · cases h
    · exact ⟨l, l', hl, g1, g2 hm (ha o rfl)⟩
  | replace o i v =>
    obtain ⟨l, hl, hne⟩ := hp
    have := replace_ok F E scale hi hl hne v
    unfold OK at this
    rw [show replace F E scale o i v w = .exc .fault w' from ht] at this
    rcases this with ⟨h, -⟩ | ⟨-, -, l', g1, -, g2⟩
    · cases h
    · exact ⟨l, l', hl, g1, g2 hm (ha o rfl)⟩
  | replaceArr o i p =>
    obtain ⟨hop, ⟨l, hl⟩, m, hq⟩ := hp
    have := replaceArr_ok F E scale hi hl hop hq (pos := i)
    unfold OK at this
    rw [show replaceArr F E scale o i p w = .exc .fault w' from ht] at this
    rcases this with ⟨h, -⟩ | ⟨-, -, l', g1, -, g2⟩
    · cases h
    · exact ⟨l, l', hl, g1, g2 hm (ha o rfl)⟩
  | resize o n =>
    obtain ⟨l, hl⟩ := hp
    have := resize_ok F E scale hi hl (n := n)
    unfold OK at this
    rw [show resize F E scale o n w = .exc .fault w' from ht] at this
    obtain ⟨-, -, l', g1, -, g2⟩ := this
    rw [g2 hm (ha o rfl), set_same hl] at g1
    exact g1
  | insertMoved o i v =>
    obtain ⟨l, hl⟩ := hp
    have := insertMoved_ok F E scale hi hl (pos := i) v
    unfold OK at this
    rw [show insertMoved F E scale o i v w = .exc .fault w' from ht] at this
    rcases this with ⟨h, -⟩ | ⟨-, -, l', g1, -, g2⟩
    · cases h
    · exact ⟨l, l', hl, g1, g2 hm (ha o rfl)⟩
  | insertRange o pos vs =>
    obtain ⟨l, hl, hpos⟩ := hp
    have := insertRange_ok F E scale hi hl hpos vs
    unfold OK at this
    rw [show insertRange F E scale o pos vs w = .exc .fault w' from ht] at this
    obtain ⟨-, -, l', g1, -, g2⟩ := this
    exact ⟨l, l', hl, g1, g2 hm (ha o rfl)⟩
  | insertTemp o pos p =>
    obtain ⟨hop, l, m, hl, hpm, hpos, h2⟩ := hp
    have := insertTemp_ok F E scale hi hl hop hpm hpos h2
    unfold OK at this
    rw [show insertTemp F E scale o pos p w = .exc .fault w' from ht] at this
    obtain ⟨-, -, l', g1, -, g2⟩ := this
    exact ⟨l, l', hl, g1, g2 hm (ha o rfl)⟩
  | swap o p => have := run_ok F E scale hi hp; unfold OK at this; rw [ht] at this; simpa [Threw] using this
  | assignTemp o p => have := run_ok F E scale hi hp; unfold OK at this; rw [ht] at this; simpa [Threw] using this
  | shift o =>
    obtain ⟨l, hl, hne⟩ := hp
    have := OK.bind (f := fun _ => pure ()) (shift_ok F E hi hl hne) (Q := fun _ _ => True) (fun _ _ _ => trivial) (fun _ _ h => h)
    unfold OK at this
    rw [show (shift F E o >>= fun _ => pure ()) w = .exc .fault w' from ht] at this
    obtain ⟨-, -, l', -, -, g⟩ := this
    exact absurd (ha o rfl) (g hm).2
  | pop o =>
    obtain ⟨l, hl, hne⟩ := hp
    have := OK.bind (f := fun _ => pure ()) (pop_ok F E hi hl hne) (Q := fun _ _ => True) (fun _ _ _ => trivial) (fun _ _ h => h)
    unfold OK at this
    rw [show (pop F E o >>= fun _ => pure ()) w = .exc .fault w' from ht] at this
    obtain ⟨-, -, l', -, -, g⟩ := this
    exact absurd (ha o rfl) (g hm).2

/-- **C99, `shift` and `pop`.**  `shift` returns the first element and leaves the others; if it throws, the array has its
elements, unless moving one threw.  The same with `pop` and the last. -/
theorem c99_shift {w : W V} {k : Nat} {o : Nat} {v : V} {l : List V} (hr : Reach F E scale w k) (hl : Is (shown w) o (v :: l)) :
    match shift F E o w with
    | .ret x w' => x = v ∧ shown w' = (shown w).set o (some l)
    | .exc _ w' => (∀ t, F t .move = false) → shown w' = shown w
    | .ub => False := by
  have := shift_ok F E (reach_inv hr) hl (by simp)
  unfold OK at this
  cases h : shift F E o w with
  | ret x w' => rw [h] at this; exact ⟨by simpa using this.1.symm, by simpa using this.2.2⟩
  | ub => rw [h] at this; exact this
  | exc e w' =>
    rw [h] at this
    obtain ⟨-, -, l', g2, -, g⟩ := this
    intro hm
    rw [g2, (g hm).1, set_same hl]

theorem c99_pop {w : W V} {k : Nat} {o : Nat} {v : V} {l : List V} (hr : Reach F E scale w k) (hl : Is (shown w) o (l ++ [v])) :
    match pop F E o w with
    | .ret x w' => x = v ∧ shown w' = (shown w).set o (some l)
    | .exc _ w' => (∀ t, F t .move = false) → shown w' = shown w
    | .ub => False := by
  have := pop_ok F E (reach_inv hr) hl (by simp)
  unfold OK at this
  cases h : pop F E o w with
  | ret x w' => rw [h] at this; exact ⟨by simpa using this.1.symm, by simpa using this.2.2⟩
  | ub => rw [h] at this; exact this
  | exc e w' =>
    rw [h] at this
    obtain ⟨-, -, l', g2, -, g⟩ := this
    intro hm
    rw [g2, (g hm).1, set_same hl]

/-! ## What does not hold -/

/-- A class of numbers: what was moved from is 0. -/
def num : Ty Nat := ⟨0, fun _ => 0, fun old _ => old, id⟩

/-- The only action that throws is the one at time `t`, if it is `a`. -/
def only (t : Nat) (a : Act) : Faults := fun t' a' => t' == t && decide (a' = a)

/-- `Pre`, as a check. -/
def may (env : Arrays V) : Call V → Bool
  | .new => true
  | .list _ => true
  | .copy p => match env[p]? with
    | some (some _) => true
    | _ => false
  | .assign o p | .swap o p => match env[o]?, env[p]? with
    | some (some _), some (some _) => true
    | _, _ => false
  | .slice o start len => match env[o]? with
    | some (some l) => decide (start < l.length ∧ start + len ≤ l.length)
    | _ => false
  | .popBack o | .shift o | .pop o => match env[o]? with
    | some (some l) => !l.isEmpty
    | _ => false
  | .write o i _ => match env[o]? with
    | some (some l) => decide (i < l.length)
    | _ => false
  | .destroy o | .clear o | .assignList o _ | .insert o _ _ | .append o _ | .resize o _ | .insertMoved o _ _ => match env[o]? with
    | some (some _) => true
    | _ => false
  | .insertArr o pos p => match env[o]?, env[p]? with
    | some (some l), some (some m) => decide (o ≠ p ∧ (pos ≠ 0 ∨ l.length = 0 ∨ m.length ≤ l.length))
    | _, _ => false
  | .replace o pos _ => match env[o]? with
    | some (some l) => decide (pos ≠ l.length)
    | _ => false
  | .replaceArr o _ p | .assignTemp o p => match env[o]?, env[p]? with
    | some (some _), some (some _) => decide (o ≠ p)
    | _, _ => false
  | .insertRange o pos _ => match env[o]? with
    | some (some l) => decide (pos ≤ l.length)
    | _ => false
  | .insertTemp o pos p => match env[o]?, env[p]? with
    | some (some l), some (some m) => decide (o ≠ p ∧ pos ≤ l.length ∧ (pos ≠ 0 ∨ l.length = 0 ∨ m.length ≤ l.length))
    | _, _ => false

theorem may_pre {env : Arrays V} {c : Call V} (h : may env c = true) : Pre env c := by
  cases c <;> simp only [may] at h <;> simp only [Pre] <;> (try trivial)
  case insertRange o pos vs =>
    split at h
    · exact ⟨_, by assumption, of_decide_eq_true h⟩
    · cases h
  case insertTemp o pos p =>
    split at h
    · obtain ⟨h1, h2, h3⟩ := of_decide_eq_true h
      exact ⟨h1, _, _, by assumption, by assumption, h2, by simpa [List.length_eq_zero_iff] using h3⟩
    · cases h
  case swap o p => split at h <;> first | exact ⟨⟨_, by assumption⟩, _, by assumption⟩ | cases h
  case assignTemp o p =>
    split at h
    · exact ⟨of_decide_eq_true h, ⟨_, by assumption⟩, _, by assumption⟩
    · cases h
  case shift o =>
    split at h
    · exact ⟨_, by assumption, by intro he; subst he; simp at h⟩
    · cases h
  case pop o =>
    split at h
    · exact ⟨_, by assumption, by intro he; subst he; simp at h⟩
    · cases h
  case assign o p => split at h <;> first | exact ⟨⟨_, by assumption⟩, _, by assumption⟩ | cases h
  case slice o start len =>
    split at h
    · exact ⟨_, by assumption, (of_decide_eq_true h).1, (of_decide_eq_true h).2⟩
    · cases h
  case popBack o =>
    split at h
    · exact ⟨_, by assumption, by intro he; subst he; simp at h⟩
    · cases h
  case write o i v =>
    split at h
    · exact ⟨_, by assumption, of_decide_eq_true h⟩
    · cases h
  case insertArr o pos p =>
    split at h
    · obtain ⟨h1, h3⟩ := of_decide_eq_true h
      exact ⟨h1, _, _, by assumption, by assumption, by simpa [List.length_eq_zero_iff] using h3⟩
    · cases h
  case replace o pos v =>
    split at h
    · exact ⟨_, by assumption, of_decide_eq_true h⟩
    · cases h
  case replaceArr o pos p =>
    split at h
    · exact ⟨of_decide_eq_true h, ⟨_, by assumption⟩, _, by assumption⟩
    · cases h
  all_goals
    split at h
    · exact ⟨_, by assumption⟩
    · cases h

/-- A program of calls it may make, and how many of them threw. -/
def go (F : Faults) (E : Ty V) (scale : Nat → Nat) : List (Call V) → W V → Nat → Option (W V × Nat)
  | [], w, k => some (w, k)
  | c :: cs, w, k => match may (shown w) c with
    | false => none
    | true => match run F E scale c w with
      | .ret _ w => go F E scale cs w k
      | .exc .range w => go F E scale cs w k
      | .exc .fault w => go F E scale cs w (k + 1)
      | .ub => none

theorem go_reach : ∀ (cs : List (Call V)) {w w' : W V} {k k' : Nat}, Reach F E scale w k → go F E scale cs w k = some (w', k') → Reach F E scale w' k'
  | [], w, w', k, k', hr, h => by
    simp only [go, Option.some.injEq, Prod.mk.injEq] at h
    rw [← h.1, ← h.2]; exact hr
  | c :: cs, w, w', k, k', hr, h => by
    rw [go] at h
    cases hm : may (shown w) c with
    | false => rw [hm] at h; cases h
    | true =>
      rw [hm] at h
      simp only at h
      cases hrun : run F E scale c w with
      | ret a w1 => rw [hrun] at h; exact go_reach cs (.ret hr (may_pre hm) hrun) h
      | ub => rw [hrun] at h; cases h
      | exc e w1 =>
        rw [hrun] at h
        cases e with
        | range => exact go_reach cs (.range hr (may_pre hm) hrun) h
        | fault => exact go_reach cs (.fault hr (may_pre hm) hrun) h

/-- A state that a program reaches and that passes a test. -/
theorem reached {F : Faults} {cs : List (Call Nat)} (P : W Nat → Nat → Bool)
    (h : (match go F num id cs W.empty 0 with | some (w, k) => P w k | none => false) = true) : ∃ w k, Reach F num id w k ∧ P w k = true := by
  cases hg : go F num id cs W.empty 0 with
  | none => rw [hg] at h; cases h
  | some x =>
    obtain ⟨w, k⟩ := x
    rw [hg] at h
    exact ⟨w, k, go_reach F num id cs .start hg, h⟩

/-- From `w`, which shows `a`, the call throws what something threw, and shows `b`. -/
def breaks (F : Faults) (a : Arrays Nat) (c : Call Nat) (b : Arrays Nat) (w : W Nat) : Bool :=
  shown w == a && (match run F num id c w with
    | .exc .fault w' => shown w' == b
    | _ => false)

theorem breaks_spec {F : Faults} {a b : Arrays Nat} {c : Call Nat} {w : W Nat} (h : breaks F a c b w = true) :
    shown w = a ∧ ∃ w', run F num id c w = .exc .fault w' ∧ shown w' = b := by
  unfold breaks at h
  rw [Bool.and_eq_true] at h
  refine ⟨by simpa using h.1, ?_⟩
  have h2 := h.2
  split at h2
  · exact ⟨_, by assumption, by simpa using h2⟩
  · cases h2

/-- **Refuted: the array keeps its elements.**  An element that cannot be copied into its place, in an array of 1, 2, 3 whose elements were copied
to the next places already: 3 is lost, and 2 is there twice. -/
theorem c99_refuted_insert : NoMove (only 17 .copy) ∧ ∃ w k, Reach (only 17 .copy) num id w k ∧ shown w = [some [1, 2, 3]] ∧
    ∃ w', run (only 17 .copy) num id (.insert 0 1 9) w = .exc .fault w' ∧ shown w' = [some [1, 2, 2]] := by
  refine ⟨fun t => by simp [only], ?_⟩
  obtain ⟨w, k, hr, h⟩ := reached (F := only 17 .copy) (cs := [.list [1, 2, 3]])
    (fun w _ => breaks (only 17 .copy) [some [1, 2, 3]] (.insert 0 1 9) [some [1, 2, 2]] w) (by decide +kernel)
  exact ⟨w, k, hr, breaks_spec h⟩

/-- **Refuted: the array keeps its elements.**  `b[0] = 9` for a copy `b` of an array of 1, 2, 3: if the second element cannot be copied into the
new buffer, `b` is 1, 0, 0; if the new buffer cannot be filled, it is empty. -/
theorem c99_refuted_cow :
    (∃ w k, Reach (only 16 .copy) num id w k ∧ shown w = [some [1, 2, 3], some [1, 2, 3]] ∧
      ∃ w', run (only 16 .copy) num id (.write 1 0 9) w = .exc .fault w' ∧ shown w' = [some [1, 2, 3], some [1, 0, 0]]) ∧
    (∃ w k, Reach (only 12 .copy) num id w k ∧ shown w = [some [1, 2, 3], some [1, 2, 3]] ∧
      ∃ w', run (only 12 .copy) num id (.write 1 0 9) w = .exc .fault w' ∧ shown w' = [some [1, 2, 3], some []]) := by
  constructor
  · obtain ⟨w, k, hr, h⟩ := reached (F := only 16 .copy) (cs := [.list [1, 2, 3], .copy 0])
      (fun w _ => breaks (only 16 .copy) [some [1, 2, 3], some [1, 2, 3]] (.write 1 0 9) [some [1, 2, 3], some [1, 0, 0]] w) (by decide +kernel)
    exact ⟨w, k, hr, breaks_spec h⟩
  · obtain ⟨w, k, hr, h⟩ := reached (F := only 12 .copy) (cs := [.list [1, 2, 3], .copy 0])
      (fun w _ => breaks (only 12 .copy) [some [1, 2, 3], some [1, 2, 3]] (.write 1 0 9) [some [1, 2, 3], some []] w) (by decide +kernel)
    exact ⟨w, k, hr, breaks_spec h⟩

/-- **Refuted: nothing is lost.**  `append` needs a greater buffer, `T()` throws: the new buffer is never released. -/
theorem c99_refuted_leak : ∃ w k, Reach (only 10 .make) num id w k ∧ shown w = [none] ∧ k = 1 ∧ w.out = 1 := by
  obtain ⟨w, k, hr, h⟩ := reached (F := only 10 .make) (cs := [.list [1, 2, 3], .append 0 9, .destroy 0])
    (fun w k => shown w == [none] && (k == 1 && w.out == 1)) (by decide +kernel)
  simp only [Bool.and_eq_true, beq_iff_eq] at h
  exact ⟨w, k, hr, h⟩

def undefined {α : Type} : Res Nat α → Bool
  | .ub => true
  | _ => false

/-- **Refuted: `resize(len, value)`.**  If the second new element cannot be copied, the first is destroyed, and nothing lives in its
cell; when the array goes, its destructor runs there all the same.  With the constructor of `n` copies that is at once. -/
theorem c99_refuted_fill :
    (∃ w k, Reach (only 14 .copy) num id w k ∧ shown w = [some [1]] ∧ ∃ w', resizeFill (only 14 .copy) num id 0 4 7 w = .exc .fault w' ∧
      shown w' = [some [1]] ∧ undefined (destroy 0 w') = true) ∧
    undefined (fillCtor (only 8 .copy) num id 2 7 W.empty) = true := by
  constructor
  · obtain ⟨w, k, hr, h⟩ := reached (F := only 14 .copy) (cs := [.list [1]])
      (fun w _ => shown w == [some [1]] && (match resizeFill (only 14 .copy) num id 0 4 7 w with
        | .exc .fault w' => shown w' == [some [1]] && undefined (destroy 0 w')
        | _ => false)) (by decide +kernel)
    rw [Bool.and_eq_true] at h
    refine ⟨w, k, hr, by simpa using h.1, ?_⟩
    have h2 := h.2
    split at h2
    · rw [Bool.and_eq_true] at h2
      exact ⟨_, by assumption, by simpa using h2.1, h2.2⟩
    · cases h2
  · decide +kernel

/-! ## Cases that meet the hypotheses -/

/-- Arrays that share, one cut, one growing; one call threw for the memory, one for an element, one for the index. -/
example : ∃ w k, Reach (fun t a => only 34 .copy t a || only 35 .alloc t a) num id w k ∧
    (shown w == [some [1, 2, 3], some [2, 3], some [1, 2, 3, 4, 0], none] && k == 2) = true :=
  reached (cs := [.list [1, 2, 3], .copy 0, .slice 1 1 2, .copy 0, .append 2 4, .insert 2 9 9, .resize 2 5, .write 1 0 5, .list [6]]) _ (by decide +kernel)

/-- An `append` that throws, once for the new buffer's elements and once for its own, of an array that no other shares. -/
example : (∃ w k, Reach (only 11 .copy) num id w k ∧ breaks (only 11 .copy) [some [1, 2, 3]] (.append 0 9) [some [1, 2, 3]] w = true) ∧
    ∃ w k, Reach (only 15 .copy) num id w k ∧ breaks (only 15 .copy) [some [1, 2, 3]] (.append 0 9) [some [1, 2, 3]] w = true :=
  ⟨reached (cs := [.list [1, 2, 3]]) (fun w _ => breaks (only 11 .copy) [some [1, 2, 3]] (.append 0 9) [some [1, 2, 3]] w) (by decide +kernel),
    reached (cs := [.list [1, 2, 3]]) (fun w _ => breaks (only 15 .copy) [some [1, 2, 3]] (.append 0 9) [some [1, 2, 3]] w) (by decide +kernel)⟩

/-- Replacing elements 1, 2 of an array of three by those of another: the second copy throws, the first element is kept. -/
example : ∃ w k, Reach (only 17 .copy) num id w k ∧ breaks (only 17 .copy) [some [1, 2, 3], some [8, 9]] (.replaceArr 0 1 1) [some [1, 8, 3], some [8, 9]] w = true :=
  reached (cs := [.list [1, 2, 3], .list [8, 9]]) (fun w _ => breaks (only 17 .copy) [some [1, 2, 3], some [8, 9]] (.replaceArr 0 1 1) [some [1, 8, 3], some [8, 9]] w)
    (by decide +kernel)

/-- Replacing, in the middle and beyond the end; inserting nothing in the middle. -/
example : ∃ w k, Reach (fun _ _ => false) num id w k ∧
    (shown w == [some [1, 7, 8, 9], some [8, 9], some [1, 7, 8, 9], some []] && k == 0) = true :=
  reached (cs := [.list [1, 2, 3], .list [8, 9], .replace 0 1 7, .replaceArr 0 2 1, .new, .replaceArr 2 0 0, .new, .insertArr 0 2 3]) _ (by decide +kernel)

/-- Taking elements out of arrays that share and arrays that do not, one copy of an element throwing; swapping, and assigning an array that goes. -/
example : ∃ w k, Reach (only 11 .copy) num id w k ∧ (shown w == [none, some [2], some []] && k == 1) = true :=
  reached (cs := [.list [1, 2, 3], .copy 0, .copy 0, .shift 1, .shift 1, .shift 2, .insertMoved 2 1 9, .pop 2, .shift 0, .swap 0 1, .assignTemp 2 0, .shift 2,
    .pop 1]) _ (by decide +kernel)

/-- Inserting 7, 8, 9 from iterators: 9 cannot be made room for, 7 and 8 are there; inserting an array that goes: the copy throws, it is gone. -/
example : (∃ w k, Reach (only 23 .copy) num id w k ∧ breaks (only 23 .copy) [some [1, 2, 3]] (.insertRange 0 1 [7, 8, 9]) [some [1, 7, 8, 2, 3]] w = true) ∧
    ∃ w k, Reach (only 43 .copy) num id w k ∧
      breaks (only 43 .copy) [some [1, 7, 8, 9, 2, 3], some [4, 5]] (.insertTemp 0 2 1) [some [1, 7, 8, 9, 2, 3], none] w = true :=
  ⟨reached (cs := [.list [1, 2, 3]]) (fun w _ => breaks (only 23 .copy) [some [1, 2, 3]] (.insertRange 0 1 [7, 8, 9]) [some [1, 7, 8, 2, 3]] w) (by decide +kernel),
    reached (cs := [.list [1, 2, 3], .insertRange 0 1 [7, 8, 9], .list [4, 5]])
      (fun w _ => breaks (only 43 .copy) [some [1, 7, 8, 9, 2, 3], some [4, 5]] (.insertTemp 0 2 1) [some [1, 7, 8, 9, 2, 3], none] w) (by decide +kernel)⟩

end Bdlib.Elems
